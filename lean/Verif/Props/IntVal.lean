import Verif.Spec.Double
import Verif.Spec.Float
import Verif.Model.Compute
import Mathlib.Tactic.Linarith
import Mathlib.Tactic.Ring
import Mathlib.Algebra.Order.Ring.Abs
/-!
# Decisions about whole numbers come out the same in exact and in double-precision arithmetic, for C80
-/

namespace Idc

open FloatOps

/-- Arithmetic that is exact on whole numbers up to 2^53.  (The result may be either zero.) -/
class IntVal (F : Type) [FloatOps F] where
  isInt : F → ℤ → Prop
  ofInt : ∀ n : ℤ, |n| ≤ 2 ^ 53 → isInt (FloatOps.ofInt n : F) n
  add : ∀ {a b : F} {m n : ℤ}, isInt a m → isInt b n → |m + n| ≤ 2 ^ 53 → isInt (FloatOps.add a b) (m + n)
  sub : ∀ {a b : F} {m n : ℤ}, isInt a m → isInt b n → |m - n| ≤ 2 ^ 53 → isInt (FloatOps.sub a b) (m - n)
  mul : ∀ {a b : F} {m n : ℤ}, isInt a m → isInt b n → |m * n| ≤ 2 ^ 53 → isInt (FloatOps.mul a b) (m * n)
  lt : ∀ {a b : F} {m n : ℤ}, isInt a m → isInt b n → FloatOps.lt a b = decide (m < n)
  eq : ∀ {a b : F} {m n : ℤ}, isInt a m → isInt b n → FloatOps.eq a b = decide (m = n)
  eps_lt : ∀ {a : F} {m : ℤ}, isInt a m → FloatOps.lt (lit 1 7) a = decide (0 < m)
  abs_lt : ∀ {a : F} {m : ℤ}, isInt a m → FloatOps.lt (abs a) (lit 1 7) = decide (m = 0)
  lt_self : ∀ a : F, FloatOps.lt a a = false

instance : IntVal ℝ where
  isInt a n := a = n
  ofInt n _ := rfl
  add ha hb _ := by subst ha hb; simp [FloatOps.add]
  sub ha hb _ := by subst ha hb; simp [FloatOps.sub]
  mul ha hb _ := by subst ha hb; simp [FloatOps.mul]
  lt ha hb := by subst ha hb; simp [FloatOps.lt]
  eq ha hb := by subst ha hb; simp [FloatOps.eq]
  eps_lt {a m} ha := by
    subst ha
    simp only [FloatOps.lt, FloatOps.lit, decide_eq_decide]
    constructor
    · intro h
      have : (0 : ℝ) < m := lt_trans (by norm_num) h
      exact_mod_cast this
    · intro h
      have : (1 : ℝ) ≤ m := by exact_mod_cast h
      refine lt_of_lt_of_le ?_ this
      norm_num
  abs_lt {a m} ha := by
    subst ha
    simp only [FloatOps.lt, FloatOps.lit, FloatOps.abs, decide_eq_decide]
    constructor
    · intro h
      by_contra h0
      have h1 : 1 ≤ |m| := Int.one_le_abs h0
      have h2 : (1 : ℝ) ≤ |(m : ℝ)| := by exact_mod_cast h1
      have : |(m : ℝ)| < 1 := h.trans (by norm_num)
      linarith
    · rintro rfl
      norm_num
  lt_self a := by simp [FloatOps.lt]

section

variable {F : Type} [FloatOps F] [Double F]

open Double

theorem Double.rd_zero : rd F 0 = 0 := by
  have := rd_int (F := F) 0 (by norm_num)
  exact_mod_cast this

theorem Double.rd_one : rd F 1 = 1 := by
  have := rd_int (F := F) 1 (by norm_num)
  exact_mod_cast this

/-- The rounded value has a relative error of at most 2^-53. -/
theorem Double.rd_between {x : ℚ} (h0 : 1 / 2 ^ 200 ≤ x) (h1 : x ≤ 2 ^ 200) : x * (1 - 1 / 2 ^ 53) ≤ rd F x ∧ rd F x ≤ x * (1 + 1 / 2 ^ 53) := by
  have hx : 0 < x := lt_of_lt_of_le (by positivity) h0
  have := rd_close (F := F) x (by rwa [abs_of_pos hx]) (by rwa [abs_of_pos hx])
  rw [abs_of_pos hx, abs_le] at this
  constructor <;> linarith [this.1, this.2]

theorem Double.eps_bounds : fin (lit 1 7 : F) ∧ 0 < val (lit 1 7 : F) ∧ val (lit 1 7 : F) < 1 := by
  obtain ⟨h1, h2⟩ := lit_val (F := F) 1 7 (by norm_num)
  have := rd_between (F := F) (x := ((1 : ℤ) : ℚ) / 10 ^ 7) (by norm_num) (by norm_num)
  rw [← h2] at this
  norm_num at this
  exact ⟨h1, by linarith [this.1], by linarith [this.2]⟩

theorem Double.small {n : ℤ} (h : |n| ≤ 2 ^ 53) : |(n : ℚ)| ≤ 2 ^ 200 := by
  have : (|n| : ℤ) ≤ (2 ^ 200 : ℤ) := h.trans (by norm_num)
  exact_mod_cast this

instance : IntVal F where
  isInt a n := fin a ∧ val a = n
  ofInt n h := by
    obtain ⟨h1, h2⟩ := ofInt_val (F := F) n (small h)
    exact ⟨h1, by rw [h2, rd_int n h]⟩
  add {a b m n} ha hb h := by
    have e : val a + val b = ((m + n : ℤ) : ℚ) := by rw [ha.2, hb.2]; push_cast; rfl
    obtain ⟨h1, h2⟩ := add_val a b ha.1 hb.1 (by rw [e]; exact small h)
    exact ⟨h1, by rw [h2, e, rd_int _ h]⟩
  sub {a b m n} ha hb h := by
    have e : val a - val b = ((m - n : ℤ) : ℚ) := by rw [ha.2, hb.2]; push_cast; rfl
    obtain ⟨h1, h2⟩ := sub_val a b ha.1 hb.1 (by rw [e]; exact small h)
    exact ⟨h1, by rw [h2, e, rd_int _ h]⟩
  mul {a b m n} ha hb h := by
    have e : val a * val b = ((m * n : ℤ) : ℚ) := by rw [ha.2, hb.2]; push_cast; rfl
    obtain ⟨h1, h2⟩ := mul_val a b ha.1 hb.1 (by rw [e]; exact small h)
    exact ⟨h1, by rw [h2, e, rd_int _ h]⟩
  lt ha hb := by
    rw [lt_val _ _ ha.1 hb.1, ha.2, hb.2]
    simp
  eq ha hb := by
    rw [eq_val _ _ ha.1 hb.1, ha.2, hb.2]
    simp
  eps_lt {a m} ha := by
    obtain ⟨h1, h2, h3⟩ := eps_bounds (F := F)
    rw [lt_val _ _ h1 ha.1, ha.2, decide_eq_decide]
    constructor
    · intro h
      have : (0 : ℚ) < m := lt_trans h2 h
      exact_mod_cast this
    · intro h
      have : (1 : ℚ) ≤ m := by exact_mod_cast h
      linarith
  abs_lt {a m} ha := by
    obtain ⟨h1, h2, h3⟩ := eps_bounds (F := F)
    obtain ⟨k1, k2⟩ := abs_val a ha.1
    rw [lt_val _ _ k1 h1, k2, ha.2, decide_eq_decide]
    constructor
    · intro h
      by_contra h0
      have h4 : 1 ≤ |m| := Int.one_le_abs h0
      have h5 : (1 : ℚ) ≤ |(m : ℚ)| := by exact_mod_cast h4
      linarith
    · rintro rfl
      simpa using h2
  lt_self := Double.lt_self

end

/-! ### Points with whole coordinates -/

section

variable {F : Type} [FloatOps F] [IntVal F] {T : Type}

open IntVal

theorem cmp_int {a b : F} {m n : ℤ} (ha : isInt a m) (hb : isInt b n) : FloatOps.cmp a b = some (compare m n) := by
  unfold FloatOps.cmp
  rw [lt ha hb, lt hb ha, eq ha hb]
  rcases lt_trichotomy m n with h | h | h
  · simp [h, compare_lt_iff_lt.2 h]
  · subst h; simp
  · simp [h, not_lt.2 h.le, h.ne', compare_gt_iff_gt.2 h]

/-- A whole number of magnitude at most `b`. -/
def IntB (x : F) (n b : ℤ) : Prop := isInt x n ∧ |n| ≤ b

theorem intB_ofInt {n b : ℤ} (h : |n| ≤ b) (hb : b ≤ 2 ^ 53) : IntB (FloatOps.ofInt n : F) n b := ⟨ofInt n (h.trans hb), h⟩

theorem IntB.add {x y : F} {m n a b : ℤ} (hx : IntB x m a) (hy : IntB y n b) (h : a + b ≤ 2 ^ 53) : IntB (FloatOps.add x y) (m + n) (a + b) := by
  have : |m + n| ≤ a + b := (abs_add_le m n).trans (add_le_add hx.2 hy.2)
  exact ⟨IntVal.add hx.1 hy.1 (this.trans h), this⟩

theorem IntB.sub {x y : F} {m n a b : ℤ} (hx : IntB x m a) (hy : IntB y n b) (h : a + b ≤ 2 ^ 53) : IntB (FloatOps.sub x y) (m - n) (a + b) := by
  have : |m - n| ≤ a + b := (abs_sub m n).trans (add_le_add hx.2 hy.2)
  exact ⟨IntVal.sub hx.1 hy.1 (this.trans h), this⟩

theorem IntB.mul {x y : F} {m n a b : ℤ} (hx : IntB x m a) (hy : IntB y n b) (h : a * b ≤ 2 ^ 53) : IntB (FloatOps.mul x y) (m * n) (a * b) := by
  have : |m * n| ≤ a * b := by
    rw [abs_mul]
    exact mul_le_mul hx.2 hy.2 (abs_nonneg _) ((abs_nonneg _).trans hx.2)
  exact ⟨IntVal.mul hx.1 hy.1 (this.trans h), this⟩

/-- A point with whole coordinates of magnitude at most `b`. -/
def PtB (p : Pt F) (a : ℤ × ℤ) (b : ℤ) : Prop := IntB p.x a.1 b ∧ IntB p.y a.2 b

/-- Whole coordinates between -32768 and 32768. -/
def Small (a : ℤ × ℤ) : Prop := |a.1| ≤ 2 ^ 15 ∧ |a.2| ≤ 2 ^ 15

theorem Small.pt {a : ℤ × ℤ} (h : Small a) : PtB (ofIntPt a : Pt F) a (2 ^ 15) :=
  ⟨intB_ofInt h.1 (by norm_num), intB_ofInt h.2 (by norm_num)⟩

theorem PtB.sub {p q : Pt F} {a b : ℤ × ℤ} {m n : ℤ} (hp : PtB p a m) (hq : PtB q b n) (h : m + n ≤ 2 ^ 53) : PtB (p.sub q) (a.1 - b.1, a.2 - b.2) (m + n) :=
  ⟨hp.1.sub hq.1 h, hp.2.sub hq.2 h⟩

theorem PtB.cross {p q : Pt F} {a b : ℤ × ℤ} {m n : ℤ} (hp : PtB p a m) (hq : PtB q b n) (h : m * n + m * n ≤ 2 ^ 53) (h0 : m * n ≤ 2 ^ 53) :
    IntB (p.cross q) (a.1 * b.2 - a.2 * b.1) (m * n + m * n) :=
  (hp.1.mul hq.2 h0).sub (hp.2.mul hq.1 h0) h

theorem PtB.dot {p q : Pt F} {a b : ℤ × ℤ} {m n : ℤ} (hp : PtB p a m) (hq : PtB q b n) (h : m * n + m * n ≤ 2 ^ 53) (h0 : m * n ≤ 2 ^ 53) :
    IntB (p.dot q) (a.1 * b.1 + a.2 * b.2) (m * n + m * n) :=
  (hp.1.mul hq.1 h0).add (hp.2.mul hq.2 h0) h

theorem PtB.beq {p q : Pt F} {a b : ℤ × ℤ} {m n : ℤ} (hp : PtB p a m) (hq : PtB q b n) : p.beq q = decide (a = b) := by
  unfold Pt.beq
  rw [IntVal.eq hp.1.1 hq.1.1, IntVal.eq hp.2.1 hq.2.1]
  by_cases h : a = b
  · subst h; simp
  · rw [decide_eq_false h]
    by_contra hc
    simp only [Bool.not_eq_false, Bool.and_eq_true, decide_eq_true_eq] at hc
    exact h (Prod.ext hc.1 hc.2)

/-- Twice the area of a triangle. -/
def zArea (a b c : ℤ × ℤ) : ℤ := (a.1 - c.1) * (b.2 - c.2) - (b.1 - c.1) * (a.2 - c.2)

theorem area_int {p q r : Pt F} {a b c : ℤ × ℤ} (hp : PtB p a (2 ^ 15)) (hq : PtB q b (2 ^ 15)) (hr : PtB r c (2 ^ 15)) :
    isInt (triangleSignedArea p q r) (zArea a b c) :=
  (((hp.1.sub hr.1 (by norm_num)).mul (hq.2.sub hr.2 (by norm_num)) (by norm_num)).sub
    ((hq.1.sub hr.1 (by norm_num)).mul (hp.2.sub hr.2 (by norm_num)) (by norm_num)) (by norm_num)).1

/-! ### Comparisons of segments -/

/-- A segment with whole ends. -/
structure SegB (s : SweepSegment F T) (a b : ℤ × ℤ) : Prop where
  left : PtB s.left_point a (2 ^ 15)
  right : PtB s.right_point b (2 ^ 15)

/-- The chosen one of two ends. -/
def zEnd (a b : ℤ × ℤ) : SegmentEnd → ℤ × ℤ
  | .left => a
  | .right => b

/-- The other one. -/
def zOther (a b : ℤ × ℤ) : SegmentEnd → ℤ × ℤ
  | .left => b
  | .right => a

theorem SegB.pointAt {s : SweepSegment F T} {a b : ℤ × ℤ} (h : SegB s a b) (e : SegmentEnd) : PtB (s.pointAt e) (zEnd a b e) (2 ^ 15) := by
  cases e
  · exact h.left
  · exact h.right

theorem SegB.otherPointAt {s : SweepSegment F T} {a b : ℤ × ℤ} (h : SegB s a b) (e : SegmentEnd) : PtB (s.otherPointAt e) (zOther a b e) (2 ^ 15) := by
  cases e
  · exact h.right
  · exact h.left

theorem SegB.vertical {s : SweepSegment F T} {a b : ℤ × ℤ} (h : SegB s a b) : s.vertical = decide (a.1 = b.1) := IntVal.eq h.left.1.1 h.right.1.1

/-- What `endpointCmp` computes. -/
def zEndpointCmp (p o : ℤ × ℤ) (e : SegmentEnd) (k : Nat) (p' o' : ℤ × ℤ) (e' : SegmentEnd) (k' : Nat) : Ordering :=
  (((compare p.1 p'.1).then (compare p.2 p'.2)).then (endCmp e e')).then ((compare (zArea p' o' o) 0).then (compare k k'))

theorem thenWith_ok (o o' : Ordering) : thenWith o (fun _ => .ok o') = .ok (o.then o') := by
  cases o <;> rfl

theorem endpointCmp_int {s s' : SweepSegment F T} {a b a' b' : ℤ × ℤ} (h : SegB s a b) (h' : SegB s' a' b') (e e' : SegmentEnd) :
    endpointCmp s e s' e' = .ok (zEndpointCmp (zEnd a b e) (zOther a b e) e s.order (zEnd a' b' e') (zOther a' b' e') e' s'.order) := by
  unfold endpointCmp zEndpointCmp
  have p := h.pointAt e
  have p' := h'.pointAt e'
  rw [cmp_int p.1.1 p'.1.1, cmp_int p.2.1 p'.2.1, cmp_int (area_int p' (h'.otherPointAt e') (h.otherPointAt e)) (IntVal.ofInt 0 (by norm_num))]
  exact thenWith_ok _ _

/-- What `SweepSegment.cmp` computes. -/
def zSegCmp (i k : Nat) (a b : ℤ × ℤ) (i' k' : Nat) (a' b' : ℤ × ℤ) : Ordering :=
  if i = i' then .eq
  else if zArea a b a' = 0 ∧ zArea a b b' = 0 then
    ((compare k k').then (if a = a' then compare i i' else .eq)).then (zEndpointCmp a' b' .left k' a b .left k)
  else if a = a' then (if 0 < zArea a b b' then .lt else .gt)
  else if zEndpointCmp a b .left k a' b' .left k' = .lt then (if 0 < zArea a b a' then .lt else .gt)
  else (if 0 < zArea a' b' a then .gt else .lt)

theorem segCmp_int {s s' : SweepSegment F T} {a b a' b' : ℤ × ℤ} (h : SegB s a b) (h' : SegB s' a' b') :
    s.cmp s' = .ok (zSegCmp s.index s.order a b s'.index s'.order a' b') := by
  unfold SweepSegment.cmp zSegCmp SweepSegment.below SweepSegment.above SweepSegment.below areaEps
  have a1 := area_int h.left h.right h'.left
  have a2 := area_int h.left h.right h'.right
  have a3 := area_int h'.left h'.right h.left
  rw [IntVal.abs_lt a1, IntVal.abs_lt a2, IntVal.eps_lt a1, IntVal.eps_lt a2, IntVal.eps_lt a3, h.left.beq h'.left,
    endpointCmp_int h h' .left .left, endpointCmp_int h' h .left .left]
  by_cases c0 : s.index = s'.index
  · rw [if_pos c0, if_pos c0]
  · rw [if_neg c0, if_neg c0]
    by_cases c1 : zArea a b a' = 0 ∧ zArea a b b' = 0
    · rw [if_pos c1, if_pos (by simpa using c1), thenWith_ok]
      simp only [decide_eq_true_eq]
      rfl
    · rw [if_neg c1, if_neg (by simpa using c1)]
      by_cases c2 : a = a'
      · simp [c2]
      · rw [if_neg c2, if_neg (by simpa using c2)]
        simp only [Res.bind_ok, Res.pure_eq]
        simp only [zEnd, zOther, decide_eq_true_eq, Bool.not_eq_true', decide_eq_false_iff_not]
        split
        · rfl
        · by_cases c3 : 0 < zArea a' b' a <;> simp [c3]

end

end Idc
