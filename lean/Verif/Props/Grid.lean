import Verif.Props.Exact
/-!
# Segments on a grid, in exact arithmetic, for C92
-/

namespace Idc

open FloatOps

section

variable {F : Type} [FloatOps F] [Exact F]

theorem ex_add (a b : ℤ) : add (ofInt a : F) (ofInt b) = ofInt (a + b) := Exact.inj (by rw [Exact.add, Exact.ofInt, Exact.ofInt, Exact.ofInt]; push_cast; rfl)
theorem ex_sub (a b : ℤ) : sub (ofInt a : F) (ofInt b) = ofInt (a - b) := Exact.inj (by rw [Exact.sub, Exact.ofInt, Exact.ofInt, Exact.ofInt]; push_cast; rfl)
theorem ex_mul (a b : ℤ) : mul (ofInt a : F) (ofInt b) = ofInt (a * b) := Exact.inj (by rw [Exact.mul, Exact.ofInt, Exact.ofInt, Exact.ofInt]; push_cast; rfl)
theorem ex_lt (a b : ℤ) : lt (ofInt a : F) (ofInt b) = decide (a < b) := by rw [Exact.lt, Exact.ofInt, Exact.ofInt]; simp
theorem ex_eq (a b : ℤ) : eq (ofInt a : F) (ofInt b) = decide (a = b) := by rw [Exact.eq, Exact.ofInt, Exact.ofInt]; simp

theorem ex_cmp (a b : ℤ) : FloatOps.cmp (ofInt a : F) (ofInt b) = some (compare a b) := by
  unfold FloatOps.cmp
  rw [ex_lt, ex_eq, ex_lt]
  rcases lt_trichotomy a b with h | h | h
  · simp [h, compare_lt_iff_lt.2 h]
  · simp [h]
  · simp [h, h.ne', not_lt.2 h.le, compare_gt_iff_gt.2 h]

theorem ex_ptSub (p q : Pt ℤ) : (asPt F p).sub (asPt F q) = asPt F ⟨p.x - q.x, p.y - q.y⟩ := by simp only [Pt.sub, asPt, ex_sub]
theorem ex_cross (p q : Pt ℤ) : (asPt F p).cross (asPt F q) = ofInt (p.x * q.y - p.y * q.x) := by simp only [Pt.cross, asPt, ex_sub, ex_mul]
theorem ex_dot (p q : Pt ℤ) : (asPt F p).dot (asPt F q) = ofInt (p.x * q.x + p.y * q.y) := by simp only [Pt.dot, asPt, ex_add, ex_mul]
theorem ex_sqLength (p : Pt ℤ) : (asPt F p).sqLength = ofInt (p.x * p.x + p.y * p.y) := by simp only [Pt.sqLength, asPt, ex_add, ex_mul]

theorem ex_beq (p q : Pt ℤ) : (asPt F p).beq (asPt F q) = decide (p = q) := by
  cases p; cases q
  simp only [Pt.beq, asPt, ex_eq, Pt.mk.injEq, Bool.decide_and]

/-- Twice the area of a triangle. -/
def ptArea (a b c : Pt ℤ) : ℤ := (a.x - c.x) * (b.y - c.y) - (b.x - c.x) * (a.y - c.y)

theorem ex_area (a b c : Pt ℤ) : triangleSignedArea (asPt F a) (asPt F b) (asPt F c) = ofInt (ptArea a b c) := by
  simp only [triangleSignedArea, asPt, ex_sub, ex_mul, ptArea]

/-- A number below every whole number except 0. -/
theorem ex_tiny (k : ℕ) : 0 < Exact.val (lit 1 k : F) ∧ Exact.val (lit 1 k : F) ≤ 1 := by
  rw [Exact.lit]
  have : (1 : ℝ) ≤ 10 ^ k := one_le_pow₀ (by norm_num)
  constructor
  · push_cast; positivity
  · push_cast
    rw [div_le_one (by positivity)]
    exact this

theorem ex_tiny_lt {k : ℕ} (hk : k ≠ 0) : Exact.val (lit 1 k : F) < 1 := by
  rw [Exact.lit]
  have : (1 : ℝ) < 10 ^ k := one_lt_pow₀ (by norm_num) hk
  push_cast
  rw [div_lt_one (by positivity)]
  exact this

theorem ex_abs_lt {k : ℕ} (n : ℤ) : lt (abs (ofInt n : F)) (lit 1 k) = decide (n = 0) := by
  rw [Exact.lt, Exact.abs, Exact.ofInt]
  obtain ⟨h0, h1⟩ := ex_tiny (F := F) k
  rw [decide_eq_decide]
  constructor
  · intro h
    by_contra hn
    have : (1 : ℝ) ≤ |(n : ℝ)| := by exact_mod_cast Int.one_le_abs hn
    linarith
  · rintro rfl
    simpa using h0

theorem ex_eps_lt {k : ℕ} (hk : k ≠ 0) (n : ℤ) : lt (lit 1 k) (ofInt n : F) = decide (0 < n) := by
  rw [Exact.lt, Exact.ofInt, decide_eq_decide]
  obtain ⟨h0, h1⟩ := ex_tiny (F := F) k
  have h2 := ex_tiny_lt (F := F) hk
  constructor
  · intro h
    have : (0 : ℝ) < n := by linarith
    exact_mod_cast this
  · intro h
    have : (1 : ℝ) ≤ n := by exact_mod_cast h
    linarith

theorem ex_roundCoord (n : ℤ) : roundCoord (ofInt n : F) = ofInt n := by
  unfold roundCoord
  split
  · apply Exact.inj
    rw [Exact.round, Exact.ofInt]
  · rfl

theorem ex_snap (z : Pt ℤ) : ∀ l : List (Pt ℤ), snap (asPt F z) (l.map (asPt F)) = asPt F z
  | [] => rfl
  | q :: l => by
    simp only [List.map_cons, snap]
    have : (if lt ((asPt F z).sub (asPt F q)).sqLength epsilon = true then asPt F q else asPt F z) = asPt F z := by
      split
      · rename_i h
        rw [ex_ptSub, ex_sqLength] at h
        unfold epsilon at h
        rw [Exact.lt, Exact.ofInt, decide_eq_true_eq] at h
        have h1 := ex_tiny_lt (F := F) (k := 15) (by norm_num)
        have h2 : ((z.x - q.x) * (z.x - q.x) + (z.y - q.y) * (z.y - q.y) : ℤ) < 1 := by
          have := h.trans h1
          exact_mod_cast this
        have hx : z.x - q.x = 0 := by
          have := mul_self_nonneg (z.x - q.x)
          have := mul_self_nonneg (z.y - q.y)
          exact mul_self_eq_zero.1 (by linarith)
        have hy : z.y - q.y = 0 := by
          have := mul_self_nonneg (z.x - q.x)
          have := mul_self_nonneg (z.y - q.y)
          exact mul_self_eq_zero.1 (by linarith)
        have : z = q := by
          cases z; cases q
          simp only at hx hy
          rw [Pt.mk.injEq]; constructor <;> omega
        rw [this]
      · rfl
    rw [this]
    exact ex_snap z l

/-! ### Comparisons of segments -/

variable {T : Type}

/-- What `endpointCmp` computes. -/
def ptEndCmp (p o : Pt ℤ) (e : SegmentEnd) (k : Nat) (p' o' : Pt ℤ) (e' : SegmentEnd) (k' : Nat) : Ordering :=
  (((compare p.x p'.x).then (compare p.y p'.y)).then (endCmp e e')).then ((compare (ptArea p' o' o) 0).then (compare k k'))

/-- What `SweepSegment.cmp` computes. -/
def ptSegCmp (i k : Nat) (a b : Pt ℤ) (i' k' : Nat) (a' b' : Pt ℤ) : Ordering :=
  if i = i' then .eq
  else if ptArea a b a' = 0 ∧ ptArea a b b' = 0 then
    ((compare k k').then (if a = a' then compare i i' else .eq)).then (ptEndCmp a' b' .left k' a b .left k)
  else if a = a' then (if 0 < ptArea a b b' then .lt else .gt)
  else if ptEndCmp a b .left k a' b' .left k' = .lt then (if 0 < ptArea a b a' then .lt else .gt)
  else (if 0 < ptArea a' b' a then .gt else .lt)

/-- A segment with its ends drawn. -/
def drawSeg {F : Type} (h : Pt ℤ → Pt F) (s : SweepSegment ℤ T) : SweepSegment F T where
  left_point := h s.left_point
  right_point := h s.right_point
  faces_outwards := s.faces_outwards
  index := s.index
  order := s.order
  data := s.data

theorem drawSeg_pointAt {F : Type} (h : Pt ℤ → Pt F) (s : SweepSegment ℤ T) (e : SegmentEnd) : (drawSeg h s).pointAt e = h (s.pointAt e) := by cases e <;> rfl
theorem drawSeg_otherPointAt {F : Type} (h : Pt ℤ → Pt F) (s : SweepSegment ℤ T) (e : SegmentEnd) : (drawSeg h s).otherPointAt e = h (s.otherPointAt e) := by cases e <;> rfl

theorem ex_endpointCmp (u : Pt ℤ → Pt ℤ) (s s' : SweepSegment ℤ T) (e e' : SegmentEnd) :
    endpointCmp (drawSeg (fun p => asPt F (u p)) s) e (drawSeg (fun p => asPt F (u p)) s') e' =
      .ok (ptEndCmp (u (s.pointAt e)) (u (s.otherPointAt e)) e s.order (u (s'.pointAt e')) (u (s'.otherPointAt e')) e' s'.order) := by
  unfold endpointCmp ptEndCmp
  simp only [drawSeg_pointAt, drawSeg_otherPointAt]
  rw [ex_area, ex_cmp]
  simp only [asPt]
  rw [ex_cmp, ex_cmp]
  exact thenWith_ok _ _

theorem ex_segCmp (u : Pt ℤ → Pt ℤ) (s s' : SweepSegment ℤ T) :
    (drawSeg (fun p => asPt F (u p)) s).cmp (drawSeg (fun p => asPt F (u p)) s') =
      .ok (ptSegCmp s.index s.order (u s.left_point) (u s.right_point) s'.index s'.order (u s'.left_point) (u s'.right_point)) := by
  unfold SweepSegment.cmp ptSegCmp SweepSegment.below SweepSegment.above SweepSegment.below areaEps
  rw [ex_endpointCmp, ex_endpointCmp]
  have l : ∀ s : SweepSegment ℤ T, (drawSeg (fun p => asPt F (u p)) s).left_point = asPt F (u s.left_point) := fun _ => rfl
  have r : ∀ s : SweepSegment ℤ T, (drawSeg (fun p => asPt F (u p)) s).right_point = asPt F (u s.right_point) := fun _ => rfl
  have i : ∀ s : SweepSegment ℤ T, (drawSeg (fun p => asPt F (u p)) s).index = s.index := fun _ => rfl
  have o : ∀ s : SweepSegment ℤ T, (drawSeg (fun p => asPt F (u p)) s).order = s.order := fun _ => rfl
  simp only [l, r, i, o, SweepSegment.pointAt, SweepSegment.otherPointAt]
  rw [ex_area, ex_area, ex_area, ex_abs_lt, ex_abs_lt, ex_eps_lt (by norm_num), ex_eps_lt (by norm_num), ex_eps_lt (by norm_num), ex_beq]
  generalize u s.left_point = a
  generalize u s.right_point = b
  generalize u s'.left_point = a'
  generalize u s'.right_point = b'
  by_cases c0 : s.index = s'.index
  · rw [if_pos c0, if_pos c0]
  · rw [if_neg c0, if_neg c0]
    by_cases c1 : ptArea a b a' = 0 ∧ ptArea a b b' = 0
    · rw [if_pos c1, if_pos (by simpa using c1), thenWith_ok]
      simp only [decide_eq_true_eq]
    · rw [if_neg c1, if_neg (by simpa using c1)]
      by_cases c2 : a = a'
      · simp [c2]
      · rw [if_neg c2, if_neg (by simpa using c2)]
        simp only [Res.bind_ok, Res.pure_eq]
        simp only [decide_eq_true_eq, Bool.not_eq_true', decide_eq_false_iff_not]
        split
        · rfl
        · by_cases c3 : 0 < ptArea a' b' a <;> simp [c3]

end

end Idc
