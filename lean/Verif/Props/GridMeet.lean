import Verif.Props.Grid
/-!
# Where two segments on a grid meet, in exact arithmetic, for C92
-/

namespace Idc

open FloatOps

/-- Where two segments meet. -/
inductive ZMeet where
  | none
  | point (z : Pt ℤ)
  | segment

/-- The outcome of `intersectSegments` that stands for it. -/
def ZMeet.Is {F : Type} (h : Pt ℤ → Pt F) : ZMeet → SegmentIntersection F → Prop
  | .none, r => r = .none
  | .point z, r => r = .point (h z)
  | .segment, r => ∃ p q, r = .segment p q

/-- Two segments on one line: from `a` to `b` and from `a'` to `b'`, along the line. -/
def spanMeet (a b a' b' : ℤ) (p q : Pt ℤ) : ZMeet :=
  if b < a' ∨ b' < a then .none else if b = a' then .point q else if b' = a then .point p else .segment

/-- Where the horizontal or vertical segments from `a` to `b` and from `a'` to `b'` meet. -/
def zMeet (a b a' b' : Pt ℤ) : ZMeet :=
  if a.y = b.y then
    if a'.y = b'.y then
      if a.y = a'.y then spanMeet a.x b.x a'.x b'.x a b else .none
    else if a.x ≤ a'.x ∧ a'.x ≤ b.x ∧ a'.y ≤ a.y ∧ a.y ≤ b'.y then .point ⟨a'.x, a.y⟩ else .none
  else
    if a'.y = b'.y then
      if a'.x ≤ a.x ∧ a.x ≤ b'.x ∧ a.y ≤ a'.y ∧ a'.y ≤ b.y then .point ⟨a.x, a'.y⟩ else .none
    else if a.x = a'.x then spanMeet a.y b.y a'.y b'.y a b else .none

/-- To the right or up. -/
def Forth (a b : Pt ℤ) : Prop := (a.y = b.y ∧ a.x < b.x) ∨ (a.x = b.x ∧ a.y < b.y)

section

variable {F : Type} [FloatOps F] [Exact F]

theorem ex_at (p d z : Pt ℤ) (s : F) (hx : (p.x : ℝ) + d.x * Exact.val s = z.x) (hy : (p.y : ℝ) + d.y * Exact.val s = z.y) :
    (asPt F p).add ((asPt F d).scale s) = asPt F z := by
  unfold Pt.add Pt.scale asPt
  congr 1
  · apply Exact.inj
    rw [Exact.add, Exact.mul, Exact.ofInt, Exact.ofInt, Exact.ofInt, hx]
  · apply Exact.inj
    rw [Exact.add, Exact.mul, Exact.ofInt, Exact.ofInt, Exact.ofInt, hy]

theorem ex_lt_zero (s : F) : lt s (ofInt 0) = decide (Exact.val s < 0) := by rw [Exact.lt, Exact.ofInt]; simp
theorem ex_one_lt (s : F) : lt (ofInt 1) s = decide (1 < Exact.val s) := by rw [Exact.lt, Exact.ofInt]; simp

/-- The segments cross at an angle: the parameters are `x / a` and `y / b`. -/
theorem ex_cross_meet {p0 q0 p1 q1 z : Pt ℤ} {k x y a b : ℤ} (ha : 0 < a) (hb : 0 < b)
    (hk : (q0.x - p0.x) * (q1.y - p1.y) - (q0.y - p0.y) * (q1.x - p1.x) = k) (hk0 : k ≠ 0)
    (hk2 : k * k = ((q0.x - p0.x) * (q0.x - p0.x) + (q0.y - p0.y) * (q0.y - p0.y)) * ((q1.x - p1.x) * (q1.x - p1.x) + (q1.y - p1.y) * (q1.y - p1.y)))
    (hs : ((p1.x - p0.x) * (q1.y - p1.y) - (p1.y - p0.y) * (q1.x - p1.x)) * a = x * k)
    (ht : ((p1.x - p0.x) * (q0.y - p0.y) - (p1.y - p0.y) * (q0.x - p0.x)) * b = y * k)
    (hzx : a * p0.x + (q0.x - p0.x) * x = a * z.x) (hzy : a * p0.y + (q0.y - p0.y) * x = a * z.y) :
    intersectSegments (asPt F p0, asPt F q0) (asPt F p1, asPt F q1) = if 0 ≤ x ∧ x ≤ a ∧ 0 ≤ y ∧ y ≤ b then .point (asPt F z) else .none := by
  unfold intersectSegments
  simp only [ex_ptSub, ex_cross, ex_sqLength]
  have ra : (0 : ℝ) < a := by exact_mod_cast ha
  have rb : (0 : ℝ) < b := by exact_mod_cast hb
  have rk : (k : ℝ) ≠ 0 := by exact_mod_cast hk0
  have vs : Exact.val (div (ofInt ((p1.x - p0.x) * (q1.y - p1.y) - (p1.y - p0.y) * (q1.x - p1.x)) : F) (ofInt ((q0.x - p0.x) * (q1.y - p1.y) - (q0.y - p0.y) * (q1.x - p1.x)))) = x / a := by
    rw [Exact.div, Exact.ofInt, Exact.ofInt, hk, div_eq_div_iff rk ra.ne']
    exact_mod_cast hs
  have vt : Exact.val (div (ofInt ((p1.x - p0.x) * (q0.y - p0.y) - (p1.y - p0.y) * (q0.x - p0.x)) : F) (ofInt ((q0.x - p0.x) * (q1.y - p1.y) - (q0.y - p0.y) * (q1.x - p1.x)))) = y / b := by
    rw [Exact.div, Exact.ofInt, Exact.ofInt, hk, div_eq_div_iff rk rb.ne']
    exact_mod_cast ht
  rw [if_pos (by
    unfold sqrEpsilon
    rw [Exact.lt, decide_eq_true_eq, Exact.mul, Exact.mul, Exact.mul, Exact.ofInt, Exact.ofInt, Exact.ofInt, hk]
    have h1 := ex_tiny_lt (F := F) (k := 7) (by norm_num)
    have h2 : ((k : ℝ) * k) = (((q0.x - p0.x) * (q0.x - p0.x) + (q0.y - p0.y) * (q0.y - p0.y) : ℤ) : ℝ) * (((q1.x - p1.x) * (q1.x - p1.x) + (q1.y - p1.y) * (q1.y - p1.y) : ℤ) : ℝ) := by
      exact_mod_cast hk2
    rw [mul_assoc, ← h2]
    have h3 : 0 < (k : ℝ) * k := mul_self_pos.2 rk
    nlinarith)]
  rw [ex_lt_zero, ex_one_lt, ex_lt_zero, ex_one_lt, vs, vt]
  have e1 : (x : ℝ) / a < 0 ↔ x < 0 := by rw [div_lt_iff₀ ra, zero_mul]; norm_cast
  have e2 : 1 < (x : ℝ) / a ↔ a < x := by rw [lt_div_iff₀ ra, one_mul]; norm_cast
  have e3 : (y : ℝ) / b < 0 ↔ y < 0 := by rw [div_lt_iff₀ rb, zero_mul]; norm_cast
  have e4 : 1 < (y : ℝ) / b ↔ b < y := by rw [lt_div_iff₀ rb, one_mul]; norm_cast
  simp only [e1, e2, e3, e4, Bool.or_eq_true, decide_eq_true_eq]
  by_cases c1 : x < 0 ∨ a < x
  · rw [if_pos c1, if_neg (by omega)]
  · rw [if_neg c1]
    by_cases c2 : y < 0 ∨ b < y
    · rw [if_pos c2, if_neg (by omega)]
    · rw [if_neg c2, if_pos (by omega)]
      have hz : (asPt F p0).add ((asPt F ⟨q0.x - p0.x, q0.y - p0.y⟩).scale (div (ofInt ((p1.x - p0.x) * (q1.y - p1.y) - (p1.y - p0.y) * (q1.x - p1.x)) : F) (ofInt ((q0.x - p0.x) * (q1.y - p1.y) - (q0.y - p0.y) * (q1.x - p1.x))))) = asPt F z := by
        have hzx : (a : ℝ) * p0.x + (q0.x - p0.x) * x = a * z.x := by exact_mod_cast hzx
        have hzy : (a : ℝ) * p0.y + (q0.y - p0.y) * x = a * z.y := by exact_mod_cast hzy
        apply ex_at
        · rw [vs]; push_cast; field_simp; linarith
        · rw [vs]; push_cast; field_simp; linarith
      rw [hz, show [asPt F p0, asPt F q0, asPt F p1, asPt F q1] = [p0, q0, p1, q1].map (asPt F) from rfl, ex_snap]
      simp only [asPt, ex_roundCoord]

/-- The segments are parallel, not on the same line, and not too far apart. -/
theorem ex_parallel_none {p0 q0 p1 q1 : Pt ℤ} (hk : (q0.x - p0.x) * (q1.y - p1.y) - (q0.y - p0.y) * (q1.x - p1.x) = 0)
    (hfar : ((q0.x - p0.x) * (q0.x - p0.x) + (q0.y - p0.y) * (q0.y - p0.y)) * ((p1.x - p0.x) * (p1.x - p0.x) + (p1.y - p0.y) * (p1.y - p0.y)) <
      10 ^ 7 * (((p1.x - p0.x) * (q0.y - p0.y) - (p1.y - p0.y) * (q0.x - p0.x)) * ((p1.x - p0.x) * (q0.y - p0.y) - (p1.y - p0.y) * (q0.x - p0.x)))) :
    intersectSegments (asPt F p0, asPt F q0) (asPt F p1, asPt F q1) = .none := by
  unfold intersectSegments
  simp only [ex_ptSub, ex_cross, ex_sqLength]
  rw [if_neg (by
    unfold sqrEpsilon
    rw [Exact.lt, decide_eq_true_eq, Exact.mul, Exact.mul, Exact.mul, Exact.ofInt, Exact.ofInt, Exact.ofInt, hk]
    have h1 := (ex_tiny (F := F) 7).1
    have h2 : (0 : ℝ) ≤ ((q0.x - p0.x) * (q0.x - p0.x) + (q0.y - p0.y) * (q0.y - p0.y) : ℤ) := by
      have : (0 : ℤ) ≤ (q0.x - p0.x) * (q0.x - p0.x) + (q0.y - p0.y) * (q0.y - p0.y) := add_nonneg (mul_self_nonneg _) (mul_self_nonneg _)
      exact_mod_cast this
    have h3 : (0 : ℝ) ≤ ((q1.x - p1.x) * (q1.x - p1.x) + (q1.y - p1.y) * (q1.y - p1.y) : ℤ) := by
      have : (0 : ℤ) ≤ (q1.x - p1.x) * (q1.x - p1.x) + (q1.y - p1.y) * (q1.y - p1.y) := add_nonneg (mul_self_nonneg _) (mul_self_nonneg _)
      exact_mod_cast this
    rw [Int.cast_zero, mul_zero, not_lt]
    exact mul_nonneg (mul_nonneg h1.le h2) h3)]
  rw [if_pos (by
    unfold sqrEpsilon
    rw [Exact.lt, decide_eq_true_eq, Exact.mul, Exact.mul, Exact.mul, Exact.ofInt, Exact.ofInt, Exact.ofInt, Exact.lit]
    have h : ((((q0.x - p0.x) * (q0.x - p0.x) + (q0.y - p0.y) * (q0.y - p0.y)) * ((p1.x - p0.x) * (p1.x - p0.x) + (p1.y - p0.y) * (p1.y - p0.y)) : ℤ) : ℝ) <
      ((10 ^ 7 * (((p1.x - p0.x) * (q0.y - p0.y) - (p1.y - p0.y) * (q0.x - p0.x)) * ((p1.x - p0.x) * (q0.y - p0.y) - (p1.y - p0.y) * (q0.x - p0.x))) : ℤ) : ℝ) := by exact_mod_cast hfar
    rw [Int.cast_mul, Int.cast_mul, Int.cast_mul] at h
    push_cast at h ⊢
    linarith)]

/-- The segments are on the same line. -/
theorem ex_line_meet {p0 q0 p1 q1 : Pt ℤ} {n u v : ℤ} (hn : 0 < n) (huv : u < v)
    (hk : (q0.x - p0.x) * (q1.y - p1.y) - (q0.y - p0.y) * (q1.x - p1.x) = 0) (hk' : (p1.x - p0.x) * (q0.y - p0.y) - (p1.y - p0.y) * (q0.x - p0.x) = 0)
    (hl : (q0.x - p0.x) * (q0.x - p0.x) + (q0.y - p0.y) * (q0.y - p0.y) = n * n)
    (hu : (q0.x - p0.x) * (p1.x - p0.x) + (q0.y - p0.y) * (p1.y - p0.y) = n * u)
    (hv : (q0.x - p0.x) * (q1.x - p1.x) + (q0.y - p0.y) * (q1.y - p1.y) = n * (v - u)) :
    (spanMeet 0 n u v p0 q0).Is (asPt F) (intersectSegments (asPt F p0, asPt F q0) (asPt F p1, asPt F q1)) := by
  unfold intersectSegments
  simp only [ex_ptSub, ex_cross, ex_sqLength, ex_dot]
  have rn : (0 : ℝ) < n := by exact_mod_cast hn
  have nn : ∀ a b : ℤ, (0 : ℝ) ≤ ((a * a + b * b : ℤ) : ℝ) := fun a b => by
    have : (0 : ℤ) ≤ a * a + b * b := add_nonneg (mul_self_nonneg _) (mul_self_nonneg _)
    exact_mod_cast this
  have h1 := (ex_tiny (F := F) 7).1
  rw [if_neg (by
    unfold sqrEpsilon
    rw [Exact.lt, decide_eq_true_eq, Exact.mul, Exact.mul, Exact.mul, Exact.ofInt, Exact.ofInt, Exact.ofInt, hk, Int.cast_zero, mul_zero, not_lt]
    exact mul_nonneg (mul_nonneg h1.le (nn _ _)) (nn _ _))]
  rw [if_neg (by
    unfold sqrEpsilon
    rw [Exact.lt, decide_eq_true_eq, Exact.mul, Exact.mul, Exact.mul, Exact.ofInt, Exact.ofInt, Exact.ofInt, hk', Int.cast_zero, mul_zero, not_lt]
    exact mul_nonneg (mul_nonneg h1.le (nn _ _)) (nn _ _))]
  rw [hl, hu, hv]
  have v0 : Exact.val (div (ofInt (n * u) : F) (ofInt (n * n))) = u / n := by
    rw [Exact.div, Exact.ofInt, Exact.ofInt]; push_cast; field_simp
  have v1 : Exact.val (add (div (ofInt (n * u) : F) (ofInt (n * n))) (div (ofInt (n * (v - u))) (ofInt (n * n)))) = v / n := by
    rw [Exact.add, v0, Exact.div, Exact.ofInt, Exact.ofInt]; push_cast; field_simp; ring
  generalize hs0 : (div (ofInt (n * u) : F) (ofInt (n * n))) = s0 at v0 v1
  generalize hs1 : add s0 (div (ofInt (n * (v - u))) (ofInt (n * n))) = s1 at v1
  have huv' : (u : ℝ) / n < v / n := by
    have : (u : ℝ) < v := by exact_mod_cast huv
    exact div_lt_div_of_pos_right this rn
  have hmin : FloatOps.min s0 s1 = s0 := Exact.inj (by rw [Exact.min, v0, v1, min_eq_left huv'.le])
  have hmax : FloatOps.max s0 s1 = s1 := Exact.inj (by rw [Exact.max, v0, v1, max_eq_right huv'.le])
  rw [hmin, hmax]
  unfold checkSpanOverlap
  have e1 : lt (ofInt 1) s0 = decide (n < u) := by
    rw [ex_one_lt, v0, decide_eq_decide, lt_div_iff₀ rn, one_mul]; norm_cast
  have e2 : lt s1 (ofInt 0) = decide (v < 0) := by
    rw [ex_lt_zero, v1, decide_eq_decide, div_lt_iff₀ rn, zero_mul]; norm_cast
  have e3 : lt s0 (ofInt 1) = decide (u < n) := by
    rw [Exact.lt, Exact.ofInt, v0, decide_eq_decide, div_lt_iff₀ rn, Int.cast_one, one_mul]; norm_cast
  have e4 : lt (ofInt 0) s1 = decide (0 < v) := by
    rw [Exact.lt, Exact.ofInt, v1, decide_eq_decide, lt_div_iff₀ rn, Int.cast_zero, zero_mul]; norm_cast
  rw [e1, e2, e3, e4]
  unfold spanMeet
  simp only [Bool.or_eq_true, decide_eq_true_eq]
  have ee : ∀ s : F, eq s s = true := fun s => by rw [Exact.eq]; simp
  by_cases c1 : n < u ∨ v < 0
  · rw [if_pos c1, if_pos c1]; rfl
  · rw [if_neg c1, if_neg c1]
    by_cases c2 : u < n
    · rw [if_pos c2, if_neg (by omega)]
      by_cases c3 : 0 < v
      · rw [if_pos c3, if_neg (by omega)]
        have hbe : eq (FloatOps.max (ofInt 0) s0) (FloatOps.min (ofInt 1) s1) = false := by
          rw [Exact.eq, decide_eq_false_iff_not, Exact.max, Exact.min, Exact.ofInt, Exact.ofInt, v0, v1]
          apply ne_of_lt
          have a1 : (u : ℝ) / n < 1 := by rw [div_lt_one rn]; exact_mod_cast c2
          have a2 : (0 : ℝ) < v / n := div_pos (by exact_mod_cast c3) rn
          push_cast
          exact max_lt (lt_min one_pos a2) (lt_min a1 huv')
        dsimp only
        rw [if_neg (by rw [hbe]; exact Bool.false_ne_true)]
        exact ⟨_, _, rfl⟩
      · have hv0 : v = 0 := by omega
        rw [if_neg c3, if_pos hv0]
        dsimp only
        rw [if_pos (ee _), ex_at p0 ⟨q0.x - p0.x, q0.y - p0.y⟩ p0 (ofInt 0) (by rw [Exact.ofInt]; simp) (by rw [Exact.ofInt]; simp),
          show [asPt F p0, asPt F q0, asPt F p1, asPt F q1] = [p0, q0, p1, q1].map (asPt F) from rfl, ex_snap]
        rfl
    · rw [if_neg c2, if_pos (by omega)]
      dsimp only
      rw [if_pos (ee _), ex_at p0 ⟨q0.x - p0.x, q0.y - p0.y⟩ q0 (ofInt 1) (by rw [Exact.ofInt]; simp) (by rw [Exact.ofInt]; simp),
        show [asPt F p0, asPt F q0, asPt F p1, asPt F q1] = [p0, q0, p1, q1].map (asPt F) from rfl, ex_snap]
      rfl

theorem spanMeet_shift (a b a' b' : ℤ) (p q : Pt ℤ) : spanMeet 0 (b - a) (a' - a) (b' - a) p q = spanMeet a b a' b' p q := by
  unfold spanMeet
  simp only [sub_lt_sub_iff_right, sub_neg, sub_left_inj, sub_eq_zero]

theorem ex_far {a b : ℤ} (h : |a| ≤ 3162 * |b|) (hb : b ≠ 0) {n : ℤ} (hn : 0 < n) : (n * n) * (a * a + b * b) < 10 ^ 7 * ((b * n) * (b * n)) := by
  have h1 : a * a ≤ 3162 ^ 2 * (b * b) := by
    have := mul_self_le_mul_self (abs_nonneg a) h
    rw [abs_mul_abs_self] at this
    calc a * a ≤ _ := this
      _ = 3162 ^ 2 * (|b| * |b|) := by ring
      _ = _ := by rw [abs_mul_abs_self]
  have hb2 : 0 < b * b := mul_self_pos.2 hb
  have hn2 : 0 < n * n := by positivity
  have : a * a + b * b < 10 ^ 7 * (b * b) := by nlinarith
  calc n * n * (a * a + b * b) < n * n * (10 ^ 7 * (b * b)) := mul_lt_mul_of_pos_left this hn2
    _ = _ := by ring

theorem ex_meet {a b a' b' : Pt ℤ} (h : Forth a b) (h' : Forth a' b') (hx : a.x ≠ a'.x → |a'.y - a.y| ≤ 3162 * |a'.x - a.x|) (hy : a.y ≠ a'.y → |a'.x - a.x| ≤ 3162 * |a'.y - a.y|) :
    (zMeet a b a' b').Is (asPt F) (intersectSegments (asPt F a, asPt F b) (asPt F a', asPt F b')) := by
  obtain ⟨ax, ay⟩ := a
  obtain ⟨bx, bY⟩ := b
  obtain ⟨cx, cy⟩ := a'
  obtain ⟨dx, dy⟩ := b'
  unfold zMeet
  rcases h with ⟨e, l⟩ | ⟨e, l⟩ <;> rcases h' with ⟨e', l'⟩ | ⟨e', l'⟩ <;> dsimp only at e l e' l' hx hy ⊢ <;> subst e <;> subst e'
  · rw [if_pos rfl, if_pos rfl]
    by_cases c : ay = cy
    · subst c
      rw [if_pos rfl, ← spanMeet_shift]
      exact ex_line_meet (n := bx - ax) (u := cx - ax) (v := dx - ax) (by omega) (by omega) (by ring) (by ring) (by ring) (by ring) (by ring)
    · rw [if_neg c]
      refine ex_parallel_none (by ring) ?_
      have := ex_far (hy c) (by omega) (n := bx - ax) (by omega)
      dsimp only
      calc _ = (bx - ax) * (bx - ax) * ((cx - ax) * (cx - ax) + (cy - ay) * (cy - ay)) := by ring
        _ < _ := this
        _ = _ := by ring
  · rw [if_pos rfl, if_neg (by omega)]
    rw [ex_cross_meet (z := ⟨cx, ay⟩) (k := (bx - ax) * (dy - cy)) (x := cx - ax) (y := ay - cy) (a := bx - ax) (b := dy - cy) (by omega) (by omega) (by ring)
      (mul_ne_zero (by omega) (by omega)) (by ring) (by ring) (by ring) (by ring) (by ring)]
    by_cases c : ax ≤ cx ∧ cx ≤ bx ∧ cy ≤ ay ∧ ay ≤ dy
    · rw [if_pos c, if_pos (by omega)]; rfl
    · rw [if_neg c, if_neg (by omega)]; rfl
  · rw [if_neg (by omega), if_pos rfl]
    rw [ex_cross_meet (z := ⟨ax, cy⟩) (k := -((dx - cx) * (bY - ay))) (x := cy - ay) (y := ax - cx) (a := bY - ay) (b := dx - cx) (by omega) (by omega) (by ring)
      (neg_ne_zero.2 (mul_ne_zero (by omega) (by omega))) (by ring) (by ring) (by ring) (by ring) (by ring)]
    by_cases c : cx ≤ ax ∧ ax ≤ dx ∧ ay ≤ cy ∧ cy ≤ bY
    · rw [if_pos c, if_pos (by omega)]; rfl
    · rw [if_neg c, if_neg (by omega)]; rfl
  · rw [if_neg (by omega), if_neg (by omega)]
    by_cases c : ax = cx
    · subst c
      rw [if_pos rfl, ← spanMeet_shift]
      exact ex_line_meet (n := bY - ay) (u := cy - ay) (v := dy - ay) (by omega) (by omega) (by ring) (by ring) (by ring) (by ring) (by ring)
    · rw [if_neg c]
      refine ex_parallel_none (by ring) ?_
      have := ex_far (hx c) (by omega) (n := bY - ay) (by omega)
      dsimp only
      calc _ = (bY - ay) * (bY - ay) * ((cy - ay) * (cy - ay) + (cx - ax) * (cx - ax)) := by ring
        _ < _ := this
        _ = _ := by ring

end

end Idc
