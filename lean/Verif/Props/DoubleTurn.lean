import Verif.Props.DoubleIntersect
import Mathlib.Analysis.Real.Sqrt
/-!
# Comparing cosines in double precision, for C82
-/

namespace Idc

open FloatOps

/-! ### Exact arithmetic -/

/-- If the angle between two directions is not too small, and they are on the same side of a third one, their cosines with it
are not too close. -/
theorem cos_gap {a b p q : ℝ} (ha : a ^ 2 + p ^ 2 = 1) (hb : b ^ 2 + q ^ 2 = 1) (hpq : 0 ≤ p * q) : (a * q - b * p) ^ 2 ≤ 2 * |a - b| := by
  have key : ∀ p q : ℝ, 0 ≤ p → 0 ≤ q → a ^ 2 + p ^ 2 = 1 → b ^ 2 + q ^ 2 = 1 → (a * q - b * p) ^ 2 ≤ 2 * |a - b| := by
    intro p q hp hq ha hb
    set s := a * q - b * p with hs
    have e : s * (p + q) = (a - b) * ((p + q) ^ 2 + (a + b) ^ 2) / 2 := by
      have : (p + q) * (q - p) = (a - b) * (a + b) := by nlinarith
      rw [hs]
      linear_combination (a + b) / 2 * this
    have a1 : |a| ≤ 1 := abs_le_one_iff_mul_self_le_one.2 (by nlinarith)
    have b1 : |b| ≤ 1 := abs_le_one_iff_mul_self_le_one.2 (by nlinarith)
    have h1 : |s| ≤ p + q := by
      calc |s| ≤ |a * q| + |b * p| := abs_sub _ _
        _ = |a| * q + |b| * p := by rw [abs_mul, abs_mul, abs_of_nonneg hp, abs_of_nonneg hq]
        _ ≤ 1 * q + 1 * p := add_le_add (mul_le_mul_of_nonneg_right a1 hq) (mul_le_mul_of_nonneg_right b1 hp)
        _ = p + q := by ring
    have h2 : (p + q) ^ 2 + (a + b) ^ 2 ≤ 4 := by nlinarith [sq_nonneg (p - q), sq_nonneg (a - b)]
    have h3 : |s| * (p + q) = |a - b| * ((p + q) ^ 2 + (a + b) ^ 2) / 2 := by
      have := congrArg _root_.abs e
      rw [abs_mul, abs_of_nonneg (by linarith : 0 ≤ p + q), abs_div, abs_mul, abs_of_nonneg (by positivity : 0 ≤ (p + q) ^ 2 + (a + b) ^ 2), abs_of_pos (by norm_num : (0 : ℝ) < 2)] at this
      exact this
    calc s ^ 2 = |s| * |s| := by rw [← sq, sq_abs]
      _ ≤ |s| * (p + q) := mul_le_mul_of_nonneg_left h1 (abs_nonneg _)
      _ = |a - b| * ((p + q) ^ 2 + (a + b) ^ 2) / 2 := h3
      _ ≤ |a - b| * 4 / 2 := by
        have := mul_le_mul_of_nonneg_left h2 (abs_nonneg (a - b))
        linarith
      _ = 2 * |a - b| := by ring
  rcases le_total 0 p with hp | hp <;> rcases le_total 0 q with hq | hq
  · exact key p q hp hq ha hb
  · rcases (mul_nonneg_iff.1 hpq) with h | h
    · have : q = 0 := le_antisymm hq h.2
      exact key p q hp this.ge ha hb
    · have : p = 0 := le_antisymm h.1 hp
      have := key p (-q) hp (by linarith) ha (by nlinarith)
      rw [‹p = 0›] at this ⊢
      nlinarith
  · rcases (mul_nonneg_iff.1 hpq) with h | h
    · have : p = 0 := le_antisymm hp h.1
      exact key p q this.ge hq ha hb
    · have : q = 0 := le_antisymm h.2 hq
      have := key (-p) q (by linarith) hq (by nlinarith) hb
      rw [‹q = 0›] at this ⊢
      nlinarith
  · have := key (-p) (-q) (by linarith) (by linarith) (by nlinarith) (by nlinarith)
    nlinarith

/-- The same for vectors. -/
theorem vec_gap {cx cy ux uy vx vy ε : ℝ} (hc : 0 < cx ^ 2 + cy ^ 2) (hu : 0 < ux ^ 2 + uy ^ 2) (hv : 0 < vx ^ 2 + vy ^ 2)
    (hside : 0 ≤ (cx * uy - cy * ux) * (cx * vy - cy * vx)) (hang : ε * (ux ^ 2 + uy ^ 2) * (vx ^ 2 + vy ^ 2) < (ux * vy - uy * vx) ^ 2) :
    ε * √(cx ^ 2 + cy ^ 2) ≤ 2 * |(cx * ux + cy * uy) / √(ux ^ 2 + uy ^ 2) - (cx * vx + cy * vy) / √(vx ^ 2 + vy ^ 2)| := by
  set C := √(cx ^ 2 + cy ^ 2) with hC
  set U := √(ux ^ 2 + uy ^ 2) with hU
  set V := √(vx ^ 2 + vy ^ 2) with hV
  have C0 : 0 < C := Real.sqrt_pos.2 hc
  have U0 : 0 < U := Real.sqrt_pos.2 hu
  have V0 : 0 < V := Real.sqrt_pos.2 hv
  have C2 : C ^ 2 = cx ^ 2 + cy ^ 2 := Real.sq_sqrt hc.le
  have U2 : U ^ 2 = ux ^ 2 + uy ^ 2 := Real.sq_sqrt hu.le
  have V2 : V ^ 2 = vx ^ 2 + vy ^ 2 := Real.sq_sqrt hv.le
  have key := cos_gap (a := (cx * ux + cy * uy) / (C * U)) (p := (cx * uy - cy * ux) / (C * U)) (b := (cx * vx + cy * vy) / (C * V)) (q := (cx * vy - cy * vx) / (C * V))
    (by
      rw [div_pow, div_pow, ← add_div, div_eq_one_iff_eq (by positivity), mul_pow, C2, U2]
      ring)
    (by
      rw [div_pow, div_pow, ← add_div, div_eq_one_iff_eq (by positivity), mul_pow, C2, V2]
      ring)
    (by
      rw [div_mul_div_comm]
      exact div_nonneg hside (by positivity))
  have e1 : (cx * ux + cy * uy) / (C * U) * ((cx * vy - cy * vx) / (C * V)) - (cx * vx + cy * vy) / (C * V) * ((cx * uy - cy * ux) / (C * U)) = (ux * vy - uy * vx) / (U * V) := by
    rw [div_mul_div_comm, div_mul_div_comm, show C * V * (C * U) = C * U * (C * V) by ring, ← sub_div, div_eq_div_iff (by positivity) (by positivity)]
    have : (cx * ux + cy * uy) * (cx * vy - cy * vx) - (cx * vx + cy * vy) * (cx * uy - cy * ux) = C ^ 2 * (ux * vy - uy * vx) := by rw [C2]; ring
    rw [this]
    ring
  have e2 : (cx * ux + cy * uy) / (C * U) - (cx * vx + cy * vy) / (C * V) = ((cx * ux + cy * uy) / U - (cx * vx + cy * vy) / V) / C := by
    rw [sub_div, div_div, div_div, mul_comm C U, mul_comm C V]
  rw [e1, e2, abs_div, abs_of_pos C0, div_pow, mul_pow, U2, V2] at key
  have h1 : ε ≤ (ux * vy - uy * vx) ^ 2 / ((ux ^ 2 + uy ^ 2) * (vx ^ 2 + vy ^ 2)) := by
    rw [le_div_iff₀ (by positivity)]
    linarith
  have h2 := h1.trans key
  rw [← mul_div_assoc, le_div_iff₀ C0] at h2
  exact h2

theorem dot_le {cx cy ux uy : ℝ} (hu : 0 < ux ^ 2 + uy ^ 2) : |(cx * ux + cy * uy) / √(ux ^ 2 + uy ^ 2)| ≤ √(cx ^ 2 + cy ^ 2) := by
  rw [abs_div, abs_of_nonneg (Real.sqrt_nonneg _), div_le_iff₀ (Real.sqrt_pos.2 hu), ← Real.sqrt_mul (by positivity)]
  apply Real.abs_le_sqrt
  nlinarith [sq_nonneg (cx * uy - cy * ux)]

namespace Double

variable {F : Type} [FloatOps F] [Double F]

/-- A quotient of a whole number and the root of one. -/
theorem quot_root {x l : F} {D L : ℤ} (hx : IntB x D (2 ^ 33)) (hl : IntB l L (2 ^ 33)) (hL : 1 ≤ L) :
    fin (div x (sqrt l)) ∧ (D = 0 → val (div x (sqrt l)) = 0) ∧ (0 < D → 0 < val (div x (sqrt l))) ∧ (D < 0 → val (div x (sqrt l)) < 0) ∧
      |(val (div x (sqrt l)) : ℝ) - D / √L| ≤ |D / √L| / 2 ^ 49 := by
  have hl1 : val l = L := hl.1.2
  have hx1 : val x = D := hx.1.2
  have hLq : (1 : ℚ) ≤ L := by exact_mod_cast hL
  have hL2 : (L : ℚ) ≤ 2 ^ 33 := by have := hl.2; rw [abs_of_nonneg (by omega)] at this; exact_mod_cast this
  have hD2 : |(D : ℚ)| ≤ 2 ^ 33 := by exact_mod_cast hx.2
  obtain ⟨s1, s2, s3⟩ := sqrt_val l hl.1.1 (by rw [hl1]; exact hLq) (by rw [hl1]; exact hL2.trans (by norm_num))
  rw [hl1, abs_le] at s3
  set s := val (sqrt l) with hs
  have slo : 1 / 2 ≤ s := by
    by_contra h
    push Not at h
    have : s ^ 2 ≤ 1 / 4 := by nlinarith
    have : (L : ℚ) / 2 ^ 51 ≤ L / 2 := div_le_div_of_nonneg_left (by linarith) (by norm_num) (by norm_num)
    linarith [s3.1]
  have shi : s ≤ 2 ^ 17 := by
    by_contra h
    push Not at h
    have h1 : (2 ^ 17 : ℚ) ^ 2 < s ^ 2 := by nlinarith
    have : (L : ℚ) / 2 ^ 51 ≤ L := div_le_self (by linarith) (by norm_num)
    have h2 : (2 ^ 17 : ℚ) ^ 2 = 2 * 2 ^ 33 := by norm_num
    linarith [s3.2]
  have hab : |(D : ℚ) / s| ≤ 2 ^ 34 := by
    rw [abs_div, abs_of_pos s2, div_le_iff₀ s2]
    linarith
  obtain ⟨d1, d2⟩ := div_val x (sqrt l) hx.1.1 s1 s2.ne' (by rw [hx1]; exact hab.trans (by norm_num))
  rw [hx1, ← hs] at d2
  have lo : D ≠ 0 → 1 / 2 ^ 17 ≤ |(D : ℚ) / s| := by
    intro h
    have h1 : (1 : ℚ) ≤ |(D : ℚ)| := by exact_mod_cast Int.one_le_abs h
    rw [abs_div, abs_of_pos s2]
    exact div_le_div₀ (by positivity) h1 s2 shi
  refine ⟨d1, ?_, ?_, ?_, ?_⟩
  · rintro rfl
    rw [d2, Int.cast_zero, zero_div, rd_zero]
  · intro h
    have hpos : 0 < (D : ℚ) / s := div_pos (by exact_mod_cast h) s2
    have := lo h.ne'
    rw [abs_of_pos hpos] at this hab
    rw [d2]
    exact rd_pos (le_trans (by norm_num) this) (hab.trans (by norm_num))
  · intro h
    have hneg : (D : ℚ) / s < 0 := div_neg_of_neg_of_pos (by exact_mod_cast h) s2
    have := lo h.ne
    rw [abs_of_neg hneg] at this hab
    rw [d2]
    refine rd_of_neg ?_ ?_
    · have : (1 : ℚ) / 2 ^ 200 ≤ 1 / 2 ^ 17 := by norm_num
      linarith
    · have : (2 : ℚ) ^ 34 ≤ 2 ^ 200 := by norm_num
      linarith
  · have hrd : |rd F ((D : ℚ) / s) - (D : ℚ) / s| ≤ |(D : ℚ) / s| / 2 ^ 53 := by
      by_cases h : D = 0
      · subst h; simp [rd_zero]
      · exact rd_close _ (le_trans (by norm_num) (lo h)) (hab.trans (by norm_num))
    rw [← d2] at hrd
    set y := val (div x (sqrt l)) with hy
    set ρ := √(L : ℝ) with hρ
    have hLr : (1 : ℝ) ≤ L := by exact_mod_cast hL
    have ρ0 : 0 < ρ := Real.sqrt_pos.2 (by linarith)
    have ρ2 : ρ ^ 2 = L := Real.sq_sqrt (by linarith)
    have sr : (0 : ℝ) < (s : ℝ) := by exact_mod_cast s2
    have t1 : -((L : ℝ) / 2 ^ 51) ≤ (s : ℝ) ^ 2 - L := by exact_mod_cast s3.1
    have t2 : (s : ℝ) ^ 2 - L ≤ (L : ℝ) / 2 ^ 51 := by exact_mod_cast s3.2
    have hrd' : |(y : ℝ) - (D : ℝ) / s| ≤ |(D : ℝ) / s| / 2 ^ 53 := by exact_mod_cast hrd
    rw [← ρ2] at t1 t2
    -- the root
    have r1 : |(s : ℝ) - ρ| ≤ ρ / 2 ^ 51 := by
      have h1 : |(s : ℝ) - ρ| * (s + ρ) ≤ ρ ^ 2 / 2 ^ 51 := by
        rw [← abs_of_pos (show (0 : ℝ) < s + ρ by linarith), ← abs_mul, abs_le]
        constructor <;> [nlinarith; nlinarith]
      have h2 : |(s : ℝ) - ρ| * ρ ≤ ρ / 2 ^ 51 * ρ := by
        have : |(s : ℝ) - ρ| * ρ ≤ |(s : ℝ) - ρ| * (s + ρ) := mul_le_mul_of_nonneg_left (by linarith) (abs_nonneg _)
        calc _ ≤ _ := this
          _ ≤ _ := h1
          _ = _ := by ring
      exact le_of_mul_le_mul_right h2 ρ0
    have r2 : |(D : ℝ) / s - D / ρ| ≤ |(D : ℝ) / s| / 2 ^ 51 := by
      have : (D : ℝ) / s - D / ρ = (D : ℝ) / s * ((ρ - s) / ρ) := by field_simp
      rw [this, abs_mul, div_eq_mul_one_div (|(D : ℝ) / s|)]
      refine mul_le_mul_of_nonneg_left ?_ (abs_nonneg _)
      rw [abs_div, abs_of_pos ρ0, div_le_iff₀ ρ0, abs_sub_comm]
      linarith
    have r3 : |(D : ℝ) / s| ≤ |(D : ℝ) / ρ| * 2 := by
      have h1 : |(D : ℝ) / s| ≤ |(D : ℝ) / ρ| + |(D : ℝ) / s - D / ρ| := by
        have := abs_add_le ((D : ℝ) / ρ) ((D : ℝ) / s - D / ρ)
        rwa [add_sub_cancel] at this
      have h2 : |(D : ℝ) / s| / 2 ^ 51 ≤ |(D : ℝ) / s| / 2 := div_le_div_of_nonneg_left (abs_nonneg _) (by norm_num) (by norm_num)
      linarith
    calc |(y : ℝ) - D / ρ| ≤ |(y : ℝ) - D / s| + |(D : ℝ) / s - D / ρ| := abs_sub_le _ _ _
      _ ≤ |(D : ℝ) / s| / 2 ^ 53 + |(D : ℝ) / s| / 2 ^ 51 := add_le_add hrd' r2
      _ ≤ |(D : ℝ) / ρ| / 2 ^ 49 := by
        have := mul_le_mul_of_nonneg_right r3 (show (0 : ℝ) ≤ 1 / 2 ^ 53 + 1 / 2 ^ 51 by norm_num)
        have h3 : |(D : ℝ) / ρ| * 2 * (1 / 2 ^ 53 + 1 / 2 ^ 51) ≤ |(D : ℝ) / ρ| / 2 ^ 49 := by
          rw [mul_assoc, div_eq_mul_one_div (|(D : ℝ) / ρ|)]
          exact mul_le_mul_of_nonneg_left (by norm_num) (abs_nonneg _)
        linarith

/-- Two directions from a point, of which one can tell which is closer to a third one: the angle between them is 180° or more than
0.019°. -/
def zTell (u v : ℤ × ℤ) : Prop :=
  (u.1 * v.2 - u.2 * v.1 = 0 ∧ u.1 * v.1 + u.2 * v.2 < 0) ∨
  11 * (u.1 * u.1 + u.2 * u.2) * (v.1 * v.1 + v.2 * v.2) < 10 ^ 8 * (u.1 * v.2 - u.2 * v.1) ^ 2

/-- Cosines are compared correctly. -/
theorem cos_lt {pc pu pv : Pt F} {c u v : ℤ × ℤ} (hc : PtB pc c (2 ^ 15 + 2 ^ 15)) (hu : PtB pu u (2 ^ 15 + 2 ^ 15)) (hv : PtB pv v (2 ^ 15 + 2 ^ 15))
    (hside : 0 < c.1 * u.2 - c.2 * u.1 ↔ 0 < c.1 * v.2 - c.2 * v.1) (ht : zTell u v) :
    lt (div (pc.dot pu) pu.length) (div (pc.dot pv) pv.length) =
      decide (((c.1 * u.1 + c.2 * u.2 : ℤ) : ℝ) / √((u.1 * u.1 + u.2 * u.2 : ℤ) : ℝ) < ((c.1 * v.1 + c.2 * v.2 : ℤ) : ℝ) / √((v.1 * v.1 + v.2 * v.2 : ℤ) : ℝ)) := by
  have u0 : 1 ≤ u.1 * u.1 + u.2 * u.2 := by
    by_contra h
    have e1 : u.1 = 0 := by nlinarith [mul_self_nonneg u.1, mul_self_nonneg u.2]
    have e2 : u.2 = 0 := by nlinarith [mul_self_nonneg u.1, mul_self_nonneg u.2]
    rcases ht with h | h <;> simp [e1, e2] at h
  have v0 : 1 ≤ v.1 * v.1 + v.2 * v.2 := by
    by_contra h
    have e1 : v.1 = 0 := by nlinarith [mul_self_nonneg v.1, mul_self_nonneg v.2]
    have e2 : v.2 = 0 := by nlinarith [mul_self_nonneg v.1, mul_self_nonneg v.2]
    rcases ht with h | h <;> simp [e1, e2] at h
  have hU : IntB (pc.dot pu) (c.1 * u.1 + c.2 * u.2) (2 ^ 33) := hc.dot hu (by norm_num) (by norm_num)
  have hV : IntB (pc.dot pv) (c.1 * v.1 + c.2 * v.2) (2 ^ 33) := hc.dot hv (by norm_num) (by norm_num)
  have lU : IntB pu.sqLength (u.1 * u.1 + u.2 * u.2) (2 ^ 33) := hu.dot hu (by norm_num) (by norm_num)
  have lV : IntB pv.sqLength (v.1 * v.1 + v.2 * v.2) (2 ^ 33) := hv.dot hv (by norm_num) (by norm_num)
  obtain ⟨a1, a2, a3, a4, a5⟩ := quot_root hU lU u0
  obtain ⟨b1, b2, b3, b4, b5⟩ := quot_root hV lV v0
  unfold Pt.length
  rw [lt_val _ _ a1 b1, decide_eq_decide]
  have ru : 0 < √((u.1 * u.1 + u.2 * u.2 : ℤ) : ℝ) := Real.sqrt_pos.2 (by exact_mod_cast u0)
  have rv : 0 < √((v.1 * v.1 + v.2 * v.2 : ℤ) : ℝ) := Real.sqrt_pos.2 (by exact_mod_cast v0)
  generalize hA : c.1 * u.1 + c.2 * u.2 = A at *
  generalize hB : c.1 * v.1 + c.2 * v.2 = B at *
  rcases ht with ⟨hk, hd⟩ | hang
  · -- opposite directions
    have e : (u.1 * v.1 + u.2 * v.2) * A = (u.1 * u.1 + u.2 * u.2) * B := by
      rw [← hA, ← hB]
      linear_combination (c.1 * u.2 - c.2 * u.1) * hk
    rcases lt_trichotomy A 0 with h | h | h
    · have hB : 0 < B := by
        by_contra hc
        have := mul_pos_of_neg_of_neg hd h
        nlinarith
      have x : ((A : ℤ) : ℝ) / √((u.1 * u.1 + u.2 * u.2 : ℤ) : ℝ) < ((B : ℤ) : ℝ) / √((v.1 * v.1 + v.2 * v.2 : ℤ) : ℝ) :=
        (div_neg_of_neg_of_pos (by exact_mod_cast h) ru).trans (div_pos (by exact_mod_cast hB) rv)
      exact ⟨fun _ => x, fun _ => (a4 h).trans (b3 hB)⟩
    · have hB : B = 0 := by
        rw [h, mul_zero] at e
        exact (mul_eq_zero.1 e.symm).resolve_left (by omega)
      rw [a2 h, b2 hB, h, hB]
      simp
    · have hB : B < 0 := by
        by_contra hc
        have := mul_neg_of_neg_of_pos hd h
        nlinarith
      have x : ((B : ℤ) : ℝ) / √((v.1 * v.1 + v.2 * v.2 : ℤ) : ℝ) < ((A : ℤ) : ℝ) / √((u.1 * u.1 + u.2 * u.2 : ℤ) : ℝ) :=
        (div_neg_of_neg_of_pos (by exact_mod_cast hB) rv).trans (div_pos (by exact_mod_cast h) ru)
      exact ⟨fun h' => absurd h' (not_lt.2 ((b4 hB).trans (a3 h)).le), fun h' => absurd h' (not_lt.2 x.le)⟩
  · by_cases c0 : c = (0, 0)
    · have hA0 : A = 0 := by rw [← hA, c0]; simp
      have hB0 : B = 0 := by rw [← hB, c0]; simp
      rw [a2 hA0, b2 hB0, hA0, hB0]
      simp
    · have hcpos : 0 < c.1 ^ 2 + c.2 ^ 2 := by
        rcases (mul_self_nonneg c.1).eq_or_lt with h1 | h1
        · rcases (mul_self_nonneg c.2).eq_or_lt with h2 | h2
          · exact absurd (Prod.ext (mul_self_eq_zero.1 h1.symm) (mul_self_eq_zero.1 h2.symm)) c0
          · nlinarith
        · nlinarith [mul_self_nonneg c.2]
      have eU : ((u.1 * u.1 + u.2 * u.2 : ℤ) : ℝ) = (u.1 : ℝ) ^ 2 + (u.2 : ℝ) ^ 2 := by push_cast; ring
      have eV : ((v.1 * v.1 + v.2 * v.2 : ℤ) : ℝ) = (v.1 : ℝ) ^ 2 + (v.2 : ℝ) ^ 2 := by push_cast; ring
      have eA : (A : ℝ) = (c.1 : ℝ) * u.1 + c.2 * u.2 := by rw [← hA]; push_cast; rfl
      have eB : (B : ℝ) = (c.1 : ℝ) * v.1 + c.2 * v.2 := by rw [← hB]; push_cast; rfl
      have pu : (0 : ℝ) < (u.1 : ℝ) ^ 2 + (u.2 : ℝ) ^ 2 := by rw [← eU]; exact_mod_cast u0
      have pv : (0 : ℝ) < (v.1 : ℝ) ^ 2 + (v.2 : ℝ) ^ 2 := by rw [← eV]; exact_mod_cast v0
      have pc : (0 : ℝ) < (c.1 : ℝ) ^ 2 + (c.2 : ℝ) ^ 2 := by exact_mod_cast hcpos
      have gap := vec_gap (ε := 11 / 10 ^ 8) pc pu pv (by
        have : 0 ≤ (c.1 * u.2 - c.2 * u.1) * (c.1 * v.2 - c.2 * v.1) := by
          by_cases h : 0 < c.1 * u.2 - c.2 * u.1
          · exact mul_nonneg h.le (hside.1 h).le
          · exact mul_nonneg_of_nonpos_of_nonpos (not_lt.1 h) (not_lt.1 fun h' => h (hside.2 h'))
        exact_mod_cast this) (by
        have : (11 : ℝ) * (u.1 * u.1 + u.2 * u.2) * (v.1 * v.1 + v.2 * v.2) < 10 ^ 8 * (u.1 * v.2 - u.2 * v.1) ^ 2 := by exact_mod_cast hang
        linarith)
      have dA := dot_le (cx := c.1) (cy := c.2) pu
      have dB := dot_le (cx := c.1) (cy := c.2) pv
      rw [eU, eA] at a5
      rw [eV, eB] at b5
      rw [eU, eA, eV, eB]
      set X := ((c.1 : ℝ) * u.1 + c.2 * u.2) / √((u.1 : ℝ) ^ 2 + (u.2 : ℝ) ^ 2) with hX
      set Y := ((c.1 : ℝ) * v.1 + c.2 * v.2) / √((v.1 : ℝ) ^ 2 + (v.2 : ℝ) ^ 2) with hY
      set C := √((c.1 : ℝ) ^ 2 + (c.2 : ℝ) ^ 2) with hC
      have C0 : 0 < C := Real.sqrt_pos.2 pc
      have q1 := a5.trans (div_le_div_of_nonneg_right dA (by norm_num : (0 : ℝ) ≤ 2 ^ 49))
      have q2 := b5.trans (div_le_div_of_nonneg_right dB (by norm_num : (0 : ℝ) ≤ 2 ^ 49))
      rw [abs_le] at q1 q2
      have small : C / 2 ^ 49 ≤ 1 / 10 ^ 8 * C := by
        rw [div_eq_mul_one_div, mul_comm]
        exact mul_le_mul_of_nonneg_right (by norm_num) C0.le
      rw [← Rat.cast_lt (K := ℝ)]
      rcases lt_trichotomy X Y with h | h | h
      · rw [abs_of_neg (by linarith)] at gap
        exact ⟨fun _ => h, fun _ => by nlinarith [q1.2, q2.1]⟩
      · rw [h, sub_self, abs_zero, mul_zero] at gap
        nlinarith
      · rw [abs_of_pos (by linarith)] at gap
        exact ⟨fun h' => by nlinarith [q1.1, q2.2], fun h' => absurd h' (not_lt.2 h.le)⟩

end Double

end Idc
