import Verif.Props.IntVal
import Verif.Spec.Rat
import Verif.Spec.Sharp
import Verif.Spec.Grid
import Mathlib.Tactic.FieldSimp
import Mathlib.Tactic.Linarith
import Mathlib.Tactic.LinearCombination
/-!
# Exact arithmetic, for C92

What the rational and the real numbers have in common.
-/

namespace Idc

open FloatOps

noncomputable instance : Exact ℝ where
  val a := a
  inj _ _ h := h
  ofInt _ := rfl
  lit _ _ := rfl
  add _ _ := rfl
  sub _ _ := rfl
  mul _ _ := rfl
  div _ _ := rfl
  abs _ := rfl
  min _ _ := rfl
  max _ _ := rfl
  lt _ _ := rfl
  eq _ _ := rfl
  fract n := by simp [FloatOps.fract, FloatOps.ofInt]
  round n := by
    simp only [FloatOps.round, FloatOps.ofInt]
    split
    · have : ⌊(n : ℝ) + 1 / 2⌋ = n := by
        rw [Int.floor_eq_iff]; constructor <;> linarith
      rw [this]
    · have : ⌈(n : ℝ) - 1 / 2⌉ = n := by
        rw [Int.ceil_eq_iff]; constructor <;> linarith
      rw [this]
  sqrt n := by
    show Real.sqrt (((n * n : ℤ)) : ℝ) = _
    push_cast
    exact Real.sqrt_mul_self_eq_abs _

theorem rat_floor_int (n : ℤ) : (n : ℚ).floor = n := by simp

noncomputable instance : Exact ℚ where
  val a := (a : ℝ)
  inj _ _ h := Rat.cast_injective h
  ofInt n := by simp [FloatOps.ofInt]
  lit m k := by
    show ((mkRat m (10 ^ k) : ℚ) : ℝ) = _
    rw [Rat.mkRat_eq_div]
    push_cast
    rfl
  add a b := by simp [FloatOps.add]
  sub a b := by simp [FloatOps.sub]
  mul a b := by simp [FloatOps.mul]
  div a b := by simp [FloatOps.div]
  abs a := by
    show (((if a < 0 then -a else a : ℚ)) : ℝ) = _
    split
    · rename_i h
      have : (a : ℝ) < 0 := by exact_mod_cast h
      rw [abs_of_neg this]; push_cast; rfl
    · rename_i h
      have : (0 : ℝ) ≤ a := by exact_mod_cast not_lt.1 h
      rw [abs_of_nonneg this]
  min a b := by
    show (((if a ≤ b then a else b : ℚ)) : ℝ) = _
    rw [← Rat.cast_min]
    congr 1
  max a b := by
    show (((if a ≤ b then b else a : ℚ)) : ℝ) = _
    rw [← Rat.cast_max]
    congr 1
  lt a b := by simp [FloatOps.lt]
  eq a b := by
    rw [Bool.eq_iff_iff]
    simp [FloatOps.eq]
  fract n := by
    show (((if (0 : ℚ) ≤ n then (n : ℚ) - ((n : ℚ).floor : ℚ) else (n : ℚ) + ((-(n : ℚ)).floor : ℚ) : ℚ)) : ℝ) = 0
    have h : (-(n : ℚ)).floor = -n := by rw [← Int.cast_neg]; exact rat_floor_int _
    rw [h, rat_floor_int]
    split <;> simp
  round n := by
    show (((if (0 : ℚ) ≤ n then (((n : ℚ) + 1 / 2).floor : ℚ) else -((-(n : ℚ) + 1 / 2).floor : ℚ) : ℚ)) : ℝ) = n
    have h : ∀ n : ℤ, ((n : ℚ) + 1 / 2).floor = n := by
      intro n
      have := (Int.floor_eq_iff (a := ((n : ℚ) + 1 / 2)) (z := n)).2 ⟨by linarith, by linarith⟩
      exact this
    have h' : (-(n : ℚ) + 1 / 2).floor = -n := by rw [← Int.cast_neg]; exact h _
    rw [h, h']
    split <;> simp
  sqrt n := by
    show (((mkRat (Nat.sqrt ((((n * n : ℤ) : ℚ)).num.toNat * (((n * n : ℤ) : ℚ)).den * 10 ^ 40)) ((((n * n : ℤ) : ℚ)).den * 10 ^ 20) : ℚ)) : ℝ) = _
    rw [Rat.num_intCast, Rat.den_intCast]
    have e : (n * n).toNat * 1 * 10 ^ 40 = (n.natAbs * 10 ^ 20) * (n.natAbs * 10 ^ 20) := by
      have : (n * n).toNat = n.natAbs * n.natAbs := by
        zify
        rw [Int.toNat_of_nonneg (mul_self_nonneg n)]
        exact (abs_mul_abs_self n).symm
      rw [this]; ring
    rw [e, Nat.sqrt_eq, Rat.mkRat_eq_div]
    push_cast
    field_simp

end Idc
