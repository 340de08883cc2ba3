import Verif.Model.Float
import Mathlib.Algebra.Order.Floor.Ring
import Mathlib.Data.Rat.Floor
/-!
# Laws of double-precision arithmetic

What the theorems about rounded arithmetic use.  Proved of IEEE 754 double precision (`F64`) in Verif.Props.F64.  Nothing is said about results that are not finite or larger than 2^200.
-/

namespace Idc

open FloatOps

/-- Results are the exact results rounded to 53 significant bits; the rounding is monotone. -/
class Double (F : Type) [FloatOps F] where
  /-- the number is finite -/
  fin : F → Prop
  /-- its value -/
  val : F → ℚ
  /-- the rounding -/
  rd : ℚ → ℚ
  rd_mono : ∀ {x y : ℚ}, x ≤ y → rd x ≤ rd y
  rd_neg : ∀ x : ℚ, rd (-x) = -rd x
  rd_int : ∀ n : ℤ, |n| ≤ 2 ^ 53 → rd n = n
  rd_close : ∀ x : ℚ, 1 / 2 ^ 200 ≤ |x| → |x| ≤ 2 ^ 200 → |rd x - x| ≤ |x| / 2 ^ 53
  ofInt_val : ∀ n : ℤ, |(n : ℚ)| ≤ 2 ^ 200 → fin (ofInt n : F) ∧ val (ofInt n : F) = rd n
  lit_val : ∀ (m : ℤ) (k : ℕ), |(m : ℚ)| ≤ 2 ^ 200 → fin (lit m k : F) ∧ val (lit m k : F) = rd ((m : ℚ) / 10 ^ k)
  add_val : ∀ a b : F, fin a → fin b → |val a + val b| ≤ 2 ^ 200 → fin (add a b) ∧ val (add a b) = rd (val a + val b)
  sub_val : ∀ a b : F, fin a → fin b → |val a - val b| ≤ 2 ^ 200 → fin (sub a b) ∧ val (sub a b) = rd (val a - val b)
  mul_val : ∀ a b : F, fin a → fin b → |val a * val b| ≤ 2 ^ 200 → fin (mul a b) ∧ val (mul a b) = rd (val a * val b)
  div_val : ∀ a b : F, fin a → fin b → val b ≠ 0 → |val a / val b| ≤ 2 ^ 200 → fin (div a b) ∧ val (div a b) = rd (val a / val b)
  /-- a square root is accurate to 51 bits -/
  sqrt_val : ∀ a : F, fin a → 1 ≤ val a → val a ≤ 2 ^ 200 → fin (sqrt a) ∧ 0 < val (sqrt a) ∧ |val (sqrt a) ^ 2 - val a| ≤ val a / 2 ^ 51
  abs_val : ∀ a : F, fin a → fin (abs a) ∧ val (abs a) = |val a|
  /-- `fract` and `round` of whole numbers -/
  fract_val : ∀ (a : F) (n : ℤ), fin a → val a = n → fin (fract a) ∧ val (fract a) = 0
  round_val : ∀ (a : F) (n : ℤ), fin a → val a = n → fin (round a) ∧ val (round a) = n
  min_val : ∀ a b : F, fin a → fin b → fin (FloatOps.min a b) ∧ val (FloatOps.min a b) = Min.min (val a) (val b)
  max_val : ∀ a b : F, fin a → fin b → fin (FloatOps.max a b) ∧ val (FloatOps.max a b) = Max.max (val a) (val b)
  lt_val : ∀ a b : F, fin a → fin b → lt a b = decide (val a < val b)
  eq_val : ∀ a b : F, fin a → fin b → eq a b = decide (val a = val b)
  /-- for NaN, too -/
  lt_self : ∀ a : F, lt a a = false

end Idc
