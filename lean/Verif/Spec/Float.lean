import Verif.Model.Float
import Mathlib.Analysis.Real.Sqrt
import Mathlib.Algebra.Order.Floor.Ring
/-!
# Laws of floating-point arithmetic

`IntExact F`: what IEEE 754 double precision guarantees about integers of magnitude at most 2^53.
`FloatOps ℝ`: exact real arithmetic.
-/

namespace Idc

open FloatOps

/-- Comparisons, sums and differences of integers, and products of non-negative ones, are exact as long as operands and
result have magnitude at most 2^53.  (A product of zero and a negative number is the other zero, -0.) -/
class IntExact (F : Type) [FloatOps F] : Prop where
  lt_ofInt : ∀ a b : Int, |a| ≤ 2 ^ 53 → |b| ≤ 2 ^ 53 → lt (ofInt a : F) (ofInt b) = decide (a < b)
  eq_ofInt : ∀ a b : Int, |a| ≤ 2 ^ 53 → |b| ≤ 2 ^ 53 → eq (ofInt a : F) (ofInt b) = decide (a = b)
  add_ofInt : ∀ a b : Int, |a| ≤ 2 ^ 53 → |b| ≤ 2 ^ 53 → |a + b| ≤ 2 ^ 53 → add (ofInt a : F) (ofInt b) = ofInt (a + b)
  sub_ofInt : ∀ a b : Int, |a| ≤ 2 ^ 53 → |b| ≤ 2 ^ 53 → |a - b| ≤ 2 ^ 53 → sub (ofInt a : F) (ofInt b) = ofInt (a - b)
  mul_ofInt : ∀ a b : Int, 0 ≤ a → 0 ≤ b → |a| ≤ 2 ^ 53 → |b| ≤ 2 ^ 53 → |a * b| ≤ 2 ^ 53 → mul (ofInt a : F) (ofInt b) = ofInt (a * b)

/-- Exact real arithmetic.  `nan` is arbitrary; `fract` and `round` as in Rust (towards zero; half away
from zero). -/
noncomputable instance : FloatOps ℝ where
  ofInt n := (n : ℝ)
  lit m k := (m : ℝ) / 10 ^ k
  nan := 0
  add a b := a + b
  sub a b := a - b
  mul a b := a * b
  div a b := a / b
  sqrt := Real.sqrt
  abs a := |a|
  fract a := if 0 ≤ a then a - ⌊a⌋ else a - ⌈a⌉
  round a := if 0 ≤ a then (⌊a + 1 / 2⌋ : ℝ) else (⌈a - 1 / 2⌉ : ℝ)
  min a b := Min.min a b
  max a b := Max.max a b
  lt a b := decide (a < b)
  eq a b := decide (a = b)

/-- The laws hold of exact arithmetic. -/
instance : IntExact ℝ where
  lt_ofInt a b _ _ := by simp [lt, ofInt]
  eq_ofInt a b _ _ := by simp [eq, ofInt]
  add_ofInt a b _ _ _ := by simp [add, ofInt]
  sub_ofInt a b _ _ _ := by simp [sub, ofInt]
  mul_ofInt a b _ _ _ _ _ := by simp [mul, ofInt]

/-- Integer points as floating-point points. -/
def ofIntPt {F : Type} [FloatOps F] (p : Int × Int) : Pt F := ⟨ofInt p.1, ofInt p.2⟩

/-- `(x0, y0) – (x1, y1)` is the smallest box around the (non-empty) points `ps`: every point is inside
and every side is touched. -/
structure SmallestBox {α : Type} [LE α] (x0 y0 x1 y1 : α) (ps : List (α × α)) : Prop where
  inside : ∀ p ∈ ps, x0 ≤ p.1 ∧ p.1 ≤ x1 ∧ y0 ≤ p.2 ∧ p.2 ≤ y1
  left : ∃ p ∈ ps, p.1 = x0
  right : ∃ p ∈ ps, p.1 = x1
  bottom : ∃ p ∈ ps, p.2 = y0
  top : ∃ p ∈ ps, p.2 = y1

end Idc
