import Verif.Model.Segment
import Verif.Spec.Float
import Mathlib.Order.WithBot
/-!
# Orders on endpoints
-/

namespace Idc

/-- As every segment made by `SweepSegment::new`: the left point is left of the right point, or below it
on the same vertical. -/
def SweepSegment.WellFormed {T : Type} (s : SweepSegment ℝ T) : Prop :=
  s.left_point.x < s.right_point.x ∨ (s.left_point.x = s.right_point.x ∧ s.left_point.y < s.right_point.y)

/-- `cmp` never panics on elements of `P` and is a total preorder there: swapping the arguments reverses
the answer, and "not greater" is transitive. -/
structure TotalPreorderOn {α : Type} (P : α → Prop) (cmp : α → α → Res Ordering) : Prop where
  total : ∀ a b, P a → P b → ∃ o, cmp a b = .ok o ∧ cmp b a = .ok o.swap
  trans : ∀ a b c o₁ o₂ o₃, P a → P b → P c → cmp a b = .ok o₁ → cmp b c = .ok o₂ → cmp a c = .ok o₃ →
    o₁ ≠ .gt → o₂ ≠ .gt → o₃ ≠ .gt ∧ (o₃ = .eq → o₁ = .eq ∧ o₂ = .eq)

/-- The slope of a direction pointing right, or straight up. -/
noncomputable def slope (x y : ℝ) : WithTop ℝ := if x = 0 then ⊤ else ((y / x : ℝ) : WithTop ℝ)

end Idc
