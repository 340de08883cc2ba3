import Verif.Spec.Float
import Mathlib.Analysis.Convex.Hull
/-!
# Where the player cannot be

The player is a square with half-width 16 around its position, parallel to the axes.
-/

namespace Idc

/-- A point as a pair. -/
def Pt.pair (p : Pt ℝ) : ℝ × ℝ := (p.x, p.y)

/-- The square of the player at `p` has a point in common with the line from `a` to `b`. -/
def PlayerTouches (a b p : ℝ × ℝ) : Prop :=
  ∃ q ∈ segment ℝ a b, |q.1 - p.1| ≤ 16 ∧ |q.2 - p.2| ≤ 16

/-- The points lie, in their order, clockwise on the boundary of a convex shape: no three of them make a left turn. -/
def ClockwiseConvex (ps : List (ℝ × ℝ)) : Prop :=
  ∀ a b c, [a, b, c].Sublist ps → (b.1 - a.1) * (c.2 - a.2) - (b.2 - a.2) * (c.1 - a.1) ≤ 0

end Idc
