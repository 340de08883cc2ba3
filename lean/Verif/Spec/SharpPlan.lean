import Verif.Spec.Plan
import Verif.Spec.Sharp
/-!
# Room for rounding, where outlines share corners and edges
-/

namespace Idc

/-- A little more room than `Planar` asks for: coordinates between -32768 and 32768 (a map's), at most 2²⁰ corners, and
10 % more than the tolerance where angles are concerned. -/
structure SharpPlan (polys : List (Polygon ℝ × PolygonMode)) : Prop where
  box : ∀ q ∈ allCorners polys, |q.x| ≤ 2 ^ 15 ∧ |q.y| ≤ 2 ^ 15
  count : (allCorners polys).length ≤ 2 ^ 20
  angles : ∀ e e', Drawn polys e → Drawn polys e' → ParallelEdges e e' ∨ SharpAngle e e'
  distances : ∀ e e', Drawn polys e → Drawn polys e' → ParallelEdges e e' → OnLine e e'.1 ∨ SharpAngle e (e.1, e'.1)

end Idc
