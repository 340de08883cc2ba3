import Verif.Spec.Areas
/-!
# The areas of a result as polygons of their own

Everything here is independent of how `compute` works.
-/

namespace Idc

open Classical in
/-- The areas of a result, one polygon for each external outline: the outline and all of its holes. -/
noncomputable def areasOf {F : Type} (r : Polygon F) : List (Polygon F × PolygonMode) :=
  (r.contours.zipIdx.filter fun x => x.1.external).map fun x =>
    (⟨x.1 :: (r.contours.zipIdx.filter fun y => HoleWithin r x.2 y.2).map Prod.fst⟩, .normal)

open Classical in
/-- A result with each outline labelled with the area it belongs to: that of the external outline itself, or the one it is a hole in. -/
noncomputable def ownLabels {F : Type} (r : Polygon F) : Polygon F :=
  ⟨r.contours.zipIdx.map fun y => { y.1 with from_polygons :=
    (r.contours.zipIdx.filter fun x => x.1.external).map fun x => decide (x.2 = y.2 ∨ HoleWithin r x.2 y.2) }⟩

end Idc
