import Verif.Spec.Plan
/-!
# Polygons elsewhere on the map, or at another scale
-/

namespace Idc

variable {R : Type} [Add R] [Mul R]

/-- A point, scaled by `k` and then moved by `v`. -/
def movePt (k : R) (v p : Pt R) : Pt R := ⟨k * p.x + v.x, k * p.y + v.y⟩

/-- A contour with its points scaled and moved. -/
def moveContour (k : R) (v : Pt R) (c : Contour R) : Contour R := { c with points := c.points.map (movePt k v) }

/-- A polygon with all points scaled and moved. -/
def movePolygon (k : R) (v : Pt R) (p : Polygon R) : Polygon R := ⟨p.contours.map (moveContour k v)⟩

/-- All polygons, scaled and moved alike. -/
def moveAll (k : R) (v : Pt R) (polys : List (Polygon R × PolygonMode)) : List (Polygon R × PolygonMode) :=
  polys.map fun p => (movePolygon k v p.1, p.2)

end Idc
