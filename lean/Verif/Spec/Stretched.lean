import Verif.Spec.Plan
/-!
# Polygons with horizontal and vertical edges, stretched
-/

namespace Idc

/-- The edge is horizontal or vertical (or of length 0). -/
def Straight (e : Pt ℝ × Pt ℝ) : Prop := e.1.x = e.2.x ∨ e.1.y = e.2.y

/-- All edges are horizontal or vertical. -/
def AxisParallel (polys : List (Polygon ℝ × PolygonMode)) : Prop := ∀ e ∈ allEdges polys, Straight e

variable {R : Type}

/-- A point with its coordinates replaced. -/
def stretchPt (f g : R → R) (p : Pt R) : Pt R := ⟨f p.x, g p.y⟩

/-- A contour with its points moved. -/
def stretchContour (f g : R → R) (c : Contour R) : Contour R := { c with points := c.points.map (stretchPt f g) }

/-- A polygon with all points moved. -/
def stretchPolygon (f g : R → R) (p : Polygon R) : Polygon R := ⟨p.contours.map (stretchContour f g)⟩

/-- All polygons, stretched alike. -/
def stretchAll (f g : R → R) (polys : List (Polygon R × PolygonMode)) : List (Polygon R × PolygonMode) :=
  polys.map fun p => (stretchPolygon f g p.1, p.2)

/-- `f` and `g` keep the order of the first and of the second coordinates that occur. -/
def KeepOrder (f g : ℝ → ℝ) (polys : List (Polygon ℝ × PolygonMode)) : Prop :=
  StrictMonoOn f {x | ∃ q ∈ allCorners polys, q.x = x} ∧ StrictMonoOn g {y | ∃ q ∈ allCorners polys, q.y = y}

end Idc
