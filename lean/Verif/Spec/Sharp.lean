import Verif.Spec.Tidy
/-!
# Polygons with whole coordinates, in any arithmetic

A polygon with whole coordinates can be given to `compute` in exact or in double-precision arithmetic.
-/

namespace Idc

open FloatOps

section

variable (F : Type) [FloatOps F]

/-- A point with whole coordinates, in an arithmetic. -/
def asPt (p : Pt ℤ) : Pt F := ⟨ofInt p.x, ofInt p.y⟩

/-- A contour with whole coordinates, in an arithmetic. -/
def asContour (c : Contour ℤ) : Contour F where
  points := c.points.map (asPt F)
  holes := c.holes
  from_polygons := c.from_polygons
  neighbors := c.neighbors
  external := c.external
  is_clockwise := c.is_clockwise

/-- A polygon with whole coordinates, in an arithmetic. -/
def asPolygon (p : Polygon ℤ) : Polygon F := ⟨p.contours.map (asContour F)⟩

/-- The polygons given to `compute`. -/
def asPolygons (polys : List (Polygon ℤ × PolygonMode)) : List (Polygon F × PolygonMode) := polys.map fun p => (asPolygon F p.1, p.2)

end

/-- The angle between the edges is more than 0.019°: the square of its sine is more than 1.1·10⁻⁷. -/
def SharpAngle (e e' : Pt ℝ × Pt ℝ) : Prop :=
  11 / 10 ^ 8 * ((e.2.x - e.1.x) ^ 2 + (e.2.y - e.1.y) ^ 2) * ((e'.2.x - e'.1.x) ^ 2 + (e'.2.y - e'.1.y) ^ 2) <
    ((e.2.x - e.1.x) * (e'.2.y - e'.1.y) - (e.2.y - e.1.y) * (e'.2.x - e'.1.x)) ^ 2

/-- A little more room than `Tidy` asks for: coordinates between -32768 and 32768 (a map's), at most 2²¹ corners in an outline,
and 10 % more than the tolerance where angles are concerned. -/
structure Sharp (polys : List (Polygon ℝ × PolygonMode)) : Prop where
  box : ∀ q ∈ allCorners polys, |q.x| ≤ 2 ^ 15 ∧ |q.y| ≤ 2 ^ 15
  count : ∀ p ∈ polys, ∀ c ∈ p.1.contours, c.points.length ≤ 2 ^ 21
  angles : ∀ e ∈ allEdges polys, ∀ e' ∈ allEdges polys, e ≠ e' → ParallelEdges e e' ∨ SharpAngle e e'
  distances : ∀ e ∈ allEdges polys, ∀ e' ∈ allEdges polys, e ≠ e' → ParallelEdges e e' →
    OnLine e e'.1 ∨ ∀ a b, EndOf e a → EndOf e' b → SharpAngle e (a, b)

end Idc
