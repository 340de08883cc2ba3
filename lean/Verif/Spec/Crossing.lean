import Verif.Spec.Crossed
/-!
# Polygons whose outlines cross, without naming the crossings

Everything here is about exact real arithmetic and independent of how `compute` works.
-/

namespace Idc

/-- A point, not a corner, where two edges cross. -/
def Junction (polys : List (Polygon ℝ × PolygonMode)) (q : Pt ℝ) : Prop :=
  q ∉ allCorners polys ∧ ∃ e ∈ allEdges polys, ∃ e' ∈ allEdges polys, OnSegment e q ∧ OnSegment e' q ∧ ¬ ParallelEdges e e'

/-- A corner or a crossing. -/
def Vertex (polys : List (Polygon ℝ × PolygonMode)) (q : Pt ℝ) : Prop := q ∈ allCorners polys ∨ Junction polys q

/-- A piece of an edge between neighboring corners or crossings, in either direction. -/
structure EdgePiece (polys : List (Polygon ℝ × PolygonMode)) (d : Pt ℝ × Pt ℝ) : Prop where
  ne : d.1 ≠ d.2
  ends : Vertex polys d.1 ∧ Vertex polys d.2
  on : ∃ e ∈ allEdges polys, OnSegment e d.1 ∧ OnSegment e d.2
  clear : ∀ q, Vertex polys q → OnSegment d q → EndOf d q

/-- Outlines that may share corners and edges, and cross.  No two edges of one polygon run along each other.  Corners and crossings have whole coordinates, or at
least they and the pieces of edges between them are told apart (`Separate`).
Where a corner or crossing is inside an edge, it is inside no other edge along the same line, and some other edge comes from the left, or starts there and goes to
the right, but not above the edge (`Met`).
Edges are parallel or the angle between them is more than 0.018°; parallel edges are on one line, or the angles at which the corners and crossings on them see
each other differ from that of the lines by more than 0.018°. -/
structure Crossing (polys : List (Polygon ℝ × PolygonMode)) : Prop where
  separate : Separate (Vertex polys) (EdgePiece polys)
  once : ∀ p ∈ polys, p.1.edges.Pairwise fun e e' => ∀ a b, OnSegment e a → OnSegment e b → OnSegment e' a → OnSegment e' b → a = b
  met : ∀ e ∈ allEdges polys, ∀ q, Vertex polys q → OnSegment e q → ¬ EndOf e q → Met polys e q
  angles : ∀ e e', Drawn polys e → Drawn polys e' → ParallelEdges e e' ∨ ¬ NearlyParallel e e'
  distances : ∀ e e', Drawn polys e → Drawn polys e' → ParallelEdges e e' → OnLine e e'.1 ∨
    ∀ q q', Vertex polys q → OnSegment e q → Vertex polys q' → OnSegment e' q' → ClearlyOff e q q'

/-- The next piece, `d`, below the left end of a piece `e`.  Among the pieces that go to the right from there, and are below `e`, it is the highest;
if there are none, it is the first piece below the point. -/
structure NextPieceBelow (polys : List (Polygon ℝ × PolygonMode)) (e d : Pt ℝ × Pt ℝ) : Prop where
  piece : EdgePiece polys d
  right : LeftOf d.1 d.2
  next : (d.1 = e.1 ∧ 0 < cross2 d e ∧ ∀ u, EdgePiece polys u → LeftOf u.1 u.2 → u.1 = e.1 → 0 < cross2 u e → 0 ≤ cross2 u d) ∨
    ((∀ u, EdgePiece polys u → LeftOf u.1 u.2 → u.1 = e.1 → ¬ 0 < cross2 u e) ∧ CrossesBelow e.1 d ∧
      ∀ u, EdgePiece polys u → CrossesBelow e.1 u → ∀ x, Over d x → Over u x → heightAt u x ≤ heightAt d x)

end Idc
