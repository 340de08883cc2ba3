import Verif.Spec.Plan
/-!
# Polygons whose outlines cross

Everything here is about exact real arithmetic and independent of how `compute` works.
-/

namespace Idc

/-- The edges `l` lead, end to end, along the straight line from `a` to `b`. -/
inductive Pieces : Pt ℝ → Pt ℝ → List (Pt ℝ × Pt ℝ) → Prop
  | whole (a b : Pt ℝ) : Pieces a b [(a, b)]
  | step {a b c : Pt ℝ} {l : List (Pt ℝ × Pt ℝ)} : OnSegment (a, b) c → c ≠ a → c ≠ b → Pieces c b l → Pieces a b ((a, c) :: l)

/-- The outline `ps'` is the outline `ps`, with corners added on the edges. -/
def Subdivided (ps ps' : List (Pt ℝ)) : Prop :=
  ∃ ds, List.Forall₂ (fun e d => Pieces e.1 e.2 d) (closedEdges ps) ds ∧ closedEdges ps' = ds.flatten

open Classical in
/-- The corner `q` in the interior of the edge `e`: it is in the interior of no other edge along the same line, and some other edge comes to it
from the left, or starts there and goes to the right, but not above `e`. -/
def Met (polys : List (Polygon ℝ × PolygonMode)) (e : Pt ℝ × Pt ℝ) (q : Pt ℝ) : Prop :=
  ((allEdges polys).filter fun e' => OnSegment e' q ∧ ¬ EndOf e' q ∧ ParallelEdges e e').length = 1 ∧
    ((∃ e' ∈ allEdges polys, OnSegment e' q ∧ (EndOf e' q ∨ ¬ ParallelEdges e e') ∧ ∃ a, EndOf e' a ∧ LeftOf a q) ∨
      ∃ r, EndOf e r ∧ LeftOf q r ∧ ∃ e' ∈ allEdges polys, EndOf e' q ∧ ∃ a, EndOf e' a ∧ LeftOf q a ∧ cross2 (q, r) (q, a) ≤ 0)

/-- `polys'` are the polygons `polys`, with corners added on the edges, so that the outlines do not cross any more (`Planar`); this
includes that the added corners have whole coordinates or are told apart from the others.  Edges may cross, any number of them at a point, corners may be on other edges, and edges may
run along parts of others.  But where a corner is added inside an edge, it is added inside no other edge along the same line, and the code has a reason
to split the edge there (`Met`): some other edge comes from the left, or starts there and goes to the right, but not above the edge. -/
structure Crossed (polys polys' : List (Polygon ℝ × PolygonMode)) : Prop where
  refined : List.Forall₂ (fun p p' => p'.2 = p.2 ∧ List.Forall₂ (fun c c' => Subdivided c.points c'.points) p.1.contours p'.1.contours) polys polys'
  planar : Planar polys'
  met : ∀ e ∈ allEdges polys, ∀ q ∈ allCorners polys', OnSegment e q → ¬ EndOf e q → Met polys e q

/-- A binary search finds nothing if no element compares equal, whatever the other comparisons say.  This holds for any
implementation that returns `Ok` only for an element that compares equal, but the documentation promises it only for sorted
slices. -/
def Lib.SearchHonest (lib : Lib) : Prop :=
  ∀ {α : Type} (cmp : α → α → Res Ordering) (x : α) (l : List α), (∀ y ∈ l, ∃ o, cmp y x = .ok o ∧ o ≠ .eq) →
    ∃ i, i ≤ l.length ∧ lib.binarySearch cmp x l = .ok (false, i)

end Idc
