import Verif.Spec.Plan
/-!
# Polygons whose edges are to be left out, and what `compute` has to make of them

A polygon given with `RemoveEdges` still has an interior, and areas are still labelled with it, but no outline goes along its edges.
Everything here is about exact real arithmetic and independent of how `compute` works.
-/

namespace Idc

/-- The polygons whose edges are not to be left out. -/
def keptPolygons (polys : List (Polygon ℝ × PolygonMode)) : List (Polygon ℝ × PolygonMode) := polys.filter fun p => p.2 ≠ .removeEdges

/-- When edges can be left out.  An edge that a polygon with `RemoveEdges` has in common with one without is not hidden by it: the last
of the polygons that have the edge is one without.  And leaving out an edge joins no area of the result with one that is not in it. -/
structure Removable (polys : List (Polygon ℝ × PolygonMode)) : Prop where
  hides : ∀ (k : Nat) p d, polys[k]? = some p → p.2 = .removeEdges → (d ∈ p.1.edges ∨ d.swap ∈ p.1.edges) → Drawn (keptPolygons polys) d →
    ∃ (k' : Nat) (p' : Polygon ℝ × PolygonMode), k < k' ∧ polys[k']? = some p' ∧ p'.2 ≠ .removeEdges ∧ (d ∈ p'.1.edges ∨ d.swap ∈ p'.1.edges)
  blind : ∀ d f f', Drawn polys d → ¬ Drawn (keptPolygons polys) d → AreaLeft polys d f → AreaLeft polys d.swap f' → (FlagsOk polys f ↔ FlagsOk polys f')

/-- The outlines that `compute` has to find, as lists of corners: along exactly the kept edges with an area in the result on the left, each
once; at each corner on along the first kept edge clockwise from where it came from; from its leftmost corner, which it visits once; and
in the order of the leftmost corners, and, if two have it in common, in the order of the first edges, counterclockwise. -/
structure KeptOutlines (polys : List (Polygon ℝ × PolygonMode)) (outlines : List (List (Pt ℝ))) : Prop where
  edges : ∀ d f, Drawn polys d → AreaLeft polys d f → (d ∈ outlines.flatMap closedEdges ↔ Drawn (keptPolygons polys) d ∧ FlagsOk polys f)
  drawn : ∀ d ∈ outlines.flatMap closedEdges, Drawn polys d
  once : (outlines.flatMap closedEdges).Nodup
  turns : ∀ ps ∈ outlines, ∀ (j : Nat) d d', (closedEdges ps)[j]? = some d → (closedEdges ps)[j + 1]? = some d' →
    d'.1 = d.2 ∧ d' ≠ d.swap ∧ ∀ u, Drawn (keptPolygons polys) u → u.1 = d.2 → u ≠ d' → u ≠ d.swap → TurnsThrough u d' d.swap
  start : ∀ ps ∈ outlines, ∃ v rest, ps = v :: rest ∧ ∀ q ∈ rest, LeftOf v q
  order : outlines.Pairwise fun ps ps' => ∃ d d', (closedEdges ps).head? = some d ∧ (closedEdges ps').head? = some d' ∧
    (LeftOf d.1 d'.1 ∨ d.1 = d'.1 ∧ 0 < cross2 d d')

/-- A clockwise outline at whose leftmost corner the next edge below is one that is left out. -/
def Orphan (polys : List (Polygon ℝ × PolygonMode)) (ps : List (Pt ℝ)) : Prop :=
  signedArea2 ps < 0 ∧ ∃ v b d, ps.head? = some v ∧ ps.getLast? = some b ∧ NextBelow polys (v, b) d ∧ ¬ Drawn (keptPolygons polys) d

end Idc
