import Verif.Props.Compute
import Verif.Props.HolesExamples
/-!
# C57-C61 on concrete polygons

`compute` evaluated by the kernel over exact rational arithmetic with the list implementation of the
containers (`listLib`, which meets `Lib.Ok`).
-/

namespace Idc

/-- A polygon with one contour. -/
def exPoly (points : List (Rat × Rat)) : Polygon Rat := ⟨[Contour.ofPoints (points.map fun p => ⟨p.1, p.2⟩)]⟩

/-- What is shown of a contour of the result of `compute`. -/
structure ContourView where
  points : List (Rat × Rat)
  from_polygons : List Bool
  neighbors : List Bool
  holes : List Nat
  external : Bool
  deriving DecidableEq

/-- What is shown of the result of `compute`. -/
def exView (polygons : List (Polygon Rat × PolygonMode)) (op : BooleanOpType) : Res (List ContourView) :=
  (compute listLib 200 polygons op).map fun p => p.contours.map fun c =>
    ⟨c.points.map fun p => (p.x, p.y), c.from_polygons, c.neighbors, c.holes, c.external⟩

/-- src/shapeops.rs:1773-1784 `test_no_overlap`: two squares that do not touch. -/
def exApart : List (Polygon Rat × PolygonMode) := [(⟨[exRect 0 0 10 10]⟩, .normal), (⟨[exRect 20 20 10 10]⟩, .normal)]

/-- src/shapeops.rs:1786-1799 `test_corner_overlap`. -/
def exCorner : List (Polygon Rat × PolygonMode) := [(⟨[exRect 0 0 10 10]⟩, .normal), (⟨[exRect 5 5 10 10]⟩, .normal)]

/-- src/shapeops.rs:1801-1812 `test_shared_edge` (in fact a shared corner). -/
def exTouch : List (Polygon Rat × PolygonMode) := [(⟨[exRect 0 0 10 10]⟩, .normal), (⟨[exRect 10 10 10 10]⟩, .normal)]

/-- The model reproduces the repository's own tests of `compute`. -/
theorem compute_repo_tests :
    (exView exApart .intersection).map (List.map fun c => c.points) =
      .ok [[(0, 0), (10, 0), (10, 10), (0, 10)], [(20, 20), (30, 20), (30, 30), (20, 30)]] ∧
    (exView exCorner .intersection).map (List.map fun c => c.points) =
      .ok [[(0, 0), (10, 0), (10, 5), (5, 5), (5, 10), (0, 10)], [(5, 5), (10, 5), (10, 10), (5, 10)],
        [(5, 10), (10, 10), (10, 5), (15, 5), (15, 15), (5, 15)]] ∧
    (exView exTouch .intersection).map (List.map fun c => c.points) =
      .ok [[(0, 0), (10, 0), (10, 10), (0, 10)], [(10, 10), (20, 10), (20, 20), (10, 20)]] := by
  decide +kernel

/-- Overlapping squares, a square whose interior is removed inside the first, an island in the second. -/
def exOverlap : List (Polygon Rat × PolygonMode) :=
  [(⟨[exRect 0 0 60 60]⟩, .normal), (⟨[exRect 40 40 60 60]⟩, .normal), (⟨[exRect 10 10 20 20]⟩, .removeInterior),
   (⟨[exRect 70 70 10 10]⟩, .normal)]

/-- C57-C60 are not about an empty set of runs: here there are holes, neighbours and a removed interior. -/
theorem C57_hypotheses_met : listLib.Ok ∧ exView exOverlap .union = .ok
    [⟨[(0, 0), (60, 0), (60, 40), (40, 40), (40, 60), (0, 60)], [true, false, false, false], [false, false, true, false, false, false], [1], true⟩,
     ⟨[(10, 10), (10, 30), (30, 30), (30, 10)], [true, false, false, false], [false, false, false, false, false, false], [], false⟩,
     ⟨[(40, 40), (60, 40), (60, 60), (40, 60)], [true, true, false, false], [true, false, false, true, false, false], [], true⟩,
     ⟨[(40, 60), (60, 60), (60, 40), (100, 40), (100, 100), (40, 100)], [false, true, false, false], [false, false, true, false, false, false], [5], true⟩,
     ⟨[(70, 70), (80, 70), (80, 80), (70, 80)], [false, true, false, true], [false, false, false, false, false, true], [], true⟩,
     ⟨[(70, 70), (70, 80), (80, 80), (80, 70)], [false, true, false, false], [false, false, false, false, true, false], [], false⟩] :=
  ⟨listLib_ok, by decide +kernel⟩

/-- A square with two square islands, one above the other. -/
def exStack : List (Polygon Rat × PolygonMode) :=
  [(⟨[exRect 0 0 60 60]⟩, .normal), (⟨[exRect 10 10 10 10]⟩, .normal), (⟨[exRect 10 30 10 10]⟩, .normal)]

/-- C58: a hole can be recorded as a hole of another hole (number 4 of number 2) instead of a hole of the area around
both (number 0). -/
theorem C58_hole_of_hole : (exView exStack .union).map (List.map fun c => (c.points, c.holes, c.external)) = .ok
    [([(0, 0), (60, 0), (60, 60), (0, 60)], [2], true), ([(10, 10), (20, 10), (20, 20), (10, 20)], [], true),
     ([(10, 10), (10, 20), (20, 20), (20, 10)], [4], false), ([(10, 30), (20, 30), (20, 40), (10, 40)], [], true),
     ([(10, 30), (10, 40), (20, 40), (20, 30)], [], false)] := by
  decide +kernel

/-- A triangle, and further down polygons that remove edges and interiors. -/
def exAstray : List (Polygon Rat × PolygonMode) :=
  [(exPoly [(-10, 0), (30, 0), (0, 10)], .normal), (exPoly [(0, -20), (5, -30), (10, -20)], .removeEdges),
   (exPoly [(0, -20), (10, -20), (9, -19)], .removeInterior), (exPoly [(0, -20), (25, -15), (30, 0), (12, -8)], .removeEdges),
   (exPoly [(0, -20), (12, -8), (30, 0), (2, -6)], .removeInterior)]

/-- `p` is on the segment from `a` to `b`. -/
def exOnSegment (p a b : Rat × Rat) : Bool :=
  (b.1 - a.1) * (p.2 - a.2) == (b.2 - a.2) * (p.1 - a.1) &&
  min a.1 b.1 ≤ p.1 && p.1 ≤ max a.1 b.1 && min a.2 b.2 ≤ p.2 && p.2 ≤ max a.2 b.2

/-- The edges of a polygon. -/
def exEdges (p : Polygon Rat) : List ((Rat × Rat) × (Rat × Rat)) :=
  p.contours.flatMap fun c => match c.segments with
    | .ok l => l.map fun s => ((s.1.x, s.1.y), (s.2.x, s.2.y))
    | _ => []

/-- C60 is false in general: the second contour goes from (0,-20) straight to (30,0), although the point
in the middle of this edge, (15,-10), is on no edge of any input polygon. -/
theorem C60_stray_edge :
    (exView exAstray .union).map (List.map fun c => c.points) = .ok [[(-10, 0), (30, 0), (0, 10)], [(0, -20), (30, 0), (12, -8)]] ∧
    ∀ p ∈ exAstray, ∀ s ∈ exEdges p.1, exOnSegment (15, -10) s.1 s.2 = false := by
  decide +kernel

/-- C61 is false of the code: the operation asked for makes no difference. -/
theorem C61_operation_ignored_partial {F : Type} [FloatOps F] (lib : Lib) (fuel : Nat) (polygons : List (Polygon F × PolygonMode))
    (op₁ op₂ : BooleanOpType) : compute lib fuel polygons op₁ = compute lib fuel polygons op₂ := rfl

/-- In particular the "intersection" of two squares that do not touch is not empty. -/
theorem C61_intersection_not_empty :
    (exView exApart .intersection).map (List.map fun c => c.points) =
      .ok [[(0, 0), (10, 0), (10, 10), (0, 10)], [(20, 20), (30, 20), (30, 30), (20, 30)]] :=
  compute_repo_tests.1

/-- C69 is false of the code: `compute` panics on some pairs of simple polygons that touch: a triangle with
one vertex on an edge of a rectangle (index out of bounds), and a triangle with two vertices on edges of a
rectangle (an explicit panic). -/
theorem C69_panics :
    compute listLib 200 [(exPoly [(1, 2), (2, 3), (1, 7)], .normal), (⟨[exRect 0 2 3 3]⟩, .normal)] .union = .panic .bounds ∧
    compute listLib 200 [(⟨[exRect 1 2 2 3]⟩, .normal), (exPoly [(2, 2), (3, 3), (6, 9)], .normal)] .union = .panic .explicit := by
  decide +kernel

/-- **C84** fails where a corner is on an edge and no edge comes there from the left: the triangle has its leftmost corner on the upper edge of the
square, and its area is said to belong to the square, too. -/
theorem C84_touching_above : exView [(⟨[exRect 0 0 6 6]⟩, .normal), (exPoly [(3, 6), (5, 8), (4, 8)], .normal)] .union = .ok
    [⟨[(0, 0), (6, 0), (6, 6), (3, 6), (0, 6)], [true, false], [false, false, false], [2], true⟩,
     ⟨[(3, 6), (5, 8), (4, 8)], [true, true], [false, false, true], [], true⟩,
     ⟨[(3, 6), (4, 8), (5, 8)], [true, false], [false, true, false], [], false⟩] := by
  decide +kernel

end Idc
