import Verif.Spec.Crossed
import Verif.Spec.PlanCheck
/-!
# A check for outlines that cross

For outlines with given whole coordinates, `Crossed` can be established by calculation; that the check implies `Crossed` is
proved in Props/CrossedExample.
-/

namespace Idc

/-- `q` is on the segment `ab`. -/
def zOn (a b q : ZPt) : Bool :=
  decide (zcross a b q = 0 ∧ min a.1 b.1 ≤ q.1 ∧ q.1 ≤ max a.1 b.1 ∧ min a.2 b.2 ≤ q.2 ∧ q.2 ≤ max a.2 b.2)

/-- The first edges of the second list lead along the first edge of the first list, and so on. -/
def piecesCheck : List (ZPt × ZPt) → List (ZPt × ZPt) → Bool
  | [], [] => true
  | (a, b) :: es, (c, d) :: ds => decide (c = a) &&
    (if d = b then piecesCheck es ds else zOn a b d && decide (d ≠ a) && piecesCheck ((d, b) :: es) ds)
  | _, _ => false

/-- The outlines of one polygon pass. -/
def refineCheck : List (List ZPt) → List (List ZPt) → Bool
  | [], [] => true
  | c :: cs, d :: ds => piecesCheck (zEdges c) (zEdges d) && refineCheck cs ds
  | _, _ => false

/-- The polygons pass. -/
def refinesCheck : List (List (List ZPt) × PolygonMode) → List (List (List ZPt) × PolygonMode) → Bool
  | [], [] => true
  | p :: ps, q :: qs => decide (q.2 = p.2) && refineCheck p.1 q.1 && refinesCheck ps qs
  | _, _ => false

/-- Left, or below on the same vertical line. -/
def zLeft (a b : ZPt) : Bool := decide (a.1 < b.1 ∨ a.1 = b.1 ∧ a.2 < b.2)

/-- The edge from `q` to `b` goes to the right, but not above `e`. -/
def zNotAbove (e : ZPt × ZPt) (q b : ZPt) : Bool :=
  zLeft q b && ((zLeft q e.1 && decide (zdir q e.1 q b ≤ 0)) || (zLeft q e.2 && decide (zdir q e.2 q b ≤ 0)))

/-- `q` is in the interior of no other edge along `e`, and another edge comes there from the left, or starts there and is not above `e`. -/
def metCheck (es : List (ZPt × ZPt)) (e : ZPt × ZPt) (q : ZPt) : Bool :=
  decide ((es.filter fun e' => zOn e'.1 e'.2 q && (!decide (q = e'.1 ∨ q = e'.2) && decide (zdir e.1 e.2 e'.1 e'.2 = 0))).length = 1) &&
  (es.any (fun e' => zOn e'.1 e'.2 q && ((decide (q = e'.1 ∨ q = e'.2) || decide (zdir e.1 e.2 e'.1 e'.2 ≠ 0)) && (zLeft e'.1 q || zLeft e'.2 q))) ||
    es.any fun e' => (decide (q = e'.1) && zNotAbove e q e'.2) || (decide (q = e'.2) && zNotAbove e q e'.1))

/-- Some polygons, and the same with corners added, pass. -/
def crossedCheck (polys polys' : List (List (List ZPt) × PolygonMode)) : Bool :=
  refinesCheck polys polys' && planarCheck (polys'.map fun p => p.1) &&
  (((polys.flatMap fun p => p.1).flatMap zEdges).all fun e => ((polys'.flatMap fun p => p.1).flatMap fun r => r).all fun q =>
    !zOn e.1 e.2 q || decide (q = e.1) || decide (q = e.2) || metCheck ((polys.flatMap fun p => p.1).flatMap zEdges) e q)

end Idc
