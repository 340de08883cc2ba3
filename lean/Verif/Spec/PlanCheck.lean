import Verif.Spec.Plan
import Verif.Spec.TidyCheck
/-!
# A check for outlines that do not cross

For outlines with given whole coordinates, `Planar` can be established by calculation; that the check implies `Planar` is
proved in Props/PlanExample.
-/

namespace Idc

/-- The edges of all outlines but repeated corners, in both directions. -/
def zDrawn (rs : List (List ZPt)) : List (ZPt × ZPt) :=
  ((rs.flatMap zEdges) ++ (rs.flatMap zEdges).map Prod.swap).filter fun e => decide (e.1 ≠ e.2)

/-- The segment `cd` goes on where `ab` ends, the angle between them is less than 90°. -/
def onwards (a b c d : ZPt) : Bool := decide (b = c ∧ 0 < (b.1 - a.1) * (d.1 - c.1) + (b.2 - a.2) * (d.2 - c.2))

/-- The segments `ab` and `cd` have at most an end in common. -/
def planApart (a b c d : ZPt) : Bool := apartCheck a b c d || apartCheck b a c d || apartCheck a b d c || apartCheck b a d c ||
  onwards a b c d || onwards b a c d || onwards a b d c || onwards b a d c

/-- No edge twice. -/
def onceCheck : List (ZPt × ZPt) → Bool
  | [] => true
  | e :: es => (decide (e.1 = e.2) || es.all fun e' => decide (e' ≠ e ∧ e' ≠ e.swap)) && onceCheck es

/-- Some polygons pass. -/
def planarCheck (polys : List (List (List ZPt))) : Bool :=
  (polys.all fun rs => onceCheck (rs.flatMap zEdges)) &&
  ((zDrawn (polys.flatMap fun rs => rs)).all fun e => (zDrawn (polys.flatMap fun rs => rs)).all fun e' =>
    (decide (e' = e) || decide (e' = e.swap) || planApart e.1 e.2 e'.1 e'.2) && angleCheck e.1 e.2 e'.1 e'.2 && distanceCheck e.1 e.2 e'.1 e'.2)

end Idc
