import Verif.Spec.SharpCheck
import Verif.Spec.PlanCheck
/-!
# A check for outlines that share corners and edges, with a bit of room at their angles

For outlines with given whole coordinates, `SharpPlan` can be established by calculation; that the check implies it is proved in
Props/SharpPlanExample.
-/

namespace Idc

/-- The outlines pass. -/
def sharpPlanCheck (polys : List (List (List ZPt))) : Bool :=
  (decide (((polys.flatMap fun rs => rs).flatMap fun r => r).length ≤ 2 ^ 20) &&
    ((polys.flatMap fun rs => rs).flatMap fun r => r).all fun p => decide (|p.1| ≤ 2 ^ 15) && decide (|p.2| ≤ 2 ^ 15)) &&
  ((zDrawn (polys.flatMap fun rs => rs)).all fun e => (zDrawn (polys.flatMap fun rs => rs)).all fun e' =>
    (decide (zdir e.1 e.2 e'.1 e'.2 = 0) || sharpAngleCheck e.1 e.2 e'.1 e'.2) &&
    (decide (zdir e.1 e.2 e'.1 e'.2 ≠ 0) || decide (zcross e.1 e.2 e'.1 = 0) || sharpAngleCheck e.1 e.2 e.1 e'.1))

end Idc
