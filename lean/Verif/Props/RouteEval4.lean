import Verif.Props.RouteEval3
/-!
# One of the evaluations for C62 (a module of its own, to keep each Lean process small)
-/

namespace Idc

theorem void_areas :
    ((routePolygons exVoid 400).bind fun ps => (compute listLib 400 ps .union).map fun r => r.contours.length) = .ok 6 := by
  decide +kernel

end Idc
