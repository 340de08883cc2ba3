import Verif.Props.RouteEval1
/-!
# One of the evaluations for C62 (a module of its own, to keep each Lean process small)
-/

namespace Idc

theorem rooms_25 :
    (exRoute (exRooms 0 25)).map (fun r => r.2) = .ok ([1, 2, 2], [[0], [1, 2]]) := by
  decide +kernel

end Idc
