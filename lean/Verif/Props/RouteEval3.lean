import Verif.Props.RouteEval2
/-!
# One of the evaluations for C62 (a module of its own, to keep each Lean process small)
-/

namespace Idc

theorem rooms_blocked :
    (exRoute (exRooms 1 0)).map (fun r => r.2) = .ok ([1, 2, 2], [[0], [1, 2]]) := by
  decide +kernel

end Idc
