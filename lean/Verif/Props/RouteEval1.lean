import Verif.Props.RouteExamples
/-!
# One of the evaluations for C62 (a module of its own, to keep each Lean process small)
-/

namespace Idc

theorem rooms_24 :
    exRoute (exRooms 0 24) = .ok ([[(16, 16), (84, 16), (84, 84), (16, 84)], [(84, 16), (100, 16), (116, 16), (116, 84), (100, 84), (84, 84)],
      [(116, 16), (184, 16), (184, 84), (116, 84)]], [1, 1, 1], [[0, 1, 2]]) := by
  decide +kernel

end Idc
