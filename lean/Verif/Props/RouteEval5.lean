import Verif.Props.RouteEval4
/-!
# One of the evaluations for C62 (a module of its own, to keep each Lean process small)
-/

namespace Idc

theorem void_panics :
    exRoute exVoid = .panic .unwrap := by
  decide +kernel

end Idc
