import Verif.Model.Wad
/-!
# Between markers
-/

namespace Idc

/-- Some begin marker was passed and no end marker since. -/
def Inside (bm em : Bytes) (before : List Bytes) : Prop :=
  ∃ p q, before = p ++ bm :: q ∧ em ∉ q

end Idc
