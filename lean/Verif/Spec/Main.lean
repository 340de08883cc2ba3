import Verif.Model.Main
/-!
# Runs of the program
-/

namespace Idc

/-- The bytes a run is about: standard input for `-`, otherwise the contents of the file, which must not be empty. -/
def InputIs (w : World) (file : Bytes) (bytes : Bytes) : Prop :=
  (file = str "-" ∧ w.stdin = some bytes) ∨ (file ≠ str "-" ∧ w.file file = some bytes ∧ bytes ≠ [])

/-- The files a run with this command line may write. -/
def Outputs (args : Args) (name : Bytes) : Prop :=
  args.sub = some (.chart name) ∨ args.sub = some (.route name) ∨ (args.sub = some .shapeops ∧ name = str "idchoppers-shapeops.svg")

end Idc
