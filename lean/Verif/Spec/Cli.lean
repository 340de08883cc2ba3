import Verif.Model.Cli
import Verif.Spec.Archive
import Verif.Spec.Texturex
import Verif.Spec.Flip
import Verif.Spec.Svg
import Verif.Spec.Between
/-!
# What the commands are for
-/

namespace Idc

/-- What `info` says about an item of a WAD: its name, and for maps also the format. -/
def ItemPrinted (w : BareWAD) : WADItem → List InfoLine → Prop
  | .entry i _, ls => ∃ d, w.directory[i]? = some d ∧ ls = [.lump d.name]
  | .map r, ls =>
    (∃ m, parseDoomMap w r = .ok (.doom m) ∧ ls = [.blank, .doomMap r.name.display]) ∨
    (∃ m, parseDoomMap w r = .ok (.hexen m) ∧ ls = [.hexenMap r.name.display])
  | .startMarker _ _, _ => False
  | .endMarker _ _, _ => False

/-- The names of the lumps inside F_START ... F_END, in order. -/
def FlatsListed (w : BareWAD) (names : List Bytes) : Prop :=
  ∃ is : List Nat, is.Pairwise (· < ·) ∧
    (∀ i, i ∈ is ↔ Inside (str "F_START") (str "F_END") ((w.directory.map (·.name)).take i) ∧
      ∃ e, w.directory[i]? = some e ∧ e.name ≠ str "F_END") ∧
    is.map (fun i => w.directory[i]?.map (·.name)) = names.map some

/-- Lump `i` is the first with this name. -/
def FirstNamed (w : BareWAD) (name : Bytes) (i : Nat) : Prop :=
  (∃ e, w.directory[i]? = some e ∧ e.name = name) ∧ ∀ j, j < i → ∀ e, w.directory[j]? = some e → e.name ≠ name

/-- The lump that tells the textures: the first TEXTURE1, or if there is none the first TEXTURE2. -/
def TextureLump (w : BareWAD) (b : Bytes) : Prop :=
  (∃ i, FirstNamed w (str "TEXTURE1") i ∧ LumpIs w i b) ∨
  ((∀ e ∈ w.directory, e.name ≠ str "TEXTURE1") ∧ ∃ i, FirstNamed w (str "TEXTURE2") i ∧ LumpIs w i b)

/-- The names of the textures that are not stock, each once. -/
def TexturesListed (w : BareWAD) (names : List Bytes) : Prop :=
  names.Nodup ∧ ∀ n, n ∈ names ↔ (∃ b, TextureLump w b ∧ ∃ k, k < texCount b ∧ (texAt b k).name = n) ∧ ∀ s ∈ doom2Textures, n ≠ str s

/-- The name is one of MAP00 to MAP14. -/
def LowMap (n : MapName) : Prop := ∃ k : Nat, k < 15 ∧ n = .MAPxx (UInt8.ofNat k)

end Idc
