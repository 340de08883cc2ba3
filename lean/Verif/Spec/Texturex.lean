import Verif.Spec.Bytes
import Verif.Model.Texturex
/-!
# The TEXTUREx lump format

A 32-bit count, that many 32-bit offsets, and at each offset a texture whose first 22 bytes are
name (8), masked (4), width (2), height (2), columndirectory (4), patch count (2).
-/

namespace Idc

/-- The offset of texture `k`. -/
def texOffset (b : Bytes) (k : Nat) : Int := i32At b (4 + 4 * k)

/-- The count is there and not negative, and the offset table fits. -/
def TexHeaderFits (b : Bytes) : Prop :=
  4 ≤ b.length ∧ 0 ≤ i32At b 0 ∧ 4 + 4 * (i32At b 0) ≤ b.length

/-- The number of textures. -/
def texCount (b : Bytes) : Nat := (i32At b 0).toNat

/-- Texture `k` can be decoded. -/
def TexOk (b : Bytes) (k : Nat) : Prop :=
  0 ≤ texOffset b k ∧ texOffset b k + 22 ≤ b.length ∧ Printable (nameAt b (texOffset b k).toNat 8)

/-- Texture `k`. -/
def texAt (b : Bytes) (k : Nat) : TEXTURExEntry :=
  let o := (texOffset b k).toNat
  { name := nameAt b o 8, width := Int16.ofInt (i16At b (o + 12)), height := Int16.ofInt (i16At b (o + 14)) }

/-- Texture `k` is the first that cannot be decoded. -/
def FirstBadTex (b : Bytes) (k : Nat) : Prop :=
  TexHeaderFits b ∧ k < texCount b ∧ (∀ j, j < k → TexOk b j) ∧ ¬ TexOk b k

end Idc
