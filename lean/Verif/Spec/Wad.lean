import Verif.Spec.Bytes
import Verif.Model.Wad
/-!
# What a WAD file is

Written from the WAD file format: a 12-byte header (magic, lump count, directory offset) and a
directory of 16-byte rows (offset, size, 8-byte name).
-/

namespace Idc

/-- The four magic bytes of each WAD type. -/
def magicOf : WADType → Bytes
  | .IWAD => [0x49, 0x57, 0x41, 0x44]
  | .PWAD => [0x50, 0x57, 0x41, 0x44]

/-- `b` starts with the magic of `t`. -/
def HasMagic (b : Bytes) (t : WADType) : Prop := bytesAt b 0 4 = magicOf t

/-- `b` could still turn out to be a WAD: its first (up to) four bytes agree with a magic. -/
def MagicPossible (b : Bytes) : Prop := ∃ t, bytesAt b 0 4 = (magicOf t).take b.length

/-- Offset of directory row `k`. -/
def rowOffset (b : Bytes) (k : Nat) : Nat := u32At b 8 + 16 * k

/-- A well-formed WAD file. -/
structure IsWad (b : Bytes) : Prop where
  length_ge : 12 ≤ b.length
  magic : ∃ t, HasMagic b t
  table_fits : u32At b 8 + 16 * u32At b 4 ≤ b.length
  names_ok : ∀ k < u32At b 4, Printable (nameAt b (rowOffset b k + 8) 8)

/-- `w` is what the bytes of `b` say. -/
structure Describes (b : Bytes) (w : BareWAD) : Prop where
  buffer : w.buffer = b
  magic : HasMagic b w.header.identification
  numlumps : w.header.numlumps.toNat = u32At b 4
  infotableofs : w.header.infotableofs.toNat = u32At b 8
  directory_length : w.directory.length = u32At b 4
  rows : ∀ k (e : DirEntry), w.directory[k]? = some e →
    e.filepos.toNat = u32At b (rowOffset b k) ∧
    e.size.toNat = u32At b (rowOffset b k + 4) ∧
    e.name = nameAt b (rowOffset b k + 8) 8

end Idc
