import Verif.Spec.Bytes
import Verif.Spec.Wad
/-!
# A reference WAD writer

Independent of the code: the textbook layout "header, lump data, directory".
-/

namespace Idc

/-- 32-bit little-endian encoding. -/
def le32 (n : Nat) : Bytes :=
  [UInt8.ofNat (n % 256), UInt8.ofNat (n / 256 % 256), UInt8.ofNat (n / 65536 % 256),
   UInt8.ofNat (n / 16777216 % 256)]

/-- An 8-byte NUL-padded name. -/
def pad8 (s : Bytes) : Bytes := s ++ List.replicate (8 - s.length) 0

/-- A named lump. -/
structure Lump where
  name : Bytes
  data : Bytes
  deriving DecidableEq, Repr

/-- All lump data, in order. -/
def lumpData (ls : List Lump) : Bytes := (ls.map (·.data)).flatten

/-- The directory rows of lumps laid out one after the other from offset `pos`. -/
def lumpRows (pos : Nat) : List Lump → Bytes
  | [] => []
  | l :: ls => le32 pos ++ le32 l.data.length ++ pad8 l.name ++ lumpRows (pos + l.data.length) ls

/-- A whole WAD file. -/
def encodeWad (t : WADType) (ls : List Lump) : Bytes :=
  magicOf t ++ le32 ls.length ++ le32 (12 + (lumpData ls).length) ++ lumpData ls ++ lumpRows 12 ls

/-- Lumps that can be stored: names of up to 8 printable bytes, and 32-bit sizes. -/
structure Storable (ls : List Lump) : Prop where
  names : ∀ l ∈ ls, Printable l.name ∧ l.name.length ≤ 8
  count : ls.length < 2 ^ 32
  size : 12 + (lumpData ls).length < 2 ^ 32

end Idc
