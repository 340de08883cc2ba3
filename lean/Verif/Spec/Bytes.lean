import Verif.Model.Prim
/-!
# Positional reading of a byte string

Specification vocabulary: what is at offset `i` of a file.  Nothing here mentions parsers.
-/

namespace Idc

/-- The byte at offset `i` (0 past the end). -/
def byteAt (b : Bytes) (i : Nat) : Nat := (b[i]?.getD 0).toNat

/-- Little-endian unsigned 16-bit number at offset `i`. -/
def u16At (b : Bytes) (i : Nat) : Nat := byteAt b i + 256 * byteAt b (i + 1)

/-- Little-endian unsigned 32-bit number at offset `i`. -/
def u32At (b : Bytes) (i : Nat) : Nat :=
  byteAt b i + 256 * byteAt b (i + 1) + 65536 * byteAt b (i + 2) + 16777216 * byteAt b (i + 3)

/-- Two's complement little-endian 16-bit number at offset `i`. -/
def i16At (b : Bytes) (i : Nat) : Int :=
  if u16At b i < 32768 then (u16At b i : Int) else (u16At b i : Int) - 65536

/-- Two's complement little-endian 32-bit number at offset `i`. -/
def i32At (b : Bytes) (i : Nat) : Int :=
  if u32At b i < 2147483648 then (u32At b i : Int) else (u32At b i : Int) - 4294967296

/-- The `n` bytes from offset `i`. -/
def bytesAt (b : Bytes) (i n : Nat) : Bytes := (b.drop i).take n

/-- The NUL-terminated (or full width) name in the `w`-byte field at offset `i`. -/
def nameAt (b : Bytes) (i w : Nat) : Bytes := (bytesAt b i w).takeWhile fun c => c != 0

/-- Printable ASCII. -/
def Printable (s : Bytes) : Prop := ∀ c ∈ s, 32 ≤ c.toNat ∧ c.toNat ≤ 126

instance (s : Bytes) : Decidable (Printable s) := by unfold Printable; infer_instance

/-- The bytes `[pos, pos + size)` of `b`, position by position. -/
def IsRange (b : Bytes) (pos size : Nat) (d : Bytes) : Prop :=
  d.length = size ∧ ∀ k < size, d[k]? = b[pos + k]?

end Idc
