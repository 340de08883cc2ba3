import Verif.Spec.Bytes
import Verif.Model.BinMap
/-!
# The binary map lump formats

Written from the format descriptions: where each field of a record starting at offset `o` lies.
-/

namespace Idc

/-- 10-byte Doom thing. -/
def doomThingAt (b : Bytes) (o : Nat) : BareDoomThing :=
  { x := Int16.ofInt (i16At b o), y := Int16.ofInt (i16At b (o + 2)), angle := Int16.ofInt (i16At b (o + 4)),
    doomednum := Int16.ofInt (i16At b (o + 6)), flags := UInt16.ofNat (u16At b (o + 8)) }

/-- 20-byte Hexen thing. -/
def hexenThingAt (b : Bytes) (o : Nat) : BareHexenThing :=
  { tid := Int16.ofInt (i16At b o), x := Int16.ofInt (i16At b (o + 2)), y := Int16.ofInt (i16At b (o + 4)),
    z := Int16.ofInt (i16At b (o + 6)), angle := Int16.ofInt (i16At b (o + 8)),
    doomednum := Int16.ofInt (i16At b (o + 10)), flags := UInt16.ofNat (u16At b (o + 12)),
    special := UInt8.ofNat (byteAt b (o + 14)), args := bytesAt b (o + 15) 5 }

/-- 14-byte Doom line. -/
def doomLineAt (b : Bytes) (o : Nat) : BareDoomLine :=
  { v0 := Int16.ofInt (i16At b o), v1 := Int16.ofInt (i16At b (o + 2)), flags := Int16.ofInt (i16At b (o + 4)),
    special := Int16.ofInt (i16At b (o + 6)), sector_tag := Int16.ofInt (i16At b (o + 8)),
    front_sidedef := Int16.ofInt (i16At b (o + 10)), back_sidedef := Int16.ofInt (i16At b (o + 12)) }

/-- 16-byte Hexen line. -/
def hexenLineAt (b : Bytes) (o : Nat) : BareHexenLine :=
  { v0 := Int16.ofInt (i16At b o), v1 := Int16.ofInt (i16At b (o + 2)), flags := Int16.ofInt (i16At b (o + 4)),
    special := UInt8.ofNat (byteAt b (o + 6)), args := bytesAt b (o + 7) 5,
    front_sidedef := Int16.ofInt (i16At b (o + 12)), back_sidedef := Int16.ofInt (i16At b (o + 14)) }

/-- 30-byte side. -/
def sideAt (b : Bytes) (o : Nat) : BareSide :=
  { x_offset := Int16.ofInt (i16At b o), y_offset := Int16.ofInt (i16At b (o + 2)),
    upper_texture := nameAt b (o + 4) 8, lower_texture := nameAt b (o + 12) 8,
    middle_texture := nameAt b (o + 20) 8, sector := Int16.ofInt (i16At b (o + 28)) }

/-- The three texture names of a side record are printable up to their first NUL. -/
def SideOk (b : Bytes) (o : Nat) : Prop :=
  Printable (nameAt b (o + 4) 8) ∧ Printable (nameAt b (o + 12) 8) ∧ Printable (nameAt b (o + 20) 8)

/-- 4-byte vertex. -/
def vertexAt (b : Bytes) (o : Nat) : BareVertex :=
  { x := Int16.ofInt (i16At b o), y := Int16.ofInt (i16At b (o + 2)) }

/-- 26-byte sector. -/
def sectorAt (b : Bytes) (o : Nat) : BareSector :=
  { floor_height := Int16.ofInt (i16At b o), ceiling_height := Int16.ofInt (i16At b (o + 2)),
    floor_texture := nameAt b (o + 4) 8, ceiling_texture := nameAt b (o + 12) 8,
    light := Int16.ofInt (i16At b (o + 20)), sector_type := Int16.ofInt (i16At b (o + 22)),
    sector_tag := Int16.ofInt (i16At b (o + 24)) }

/-- The two flat names of a sector record are printable up to their first NUL. -/
def SectorOk (b : Bytes) (o : Nat) : Prop :=
  Printable (nameAt b (o + 4) 8) ∧ Printable (nameAt b (o + 12) 8)

/-- The first `k` records of `size` bytes each. -/
def records {α : Type} (size : Nat) (dec : Bytes → Nat → α) (b : Bytes) (k : Nat) : List α :=
  (List.range k).map fun j => dec b (j * size)

/-- `k` is the length of the longest run, from the start of `b`, of complete records of `size` bytes
that satisfy `good`. -/
structure LongestRun (size : Nat) (good : Bytes → Nat → Prop) (b : Bytes) (k : Nat) : Prop where
  fits : ∀ j, j < k → (j + 1) * size ≤ b.length
  valid : ∀ j, j < k → good b (j * size)
  stops : ¬ ((k + 1) * size ≤ b.length ∧ good b (k * size))

/-- A name that fits the 8-byte field and is printable. -/
def GoodName (s : Bytes) : Prop := s.length ≤ 8 ∧ Printable s

/-- An 8-byte name field with everything after its first NUL replaced by NULs. -/
def cleanName (b : Bytes) (o : Nat) : Bytes := nameAt b o 8 ++ List.replicate (8 - (nameAt b o 8).length) 0

/-- A side record with its name fields cleaned. -/
def cleanSide (b : Bytes) (o : Nat) : Bytes :=
  bytesAt b o 4 ++ cleanName b (o + 4) ++ cleanName b (o + 12) ++ cleanName b (o + 20) ++ bytesAt b (o + 28) 2

/-- A sector record with its name fields cleaned. -/
def cleanSector (b : Bytes) (o : Nat) : Bytes :=
  bytesAt b o 4 ++ cleanName b (o + 4) ++ cleanName b (o + 12) ++ bytesAt b (o + 20) 6

/-- The lumps a map needs, in the order they are looked at, with where the block says they are. -/
def neededLumps (r : MapEntryBlock) : List (String × Option Nat) :=
  [("VERTEXES", r.vertexes_index), ("SECTORS", r.sectors_index), ("SIDEDEFS", r.sidedefs_index),
   ("LINEDEFS", r.linedefs_index), ("THINGS", r.things_index)]

/-- Directory entry `i` exists, lies inside the file, and its bytes are `d`. -/
def LumpIs (w : BareWAD) (i : Nat) (d : Bytes) : Prop :=
  ∃ e, w.directory[i]? = some e ∧ e.filepos.toNat + e.size.toNat ≤ w.buffer.length ∧
    IsRange w.buffer e.filepos.toNat e.size.toNat d

/-- `m` is what the five lumps say, in Doom format. -/
structure DecodesDoom (vertexes sectors sidedefs linedefs things : Bytes) (m : BareDoomMap) : Prop where
  vertices : m.vertices = records 4 vertexAt vertexes (vertexes.length / 4)
  sectors : ∃ k, LongestRun 26 SectorOk sectors k ∧ m.sectors = records 26 sectorAt sectors k
  sides : ∃ k, LongestRun 30 SideOk sidedefs k ∧ m.sides = records 30 sideAt sidedefs k
  lines : m.lines = records 14 doomLineAt linedefs (linedefs.length / 14)
  things : m.things = records 10 doomThingAt things (things.length / 10)

/-- `m` is what the five lumps say, in Hexen format. -/
structure DecodesHexen (vertexes sectors sidedefs linedefs things : Bytes) (m : BareHexenMap) : Prop where
  vertices : m.vertices = records 4 vertexAt vertexes (vertexes.length / 4)
  sectors : ∃ k, LongestRun 26 SectorOk sectors k ∧ m.sectors = records 26 sectorAt sectors k
  sides : ∃ k, LongestRun 30 SideOk sidedefs k ∧ m.sides = records 30 sideAt sidedefs k
  lines : m.lines = records 16 hexenLineAt linedefs (linedefs.length / 16)
  things : m.things = records 20 hexenThingAt things (things.length / 20)

end Idc
