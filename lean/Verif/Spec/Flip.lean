import Verif.Spec.BinMap
import Verif.Spec.WadWrite
/-!
# What flipping a map means

Mirror in the x axis: every y coordinate and every angle is negated, and each line's endpoints are
swapped (so that its front stays on the same side).
-/

namespace Idc

/-- The negated 16-bit number. -/
def neg16 (x : Int16) : Int16 := Int16.ofInt (-x.toInt)

def mirrorThing (t : BareDoomThing) : BareDoomThing := { t with y := neg16 t.y, angle := neg16 t.angle }
def mirrorLine (l : BareDoomLine) : BareDoomLine := { l with v0 := l.v1, v1 := l.v0 }
def mirrorVertex (v : BareVertex) : BareVertex := { v with y := neg16 v.y }

/-- The mirrored map. -/
def mirror (m : BareDoomMap) : BareDoomMap :=
  { vertices := m.vertices.map mirrorVertex, sectors := m.sectors, sides := m.sides,
    lines := m.lines.map mirrorLine, things := m.things.map mirrorThing }

/-- No coordinate or angle to be negated is -32768, which has no 16-bit negative. -/
def Negatable (m : BareDoomMap) : Prop :=
  (∀ t ∈ m.things, t.y.toInt ≠ -32768 ∧ t.angle.toInt ≠ -32768) ∧ ∀ v ∈ m.vertices, v.y.toInt ≠ -32768

/-- The name of a map's marker lump. -/
def markerName (w : BareWAD) (r : MapEntryBlock) : Bytes :=
  match w.directory[r.marker_index]? with
  | some e => e.name
  | none => []

/-- Every map of the WAD, in order: its marker name and the outcome of parsing it. -/
def parsedMaps (w : BareWAD) : List (Bytes × Res BareMap) :=
  w.iterMaps.map fun r => (markerName w r, parseDoomMap w r)

/-- The Doom-format maps of the WAD, in order, with their names. -/
def doomMaps (w : BareWAD) : List (Bytes × BareDoomMap) :=
  (parsedMaps w).filterMap fun p =>
    match p.2 with
    | .ok (.doom m) => some (p.1, m)
    | _ => none

/-- Every map parses. -/
def AllParse (w : BareWAD) : Prop := ∀ p ∈ parsedMaps w, ∃ m, p.2 = .ok m

/-- The number of bytes of lump data a map takes. -/
def mapBytes (m : BareDoomMap) : Nat :=
  10 * m.things.length + 14 * m.lines.length + 30 * m.sides.length + 4 * m.vertices.length + 26 * m.sectors.length

/-- The maps fit a WAD: counts and offsets are 32-bit. -/
def FitsWad (ms : List (Bytes × BareDoomMap)) : Prop :=
  6 * ms.length < 2 ^ 32 ∧ 12 + (ms.map fun p => mapBytes p.2).sum < 2 ^ 32

end Idc
