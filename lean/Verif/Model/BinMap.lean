import Verif.Model.WadIter
/-!
# Binary map lumps: src/parse/map.rs:1-466

Field order of every structure is the Rust field order; the order of reads and writes is the order
of the Rust statements.
-/

namespace Idc

/-- src/parse/map.rs:29 `hexen_args` (`[u8; 5]` is a list of length 5 here). -/
def hexenArgs : Parser Bytes := fun i => count leU8 i 5 i

/-- src/parse/map.rs:31-40 `BareDoomThing`. -/
structure BareDoomThing where
  x : Int16
  y : Int16
  angle : Int16
  doomednum : Int16
  flags : UInt16
  deriving DecidableEq, Repr

/-- src/parse/map.rs:43-50 `BareDoomThing::write_to`. -/
def BareDoomThing.writeTo (t : BareDoomThing) : Bytes :=
  wI16 t.x ++ wI16 t.y ++ wI16 t.angle ++ wI16 t.doomednum ++ wU16 t.flags

/-- src/parse/map.rs:53-60, one record of `doom_things_lump`. -/
def doomThing : Parser BareDoomThing := do
  let x ← leI16
  let y ← leI16
  let angle ← leI16
  let doomednum ← leI16
  let flags ← leU16
  pure { x, y, angle, doomednum, flags }

/-- src/parse/map.rs:53-60 `doom_things_lump`. -/
def doomThingsLump : Parser (List BareDoomThing) := many0 (complete doomThing)

/-- src/parse/map.rs:62-75 `BareHexenThing`. -/
structure BareHexenThing where
  tid : Int16
  x : Int16
  y : Int16
  z : Int16
  angle : Int16
  doomednum : Int16
  flags : UInt16
  special : UInt8
  args : Bytes
  deriving DecidableEq, Repr

/-- src/parse/map.rs:77-98, one record of `hexen_things_lump`. -/
def hexenThing : Parser BareHexenThing := do
  let tid ← leI16
  let x ← leI16
  let y ← leI16
  let z ← leI16
  let angle ← leI16
  let doomednum ← leI16
  let flags ← leU16
  let special ← leU8
  let args ← hexenArgs
  pure { tid, x, y, z, angle, doomednum, flags, special, args }

/-- src/parse/map.rs:77-98 `hexen_things_lump`. -/
def hexenThingsLump : Parser (List BareHexenThing) := many0 (complete hexenThing)

/-- src/parse/map.rs:125-135 `BareDoomLine`. -/
structure BareDoomLine where
  v0 : Int16
  v1 : Int16
  flags : Int16
  special : Int16
  sector_tag : Int16
  front_sidedef : Int16
  back_sidedef : Int16
  deriving DecidableEq, Repr

/-- src/parse/map.rs:138-147 `BareDoomLine::write_to`. -/
def BareDoomLine.writeTo (l : BareDoomLine) : Bytes :=
  wI16 l.v0 ++ wI16 l.v1 ++ wI16 l.flags ++ wI16 l.special ++ wI16 l.sector_tag ++
    wI16 l.front_sidedef ++ wI16 l.back_sidedef

/-- src/parse/map.rs:150-159, one record of `doom_linedefs_lump`. -/
def doomLine : Parser BareDoomLine := do
  let v0 ← leI16
  let v1 ← leI16
  let flags ← leI16
  let special ← leI16
  let sector_tag ← leI16
  let front_sidedef ← leI16
  let back_sidedef ← leI16
  pure { v0, v1, flags, special, sector_tag, front_sidedef, back_sidedef }

/-- src/parse/map.rs:150-159 `doom_linedefs_lump`. -/
def doomLinedefsLump : Parser (List BareDoomLine) := many0 (complete doomLine)

/-- src/parse/map.rs:162-172 `BareHexenLine`. -/
structure BareHexenLine where
  v0 : Int16
  v1 : Int16
  flags : Int16
  special : UInt8
  args : Bytes
  front_sidedef : Int16
  back_sidedef : Int16
  deriving DecidableEq, Repr

/-- src/parse/map.rs:174-191, one record of `hexen_linedefs_lump`. -/
def hexenLine : Parser BareHexenLine := do
  let v0 ← leI16
  let v1 ← leI16
  let flags ← leI16
  let special ← leU8
  let args ← hexenArgs
  let front_sidedef ← leI16
  let back_sidedef ← leI16
  pure { v0, v1, flags, special, args, front_sidedef, back_sidedef }

/-- src/parse/map.rs:174-191 `hexen_linedefs_lump`. -/
def hexenLinedefsLump : Parser (List BareHexenLine) := many0 (complete hexenLine)

/-- src/parse/map.rs:228-236 `BareSide`. -/
structure BareSide where
  x_offset : Int16
  y_offset : Int16
  upper_texture : Bytes
  lower_texture : Bytes
  middle_texture : Bytes
  sector : Int16
  deriving DecidableEq, Repr

/-- src/parse/map.rs:242-247 (and the other four places): write a name, then zeros for
`name.len() .. 8`. -/
def writeName (s : Bytes) : Bytes := s ++ List.replicate (8 - s.length) 0

/-- src/parse/map.rs:239-256 `BareSide::write_to`. -/
def BareSide.writeTo (s : BareSide) : Bytes :=
  wI16 s.x_offset ++ wI16 s.y_offset ++ writeName s.upper_texture ++ writeName s.lower_texture ++
    writeName s.middle_texture ++ wI16 s.sector

/-- src/parse/map.rs:259-274, one record of `sidedefs_lump`. -/
def side : Parser BareSide := do
  let x_offset ← leI16
  let y_offset ← leI16
  let upper_texture ← fixedLengthAscii 8
  let lower_texture ← fixedLengthAscii 8
  let middle_texture ← fixedLengthAscii 8
  let sector ← leI16
  pure { x_offset, y_offset, upper_texture, lower_texture, middle_texture, sector }

/-- src/parse/map.rs:259-274 `sidedefs_lump`. -/
def sidedefsLump : Parser (List BareSide) := many0 (complete side)

/-- src/parse/map.rs:277-281 `BareVertex`. -/
structure BareVertex where
  x : Int16
  y : Int16
  deriving DecidableEq, Repr

/-- src/parse/map.rs:284-288 `BareVertex::write_to`. -/
def BareVertex.writeTo (v : BareVertex) : Bytes := wI16 v.x ++ wI16 v.y

/-- src/parse/map.rs:291-295, one record of `vertexes_lump`. -/
def vertex : Parser BareVertex := do
  let x ← leI16
  let y ← leI16
  pure { x, y }

/-- src/parse/map.rs:291-295 `vertexes_lump`. -/
def vertexesLump : Parser (List BareVertex) := many0 (complete vertex)

/-- src/parse/map.rs:299-308 `BareSector`. -/
structure BareSector where
  floor_height : Int16
  ceiling_height : Int16
  floor_texture : Bytes
  ceiling_texture : Bytes
  light : Int16
  sector_type : Int16
  sector_tag : Int16
  deriving DecidableEq, Repr

/-- src/parse/map.rs:311-326 `BareSector::write_to`. -/
def BareSector.writeTo (s : BareSector) : Bytes :=
  wI16 s.floor_height ++ wI16 s.ceiling_height ++ writeName s.floor_texture ++
    writeName s.ceiling_texture ++ wI16 s.light ++ wI16 s.sector_type ++ wI16 s.sector_tag

/-- src/parse/map.rs:329-346, one record of `sectors_lump`. -/
def sector : Parser BareSector := do
  let floor_height ← leI16
  let ceiling_height ← leI16
  let floor_texture ← fixedLengthAscii 8
  let ceiling_texture ← fixedLengthAscii 8
  let light ← leI16
  let sector_type ← leI16
  let sector_tag ← leI16
  pure { floor_height, ceiling_height, floor_texture, ceiling_texture, light, sector_type, sector_tag }

/-- src/parse/map.rs:329-346 `sectors_lump`. -/
def sectorsLump : Parser (List BareSector) := many0 (complete sector)

/-- src/parse/map.rs:349-356 `BareBinaryMap`. -/
structure BareBinaryMap (L T : Type) where
  vertices : List BareVertex
  sectors : List BareSector
  sides : List BareSide
  lines : List L
  things : List T
  deriving DecidableEq, Repr

/-- src/parse/map.rs:362 `BareDoomMap`. -/
abbrev BareDoomMap := BareBinaryMap BareDoomLine BareDoomThing
/-- src/parse/map.rs:368 `BareHexenMap`. -/
abbrev BareHexenMap := BareBinaryMap BareHexenLine BareHexenThing

/-- src/parse/map.rs:370-374 `BareMap`. -/
inductive BareMap where
  | doom (m : BareDoomMap)
  | hexen (m : BareHexenMap)
  deriving DecidableEq, Repr

/-- `opt.ok_or(ErrorKind::MissingMapLump(name))?`. -/
def requireLump {α : Type} (lump : String) : Option α → Res α
  | some a => .ok a
  | none => .err (.missingMapLump lump)

/-- src/parse/map.rs:378-426 `parse_doom_map`. -/
def parseDoomMap (w : BareWAD) (range : MapEntryBlock) : Res BareMap := do
  let i ← requireLump "VERTEXES" range.vertexes_index
  let buf ← w.entrySlice i
  let vertices ← nomToResult "VERTEXES lump" buf (vertexesLump buf)
  let i ← requireLump "SECTORS" range.sectors_index
  let buf ← w.entrySlice i
  let sectors ← nomToResult "SECTORS lump" buf (sectorsLump buf)
  let i ← requireLump "SIDEDEFS" range.sidedefs_index
  let buf ← w.entrySlice i
  let sides ← nomToResult "SIDEDEFS lump" buf (sidedefsLump buf)
  if range.format = .Doom then do
    let i ← requireLump "LINEDEFS" range.linedefs_index
    let buf ← w.entrySlice i
    let lines ← nomToResult "LINEDEFS lump" buf (doomLinedefsLump buf)
    let i ← requireLump "THINGS" range.things_index
    let buf ← w.entrySlice i
    let things ← nomToResult "THINGS lump" buf (doomThingsLump buf)
    pure (.doom { vertices, sectors, sides, lines, things })
  else do
    let i ← requireLump "LINEDEFS" range.linedefs_index
    let buf ← w.entrySlice i
    let lines ← nomToResult "LINEDEFS lump" buf (hexenLinedefsLump buf)
    let i ← requireLump "THINGS" range.things_index
    let buf ← w.entrySlice i
    let things ← nomToResult "THINGS lump" buf (hexenThingsLump buf)
    pure (.hexen { vertices, sectors, sides, lines, things })

end Idc
