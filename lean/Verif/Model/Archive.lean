import Verif.Model.BinMap
/-!
# WADArchive: src/archive/wad.rs:26-136, src/parse/map.rs:427-468
-/

namespace Idc

/-- src/archive/mod.rs:3-11 `Namespace`. -/
inductive Namespace where
  | Unknown | Map | Sprite | Flat
  deriving DecidableEq, Repr

/-- src/archive/wad.rs:46-50 `Entry`. -/
structure Entry where
  name : Bytes
  data : Bytes
  nspace : Namespace
  deriving DecidableEq, Repr

/-- src/archive/wad.rs:26-45 `MapBlock`. -/
structure MapBlock where
  format : MapFormat
  name : MapName
  marker : Entry
  things : Option Entry
  linedefs : Option Entry
  sidedefs : Option Entry
  vertexes : Option Entry
  segs : Option Entry
  ssectors : Option Entry
  nodes : Option Entry
  sectors : Option Entry
  reject : Option Entry
  blockmap : Option Entry
  behavior : Option Entry
  textmap : Option Entry
  deriving DecidableEq, Repr

/-- src/archive/wad.rs:51-54 `Item`. -/
inductive Item where
  | map (b : MapBlock)
  | entry (e : Entry)
  deriving DecidableEq, Repr

/-- src/archive/wad.rs:59-64 `WADArchive`. -/
structure WADArchive where
  wadtype : WADType
  contents : List Item
  deriving DecidableEq, Repr

/-- src/archive/wad.rs:70-77, the closure `make_entry`. -/
def makeEntry (w : BareWAD) (i : Nat) : Res Entry := do
  let e ← index w.directory i
  let d ← e.extractSlice w.buffer
  pure { name := e.name, data := d, nspace := .Map }

/-- src/archive/wad.rs:84-102, one map item (`Option::map(make_entry)` per lump, in field order). -/
def makeMapBlock (w : BareWAD) (r : MapEntryBlock) : Res MapBlock := do
  let marker ← makeEntry w r.marker_index
  let things ← Res.mapOption (makeEntry w) r.things_index
  let linedefs ← Res.mapOption (makeEntry w) r.linedefs_index
  let sidedefs ← Res.mapOption (makeEntry w) r.sidedefs_index
  let vertexes ← Res.mapOption (makeEntry w) r.vertexes_index
  let segs ← Res.mapOption (makeEntry w) r.segs_index
  let ssectors ← Res.mapOption (makeEntry w) r.ssectors_index
  let nodes ← Res.mapOption (makeEntry w) r.nodes_index
  let sectors ← Res.mapOption (makeEntry w) r.sectors_index
  let reject ← Res.mapOption (makeEntry w) r.reject_index
  let blockmap ← Res.mapOption (makeEntry w) r.blockmap_index
  let behavior ← Res.mapOption (makeEntry w) r.behavior_index
  let textmap ← Res.mapOption (makeEntry w) r.textmap_index
  pure { format := r.format, name := r.name, marker, things, linedefs, sidedefs, vertexes, segs,
         ssectors, nodes, sectors, reject, blockmap, behavior, textmap }

/-- src/archive/wad.rs:82-116, one iteration of the `for` loop: the items pushed. -/
def convertItem (w : BareWAD) : WADItem → Res (List Item)
  | .map r => do
    let b ← makeMapBlock w r
    pure [.map b]
  | .startMarker _ _ => .ok []
  | .endMarker _ _ => .ok []
  | .entry _ e => do
    let d ← e.extractSlice w.buffer
    pure [.entry { name := e.name, data := d, nspace := .Unknown }]

/-- src/archive/wad.rs:69-122 `WADArchive::from_bare` (= `BareWAD::to_archive`, line 199). -/
def WADArchive.fromBare (w : BareWAD) : Res WADArchive := do
  let pieces ← Res.mapList (convertItem w) w.items
  pure { wadtype := w.header.identification, contents := pieces.flatten }

/-- src/archive/wad.rs:124-133 `WADArchive::first_entry`. -/
def WADArchive.firstEntry (a : WADArchive) (name : Bytes) : Option Entry :=
  a.contents.findSome? fun item =>
    match item with
    | .entry e => if e.name = name then some e else none
    | .map _ => none

/-- src/parse/map.rs:427-468 `parse_doom_map_from_archive`. -/
def parseDoomMapFromArchive (block : MapBlock) : Res BareMap := do
  let entry ← requireLump "VERTEXES" block.vertexes
  let vertices ← nomToResult "VERTEXES lump" entry.data (vertexesLump entry.data)
  let entry ← requireLump "SECTORS" block.sectors
  let sectors ← nomToResult "SECTORS lump" entry.data (sectorsLump entry.data)
  let entry ← requireLump "SIDEDEFS" block.sidedefs
  let sides ← nomToResult "SIDEDEFS lump" entry.data (sidedefsLump entry.data)
  if block.format = .Doom then do
    let entry ← requireLump "LINEDEFS" block.linedefs
    let lines ← nomToResult "LINEDEFS lump" entry.data (doomLinedefsLump entry.data)
    let entry ← requireLump "THINGS" block.things
    let things ← nomToResult "THINGS lump" entry.data (doomThingsLump entry.data)
    pure (.doom { vertices, sectors, sides, lines, things })
  else do
    let entry ← requireLump "LINEDEFS" block.linedefs
    let lines ← nomToResult "LINEDEFS lump" entry.data (hexenLinedefsLump entry.data)
    let entry ← requireLump "THINGS" block.things
    let things ← nomToResult "THINGS lump" entry.data (hexenThingsLump entry.data)
    pure (.hexen { vertices, sectors, sides, lines, things })

end Idc
