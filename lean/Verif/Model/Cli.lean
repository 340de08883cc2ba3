import Verif.Model.Svg
import Verif.Model.Archive
import Verif.Model.Texturex
import Verif.Model.Flip
import Mathlib.Data.List.Dedup
/-!
# Commands: programs/src/idchoppers.rs:43-218, 711-739

What a command does is modelled by the lines it prints (`info`) or the document it saves (`chart`, `route`).  Not
modelled: parsing the command line (clap), colours, reading the file (C66), turning numbers into text, failures to write.
-/

namespace Idc

variable {F : Type} [FloatOps F]

/-- A document saved by `chart`. -/
inductive Chart (F : Type) where
  | full (d : SvgDoc F)
  | bare (d : SvgDoc Int16)
  deriving DecidableEq, Repr

/-- programs/src/idchoppers.rs:200-215, the loop over the maps (both arms end it). -/
def chartLoop (pr : Profile) (fuel : Nat) (w : BareWAD) : List MapEntryBlock → Res (Option (Chart F))
  | [] => .ok none
  | range :: _ => do
    let bareMap ← parseDoomMap w range
    match bareMap with
    | .doom map => do
      let full ← FullMap.fromBare map
      let doc ← mapAsSvg fuel full
      pure (some (.full doc))
    | .hexen map => do
      let doc ← bareMapAsSvg pr fuel map
      pure (some (.bare doc))

/-- programs/src/idchoppers.rs:199-218 `do_chart`: the document saved, if any. -/
def doChart (pr : Profile) (fuel : Nat) (w : BareWAD) : Res (Option (Chart F)) := chartLoop pr fuel w w.iterMaps

/-- programs/src/idchoppers.rs:715-719: is the map left out? -/
def routeSkips : MapName → Bool
  | .MAPxx n => decide (n < 15)
  | .ExMy _ _ => false

/-- programs/src/idchoppers.rs:713-736, the loop over the maps. -/
def routeLoop (lib : Lib) (fuel : Nat) (w : BareWAD) : List MapEntryBlock → Res (Option (RouteDoc F))
  | [] => .ok none
  | range :: ranges =>
    if routeSkips range.name then routeLoop lib fuel w ranges
    else do
      let bareMap ← parseDoomMap w range
      match bareMap with
      | .doom map => do
        let full ← FullMap.fromBare map
        let doc ← routeMapAsSvg lib fuel full
        pure (some doc)
      | .hexen _ => pure none

/-- programs/src/idchoppers.rs:711-739 `do_route`: the document saved, if any. -/
def doRoute (lib : Lib) (fuel : Nat) (w : BareWAD) : Res (Option (RouteDoc F)) := routeLoop lib fuel w w.iterMaps

/-- A line printed by `info`. -/
inductive InfoLine where
  /-- line 91 -/
  | identification (t : WADType)
  /-- line 93 -/
  | found (t : WADType) (numlumps infotableofs : UInt32)
  /-- line 139 -/
  | blank
  /-- line 140 -/
  | doomMap (name : Bytes)
  /-- line 154 -/
  | hexenMap (name : Bytes)
  /-- line 159 -/
  | lump (name : Bytes)
  /-- line 166 -/
  | flat (name : Bytes)
  /-- line 168 -/
  | rule
  /-- line 193 -/
  | texture (name : Bytes)
  deriving DecidableEq, Repr

/-- What a command printed, and how it ended. -/
structure Printed where
  lines : List InfoLine
  outcome : Res Unit
  deriving DecidableEq, Repr

/-- Print, then go on. -/
def Printed.after (lines : List InfoLine) (p : Printed) : Printed := { p with lines := lines ++ p.lines }

/-- Go on with the value of a call, or end as it does. -/
def Printed.bind {α : Type} (r : Res α) (f : α → Printed) : Printed :=
  match r with
  | .ok a => f a
  | .err e => ⟨[], .err e⟩
  | .panic p => ⟨[], .panic p⟩
  | .diverge => ⟨[], .diverge⟩

/-- programs/src/idchoppers.rs:129-162: the loop over the archive, then `k`. -/
def infoItems (F : Type) [FloatOps F] : List Item → Printed → Printed
  | [], k => k
  | .map block :: items, k =>
    .bind (parseDoomMapFromArchive block) fun bareMap =>
      match bareMap with
      | .doom map =>
        .bind (FullMap.fromBare (F := F) map) fun _ =>
          .after [.blank, .doomMap block.name.display] (infoItems F items k)
      | .hexen _ => .after [.hexenMap block.name.display] (infoItems F items k)
  | .entry entry :: items, k => .after [.lump entry.name] (infoItems F items k)

/-- programs/src/idchoppers.rs:176-183: the textures.  Both lumps are looked up before `or` picks one. -/
def infoTextures (w : BareWAD) : Res (List TEXTURExEntry) := do
  let one ← w.firstEntry (str "TEXTURE1")
  let two ← w.firstEntry (str "TEXTURE2")
  match one.or two with
  | some texbuf => parseTexturexNames texbuf
  | none => .ok []

/-- programs/src/idchoppers.rs:164-196: after the items, flats and textures.  `order` is the order in which a `HashSet`
with the given elements is walked.  Simplification: if walking the flats panics, the flats before are not counted as
printed. -/
def infoRest (order : List Bytes → List Bytes) (w : BareWAD) : Printed :=
  .bind (w.iterEntriesBetween (str "F_START") (str "F_END")) fun flats =>
  .after (flats.map fun entry => .flat entry.name) <|
  .after [.rule] <|
  .bind (infoTextures w) fun textures =>
  .after ((order ((textures.map fun entry => entry.name).dedup.filter fun name => decide (name ∉ doom2Textures.map str))).map fun name => .texture name)
  ⟨[], .ok ()⟩

/-- programs/src/idchoppers.rs:90-197 `do_info`. -/
def doInfo (F : Type) [FloatOps F] (order : List Bytes → List Bytes) (w : BareWAD) : Printed :=
  .after [.identification w.header.identification, .found w.header.identification w.header.numlumps w.header.infotableofs] <|
  .bind (WADArchive.fromBare w) fun archive =>
  infoItems F archive.contents (infoRest order w)

end Idc
