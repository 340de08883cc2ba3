import Verif.Model.Route
import Verif.Model.BareOutline
import Verif.Model.Tables
/-!
# Charts: programs/src/idchoppers.rs:220-510, 1079-1145

An SVG document is modelled as its view box and its list of shapes.  Not modelled: the style sheet, the
order of attributes, turning numbers into text.  The whole drawing is flipped (`scale(1 -1)`), so a point
(x, y) of a shape is seen at (x, -y) of the view box.  A class attribute is the list of its classes.
-/

namespace Idc

open FloatOps

/-- svg `Data`: one command. -/
inductive PathCmd (C : Type) where
  | moveTo (x y : C)
  | lineTo (x y : C)
  deriving DecidableEq, Repr

/-- The shapes drawn; `C` is the type of coordinates. -/
inductive SvgShape (C : Type) where
  /-- `<line>` -/
  | line (x1 y1 x2 y2 : C) (classes : List String)
  /-- `<path class="line-dilation">` -/
  | dilation (data : List (PathCmd C))
  /-- `<rect>` -/
  | thing (x y : C) (width height : Nat) (fill : String)
  /-- `<path>` for a sector; `tag` and `light` are the `data-sector-` attributes -/
  | sector (data : List (PathCmd C)) (tag : Option Int) (light : Option Nat) (classes : List String)
  deriving DecidableEq, Repr

/-- A document. -/
structure SvgDoc (C : Type) where
  viewBox : C × C × C × C
  shapes : List (SvgShape C)
  deriving DecidableEq, Repr

/-- programs/src/idchoppers.rs:361-368, also 467-474: the path of some outlines; `unwrap` on an outline without points. -/
def outlinePath {C : Type} : List (List (C × C)) → Res (List (PathCmd C))
  | [] => .ok []
  | [] :: _ => .panic .unwrap
  | (first :: others) :: rest => do
    let data ← outlinePath rest
    pure (.moveTo first.1 first.2 :: (others.map fun v => .lineTo v.1 v.2) ++ .lineTo first.1 first.2 :: data)

/-- programs/src/idchoppers.rs:336-341, also 442-447: the colour of a thing. -/
def thingColor : ThingCategory → String
  | .PlayerStart => "green"
  | .Monster => "red"
  | .Miscellaneous => "gray"
  | _ => "magenta"

/-- programs/src/idchoppers.rs:335-347, also 441-453: colour and radius of a thing. -/
def thingLook (doomednum : UInt32) : String × Nat :=
  match lookupThingType doomednum with
  | some t => (thingColor t.category, t.radius)
  | none => ("gray", 8)

/-! ### Bare maps -/

/-- src/parse/map.rs:193-198 `BareBinaryLine` (the methods used here). -/
class BareBinaryLine (L : Type) where
  vertexIndices : L → Int16 × Int16
  sideIndices : L → Int16 × Int16
  hasSpecial : L → Bool

/-- src/parse/map.rs:100-103 `BareBinaryThing`. -/
class BareBinaryThing (T : Type) where
  coords : T → Int16 × Int16
  doomednum : T → Int16

/-- src/parse/map.rs:199-212. -/
instance : BareBinaryLine BareDoomLine where
  vertexIndices l := (l.v0, l.v1)
  sideIndices l := (l.front_sidedef, l.back_sidedef)
  hasSpecial l := l.special != 0

/-- src/parse/map.rs:213-226. -/
instance : BareBinaryLine BareHexenLine where
  vertexIndices l := (l.v0, l.v1)
  sideIndices l := (l.front_sidedef, l.back_sidedef)
  hasSpecial l := l.special != 0

/-- src/parse/map.rs:104-111. -/
instance : BareBinaryThing BareDoomThing where
  coords t := (t.x, t.y)
  doomednum t := t.doomednum

/-- src/parse/map.rs:112-119. -/
instance : BareBinaryThing BareHexenThing where
  coords t := (t.x, t.y)
  doomednum t := t.doomednum

/-- The map as `sector_to_polygons` sees it (src/parse/map.rs:478-592). -/
def BareBinaryMap.bin {L T : Type} [BareBinaryLine L] (m : BareBinaryMap L T) : BinMap where
  vertices := m.vertices
  sectors := m.sectors
  sides := m.sides
  lines := m.lines.map fun l =>
    ⟨(BareBinaryLine.vertexIndices l).1, (BareBinaryLine.vertexIndices l).2, (BareBinaryLine.sideIndices l).1, (BareBinaryLine.sideIndices l).2⟩

/-- The variables minx, miny, maxx, maxy of programs/src/idchoppers.rs:222-233. -/
structure Extent where
  minx : Int16
  miny : Int16
  maxx : Int16
  maxy : Int16
  deriving DecidableEq, Repr

/-- programs/src/idchoppers.rs:236-247, also 322-333: take in a point. -/
def Extent.extend (e : Extent) (p : Int16 × Int16) : Extent :=
  let e := if p.1 < e.minx then { e with minx := p.1 } else e
  let e := if p.1 > e.maxx then { e with maxx := p.1 } else e
  let e := if p.2 < e.miny then { e with miny := p.2 } else e
  if p.2 > e.maxy then { e with maxy := p.2 } else e

variable {L T : Type} [BareBinaryLine L] [BareBinaryThing T]

/-- programs/src/idchoppers.rs:222-232: where to begin. -/
def firstPoint (m : BareBinaryMap L T) : Int16 × Int16 :=
  match m.vertices, m.things with
  | v :: _, _ => (v.x, v.y)
  | [], t :: _ => BareBinaryThing.coords t
  | [], [] => (0, 0)

/-- programs/src/idchoppers.rs:256-269: the classes of a line. -/
def bareLineClasses (l : L) : List String :=
  let frontid := (BareBinaryLine.sideIndices l).1
  let backid := (BareBinaryLine.sideIndices l).2
  ["line"] ++
  [if frontid == -1 && backid == -1 then "zero-sided" else if frontid == -1 || backid == -1 then "one-sided" else "two-sided"] ++
  (if BareBinaryLine.hasSpecial l then ["has-special"] else [])

/-- programs/src/idchoppers.rs:296-311, one point: a corner of the outline of a line; `dx` and `dy` are 1 or -1 for `+ radius` and `- radius`. -/
def corner (pr : Profile) (v : BareVertex) (dx dy : Int) : Res (Int16 × Int16) := do
  let x ← i16Arith pr (v.x.toInt + dx * 16)
  let y ← i16Arith pr (v.y.toInt + dy * 16)
  pure (x, y)

/-- programs/src/idchoppers.rs:283-312: the outline of the space a line prevents one from occupying. -/
def bareDilation (pr : Profile) (v0 v1 : BareVertex) : Res (List (PathCmd Int16)) := do
  let (top, bottom) := if v0.y > v1.y then (v0, v1) else (v1, v0)
  let places : List (BareVertex × Int × Int) :=
    if top.x < bottom.x then
      [(top, -1, -1), (top, -1, 1), (top, 1, 1), (bottom, 1, 1), (bottom, 1, -1), (bottom, -1, -1)]
    else
      [(top, -1, 1), (top, 1, 1), (top, 1, -1), (bottom, 1, -1), (bottom, -1, -1), (bottom, -1, 1)]
  let corners ← Res.mapList (fun c => corner pr c.1 c.2.1 c.2.2) places
  pure (match corners with
    | [] => []
    | c :: cs => .moveTo c.1 c.2 :: cs.map fun c => .lineTo c.1 c.2)

/-- programs/src/idchoppers.rs:251-318: the shapes of a line. -/
def bareLineShapes (pr : Profile) (m : BareBinaryMap L T) (l : L) : Res (List (SvgShape Int16)) := do
  let v0 ← index m.vertices (i16AsUsize (BareBinaryLine.vertexIndices l).1)
  let v1 ← index m.vertices (i16AsUsize (BareBinaryLine.vertexIndices l).2)
  let data ← bareDilation pr v0 v1
  pure [.line v0.x v0.y v1.x v1.y (bareLineClasses l), .dilation data]

/-- programs/src/idchoppers.rs:334-354: the shape of a thing. -/
def bareThingShape (pr : Profile) (t : T) : Res (SvgShape Int16) := do
  let look := thingLook (i16AsU32 (BareBinaryThing.doomednum t))
  let left ← i16Arith pr ((BareBinaryThing.coords t).1.toInt - look.2)
  let bottom ← i16Arith pr ((BareBinaryThing.coords t).2.toInt - look.2)
  pure (.thing left bottom (look.2 * 2) (look.2 * 2) look.1)

/-- programs/src/idchoppers.rs:357-381: the shape of a sector.  The vertices of the outlines are valid indices. -/
def bareSectorShape (m : BareBinaryMap L T) (fuel : Nat) (s : Nat × BareSector) : Res (SvgShape Int16) := do
  let polys ← m.bin.sectorToPolygons s.1 fuel
  let polys ← Res.mapList (Res.mapList fun i => (index m.vertices i).map fun v => (v.x, v.y)) polys
  let data ← outlinePath polys
  pure (.sector data (if s.2.sector_tag != 0 then some s.2.sector_tag.toInt else none) none
    (["sector"] ++ if s.2.sector_type == 9 then ["secret"] else []))

/-- programs/src/idchoppers.rs:220-391 `bare_map_as_svg`. -/
def bareMapAsSvg (pr : Profile) (fuel : Nat) (m : BareBinaryMap L T) : Res (SvgDoc Int16) := do
  let start := firstPoint m
  let e : Extent := m.vertices.foldl (fun (e : Extent) v => e.extend (v.x, v.y)) ⟨start.1, start.2, start.1, start.2⟩
  let lines ← Res.mapList (bareLineShapes pr m) m.lines
  let e : Extent := m.things.foldl (fun (e : Extent) t => e.extend (BareBinaryThing.coords t)) e
  let things ← Res.mapList (bareThingShape pr) m.things
  let sectors ← Res.mapList (bareSectorShape m fuel) ((List.range m.sectors.length).zip m.sectors)
  let y ← i16Arith pr (-e.maxy.toInt)
  let width ← i16Arith pr (e.maxx.toInt - e.minx.toInt)
  let height ← i16Arith pr (e.maxy.toInt - e.miny.toInt)
  pure ⟨(e.minx, y, width, height), lines.flatten ++ things ++ sectors⟩

/-! ### Full maps -/

variable {F : Type} [FloatOps F]

/-- programs/src/idchoppers.rs:422: is a line a step the player can take?  Simplification: differences of
heights are taken without overflow; heights come from 16-bit numbers. -/
def isStep (front back : Sector) : Bool :=
  decide ((front.floor_height.toInt - back.floor_height.toInt).natAbs ≤ 24) &&
  decide (Min.min front.ceiling_height.toInt back.ceiling_height.toInt - Max.max front.floor_height.toInt back.floor_height.toInt ≥ 56)

/-- programs/src/idchoppers.rs:419-425: the class of a step. -/
def stepClass (m : FullMap F) (l : Line) : Res (List String) :=
  if l.isTwoSided then do
    let front ← m.lineFront l
    let front ← unwrap front
    let front ← m.sector front.sector
    let back ← m.lineBack l
    let back ← unwrap back
    let back ← m.sector back.sector
    pure (if isStep front back then ["step"] else [])
  else .ok []

/-- programs/src/idchoppers.rs:398-436: the shape of a line. -/
def lineShape (m : FullMap F) (l : Line) : Res (SvgShape F) := do
  let v0 ← m.lineStart l
  let v1 ← m.lineEnd l
  let step ← stepClass m l
  pure (.line v0.x v0.y v1.x v1.y (["line"] ++
    [if l.front.isNone && l.back.isNone then "zero-sided" else if l.front.isNone || l.back.isNone then "one-sided" else "two-sided"] ++
    (if l.hasSpecial then ["has-special"] else []) ++ (if l.blocksPlayer then ["blocking"] else []) ++ step))

/-- programs/src/idchoppers.rs:438-461: the shape of a thing. -/
def thingShape (t : Thing F) : SvgShape F :=
  let look := thingLook t.doomednum
  .thing (sub t.point.x (ofInt look.2)) (sub t.point.y (ofInt look.2)) (look.2 * 2) (look.2 * 2) look.1

/-- programs/src/idchoppers.rs:487-497: is there a line that affects the sector behind it? -/
def implicitTag (m : FullMap F) (s : Nat) : List Line → Res Bool
  | [] => .ok false
  | l :: ls => do
    let back ← m.lineBack l
    if back.map (fun side => side.sector) == some s && l.hasSpecial && l.sector_tag == 0 then pure true
    else implicitTag m s ls

/-- programs/src/idchoppers.rs:463-500: the shape of a sector. -/
def sectorShape (m : FullMap F) (fuel : Nat) (s : Nat × Sector) : Res (SvgShape F) := do
  let polys ← m.sectorToPolygons s.1 fuel
  let data ← outlinePath (polys.map fun l => l.map fun v => (v.x, v.y))
  let implicit ← implicitTag m s.1 m.lines
  pure (.sector data (if s.2.tag != 0 then some (s.2.tag.toNat : Int) else none) (some s.2.light.toNat)
    (["sector"] ++ (if s.2.special == 9 then ["secret"] else []) ++ if implicit then ["implicit-tag"] else []))

/-- programs/src/idchoppers.rs:393-510 `map_as_svg`; `0 - x` stands for `-x`. -/
def mapAsSvg (fuel : Nat) (m : FullMap F) : Res (SvgDoc F) := do
  let bbox := m.bbox
  let lines ← Res.mapList (lineShape m) m.lines
  let things := m.things.map thingShape
  let sectors ← Res.mapList (sectorShape m fuel) ((List.range m.sectors.length).zip m.sectors)
  pure ⟨(bbox.x, sub (ofInt 0) bbox.maxY, bbox.width, bbox.height), lines ++ things ++ sectors⟩

/-! ### The result of the route finder -/

/-- What is drawn of an area: programs/src/idchoppers.rs:1079-1132.  The colour is reduced to the distance it
shows. -/
structure RouteShape (F : Type) where
  data : List (PathCmd F)
  distance : Int
  origins : List PolygonRef
  id : Nat
  deriving DecidableEq, Repr

/-- programs/src/idchoppers.rs:1086-1091, also 1096-1100: the path of a contour; `unwrap` without points. -/
def contourPath (c : Contour F) : Res (List (PathCmd F)) := do
  let last ← unwrap c.points.getLast?
  pure (.moveTo last.x last.y :: c.points.map fun p => .lineTo p.x p.y)

/-- programs/src/idchoppers.rs:1093-1101: the paths of the holes. -/
def holePaths (contours : List (Contour F)) : List Nat → Res (List (PathCmd F))
  | [] => .ok []
  | h :: hs => do
    let hole ← index contours h
    let path ← contourPath hole
    let rest ← holePaths contours hs
    pure (path ++ rest)

/-- programs/src/idchoppers.rs:854-861: what a contour comes from; `p` is the number of the first flag. -/
def originsOf (refs : List PolygonRef) : Nat → List Bool → Res (List PolygonRef)
  | _, [] => .ok []
  | p, flag :: rest =>
    if !flag then originsOf refs (p + 1) rest
    else do
      let r ← index refs p
      let rs ← originsOf refs (p + 1) rest
      pure (r :: rs)

/-- programs/src/idchoppers.rs:1079-1132: the shapes of the areas from number `i` on.  (Line 1080 prints all contours'
orientation, which panics for a contour without points.) -/
def routeShapes (refs : List PolygonRef) (contours : List (Contour F)) (distance : List Int) :
    Nat → List (Contour F) → Res (List (RouteShape F))
  | _, [] => .ok []
  | i, c :: cs => do
    let _ ← c.clockwise
    if !c.external then routeShapes refs contours distance (i + 1) cs
    else do
      let path ← contourPath c
      let holes ← holePaths contours c.holes
      let origins ← originsOf refs 0 c.from_polygons
      let d ← index distance i
      let rest ← routeShapes refs contours distance (i + 1) cs
      pure (⟨path ++ holes, d, origins, i⟩ :: rest)

/-- The drawing of a route finder's result. -/
structure RouteDoc (F : Type) where
  viewBox : F × F × F × F
  shapes : List (RouteShape F)
  deriving DecidableEq, Repr

/-- programs/src/idchoppers.rs:748-1145 `route_map_as_svg`, the drawing of the areas (`map_group` is not modelled). -/
def routeMapAsSvg (lib : Lib) (fuel : Nat) (m : FullMap F) : Res (RouteDoc F) := do
  let bbox := m.bbox
  let (result, distance, _) ← routeMap lib fuel m
  let shapes ← routeShapes (routeRefs m) result.contours distance 0 result.contours
  let margin : F := ofInt 32
  pure ⟨(sub bbox.x margin, sub (sub (ofInt 0) bbox.maxY) margin, add bbox.width (mul margin (ofInt 2)), add bbox.height (mul margin (ofInt 2))), shapes⟩

end Idc
