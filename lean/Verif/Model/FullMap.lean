import Verif.Model.BinMap
import Verif.Model.Float
/-!
# The full map: src/map.rs

Handles are plain indices.  `Handle<T>`'s phantom type is not modelled.  References to vertices
compared by address (`VertexRef`) are modelled by the vertex's index in `Map.vertices`: distinct
elements of a `Vec<Vertex>` have distinct addresses.
-/

namespace Idc

open FloatOps

/-- src/map.rs:422-425 `Thing`. -/
structure Thing (F : Type) where
  point : Pt F
  doomednum : UInt32
  deriving DecidableEq, Repr

/-- src/map.rs:437-448 `Line`. -/
structure Line where
  index : Nat
  start : Nat
  stop : Nat
  flags : UInt32
  special : Nat
  sector_tag : UInt32
  front : Option Nat
  back : Option Nat
  deriving DecidableEq, Repr

/-- src/map.rs:538-545 `Sector`. -/
structure Sector where
  tag : UInt32
  special : UInt32
  floor_height : Int32
  ceiling_height : Int32
  light : UInt8
  deriving DecidableEq, Repr

/-- src/map.rs:569-576 `Side`. -/
structure Side where
  id : UInt32
  upper_texture : Bytes
  lower_texture : Bytes
  middle_texture : Bytes
  sector : Nat
  deriving DecidableEq, Repr

/-- src/map.rs:44-59 `Map` (`_bbox` is never set or read); a vertex (src/map.rs:584-587) is a point. -/
structure FullMap (F : Type) where
  lines : List Line
  sides : List Side
  sectors : List Sector
  things : List (Thing F)
  vertices : List (Pt F)
  deriving DecidableEq, Repr

/-- src/map.rs:62-72 `Map::new`. -/
def FullMap.new {F : Type} : FullMap F := { lines := [], sides := [], sectors := [], things := [], vertices := [] }

/-- `&mut v[i]` followed by an update of the element. -/
def indexMut {α : Type} (l : List α) (i : Nat) (f : α → α) : Res (List α) :=
  match l[i]? with
  | some a => .ok (l.set i (f a))
  | none => .panic .bounds

variable {F : Type} [FloatOps F]

/-- src/map.rs:126-135 `add_sector`: the new map and the handle. -/
def FullMap.addSector (m : FullMap F) : FullMap F × Nat :=
  let m := { m with sectors := m.sectors ++ [{ special := 0, tag := 0, floor_height := 0, ceiling_height := 0, light := 0 }] }
  (m, m.sectors.length - 1)

/-- src/map.rs:136-145 `add_side`. -/
def FullMap.addSide (m : FullMap F) (sector : Nat) : FullMap F × Nat :=
  let m := { m with sides := m.sides ++ [{ id := 0, lower_texture := [], middle_texture := [], upper_texture := [], sector := sector }] }
  (m, m.sides.length - 1)

/-- src/map.rs:146-150 `add_vertex`. -/
def FullMap.addVertex (m : FullMap F) (x y : F) : FullMap F := { m with vertices := m.vertices ++ [⟨x, y⟩] }

/-- src/map.rs:151-164 `add_line`. -/
def FullMap.addLine (m : FullMap F) (start stop : Nat) : FullMap F × Nat :=
  let i := m.lines.length
  ({ m with lines := m.lines ++ [{ index := i, start := start, stop := stop, flags := 0, special := 0, sector_tag := 0,
                                   front := none, back := none }] }, i)

/-- src/map.rs:75-83 (one iteration). -/
def FullMap.pushBareSector (m : FullMap F) (b : BareSector) : Res (FullMap F) := do
  let (m, h) := m.addSector
  let sectors ← indexMut m.sectors h fun s =>
    { s with tag := i16AsU32 b.sector_tag, special := i16AsU32 b.sector_type, floor_height := b.floor_height.toInt32,
             ceiling_height := b.ceiling_height.toInt32, light := i16AsU8 b.light }
  pure { m with sectors := sectors }

/-- src/map.rs:84-86 (one iteration). -/
def FullMap.pushBareVertex (m : FullMap F) (b : BareVertex) : Res (FullMap F) :=
  pure (m.addVertex (ofInt b.x.toInt) (ofInt b.y.toInt))

/-- src/map.rs:87-93 (one iteration). -/
def FullMap.pushBareSide (m : FullMap F) (b : BareSide) : Res (FullMap F) := do
  let (m, h) := m.addSide (i16AsUsize b.sector)
  let sides ← indexMut m.sides h fun s =>
    { s with lower_texture := b.lower_texture, middle_texture := b.middle_texture, upper_texture := b.upper_texture }
  pure { m with sides := sides }

/-- src/map.rs:94-108 (one iteration). -/
def FullMap.pushBareLine (m : FullMap F) (b : BareDoomLine) : Res (FullMap F) := do
  let (m, h) := m.addLine (i16AsUsize b.v0) (i16AsUsize b.v1)
  let lines ← indexMut m.lines h fun l =>
    let l := { l with flags := i16AsU32 b.flags, special := i16AsUsize b.special, sector_tag := i16AsU32 b.sector_tag }
    let l := if b.front_sidedef != -1 then { l with front := some (i16AsUsize b.front_sidedef) } else l
    if b.back_sidedef != -1 then { l with back := some (i16AsUsize b.back_sidedef) } else l
  pure { m with lines := lines }

/-- src/map.rs:109-114 (one iteration). -/
def FullMap.pushBareThing (m : FullMap F) (b : BareDoomThing) : Res (FullMap F) :=
  pure { m with things := m.things ++ [{ point := ⟨ofInt b.x.toInt, ofInt b.y.toInt⟩, doomednum := i16AsU32 b.doomednum }] }

/-- `for x in xs { state = step(state, x) }` with a body that may panic. -/
def forEach {σ α : Type} (step : σ → α → Res σ) : List α → σ → Res σ
  | [], s => .ok s
  | x :: xs, s => step s x >>= forEach step xs

/-- src/map.rs:73-117 `Map::from_bare`. -/
def FullMap.fromBare (b : BareDoomMap) : Res (FullMap F) := do
  let m ← forEach FullMap.pushBareSector b.sectors FullMap.new
  let m ← forEach FullMap.pushBareVertex b.vertices m
  let m ← forEach FullMap.pushBareSide b.sides m
  let m ← forEach FullMap.pushBareLine b.lines m
  forEach FullMap.pushBareThing b.things m

/-- src/map.rs:178-180 `Map::vertex`. -/
def FullMap.vertex (m : FullMap F) (h : Nat) : Res (Pt F) := index m.vertices h
/-- src/map.rs:182-184 `Map::side`. -/
def FullMap.side (m : FullMap F) (h : Nat) : Res Side := index m.sides h
/-- src/map.rs:186-188 `Map::sector`. -/
def FullMap.sector (m : FullMap F) (h : Nat) : Res Sector := index m.sectors h

/-- src/map.rs:190-194 `Map::bbox`. -/
def FullMap.bbox (m : FullMap F) : Rect F := Rect.fromPoints (m.vertices.map fun v => ⟨v.x, v.y⟩)

/-- src/map.rs:196-200 `Map::find_player_start`. -/
def FullMap.findPlayerStart (m : FullMap F) : Option (Pt F) :=
  (m.things.find? fun t => t.doomednum == 1).map fun t => t.point

/-- src/map.rs:463-465 `Line::has_special`. -/
def Line.hasSpecial (l : Line) : Bool := l.special != 0
/-- src/map.rs:471-473 `Line::blocks_player`. -/
def Line.blocksPlayer (l : Line) : Bool := l.flags &&& 1 != 0
/-- src/map.rs:475-477 `Line::is_one_sided`. -/
def Line.isOneSided (l : Line) : Bool := l.front.isSome != l.back.isSome
/-- src/map.rs:479-481 `Line::is_two_sided`. -/
def Line.isTwoSided (l : Line) : Bool := l.front.isSome && l.back.isSome

/-- src/map.rs:488-490 `BoundLine::start` of a line of this map. -/
def FullMap.lineStart (m : FullMap F) (l : Line) : Res (Pt F) := m.vertex l.start
/-- src/map.rs:492-494 `BoundLine::end`. -/
def FullMap.lineEnd (m : FullMap F) (l : Line) : Res (Pt F) := m.vertex l.stop
/-- src/map.rs:496-498 `BoundLine::front`. -/
def FullMap.lineFront (m : FullMap F) (l : Line) : Res (Option Side) := Res.mapOption m.side l.front
/-- src/map.rs:500-502 `BoundLine::back`. -/
def FullMap.lineBack (m : FullMap F) (l : Line) : Res (Option Side) := Res.mapOption m.side l.back

/-! ## Outlines: src/map.rs:202-379 -/

/-- src/map.rs:203-210 `Edge` (the unused fields are dropped; vertices by index). -/
structure Edge where
  v0 : Nat
  v1 : Nat
  done : Bool
  deriving DecidableEq, Repr

/-- `vertices_to_edges.entry(k).or_insert_with(Vec::new).push(e)` on a HashMap, modelled as an
association list with at most one pair per key (order is not observable: only `get` is used). -/
def entryPush (t : List (Nat × List Nat)) (k e : Nat) : List (Nat × List Nat) :=
  match t with
  | [] => [(k, [e])]
  | (k', es) :: t => if k' = k then (k', es ++ [e]) :: t else (k', es) :: entryPush t k e

/-- `vertices_to_edges.get(k)`. -/
def entryGet (t : List (Nat × List Nat)) (k : Nat) : Option (List Nat) :=
  match t with
  | [] => none
  | (k', es) :: t => if k' = k then some es else entryGet t k

/-- The edge list and the vertex table while they are built (src/map.rs:226-227). -/
structure EdgeTable where
  edges : List Edge
  byVertex : List (Nat × List Nat)
  deriving DecidableEq, Repr

/-- src/map.rs:241-265, the body of the loop over (facing, sideid). -/
def pushSideEdge (m : FullMap F) (s : Nat) (l : Line) (t : EdgeTable) (side? : Option Nat) : Res EdgeTable :=
  match side? with
  | none => .ok t
  | some h => do
    let side ← index m.sides h
    if side.sector = s then
      let _ ← index m.vertices l.start
      let _ ← index m.vertices l.stop
      let edges := t.edges ++ [{ v0 := l.start, v1 := l.stop, done := false }]
      let t1 := entryPush t.byVertex l.start (edges.length - 1)
      let t2 := entryPush t1 l.stop (edges.length - 1)
      pure { edges := edges, byVertex := t2 }
    else pure t

/-- src/map.rs:229-268, one line. -/
def pushLineEdges (m : FullMap F) (s : Nat) (t : EdgeTable) (l : Line) : Res EdgeTable := do
  let front ← Res.mapOption (index m.sides) l.front
  let selfRef ← (match front with
    | none => pure false
    | some f => do
      let back ← Res.mapOption (index m.sides) l.back
      match back with
      | none => pure false
      | some b => pure (f.sector == b.sector) : Res Bool)
  if selfRef then pure t
  else do
    let t ← pushSideEdge m s l t l.front
    pushSideEdge m s l t l.back

/-- src/map.rs:226-268. -/
def sectorEdges (m : FullMap F) (s : Nat) : Res EdgeTable :=
  forEach (pushLineEdges m s) m.lines { edges := [], byVertex := [] }

/-- The best candidate so far (src/map.rs:302-305): `closest_dot`, `closest_edge_ix`,
`closest_vertex`, `seen_ccw`. -/
structure Closest (F : Type) where
  dot : F
  best : Option (Nat × Nat)
  seenCcw : Bool

/-- src/map.rs:313-359, one candidate edge. -/
def considerEdge (vertices : List (Pt F)) (edges : List Edge) (i : Nat) (nextV : Nat) (nextP current : Pt F)
    (c : Closest F) (e : Nat) : Res (Closest F) :=
  if i = e then .ok c
  else do
    let edge ← index edges e
    if edge.done then .ok c
    else do
      let other := if edge.v0 = nextV then edge.v1 else edge.v0
      let otherP ← index vertices other
      let vec := otherP.sub nextP
      let dot := div (current.dot vec) vec.length
      let ccw := lt (ofInt 0) (current.cross vec)
      if ccw && !c.seenCcw then .ok { dot := dot, best := some (e, other), seenCcw := true }
      else if !ccw && c.seenCcw then .ok c
      else if c.best.isNone || (ccw && lt dot c.dot) || (!ccw && lt c.dot dot) then
        .ok { c with dot := dot, best := some (e, other) }
      else .ok c

/-- src/map.rs:289-372, the inner `loop`; `outline` is kept in order.  Fuelled: `diverge` stands for
"still running after `fuel` iterations". -/
def walkOutline (vertices : List (Pt F)) (byVertex : List (Nat × List Nat)) (i : Nat) :
    Nat → List Edge → List (Pt F) → Nat → Nat → Res (List Edge × List (Pt F))
  | 0, _, _, _, _ => .diverge
  | fuel + 1, edges, outline, prevV, nextV => do
    let nextP ← index vertices nextV
    let first ← index outline 0
    if nextP.beq first then .ok (edges, outline)
    else do
      let outline := outline ++ [nextP]
      let prevP ← index vertices prevV
      let current := nextP.sub prevP
      let es ← unwrap (entryGet byVertex nextV)
      let c ← forEach (considerEdge vertices edges i nextV nextP current) es { dot := nan, best := none, seenCcw := false }
      match c.best with
      | none => .ok (edges, outline)
      | some (e, v) => do
        let edges ← indexMut edges e fun x => { x with done := true }
        walkOutline vertices byVertex i fuel edges outline nextV v

/-- src/map.rs:277-376, the loop over starting edges `i = start, start+1, ..`. -/
def outlineLoop (vertices : List (Pt F)) (byVertex : List (Nat × List Nat)) (fuel : Nat) :
    List Nat → List Edge → List (List (Pt F)) → Res (List (List (Pt F)))
  | [], _, outlines => .ok outlines
  | i :: is, edges, outlines => do
    let starting ← index edges i
    if starting.done then outlineLoop vertices byVertex fuel is edges outlines
    else do
      let edges ← indexMut edges i fun x => { x with done := true }
      let p0 ← index vertices starting.v0
      let (edges, outline) ← walkOutline vertices byVertex i fuel edges [p0] starting.v0 starting.v1
      let outlines := if outline.length > 2 then outlines ++ [outline] else outlines
      outlineLoop vertices byVertex fuel is edges outlines

/-- src/map.rs:202-379 `Map::sector_to_polygons`, each inner loop cut off after `fuel` iterations. -/
def FullMap.sectorToPolygons (m : FullMap F) (s fuel : Nat) : Res (List (List (Pt F))) := do
  let t ← sectorEdges m s
  outlineLoop m.vertices t.byVertex fuel (List.range t.edges.length) t.edges []

end Idc
