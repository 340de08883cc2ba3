import Verif.Model.Compute
/-!
# Route finding: programs/src/idchoppers.rs:742-1077 (in `route_map_as_svg`)

Drawing and progress messages are not modelled.
-/

namespace Idc

open FloatOps

variable {F : Type} [FloatOps F]

/-- programs/src/idchoppers.rs:749-753 `PolygonRef`: what an input polygon of `compute` stands for. -/
inductive PolygonRef where
  | sector (h : Nat)
  | line (l : Line)
  deriving DecidableEq, Repr

/-- programs/src/idchoppers.rs:806-836: the hexagon around a line that the centre of a player cannot enter
without touching the line. -/
def dilateLine (v0 v1 : Pt F) : List (Pt F) :=
  let radius : F := ofInt 16
  let (top, bottom) := if lt v1.y v0.y then (v0, v1) else (v1, v0)
  if lt top.x bottom.x then
    [⟨sub top.x radius, sub top.y radius⟩, ⟨sub top.x radius, add top.y radius⟩, ⟨add top.x radius, add top.y radius⟩,
     ⟨add bottom.x radius, add bottom.y radius⟩, ⟨add bottom.x radius, sub bottom.y radius⟩, ⟨sub bottom.x radius, sub bottom.y radius⟩]
  else
    [⟨sub top.x radius, add top.y radius⟩, ⟨add top.x radius, add top.y radius⟩, ⟨add top.x radius, sub top.y radius⟩,
     ⟨add bottom.x radius, sub bottom.y radius⟩, ⟨sub bottom.x radius, sub bottom.y radius⟩, ⟨sub bottom.x radius, add bottom.y radius⟩]

/-- programs/src/idchoppers.rs:781-793. -/
def lineMode (l : Line) : PolygonMode :=
  if l.isOneSided then .removeInterior else if l.isTwoSided then .normal else .removeInterior

/-- A contour with the given points. -/
def contourOf (points : List (Pt F)) : Contour F := { (Contour.new : Contour F) with points := points }

/-- programs/src/idchoppers.rs:764-774, one sector (`fuel` bounds the loops of `sector_to_polygons`). -/
def sectorPolygon (m : FullMap F) (fuel s : Nat) : Res (Polygon F × PolygonMode) := do
  let outlines ← m.sectorToPolygons s fuel
  pure (⟨outlines.map contourOf⟩, .removeEdges)

/-- programs/src/idchoppers.rs:776-840, one line. -/
def linePolygon (m : FullMap F) (l : Line) : Res (Polygon F × PolygonMode) := do
  let v0 ← m.lineStart l
  let v1 ← m.lineEnd l
  pure (⟨[contourOf (dilateLine v0 v1)]⟩, lineMode l)

/-- programs/src/idchoppers.rs:760-840: the input of `compute`. -/
def routePolygons (m : FullMap F) (fuel : Nat) : Res (List (Polygon F × PolygonMode)) := do
  let a ← Res.mapList (sectorPolygon m fuel) (List.range m.sectors.length)
  let b ← Res.mapList (linePolygon m) m.lines
  pure (a ++ b)

/-- programs/src/idchoppers.rs:773 and 839: what those polygons stand for. -/
def routeRefs (m : FullMap F) : List PolygonRef :=
  (List.range m.sectors.length).map PolygonRef.sector ++ m.lines.map PolygonRef.line

/-- euclid 0.16 `TypedRect::contains`. -/
def Rect.contains (r : Rect F) (p : Pt F) : Bool :=
  le r.x p.x && lt p.x (add r.x r.width) && le r.y p.y && lt p.y (add r.y r.height)

/-! ### Sets

A `HashSet` is a list without duplicates, a `BTreeSet<usize>` an ascending one. -/

/-- `HashSet::insert`. -/
def hashInsert {α : Type} [DecidableEq α] (x : α) (l : List α) : List α := if x ∈ l then l else l ++ [x]

/-- `==` on `HashSet`s. -/
def hashEq {α : Type} [DecidableEq α] (a b : List α) : Bool := a.all (fun x => x ∈ b) && b.all fun x => x ∈ a

/-- `BTreeSet::insert`. -/
def btreeInsert (x : Nat) : List Nat → List Nat
  | [] => [x]
  | y :: l => if x < y then x :: y :: l else if x = y then y :: l else y :: btreeInsert x l

/-! ### Sectors and tags of a contour -/

/-- programs/src/idchoppers.rs:975-980, also 1027-1032: the sector of a side, if there is one. -/
def insertSide (m : FullMap F) (acc : List Nat) : Option Nat → Res (List Nat)
  | none => .ok acc
  | some h => do
    let s ← m.side h
    pure (hashInsert s.sector acc)

/-- programs/src/idchoppers.rs:970-982: the sectors a polygon stands for. -/
def insertRef (m : FullMap F) (acc : List Nat) : PolygonRef → Res (List Nat)
  | .sector h => .ok (hashInsert h acc)
  | .line l => do
    let acc ← insertSide m acc l.front
    insertSide m acc l.back

/-- programs/src/idchoppers.rs:965-983: the sectors a contour is in; `p` is the number of the first flag. -/
def collectSectors (m : FullMap F) (refs : List PolygonRef) : Nat → List Bool → List Nat → Res (List Nat)
  | _, [], acc => .ok acc
  | p, flag :: rest, acc =>
    if !flag then collectSectors m refs (p + 1) rest acc
    else do
      let r ← index refs p
      let acc ← insertRef m acc r
      collectSectors m refs (p + 1) rest acc

/-- Does the polygon stand for a line that blocks the player? -/
def PolygonRef.blocks : PolygonRef → Bool
  | .sector _ => false
  | .line l => l.blocksPlayer

/-- programs/src/idchoppers.rs:1012-1035: the same for a neighbour; a line that blocks the player ends the
loop (`false`). -/
def collectFree (m : FullMap F) (refs : List PolygonRef) : Nat → List Bool → List Nat → Res (Bool × List Nat)
  | _, [], acc => .ok (true, acc)
  | p, flag :: rest, acc =>
    if !flag then collectFree m refs (p + 1) rest acc
    else do
      let r ← index refs p
      if r.blocks then pure (false, acc)
      else do
        let acc ← insertRef m acc r
        collectFree m refs (p + 1) rest acc

/-- `Iterator::max` on `i32`. -/
def maxFloor : List Int32 → Option Int32
  | [] => none
  | x :: xs =>
    match maxFloor xs with
    | none => some x
    | some y => some (if x.toInt ≤ y.toInt then y else x)

/-- programs/src/idchoppers.rs:986, also 1042.  (`lowest_floor`, line 987, is not used; it panics only if
this does.) -/
def highestFloor (m : FullMap F) (sectors : List Nat) : Res Int32 := do
  let floors ← Res.mapList (fun h => (m.sector h).map fun s => s.floor_height) sectors
  unwrap (maxFloor floors)

/-- programs/src/idchoppers.rs:912-916 (and the two similar passages): the tag of a sector. -/
def insertTag (m : FullMap F) (acc : List UInt32) (h : Nat) : Res (List UInt32) := do
  let s ← m.sector h
  pure (if s.tag ≠ 0 then hashInsert s.tag acc else acc)

/-- programs/src/idchoppers.rs:919-932: the tag of a side's sector, if there is a side. -/
def insertSideTag (m : FullMap F) (acc : List UInt32) : Option Nat → Res (List UInt32)
  | none => .ok acc
  | some h => do
    let s ← m.side h
    insertTag m acc s.sector

/-- programs/src/idchoppers.rs:910-934: the tags a polygon contributes. -/
def insertRefTags (m : FullMap F) (acc : List UInt32) : PolygonRef → Res (List UInt32)
  | .sector h => insertTag m acc h
  | .line l => do
    let acc ← insertSideTag m acc l.front
    insertSideTag m acc l.back

/-- programs/src/idchoppers.rs:905-935: the loop over the flags of a contour. -/
def collectTags (m : FullMap F) (refs : List PolygonRef) : Nat → List Bool → List UInt32 → Res (List UInt32)
  | _, [], acc => .ok acc
  | p, flag :: rest, acc =>
    if !flag then collectTags m refs (p + 1) rest acc
    else do
      let r ← index refs p
      let acc ← insertRefTags m acc r
      collectTags m refs (p + 1) rest acc

/-- programs/src/idchoppers.rs:905-938: the tags of a contour, without 13. -/
def contourTags (m : FullMap F) (refs : List PolygonRef) (c : Contour F) : Res (List UInt32) := do
  let tags ← collectTags m refs 0 c.from_polygons []
  pure (tags.filter fun t => t ≠ 13)

/-! ### The flood fill -/

/-- What the flood fill looks things up in. -/
structure RouteCtx (F : Type) where
  map : FullMap F
  refs : List PolygonRef
  contours : List (Contour F)
  tags : List (List UInt32)

/-- The variables of the flood fill: programs/src/idchoppers.rs:845-846, 900, 940, 951. -/
structure FloodState where
  seeds : List Nat
  seen : List Nat
  next : List Nat
  chunk : List Nat
  distance : List Int
  deriving DecidableEq, Repr

/-- programs/src/idchoppers.rs:997-1070, one neighbour.  Simplification: the differences of floor heights
are taken without overflow; heights come from 16-bit numbers. -/
def visitNeighbor (ctx : RouteCtx F) (contourIx : Nat) (highest : Int32) (st : FloodState) (nb : Nat × Bool) : Res FloodState :=
  if !nb.2 || st.seen.contains nb.1 then .ok st
  else do
    let tags ← index ctx.tags contourIx
    let tags' ← index ctx.tags nb.1
    let c ← index ctx.contours nb.1
    let (free, sectors) ← collectFree ctx.map ctx.refs 0 c.from_polygons []
    let h ← highestFloor ctx.map sectors
    if hashEq tags tags' && free && !decide (24 < h.toInt - highest.toInt) && !decide (24 < highest.toInt - h.toInt) then
      pure { st with seen := nb.1 :: st.seen, next := st.next ++ [nb.1] }
    else pure { st with seeds := btreeInsert nb.1 st.seeds }

/-- programs/src/idchoppers.rs:993-996: the neighbours of a contour and of its holes. -/
def unionHoles (contours : List (Contour F)) : List Nat → List Bool → Res (List Bool)
  | [], acc => .ok acc
  | h :: hs, acc => do
    let c ← index contours h
    let acc ← bvUnion acc c.neighbors
    unionHoles contours hs acc

/-- programs/src/idchoppers.rs:958-1071, one contour, in chunk number `d`. -/
def visitContour (ctx : RouteCtx F) (d : Int) (st : FloodState) (contourIx : Nat) : Res FloodState := do
  let _ ← index ctx.tags contourIx
  let _ ← index st.distance contourIx
  let st := { st with chunk := btreeInsert contourIx st.chunk, distance := st.distance.set contourIx d }
  let c ← index ctx.contours contourIx
  let sectors ← collectSectors ctx.map ctx.refs 0 c.from_polygons []
  let highest ← highestFloor ctx.map sectors
  let neighbors ← unionHoles ctx.contours c.holes c.neighbors
  forEach (visitNeighbor ctx contourIx highest) ((List.range neighbors.length).zip neighbors) st

/-- programs/src/idchoppers.rs:956-1072: one chunk, layer by layer. -/
def chunkLoop (ctx : RouteCtx F) (d : Int) : Nat → FloodState → Res FloodState
  | 0, _ => .diverge
  | fuel + 1, st =>
    match st.next with
    | [] => .ok st
    | v :: vs => do
      let st ← forEach (visitContour ctx d) (v :: vs) { st with next := [] }
      chunkLoop ctx d fuel st

/-- programs/src/idchoppers.rs:943-1077: chunk after chunk; `fuel` bounds the inner loop, too. -/
def floodLoop (ctx : RouteCtx F) (inner : Nat) : Nat → Int → FloodState → List (List Nat) → Res (FloodState × List (List Nat))
  | 0, _, _, _ => .diverge
  | fuel + 1, d, st, chunks =>
    match st.seeds with
    | [] => .ok (st, chunks)
    | seed :: seeds =>
      if st.seen.contains seed then floodLoop ctx inner fuel d { st with seeds := seeds } chunks
      else do
        let st ← chunkLoop ctx d inner { st with seeds := seeds, seen := seed :: st.seen, chunk := [], next := [seed] }
        floodLoop ctx inner fuel (d + 1) st (chunks ++ [st.chunk])

/-- programs/src/idchoppers.rs:848-852: the contours whose bounding box contains the starting point. -/
def startContours (start : Pt F) (contours : List (Contour F)) : List Nat :=
  (List.range contours.length).filter fun i =>
    match contours[i]? with
    | some c => c.bbox.contains start
    | none => false

/-- programs/src/idchoppers.rs:842-1077: the distances and the chunks of the contours of a result.
`contour_origins` (854-861) is only drawn; looking up the polygons in it panics only if collecting the tags does. -/
def floodContours (m : FullMap F) (refs : List PolygonRef) (contours : List (Contour F)) (fuel : Nat) : Res (List Int × List (List Nat)) := do
  let start := (m.findPlayerStart).getD ⟨ofInt 0, ofInt 0⟩
  let tags ← Res.mapList (contourTags m refs) contours
  let st : FloodState := ⟨(startContours start contours).foldl (fun s i => btreeInsert i s) [], [], [], [], List.replicate contours.length 0⟩
  let (st, chunks) ← floodLoop ⟨m, refs, contours, tags⟩ fuel fuel 1 st []
  pure (st.distance, chunks)

/-- programs/src/idchoppers.rs:748-1077 `route_map_as_svg` before drawing: the areas, their distances and the chunks. -/
def routeMap (lib : Lib) (fuel : Nat) (m : FullMap F) : Res (Polygon F × List Int × List (List Nat)) := do
  let polygons ← routePolygons m fuel
  let result ← compute lib fuel polygons .union
  let (distance, chunks) ← floodContours m (routeRefs m) result.contours fuel
  pure (result, distance, chunks)

end Idc
