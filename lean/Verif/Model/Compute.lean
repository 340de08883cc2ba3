import Verif.Model.Sweep
/-!
# Tracing the result of `compute`: src/shapeops.rs:824-841, 1249-1337, 1590-1736
-/

namespace Idc

open FloatOps

variable {F : Type} [FloatOps F]

/-- src/shapeops.rs:825-831 `is_processed`. -/
def SegmentPacket.isProcessed (p : SegmentPacket) : SegmentEnd → Bool
  | .left => p.left_processed
  | .right => p.right_processed

/-- src/shapeops.rs:833-839 `mark_processed`. -/
def SegmentPacket.markProcessed (p : SegmentPacket) : SegmentEnd → SegmentPacket
  | .left => { p with left_processed := true }
  | .right => { p with right_processed := true }

/-- The side of a segment an endpoint stands for: `left_faces_polygons` or `right_faces_polygons`. -/
def SegmentPacket.faces (p : SegmentPacket) : SegmentEnd → List Bool
  | .left => p.left_faces_polygons
  | .right => p.right_faces_polygons

/-- src/shapeops.rs:1600-1605, also 1611-1616: does the side face a polygon whose interior is removed? -/
def facesRemoved (modes : List PolygonMode) : Nat → List Bool → Res Bool
  | _, [] => .ok false
  | i, flag :: rest =>
    if flag then do
      let m ← index modes i
      if m = .removeInterior then pure true else facesRemoved modes (i + 1) rest
    else facesRemoved modes (i + 1) rest

/-- src/shapeops.rs:1599-1608, also 1609-1619: is the side left out of the result? -/
def skipSide (modes : List PolygonMode) (faces : List Bool) : Res Bool := do
  let removed ← facesRemoved modes 0 faces
  pure (removed || bvNone faces)

/-- src/shapeops.rs:1594-1631: the segments and endpoints to trace. -/
def includeSegments (modes : List PolygonMode) (arena : Arena F) :
    List Nat → List Nat → List (Nat × SegmentEnd) → Res (List Nat × List (Nat × SegmentEnd))
  | [], segs, ends => .ok (segs, ends)
  | i :: rest, segs, ends => do
    let s ← index arena i
    if !s.data.is_in_result then includeSegments modes arena rest segs ends
    else do
      let skipLeft ← skipSide modes s.data.left_faces_polygons
      let skipRight ← skipSide modes s.data.right_faces_polygons
      if skipLeft && skipRight then includeSegments modes arena rest segs ends
      else
        includeSegments modes arena rest (segs ++ [i])
          (ends ++ (if skipLeft then [] else [(i, .left)]) ++ (if skipRight then [] else [(i, .right)]))

/-- src/shapeops.rs:1637-1640: store the position of an endpoint. -/
def SegmentPacket.setIndex (p : SegmentPacket) (i : Nat) : SegmentEnd → SegmentPacket
  | .left => { p with left_index := i }
  | .right => { p with right_index := i }

/-- src/shapeops.rs:1635-1641: record the positions of the endpoints. -/
def recordIndices : Nat → List (Nat × SegmentEnd) → Arena F → Res (Arena F)
  | _, [], arena => .ok arena
  | i, (seg, e) :: rest, arena => do
    let s ← index arena seg
    let arena ← arena.setPacket seg (s.data.setIndex i e)
    recordIndices (i + 1) rest arena

/-- src/shapeops.rs:1272-1274: the first endpoint at `p`; running off the end panics. -/
def firstAt (arena : Arena F) (p : Pt F) : Nat → List (Nat × SegmentEnd) → Res Nat
  | _, [] => .panic .bounds
  | i, (seg, e) :: rest => do
    let s ← index arena seg
    if (s.pointAt e).beq p then pure i else firstAt arena p (i + 1) rest

/-- The variables of the search in `find_next_segment`, src/shapeops.rs:1278-1280. -/
structure NextState (F : Type) where
  closest_dot : F
  closest : Option Nat
  seen_ccw : Bool

/-- src/shapeops.rs:1304-1326: consider an endpoint at the right place; `pos` is its position. -/
def considerNext (current_vec vec : Pt F) (pos : Nat) (st : NextState F) : NextState F :=
  let dot := div (current_vec.dot vec) vec.length
  let this_ccw := lt (ofInt 0) (current_vec.cross vec)
  if this_ccw && !st.seen_ccw then ⟨dot, some pos, true⟩
  else if !this_ccw && st.seen_ccw then st
  else if st.closest.isNone || (this_ccw && lt dot st.closest_dot) || (!this_ccw && lt st.closest_dot dot) then
    { st with closest_dot := dot, closest := some pos }
  else st

/-- src/shapeops.rs:370-373 `SweepEndpoint::cmp` starts by comparing addresses. -/
def endpointOrder (same : Prop) [Decidable same] (s : BoolSegment F) (e : SegmentEnd) (c : BoolSegment F) (e' : SegmentEnd) : Res Ordering :=
  if same then .ok .eq else endpointCmp s e c e'

/-- src/shapeops.rs:1284-1330: the search from position `pos` on.  `cur` is the position of the current
endpoint; `endpoint == current_endpoint` holds at once for the same object. -/
def searchNext (arena : Arena F) (cur : Nat) (curEnd : Nat × SegmentEnd) (current_vec next_point : Pt F) :
    Nat → List (Nat × SegmentEnd) → NextState F → Res (NextState F)
  | _, [], st => .ok st
  | pos, (seg, e) :: rest, st => do
    let s ← index arena seg
    let c ← index arena curEnd.1
    if s.data.isProcessed e then searchNext arena cur curEnd current_vec next_point (pos + 1) rest st
    else do
      let o ← endpointOrder (pos = cur) s e c curEnd.2
      if o = .eq then searchNext arena cur curEnd current_vec next_point (pos + 1) rest st
      else do
        let o ← s.cmp c
        if o = .eq then searchNext arena cur curEnd current_vec next_point (pos + 1) rest st
        else if next_point.beq (s.pointAt e) then
          searchNext arena cur curEnd current_vec next_point (pos + 1) rest
            (considerNext current_vec ((s.otherPointAt e).sub (s.pointAt e)) pos st)
        else pure st

/-- src/shapeops.rs:1253-1337 `find_next_segment`, on positions in `included_endpoints`.  Not modelled: the
first search for `start_index` (1257-1266), whose result is overwritten. -/
def findNextSegment (arena : Arena F) (included : List (Nat × SegmentEnd)) (cur : Nat) : Res Nat := do
  let curEnd ← index included cur
  let c ← index arena curEnd.1
  let next_point := c.otherPointAt curEnd.2
  let start ← firstAt arena next_point 0 included
  let current_vec := next_point.sub (c.pointAt curEnd.2)
  let st ← searchNext arena cur curEnd current_vec next_point start (included.drop start) ⟨nan, none, false⟩
  match st.closest with
  | some pos => pure pos
  | none => .panic .explicit

/-- src/shapeops.rs:1664, 1667-1676: mark an endpoint as processed, as part of a contour. -/
def SegmentPacket.assign (p : SegmentPacket) (id : Nat) : SegmentEnd → SegmentPacket
  | .left => { p.markProcessed .left with left_contour_id := some id, result_in_out := false }
  | .right => { p.markProcessed .right with right_contour_id := some id, result_in_out := true }

/-- src/shapeops.rs:1663-1686: walk around a contour until back at the starting point. -/
def traceContour (included : List (Nat × SegmentEnd)) (contourId : Nat) (starting_point : Pt F) :
    Nat → Arena F → Contour F → Nat → Res (Arena F × Contour F × Nat)
  | 0, _, _, _ => .diverge
  | fuel + 1, arena, contour, cur => do
    let (seg, e) ← index included cur
    let s ← index arena seg
    let packet := s.data.assign contourId e
    let from_polygons ← bvUnion contour.from_polygons (packet.faces e)
    let contour := { contour with from_polygons := from_polygons }
    let arena ← arena.setPacket seg packet
    let point := s.otherPointAt e
    if point.beq starting_point then pure (arena, contour, cur)
    else do
      let contour := contour.add point
      let next ← findNextSegment arena included cur
      traceContour included contourId starting_point fuel arena contour next

/-- src/shapeops.rs:1647-1711: one turn of the loop over the endpoints. -/
def traceStep (fuel : Nat) (included : List (Nat × SegmentEnd)) (arena : Arena F) (contours : List (Contour F)) (endpoint : Nat × SegmentEnd) :
    Res (Arena F × List (Contour F)) := do
  let s ← index arena endpoint.1
  if s.data.isProcessed endpoint.2 then pure (arena, contours)
  else do
    let contourId := contours.length
    let starting_point := s.left_point
    let contour := { (Contour.new : Contour F) with from_polygons := s.data.faces endpoint.2 }
    let contour := contour.add starting_point
    let (arena, contour, last) ← traceContour included contourId starting_point fuel arena contour s.data.left_index
    let (cw, contour) ← contour.clockwise
    let contours := contours ++ [contour]
    if cw then do
      let (seg, _) ← index included last
      let s ← index arena seg
      match s.data.below_in_result with
      | some b => do
        let below ← index arena b
        let parent ← unwrap below.data.left_contour_id
        let contours ← modifyContour contours parent fun c => .ok (c.addHole contourId)
        let contours ← modifyContour contours contourId fun c => .ok (c.setExternal false)
        pure (arena, contours)
      | none => pure (arena, contours)
    else pure (arena, contours)

/-- src/shapeops.rs:1646-1712: trace all contours. -/
def traceAll (fuel : Nat) (included : List (Nat × SegmentEnd)) : List (Nat × SegmentEnd) → Arena F → List (Contour F) → Res (Arena F × List (Contour F))
  | [], arena, contours => .ok (arena, contours)
  | e :: rest, arena, contours => do
    let (arena, contours) ← traceStep fuel included arena contours e
    traceAll fuel included rest arena contours

/-- `final_polygon[i].neighbors.set(j, true)`. -/
def setNeighbor (contours : List (Contour F)) (i j : Nat) : Res (List (Contour F)) :=
  modifyContour contours i fun c => do
    let n ← bvSet c.neighbors j true
    pure { c with neighbors := n }

/-- src/shapeops.rs:1720-1728: record neighbours. -/
def assignNeighbors (arena : Arena F) : List (Nat × SegmentEnd) → List (Contour F) → Res (List (Contour F))
  | [], contours => .ok contours
  | (seg, _) :: rest, contours => do
    let s ← index arena seg
    match s.data.right_contour_id, s.data.left_contour_id with
    | some r, some l => do
      let contours ← setNeighbor contours l r
      let contours ← setNeighbor contours r l
      assignNeighbors arena rest contours
    | _, _ => assignNeighbors arena rest contours

/-- src/shapeops.rs:1339-1731 `compute`. -/
def compute (lib : Lib) (fuel : Nat) (polygons : List (Polygon F × PolygonMode)) (_operation : BooleanOpType) : Res (Polygon F) := do
  let n := polygons.length
  let modes := polygons.map fun p => p.2
  let st ← addPolygons lib n 0 polygons ⟨[], [], [], []⟩
  let st ← sweepLoop lib n fuel st
  let (segs, ends) ← includeSegments modes st.arena st.swept [] []
  let _ ← lib.sort (Arena.segCmp st.arena) segs
  let included ← lib.sort (Arena.endCmp st.arena) ends
  let arena ← recordIndices 0 included st.arena
  let (arena, contours) ← traceAll fuel included included arena []
  let contours := contours.map fun c => { c with neighbors := bvGrow c.neighbors contours.length false }
  let contours ← assignNeighbors arena included contours
  pure ⟨contours⟩

end Idc
