import Verif.Model.Holes
import Verif.Model.SweepLine
import Verif.Model.Intersect
/-!
# The sweep of `compute`: src/shapeops.rs:174-188, 758-862, 996-1247, 1339-1588

The segments of one call live in an arena (a list); a reference `&BoolSweepSegment` is an index into it.
`segment_order` holds the segments in the order of allocation, so it is the arena itself, and a
segment's `index` field is its position.  The `RefCell<SegmentPacket>` of a segment is its `data` field.
Loops that the code does not bound carry fuel.  Progress messages are not modelled.
-/

namespace Idc

open FloatOps

variable {F : Type} [FloatOps F]

/-- src/shapeops.rs:175-181 `BooleanOpType`. -/
inductive BooleanOpType where
  | intersection
  | union
  | difference
  | exclusiveOr
  deriving DecidableEq, Repr

/-- src/shapeops.rs:182-188 `EdgeType`. -/
inductive EdgeType where
  | normal
  | nonContributing
  | sameTransition
  | differentTransition
  deriving DecidableEq, Repr

/-- src/shapeops.rs:761-766 `PolygonMode`. -/
inductive PolygonMode where
  | normal
  | removeEdges
  | removeInterior
  deriving DecidableEq, Repr

/-- src/shapeops.rs:768-793 `SegmentPacket`.  Not modelled: `contour_id`, which is never used. -/
structure SegmentPacket where
  polygon_index : Nat
  mode : PolygonMode
  edge_type : EdgeType
  up_faces_outwards : Bool
  is_outside_other_poly : Bool
  left_faces_polygons : List Bool
  right_faces_polygons : List Bool
  is_in_result : Bool
  below_in_result : Option Nat
  left_processed : Bool
  right_processed : Bool
  left_contour_id : Option Nat
  right_contour_id : Option Nat
  result_in_out : Bool
  left_index : Nat
  right_index : Nat
  deriving DecidableEq, Repr

/-- src/shapeops.rs:796-821 `SegmentPacket::new`. -/
def SegmentPacket.new (polygon_index : Nat) (mode : PolygonMode) (npolygons : Nat) : SegmentPacket where
  polygon_index := polygon_index
  mode := mode
  edge_type := .normal
  up_faces_outwards := false
  is_outside_other_poly := false
  left_faces_polygons := List.replicate npolygons false
  right_faces_polygons := List.replicate npolygons false
  is_in_result := false
  below_in_result := none
  left_processed := false
  right_processed := false
  left_contour_id := none
  right_contour_id := none
  result_in_out := false
  left_index := 0
  right_index := 0

/-- src/shapeops.rs:854 `BoolSweepSegment`. -/
abbrev BoolSegment (F : Type) := SweepSegment F SegmentPacket

/-- All segments allocated so far. -/
abbrev Arena (F : Type) := List (BoolSegment F)

/-- `seg.data.borrow_mut()`: replace the packet of a segment. -/
def Arena.setPacket (arena : Arena F) (i : Nat) (p : SegmentPacket) : Res (Arena F) := do
  let s ← index arena i
  pure (arena.set i { s with data := p })

/-- src/shapeops.rs:1067-1096 `is_in_result`. -/
def SegmentPacket.isInResult (p : SegmentPacket) : Bool :=
  if p.edge_type = .nonContributing then false
  else if p.mode = .removeEdges then false
  else true

/-- src/shapeops.rs:1008-1023: `up_faces_outwards` and `is_outside_other_poly`, given the segment below. -/
def facingUp (packet : SegmentPacket) (below : BoolSegment F) : Res (Bool × Bool) :=
  let bp := below.data
  if packet.polygon_index = bp.polygon_index then .ok (!bp.up_faces_outwards, bp.is_outside_other_poly)
  else do
    let up ← bvGet bp.left_faces_polygons packet.polygon_index
    pure (up, if below.vertical then !bp.up_faces_outwards else bp.up_faces_outwards)

/-- src/shapeops.rs:1000-1060: the packet `update_polygon_facing` computes, given the segment below. -/
def facingPacket (packet : SegmentPacket) (maybeBelow : Option (BoolSegment F)) : Res SegmentPacket :=
  match maybeBelow with
  | some below => do
    let bp := below.data
    let (up, outside) ← facingUp packet below
    let l ← bvUnion (bvClear packet.left_faces_polygons) bp.left_faces_polygons
    let r ← bvUnion (bvClear packet.right_faces_polygons)
      (if bp.edge_type = .nonContributing then bp.right_faces_polygons else bp.left_faces_polygons)
    let l ← bvSet l packet.polygon_index (!up)
    let below_in_result :=
      if below.vertical || bp.edge_type = .nonContributing then bp.below_in_result else some below.index
    pure { packet with
      up_faces_outwards := up
      is_outside_other_poly := outside
      left_faces_polygons := l
      right_faces_polygons := r
      below_in_result := below_in_result }
  | none => do
    let l ← bvSet (bvClear packet.left_faces_polygons) packet.polygon_index true
    pure { packet with
      up_faces_outwards := false
      is_outside_other_poly := true
      left_faces_polygons := l
      right_faces_polygons := bvClear packet.right_faces_polygons }

/-- src/shapeops.rs:1007: borrowing the packet of the segment below panics if it is the segment itself,
whose packet is mutably borrowed. -/
def borrowBelow (arena : Arena F) (segment : Nat) : Option Nat → Res (Option (BoolSegment F))
  | none => .ok none
  | some b =>
    if b = segment then .panic .explicit
    else do
      let below ← index arena b
      pure (some below)

/-- src/shapeops.rs:998-1064 `update_polygon_facing`. -/
def updatePolygonFacing (arena : Arena F) (segment : Nat) (maybeBelow : Option Nat) : Res (Arena F) := do
  let s ← index arena segment
  let below ← borrowBelow arena segment maybeBelow
  let packet ← facingPacket s.data below
  arena.setPacket segment { packet with is_in_result := packet.isInResult }

/-- src/shapeops.rs:1170-1172: set the edge type of the upper of two coinciding segments. -/
def setUpperType (arena : Arena F) (i : Nat) (t : EdgeType) : Res (Arena F) := do
  let s ← index arena i
  if s.data.edge_type ≠ .nonContributing then arena.setPacket i { s.data with edge_type := t } else pure arena

/-- src/shapeops.rs:1099-1247 `handle_intersections`: the arena (edge types may change), a code, and
points at which to split the two segments. -/
def handleIntersections (arena : Arena F) (maybeSeg1 maybeSeg2 : Option Nat) : Res (Arena F × Nat × Option (Pt F) × Option (Pt F)) :=
  match maybeSeg1, maybeSeg2 with
  | none, _ => .ok (arena, 0, none, none)
  | _, none => .ok (arena, 0, none, none)
  | some i1, some i2 => do
    let seg1 ← index arena i1
    let seg2 ← index arena i2
    match intersectSegments (seg1.left_point, seg1.right_point) (seg2.left_point, seg2.right_point) with
    | .none => pure (arena, 0, none, none)
    | .point p =>
      if seg1.left_point.beq seg2.left_point || seg1.right_point.beq seg2.right_point then pure (arena, 0, none, none)
      else
        let pt1 := if !seg1.left_point.beq p && !seg1.right_point.beq p then some p else none
        let pt2 := if !seg2.left_point.beq p && !seg2.right_point.beq p then some p else none
        pure (arena, 1, pt1, pt2)
    | .segment _ _ =>
      if seg1.data.polygon_index = seg2.data.polygon_index then .panic .explicit
      else do
        let left_coincide := seg1.left_point.beq seg2.left_point
        let left_cmp ← comparePoints seg1.left_point seg2.left_point
        let right_cmp ← comparePoints seg1.right_point seg2.right_point
        if left_coincide then do
          let t2 := if seg1.data.up_faces_outwards = seg2.data.up_faces_outwards then EdgeType.sameTransition
            else EdgeType.differentTransition
          let arena ← arena.setPacket i1 { seg1.data with edge_type := .nonContributing }
          let arena ← setUpperType arena i2 t2
          match right_cmp with
          | .lt => pure (arena, 2, none, some seg1.right_point)
          | .gt => pure (arena, 2, some seg2.right_point, none)
          | .eq => pure (arena, 2, none, none)
        else
          match left_cmp with
          | .lt => pure (arena, 3, some seg2.left_point, none)
          | .gt => pure (arena, 3, none, some seg1.left_point)
          | .eq => .panic .explicit

/-- The variables of the sweep: src/shapeops.rs:1388-1418. -/
structure SweepState (F : Type) where
  arena : Arena F
  queue : List (Nat × SegmentEnd)
  active : List Nat
  swept : List Nat

/-- `SweepEndpoint::cmp` on references into the arena. -/
def Arena.endCmp (arena : Arena F) (a b : Nat × SegmentEnd) : Res Ordering := do
  let s ← index arena a.1
  let t ← index arena b.1
  endpointCmp s a.2 t b.2

/-- `SweepSegment::cmp` on references into the arena. -/
def Arena.segCmp (arena : Arena F) (a b : Nat) : Res Ordering := do
  let s ← index arena a
  let t ← index arena b
  s.cmp t

/-- src/shapeops.rs:1494-1498: pointers to a segment that was split now point to its left part. -/
def Arena.redirect (arena : Arena F) (seg left : Nat) : Arena F :=
  arena.map fun s =>
    if s.data.below_in_result = some seg then { s with data := { s.data with below_in_result := some left } } else s

/-- src/shapeops.rs:1420-1503 the macro `_split_segment!`: returns the index of the left part. -/
def splitSegment (lib : Lib) (npolygons : Nat) (st : SweepState F) (i : Nat) (pt : Pt F) : Res (SweepState F × Nat) := do
  let seg ← index st.arena i
  let polygon_index := seg.data.polygon_index
  let leftId := st.arena.length
  let left ← SweepSegment.new seg.left_point pt leftId polygon_index seg.data
  let rightId := st.arena.length + 1
  let right ← SweepSegment.new pt seg.right_point rightId polygon_index (SegmentPacket.new polygon_index seg.data.mode npolygons)
  let l ← bvUnion (bvClear right.data.left_faces_polygons) left.data.left_faces_polygons
  let r ← bvUnion (bvClear right.data.right_faces_polygons) left.data.right_faces_polygons
  let right := { right with data := { right.data with left_faces_polygons := l, right_faces_polygons := r } }
  let arena := st.arena ++ [left, right]
  let (found, active) ← SweepLine2.remove lib (Arena.segCmp arena) i st.active
  if !found then .panic .explicit
  else do
    let active ← SweepLine2.insert lib (Arena.segCmp arena) leftId active
    let queue ← lib.heapPush (Arena.endCmp arena) (leftId, .right) st.queue
    let queue ← lib.heapPush (Arena.endCmp arena) (rightId, .left) queue
    let queue ← lib.heapPush (Arena.endCmp arena) (rightId, .right) queue
    pure (⟨arena.redirect i leftId, queue, active, st.swept⟩, leftId)

/-- `if let Some(pt) = .. { .. = _split_segment!(seg, pt) }`. -/
def splitIf (lib : Lib) (npolygons : Nat) (st : SweepState F) (i : Nat) : Option (Pt F) → Res (SweepState F × Nat)
  | none => .ok (st, i)
  | some pt => splitSegment lib npolygons st i pt

/-- The same for an optional segment, unwrapped if there is a point. -/
def splitIfOpt (lib : Lib) (npolygons : Nat) (st : SweepState F) (i : Option Nat) : Option (Pt F) → Res (SweepState F × Option Nat)
  | none => .ok (st, i)
  | some pt => do
    let i ← unwrap i
    let (st, i) ← splitSegment lib npolygons st i pt
    pure (st, some i)

/-- src/shapeops.rs:1525-1549, a right endpoint. -/
def sweepRight (lib : Lib) (npolygons : Nat) (st : SweepState F) (segment : Nat) : Res (SweepState F) := do
  let ((found, below, above), active) ← SweepLine2.removeAndGetNeighbors lib (Arena.segCmp st.arena) segment st.active
  let st := { st with active := active }
  if found then
    let st := { st with swept := st.swept ++ [segment] }
    match above, below with
    | some above, some below => do
      let (arena, _, pt1, pt2) ← handleIntersections st.arena (some below) (some above)
      let st := { st with arena := arena }
      let (st, _) ← splitIf lib npolygons st below pt1
      let (st, _) ← splitIf lib npolygons st above pt2
      pure st
    | _, _ => pure st
  else pure st

/-- src/shapeops.rs:1565-1572: if edge types changed, the segment and the one above are updated. -/
def updateAfter (mode : Nat) (st : SweepState F) (segment : Nat) (below above : Option Nat) : Res (SweepState F) :=
  if mode = 2 then do
    let arena ← updatePolygonFacing st.arena segment below
    let a ← unwrap above
    let arena ← updatePolygonFacing arena a (some segment)
    pure { st with arena := arena }
  else .ok st

/-- src/shapeops.rs:1554-1587, a left endpoint. -/
def sweepLeft (lib : Lib) (npolygons : Nat) (st : SweepState F) (segment : Nat) : Res (SweepState F) := do
  let ((below, above), active) ← SweepLine2.insertAndGetNeighbors lib (Arena.segCmp st.arena) segment st.active
  let arena ← updatePolygonFacing st.arena segment below
  let st := { st with arena := arena, active := active }
  -- intersections with the segment above
  let (arena, mode, pt1, pt2) ← handleIntersections st.arena (some segment) above
  let st := { st with arena := arena }
  let (st, segment) ← splitIf lib npolygons st segment pt1
  let (st, above) ← splitIfOpt lib npolygons st above pt2
  let st ← updateAfter mode st segment below above
  -- intersections with the segment below
  let (arena, mode, pt1, pt2) ← handleIntersections st.arena below (some segment)
  let st := { st with arena := arena }
  let (st, below) ← splitIfOpt lib npolygons st below pt1
  let (st, segment) ← splitIf lib npolygons st segment pt2
  if mode = 2 then do
    let b ← unwrap below
    let prev ← SweepLine2.getPrevious lib (Arena.segCmp st.arena) b st.active
    let arena ← updatePolygonFacing st.arena b prev
    let arena ← updatePolygonFacing arena segment below
    pure { st with arena := arena }
  else pure st

/-- src/shapeops.rs:1525-1587: one endpoint. -/
def sweepEnd (lib : Lib) (npolygons : Nat) (st : SweepState F) (segment : Nat) : SegmentEnd → Res (SweepState F)
  | .right => sweepRight lib npolygons st segment
  | .left => sweepLeft lib npolygons st segment

/-- src/shapeops.rs:1507-1588: the sweep. -/
def sweepLoop (lib : Lib) (npolygons : Nat) : Nat → SweepState F → Res (SweepState F)
  | 0, _ => .diverge
  | fuel + 1, st => do
    let r ← lib.heapPop (Arena.endCmp st.arena) st.queue
    match r with
    | none => pure st
    | some ((segment, e), queue) => do
      let st ← sweepEnd lib npolygons { st with queue := queue } segment e
      sweepLoop lib npolygons fuel st

/-- src/shapeops.rs:1395-1407: allocate and queue the segments of one contour, skipping those of length zero. -/
def addSegments (lib : Lib) (npolygons i : Nat) (mode : PolygonMode) : List (Pt F × Pt F) → SweepState F → Res (SweepState F)
  | [], st => .ok st
  | (p0, p1) :: rest, st =>
    if p0.beq p1 then addSegments lib npolygons i mode rest st
    else do
      let id := st.arena.length
      let s ← SweepSegment.new p0 p1 id i (SegmentPacket.new i mode npolygons)
      let arena := st.arena ++ [s]
      let queue ← lib.heapPush (Arena.endCmp arena) (id, .left) st.queue
      let queue ← lib.heapPush (Arena.endCmp arena) (id, .right) queue
      addSegments lib npolygons i mode rest { st with arena := arena, queue := queue }

/-- src/shapeops.rs:1394-1408: all contours of one polygon. -/
def addContours (lib : Lib) (npolygons i : Nat) (mode : PolygonMode) : List (Contour F) → SweepState F → Res (SweepState F)
  | [], st => .ok st
  | c :: cs, st => do
    let segs ← c.segments
    let st ← addSegments lib npolygons i mode segs st
    addContours lib npolygons i mode cs st

/-- src/shapeops.rs:1393-1409: all polygons, numbered from `i`. -/
def addPolygons (lib : Lib) (npolygons : Nat) : Nat → List (Polygon F × PolygonMode) → SweepState F → Res (SweepState F)
  | _, [], st => .ok st
  | i, (p, mode) :: rest, st => do
    let st ← addContours lib npolygons i mode p.contours st
    addPolygons lib npolygons (i + 1) rest st

end Idc
