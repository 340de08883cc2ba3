import Verif.Model.Shape
/-!
# Sweep segments and endpoints: src/shapeops.rs:190-405, and the standard containers used on them
-/

namespace Idc

open FloatOps

variable {F : Type} [FloatOps F] {T : Type}

/-- src/shapeops.rs:191-195 `SegmentEnd`. -/
inductive SegmentEnd where
  | left
  | right
  deriving DecidableEq, Repr

/-- src/shapeops.rs:198-206 `SweepSegment`. -/
structure SweepSegment (F T : Type) where
  left_point : Pt F
  right_point : Pt F
  faces_outwards : Bool
  index : Nat
  order : Nat
  data : T
  deriving DecidableEq, Repr

/-- src/shapeops.rs:209-231 `SweepSegment::new`. -/
def SweepSegment.new (point0 point1 : Pt F) (index order : Nat) (data : T) : Res (SweepSegment F T) :=
  if point0.beq point1 then .panic .explicit
  else if lt point0.x point1.x || (eq point0.x point1.x && lt point0.y point1.y) then
    .ok ⟨point0, point1, false, index, order, data⟩
  else
    .ok ⟨point1, point0, true, index, order, data⟩

/-- The threshold 0.0000001 of src/shapeops.rs:235 and 275-276. -/
def areaEps : F := lit 1 7

/-- src/shapeops.rs:234-236 `SweepSegment::below`. -/
def SweepSegment.below (s : SweepSegment F T) (p : Pt F) : Bool :=
  lt areaEps (triangleSignedArea s.left_point s.right_point p)

/-- src/shapeops.rs:239-241 `SweepSegment::above`. -/
def SweepSegment.above (s : SweepSegment F T) (p : Pt F) : Bool := !s.below p

/-- src/shapeops.rs:244-246 `SweepSegment::vertical`. -/
def SweepSegment.vertical (s : SweepSegment F T) : Bool := eq s.left_point.x s.right_point.x

/-- src/shapeops.rs:343-348 `SweepEndpoint::point`.  An endpoint is a segment and an end. -/
def SweepSegment.pointAt (s : SweepSegment F T) : SegmentEnd → Pt F
  | .left => s.left_point
  | .right => s.right_point

/-- src/shapeops.rs:349-354 `SweepEndpoint::other_point`. -/
def SweepSegment.otherPointAt (s : SweepSegment F T) : SegmentEnd → Pt F
  | .left => s.right_point
  | .right => s.left_point

/-- src/shapeops.rs:377-388, the comparison of ends: right before left. -/
def endCmp (a b : SegmentEnd) : Ordering :=
  if a = b then .eq else if a = .right then .lt else .gt

/-- `Ordering::then_with` with a closure that may panic. -/
def thenWith (o : Ordering) (k : Unit → Res Ordering) : Res Ordering :=
  match o with
  | .eq => k ()
  | o => .ok o

/-- src/shapeops.rs:370-406 `SweepEndpoint::cmp`, for two endpoints that are not the same object.  Both
coordinate comparisons are made (and unwrapped) before the rest. -/
def endpointCmp (s : SweepSegment F T) (e : SegmentEnd) (s' : SweepSegment F T) (e' : SegmentEnd) : Res Ordering := do
  let cx ← unwrap (cmp (s.pointAt e).x (s'.pointAt e').x)
  let cy ← unwrap (cmp (s.pointAt e).y (s'.pointAt e').y)
  thenWith ((cx.then cy).then (endCmp e e')) fun _ => do
    let ca ← unwrap (cmp (triangleSignedArea (s'.pointAt e') (s'.otherPointAt e') (s.otherPointAt e)) (ofInt 0))
    pure (ca.then (compare s.order s'.order))

/-- src/shapeops.rs:269-334 `SweepSegment::cmp`.  `self as *const _ == other as *const _` is equality of
`index`: every segment object of one call of `compute` or `compute_holes` has its own index. -/
def SweepSegment.cmp (s s' : SweepSegment F T) : Res Ordering :=
  if s.index = s'.index then .ok .eq
  else if lt (abs (triangleSignedArea s.left_point s.right_point s'.left_point)) areaEps &&
      lt (abs (triangleSignedArea s.left_point s.right_point s'.right_point)) areaEps then
    thenWith ((compare s.order s'.order).then
        (if s.left_point.beq s'.left_point then compare s.index s'.index else .eq))
      fun _ => endpointCmp s' .left s .left
  else if s.left_point.beq s'.left_point then
    .ok (if s.below s'.right_point then .lt else .gt)
  else do
    let c ← endpointCmp s .left s' .left
    if c = .lt then pure (if s.below s'.left_point then .lt else .gt)
    else pure (if s'.above s.left_point then .lt else .gt)

/-! ### Standard containers

The contents of a `BinaryHeap`, `BTreeSet` or sorted `Vec` are a list; what the library does with a
comparison that may panic and need not be a lawful order is a parameter. -/

/-- `slice::sort`, `BinaryHeap::push`/`pop`, `slice::binary_search`, `BTreeSet::insert`/`remove` and
`BTreeSet::range(..x).last()`, each given the comparison.  `binarySearch` returns whether the item was
found, and the index (`Ok(i)`, `Err(i)`). -/
structure Lib where
  sort : {α : Type} → (α → α → Res Ordering) → List α → Res (List α)
  heapPush : {α : Type} → (α → α → Res Ordering) → α → List α → Res (List α)
  heapPop : {α : Type} → (α → α → Res Ordering) → List α → Res (Option (α × List α))
  binarySearch : {α : Type} → (α → α → Res Ordering) → α → List α → Res (Bool × Nat)
  setInsert : {α : Type} → (α → α → Res Ordering) → α → List α → Res (List α)
  setRemove : {α : Type} → (α → α → Res Ordering) → α → List α → Res (List α)
  setPrev : {α : Type} → (α → α → Res Ordering) → α → List α → Res (Option α)

end Idc
