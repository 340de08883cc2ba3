import Verif.Model.Compute
import Verif.Spec.Lib
/-!
# A run of `compute` that checks that it does not depend on the standard containers

`checkedCompute` is `compute` with sorted lists as containers, that gives up whenever another implementation of the containers might do something else:
when a binary search is made in a list that is not ordered, when two things to sort compare equal, or when it matters which of two
endpoints that compare equal is taken first.
-/

namespace Idc

variable {F : Type} [FloatOps F]

/-- A binary search, if the list is ordered. -/
def checkedSearch {α : Type} (cmp : α → α → Res Ordering) (x : α) : List α → Res (Bool × Nat)
  | [] => .ok (false, 0)
  | y :: l => do
    let c ← cmp y x
    match c with
    | .lt => do
      let (found, i) ← checkedSearch cmp x l
      pure (found, i + 1)
    | .eq => if l.all fun z => cmp z x = .ok .gt then .ok (true, 0) else .panic .explicit
    | .gt => if l.all fun z => cmp z x = .ok .gt then .ok (false, 0) else .panic .explicit

/-- Sorted lists with checked searches. -/
def checkedLib : Lib where
  sort cmp l := insertionSort cmp l []
  heapPush cmp x l := insertSorted cmp x l
  heapPop _ l := match l with
    | [] => .ok none
    | x :: l => .ok (some (x, l))
  binarySearch cmp x l := checkedSearch cmp x l
  setInsert _ _ _ := .panic .explicit
  setRemove _ _ _ := .panic .explicit
  setPrev _ _ _ := .panic .explicit

/-- The endpoint is the right end of a segment that is not, and is equal to nothing, in the sweep line: handling it has no effect. -/
def isStale (st : SweepState F) (x : Nat × SegmentEnd) : Bool :=
  x.2 = .right && st.active.all fun y => st.arena.segCmp y x.1 = .ok .lt || st.arena.segCmp y x.1 = .ok .gt

/-- The sweep. `pending` are endpoints without effect that another implementation may not have taken yet. -/
def checkedLoop (n : Nat) : Nat → SweepState F → List (Nat × SegmentEnd) → Res (SweepState F)
  | 0, _, _ => .diverge
  | fuel + 1, st, pending =>
    if pending.all (isStale st) then
      match st.queue with
      | [] => .ok st
      | x :: q =>
        if isStale st x then checkedLoop n fuel { st with queue := q } (x :: pending)
        else if q.head?.all fun y => st.arena.endCmp x y = .ok .lt then do
          let st' ← sweepEnd checkedLib n { st with queue := q } x.1 x.2
          checkedLoop n fuel st' (pending.filter fun y => st.arena.endCmp y x ≠ .ok .lt)
        else .panic .explicit
    else .panic .explicit

/-- Each element is less than all that follow. -/
def strictlySorted {α : Type} (cmp : α → α → Res Ordering) : List α → Bool
  | [] => true
  | x :: l => (l.all fun y => cmp x y = .ok .lt) && strictlySorted cmp l

/-- `compute`, checked. -/
def checkedCompute (fuel : Nat) (polygons : List (Polygon F × PolygonMode)) : Res (Polygon F) := do
  let n := polygons.length
  let st ← addPolygons checkedLib n 0 polygons ⟨[], [], [], []⟩
  let st ← checkedLoop n fuel st []
  let (_, ends) ← includeSegments (polygons.map fun p => p.2) st.arena st.swept [] []
  let included ← insertionSort (Arena.endCmp st.arena) ends []
  if strictlySorted (Arena.endCmp st.arena) included then do
    let arena ← recordIndices 0 included st.arena
    let (arena, contours) ← traceAll fuel included included arena []
    let contours := contours.map fun c => { c with neighbors := bvGrow c.neighbors contours.length false }
    let contours ← assignNeighbors arena included contours
    pure ⟨contours⟩
  else .panic .explicit

end Idc
