import Verif.Model.Segment
/-!
# The sweep line: src/shapeops.rs:909-985 `SweepLine2`
-/

namespace Idc

variable {α : Type}

/-- src/shapeops.rs:918-926 `SweepLine2::remove`: the new contents and whether the item was found. -/
def SweepLine2.remove (lib : Lib) (cmp : α → α → Res Ordering) (item : α) (l : List α) : Res (Bool × List α) := do
  let (found, ix) ← lib.binarySearch cmp item l
  if found then pure (true, l.eraseIdx ix) else pure (false, l)

/-- src/shapeops.rs:928-932 `SweepLine2::insert`. -/
def SweepLine2.insert (lib : Lib) (cmp : α → α → Res Ordering) (item : α) (l : List α) : Res (List α) := do
  let (found, ix) ← lib.binarySearch cmp item l
  if found then pure l else pure (l.insertIdx ix item)

/-- `if ix > 0 { Some(v[ix - 1]) } else { None }`. -/
def prevAt (l : List α) (ix : Nat) : Res (Option α) :=
  if 0 < ix then do
    let a ← index l (ix - 1)
    pure (some a)
  else .ok none

/-- src/shapeops.rs:934-951 `SweepLine2::remove_and_get_neighbors`: found, previous, next, and the contents. -/
def SweepLine2.removeAndGetNeighbors (lib : Lib) (cmp : α → α → Res Ordering) (item : α) (l : List α) :
    Res ((Bool × Option α × Option α) × List α) := do
  let (found, ix) ← lib.binarySearch cmp item l
  let l := if found then l.eraseIdx ix else l
  let prev ← prevAt l ix
  pure ((found, prev, l[ix]?), l)

/-- src/shapeops.rs:953-970 `SweepLine2::insert_and_get_neighbors`: previous, next, and the contents. -/
def SweepLine2.insertAndGetNeighbors (lib : Lib) (cmp : α → α → Res Ordering) (item : α) (l : List α) :
    Res ((Option α × Option α) × List α) := do
  let (found, ix) ← lib.binarySearch cmp item l
  let l := if found then l else l.insertIdx ix item
  let prev ← prevAt l ix
  pure ((prev, l[ix + 1]?), l)

/-- src/shapeops.rs:972-984 `SweepLine2::get_previous`. -/
def SweepLine2.getPrevious (lib : Lib) (cmp : α → α → Res Ordering) (item : α) (l : List α) : Res (Option α) := do
  let (found, ix) ← lib.binarySearch cmp item l
  if found then prevAt l ix else pure none

end Idc
