import Verif.Model.Segment
/-!
# Contracts of the standard containers
-/

namespace Idc

/-- What the standard containers guarantee whatever the comparison does, if they return at all: sorting
and heap operations keep the elements; a search that succeeds found an element that compares equal, and
the index is in range; a set operation adds or removes at most the element asked for (or one that
compares equal); `range(..x).last()` returns an element that `x` compares greater than. -/
structure Lib.Ok (lib : Lib) : Prop where
  sort_perm : ∀ {α : Type} (cmp : α → α → Res Ordering) (l l' : List α), lib.sort cmp l = .ok l' → l'.Perm l
  push_perm : ∀ {α : Type} (cmp : α → α → Res Ordering) (x : α) (l l' : List α), lib.heapPush cmp x l = .ok l' → l'.Perm (x :: l)
  pop_some : ∀ {α : Type} (cmp : α → α → Res Ordering) (l l' : List α) (x : α), lib.heapPop cmp l = .ok (some (x, l')) → l.Perm (x :: l')
  pop_none : ∀ {α : Type} (cmp : α → α → Res Ordering) (l : List α), lib.heapPop cmp l = .ok none → l = []
  search_found : ∀ {α : Type} (cmp : α → α → Res Ordering) (x : α) (l : List α) (i : Nat), lib.binarySearch cmp x l = .ok (true, i) →
    ∃ y, l[i]? = some y ∧ cmp y x = .ok .eq
  search_missing : ∀ {α : Type} (cmp : α → α → Res Ordering) (x : α) (l : List α) (i : Nat), lib.binarySearch cmp x l = .ok (false, i) →
    i ≤ l.length
  insert_elems : ∀ {α : Type} (cmp : α → α → Res Ordering) (x : α) (l l' : List α), lib.setInsert cmp x l = .ok l' →
    l'.Perm (x :: l) ∨ l'.Perm l ∧ ∃ y ∈ l, cmp x y = .ok .eq
  remove_elems : ∀ {α : Type} (cmp : α → α → Res Ordering) (x : α) (l l' : List α), lib.setRemove cmp x l = .ok l' →
    l'.Perm l ∨ ∃ y, l.Perm (y :: l') ∧ cmp x y = .ok .eq
  prev_elem : ∀ {α : Type} (cmp : α → α → Res Ordering) (x : α) (l : List α) (y : α), lib.setPrev cmp x l = .ok (some y) →
    y ∈ l ∧ cmp x y = .ok .gt

/-- The containers end whenever the comparison does. -/
structure Lib.Ends (lib : Lib) : Prop where
  sort : ∀ {α : Type} (cmp : α → α → Res Ordering) (l : List α), (∀ a b, cmp a b ≠ .diverge) → lib.sort cmp l ≠ .diverge
  push : ∀ {α : Type} (cmp : α → α → Res Ordering) (x : α) (l : List α), (∀ a b, cmp a b ≠ .diverge) → lib.heapPush cmp x l ≠ .diverge

/-! ### A simple implementation, to run the model with and to show that the contract can be met -/

/-- Insert before the first element that is greater. -/
def insertSorted {α : Type} (cmp : α → α → Res Ordering) (x : α) : List α → Res (List α)
  | [] => .ok [x]
  | y :: l => do
    let c ← cmp x y
    if c = .lt then pure (x :: y :: l)
    else do
      let r ← insertSorted cmp x l
      pure (y :: r)

/-- Insertion sort (stable). -/
def insertionSort {α : Type} (cmp : α → α → Res Ordering) : List α → List α → Res (List α)
  | [], done => .ok done
  | x :: l, done => do
    let done ← insertSorted cmp x done
    insertionSort cmp l done

/-- First element that is not less than `x`: found if it compares equal. -/
def linearSearch {α : Type} (cmp : α → α → Res Ordering) (x : α) : Nat → List α → Res (Bool × Nat)
  | i, [] => .ok (false, i)
  | i, y :: l => do
    let c ← cmp y x
    match c with
    | .lt => linearSearch cmp x (i + 1) l
    | .eq => .ok (true, i)
    | .gt => .ok (false, i)

/-- Add unless an equal element is there; the elements are in order. -/
def setInsertList {α : Type} (cmp : α → α → Res Ordering) (x : α) : List α → Res (List α)
  | [] => .ok [x]
  | y :: l => do
    let c ← cmp x y
    match c with
    | .lt => pure (x :: y :: l)
    | .eq => pure (y :: l)
    | .gt => do
      let r ← setInsertList cmp x l
      pure (y :: r)

/-- Remove the first equal element. -/
def setRemoveList {α : Type} (cmp : α → α → Res Ordering) (x : α) : List α → Res (List α)
  | [] => .ok []
  | y :: l => do
    let c ← cmp x y
    if c = .eq then pure l
    else do
      let r ← setRemoveList cmp x l
      pure (y :: r)

/-- The last element before the first that is not smaller. -/
def setPrevList {α : Type} (cmp : α → α → Res Ordering) (x : α) : Option α → List α → Res (Option α)
  | prev, [] => .ok prev
  | prev, y :: l => do
    let c ← cmp x y
    if c = .gt then setPrevList cmp x (some y) l else pure prev

/-- The containers as sorted lists. -/
def listLib : Lib where
  sort cmp l := insertionSort cmp l []
  heapPush cmp x l := insertSorted cmp x l
  heapPop _ l := match l with
    | [] => .ok none
    | x :: l => .ok (some (x, l))
  binarySearch cmp x l := linearSearch cmp x 0 l
  setInsert := setInsertList
  setRemove := setRemoveList
  setPrev cmp x l := setPrevList cmp x none l

end Idc
