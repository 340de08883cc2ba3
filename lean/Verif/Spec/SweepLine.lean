import Verif.Model.SweepLine
import Verif.Spec.Lib
import Mathlib.Order.Defs.LinearOrder
import Mathlib.Data.Set.Basic
/-!
# A sorted set with neighbour queries
-/

namespace Idc

variable {α : Type} [LinearOrder α]

/-- The comparison of a linear order, as a comparison that never panics. -/
def lawfulCmp (a b : α) : Res Ordering := .ok (compare a b)

/-- What `slice::binary_search` guarantees on a strictly sorted slice with a lawful order: it returns,
the index of the item if it is there, otherwise the index where it belongs. -/
def Lib.SearchLawful (lib : Lib) : Prop :=
  ∀ {α : Type} [LinearOrder α] (x : α) (l : List α), l.Pairwise (· < ·) →
    ∃ b i, lib.binarySearch lawfulCmp x l = .ok (b, i) ∧ (b = true → l[i]? = some x) ∧
      (b = false → i ≤ l.length ∧ ∀ (j : Nat) y, l[j]? = some y → (j < i → y < x) ∧ (i ≤ j → x < y))

/-- `r` is the greatest element of `S` smaller than `x`, or `none` if there is none. -/
def IsPrev (S : Set α) (x : α) : Option α → Prop
  | none => ∀ y ∈ S, ¬ y < x
  | some y => y ∈ S ∧ y < x ∧ ∀ z ∈ S, z < x → z ≤ y

/-- `r` is the least element of `S` greater than `x`, or `none` if there is none. -/
def IsNext (S : Set α) (x : α) : Option α → Prop
  | none => ∀ y ∈ S, ¬ x < y
  | some y => y ∈ S ∧ x < y ∧ ∀ z ∈ S, x < z → y ≤ z

/-- The calls on a sweep line. -/
inductive LineOp (α : Type) where
  | insert (x : α)
  | remove (x : α)
  | insertAndGetNeighbors (x : α)
  | removeAndGetNeighbors (x : α)
  | getPrevious (x : α)

/-- The answer to a call, as far as it gives one. -/
structure LineAnswer (α : Type) where
  found : Option Bool := none
  prev : Option α := none
  next : Option α := none

/-- The model of a call. -/
def LineOp.run (lib : Lib) (l : List α) : LineOp α → Res (LineAnswer α × List α)
  | .insert x => do let l ← SweepLine2.insert lib lawfulCmp x l; pure ({}, l)
  | .remove x => do let (b, l) ← SweepLine2.remove lib lawfulCmp x l; pure ({ found := some b }, l)
  | .insertAndGetNeighbors x => do
    let ((p, n), l) ← SweepLine2.insertAndGetNeighbors lib lawfulCmp x l
    pure ({ prev := p, next := n }, l)
  | .removeAndGetNeighbors x => do
    let ((b, p, n), l) ← SweepLine2.removeAndGetNeighbors lib lawfulCmp x l
    pure ({ found := some b, prev := p, next := n }, l)
  | .getPrevious x => do let p ← SweepLine2.getPrevious lib lawfulCmp x l; pure ({ prev := p }, l)

/-- A history of calls, from given contents: the answers, and the final contents. -/
def runLine (lib : Lib) : List (LineOp α) → List α → Res (List (LineAnswer α) × List α)
  | [], l => .ok ([], l)
  | op :: ops, l => do
    let (a, l) ← op.run lib l
    let (as, l) ← runLine lib ops l
    pure (a :: as, l)

/-- What a call does to a set of elements, and the answers it may give. -/
def LineOp.Spec (S : Set α) (a : LineAnswer α) (S' : Set α) : LineOp α → Prop
  | .insert x => S' = {y | y = x ∨ y ∈ S}
  | .remove x => S' = {y | y ≠ x ∧ y ∈ S} ∧ ∃ b, a.found = some b ∧ (b = true ↔ x ∈ S)
  | .insertAndGetNeighbors x => S' = {y | y = x ∨ y ∈ S} ∧ IsPrev S x a.prev ∧ IsNext S x a.next
  | .removeAndGetNeighbors x =>
    S' = {y | y ≠ x ∧ y ∈ S} ∧ (∃ b, a.found = some b ∧ (b = true ↔ x ∈ S)) ∧ IsPrev S x a.prev ∧ IsNext S x a.next
  | .getPrevious x => S' = S ∧ (x ∈ S → IsPrev S x a.prev) ∧ (x ∉ S → a.prev = none)

/-- The answers of a history are those of a sorted set, and `T` is what it holds at the end. -/
def FollowsSet : List (LineOp α) → List (LineAnswer α) → Set α → Set α → Prop
  | [], as, S, T => as = [] ∧ T = S
  | op :: ops, as, S, T => ∃ a as' S', as = a :: as' ∧ op.Spec S a S' ∧ FollowsSet ops as' S' T

end Idc
