import Verif.Model.FullMap
/-!
# What converting a bare map must preserve
-/

namespace Idc

open FloatOps

/-- The two lists have the same length and corresponding elements (with their position) are related. -/
def Matches {α β : Type} (xs : List α) (ys : List β) (R : Nat → α → β → Prop) : Prop :=
  ys.length = xs.length ∧ ∀ k x y, xs[k]? = some x → ys[k]? = some y → R k x y

/-- A record index refers to an existing record. -/
def InRange {α : Type} (i : Int16) (l : List α) : Prop := 0 ≤ i.toInt ∧ i.toInt.toNat < l.length

/-- All references of a bare map are in range (-1 meaning "no side"). -/
structure WellFormed (b : BareDoomMap) : Prop where
  starts : ∀ l ∈ b.lines, InRange l.v0 b.vertices
  ends : ∀ l ∈ b.lines, InRange l.v1 b.vertices
  fronts : ∀ l ∈ b.lines, l.front_sidedef.toInt ≠ -1 → InRange l.front_sidedef b.sides
  backs : ∀ l ∈ b.lines, l.back_sidedef.toInt ≠ -1 → InRange l.back_sidedef b.sides
  sectors : ∀ s ∈ b.sides, InRange s.sector b.sectors

end Idc
