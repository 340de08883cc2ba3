import Verif.Model.BareOutline
/-!
# What a sector outline is

The boundary lines of a sector are the lines of which exactly one side faces it.  An outline follows
boundary lines from vertex to vertex.
-/

namespace Idc

open FloatOps

/-- The sector the side numbered `h` faces. -/
def facing {F : Type} (m : FullMap F) (h : Option Nat) : Option Nat := (h.bind fun i => m.sides[i]?).map (·.sector)

/-- The boundary lines of sector `s`, as pairs of vertex numbers, in map order. -/
def boundary {F : Type} (m : FullMap F) (s : Nat) : List (Nat × Nat) :=
  (m.lines.filter fun l => (facing m l.front == some s) != (facing m l.back == some s)).map fun l => (l.start, l.stop)

/-- All references of a full map are in range. -/
structure RefsInRange {F : Type} (m : FullMap F) : Prop where
  starts : ∀ l ∈ m.lines, l.start < m.vertices.length
  stops : ∀ l ∈ m.lines, l.stop < m.vertices.length
  fronts : ∀ l ∈ m.lines, ∀ h, l.front = some h → h < m.sides.length
  backs : ∀ l ∈ m.lines, ∀ h, l.back = some h → h < m.sides.length

/-- Boundary line number `e` joins vertices `a` and `b`. -/
def Joins (bl : List (Nat × Nat)) (e a b : Nat) : Prop := bl[e]? = some (a, b) ∨ bl[e]? = some (b, a)

/-- `Walk bl vs es w`: the boundary lines `es`, in order, lead through the vertices `vs` and then to `w`. -/
inductive Walk (bl : List (Nat × Nat)) : List Nat → List Nat → Nat → Prop
  | first {a e w : Nat} : Joins bl e a w → Walk bl [a] [e] w
  | step {vs es : List Nat} {w e x : Nat} : Walk bl vs es w → Joins bl e w x → Walk bl (vs ++ [w]) (es ++ [e]) x

/-- The positions of the vertices `vs` are `ps`. -/
def Positions {F : Type} (m : FullMap F) (vs : List Nat) (ps : List (Pt F)) : Prop :=
  vs.map (fun v => m.vertices[v]?) = ps.map some

/-- `Outline m bl used es ps`: following the boundary lines `es` traces the points `ps`, and either the
last line leads back to the starting position, or the walk ends elsewhere, at a vertex all of whose
boundary lines are used up (in `used` or in this outline). -/
inductive Outline {F : Type} [FloatOps F] (m : FullMap F) (bl : List (Nat × Nat)) (used : List Nat) :
    List Nat → List (Pt F) → Prop
  | closed {v w : Nat} {vs es : List Nat} {ps : List (Pt F)} {p q : Pt F} :
      Walk bl (v :: vs) es w → m.vertices[v]? = some p → m.vertices[w]? = some q → q.beq p = true →
      Positions m (v :: vs) ps → Outline m bl used es ps
  | stuck {v w : Nat} {vs es : List Nat} {ps : List (Pt F)} {p q : Pt F} :
      Walk bl (v :: vs) es w → m.vertices[v]? = some p → m.vertices[w]? = some q → q.beq p = false →
      (∀ e x, Joins bl e w x → e ∈ used ∨ e ∈ es) → Positions m (v :: vs ++ [w]) ps →
      Outline m bl used es ps

/-- A complete tracing of the boundary `bl`: a list of outlines, each with the lines it uses, that
together use every boundary line exactly once; those of more than two points are the result. -/
structure Tracing {F : Type} [FloatOps F] (m : FullMap F) (bl : List (Nat × Nat)) (outlines : List (List (Pt F)))
    (ts : List (List Nat × List (Pt F))) : Prop where
  each : ∀ pre t post, ts = pre ++ t :: post → Outline m bl (pre.flatMap (·.1)) t.1 t.2
  once : (ts.flatMap (·.1)).Perm (List.range bl.length)
  result : outlines = (ts.map (·.2)).filter fun ps => decide (ps.length > 2)

/-- Every vertex is at an even number of boundary line ends. -/
def EvenDegrees (bl : List (Nat × Nat)) : Prop := ∀ v, (bl.countP (·.1 = v) + bl.countP (·.2 = v)) % 2 = 0

/-- Different vertices are at different positions (and each position equals itself). -/
def DistinctPositions {F : Type} [FloatOps F] (m : FullMap F) : Prop :=
  ∀ (i j : Nat) (p q : Pt F), m.vertices[i]? = some p → m.vertices[j]? = some q → (p.beq q = true ↔ i = j)

/-! ### Bare maps -/

/-- The sector the side numbered `i` faces (none for -1 or a number out of range). -/
def BinMap.facing (m : BinMap) (i : Int16) : Option Int :=
  if 0 ≤ i.toInt then (m.sides[i.toInt.toNat]?).map fun s => s.sector.toInt else none

/-- The boundary lines of sector `s`, as pairs of vertex numbers. -/
def BinMap.boundary (m : BinMap) (s : Nat) : List (Nat × Nat) :=
  (m.lines.filter fun l => (m.facing l.front == some (s : Int)) != (m.facing l.back == some (s : Int))).map
    fun l => (l.v0.toInt.toNat, l.v1.toInt.toNat)

/-- All references of a bare map are in range (-1 meaning "no side"). -/
structure BinMap.InRange (m : BinMap) : Prop where
  starts : ∀ l ∈ m.lines, 0 ≤ l.v0.toInt ∧ l.v0.toInt.toNat < m.vertices.length
  ends : ∀ l ∈ m.lines, 0 ≤ l.v1.toInt ∧ l.v1.toInt.toNat < m.vertices.length
  fronts : ∀ l ∈ m.lines, l.front.toInt ≠ -1 → 0 ≤ l.front.toInt ∧ l.front.toInt.toNat < m.sides.length
  backs : ∀ l ∈ m.lines, l.back.toInt ≠ -1 → 0 ≤ l.back.toInt ∧ l.back.toInt.toNat < m.sides.length
  sectors : ∀ s ∈ m.sides, 0 ≤ s.sector.toInt ∧ s.sector.toInt.toNat < m.sectors.length

/-- `v` is an end of a boundary line. -/
def IsEnd (bl : List (Nat × Nat)) (v : Nat) : Prop := ∃ p ∈ bl, v = p.1 ∨ v = p.2

/-- Consecutive elements are related. -/
def Consecutive {α : Type} (R : α → α → Prop) (l : List α) : Prop :=
  ∀ k a b, l[k]? = some a → l[k + 1]? = some b → R a b

end Idc
