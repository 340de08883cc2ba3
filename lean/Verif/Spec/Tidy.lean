import Verif.Model.Compute
import Verif.Spec.Intersect
import Verif.Spec.Endpoint
import Verif.Spec.Compute
import Verif.Spec.Lib
import Mathlib.Data.List.Rotate
import Mathlib.Algebra.Ring.Parity
/-!
# Polygons whose outlines do not touch, and what `compute` has to make of them

Everything here is about exact real arithmetic and independent of how `compute` works.
-/

namespace Idc

/-! ### The polygons -/

/-- The edges of the closed chain through the given points. -/
def closedEdges (ps : List (Pt ℝ)) : List (Pt ℝ × Pt ℝ) := ps.zip (ps.rotate 1)

/-- The edges of all outlines of a polygon. -/
def Polygon.edges (p : Polygon ℝ) : List (Pt ℝ × Pt ℝ) := p.contours.flatMap fun c => closedEdges c.points

/-- All edges of all polygons. -/
def allEdges (polys : List (Polygon ℝ × PolygonMode)) : List (Pt ℝ × Pt ℝ) := polys.flatMap fun p => p.1.edges

/-- All corners of all polygons. -/
def allCorners (polys : List (Polygon ℝ × PolygonMode)) : List (Pt ℝ) :=
  polys.flatMap fun p => p.1.contours.flatMap fun c => c.points

/-- `p` is an end of the edge `e`. -/
def EndOf (e : Pt ℝ × Pt ℝ) (p : Pt ℝ) : Prop := p = e.1 ∨ p = e.2

/-- The edges are parallel. -/
def ParallelEdges (e e' : Pt ℝ × Pt ℝ) : Prop :=
  (e.2.x - e.1.x) * (e'.2.y - e'.1.y) = (e.2.y - e.1.y) * (e'.2.x - e'.1.x)

/-- Seen from `a` on the line through `e`, the point `b` is off the line: the square of the sine of the angle is more than
10⁻⁷ (the angle is more than 0.018°). -/
def ClearlyOff (e : Pt ℝ × Pt ℝ) (a b : Pt ℝ) : Prop :=
  1 / 10 ^ 7 * ((e.2.x - e.1.x) ^ 2 + (e.2.y - e.1.y) ^ 2) * ((b.x - a.x) ^ 2 + (b.y - a.y) ^ 2) <
    ((b.x - a.x) * (e.2.y - e.1.y) - (b.y - a.y) * (e.2.x - e.1.x)) ^ 2

/-- Outlines that neither cross nor touch themselves or each other: no two corners are the same, and two edges have no
point in common unless it is an end of both.  The coordinates are whole numbers.  Two edges are parallel or the angle
between them is more than 0.018°; parallel edges are on one line, or the angles at which their ends see each other differ
from that of the lines by more than 0.018°. -/
structure Tidy (polys : List (Polygon ℝ × PolygonMode)) : Prop where
  corners : ∀ p ∈ polys, ∀ c ∈ p.1.contours, 3 ≤ c.points.length
  whole : ∀ q ∈ allCorners polys, WholePt q
  distinct : (allCorners polys).Nodup
  apart : ∀ e ∈ allEdges polys, ∀ e' ∈ allEdges polys, e ≠ e' → ∀ q, CommonPoint e e' q → EndOf e q ∧ EndOf e' q
  angles : ∀ e ∈ allEdges polys, ∀ e' ∈ allEdges polys, e ≠ e' → ParallelEdges e e' ∨ ¬ NearlyParallel e e'
  distances : ∀ e ∈ allEdges polys, ∀ e' ∈ allEdges polys, e ≠ e' → ParallelEdges e e' →
    OnLine e e'.1 ∨ ∀ a b, EndOf e a → EndOf e' b → ClearlyOff e a b

/-! ### The result -/

/-- Left, or below on the same vertical line. -/
def LeftOf (p q : Pt ℝ) : Prop := p.x < q.x ∨ p.x = q.x ∧ p.y < q.y

/-- `q` are the points of the outline `ps`, in the same or the opposite order, starting at the leftmost; the first edge
leads from there to `a`, the last one comes from `b`. -/
def GoesAround (ps q : List (Pt ℝ)) (v a b : Pt ℝ) : Prop :=
  (q ~r ps ∨ q ~r ps.reverse) ∧ ∃ rest, q = v :: a :: rest ∧ (a :: rest).getLast? = some b ∧ ∀ p ∈ a :: rest, LeftOf v p

/-- `q` goes around the outline `ps` counterclockwise, starting at the leftmost corner: there it turns left. -/
def Counterclockwise (ps q : List (Pt ℝ)) : Prop :=
  ∃ v a b, GoesAround ps q v a b ∧ 0 < (a.x - v.x) * (b.y - v.y) - (a.y - v.y) * (b.x - v.x)

/-- `q` goes around the outline `ps` clockwise, starting at the leftmost corner: there it turns right. -/
def Clockwise (ps q : List (Pt ℝ)) : Prop :=
  ∃ v a b, GoesAround ps q v a b ∧ (a.x - v.x) * (b.y - v.y) - (a.y - v.y) * (b.x - v.x) < 0

/-- The vertical line down from `v` crosses the edge.  (Of an edge's two ends the left one counts.) -/
def CrossesBelow (v : Pt ℝ) (e : Pt ℝ × Pt ℝ) : Prop :=
  Min.min e.1.x e.2.x ≤ v.x ∧ v.x < Max.max e.1.x e.2.x ∧ e.1.y + (v.x - e.1.x) * ((e.2.y - e.1.y) / (e.2.x - e.1.x)) < v.y

open Classical in
/-- Even-odd rule: `v` is inside the polygon if the line down from it crosses an odd number of edges. -/
noncomputable def Polygon.evenOdd (p : Polygon ℝ) (v : Pt ℝ) : Prop :=
  Odd (p.edges.countP fun e => decide (CrossesBelow v e))

/-- The polygons, one flag for each, that an outline starting at `v` lies in: those that the area just outside of it
belongs to. -/
def OutsideFlags (polys : List (Polygon ℝ × PolygonMode)) (v : Pt ℝ) (flags : List Bool) : Prop :=
  flags.length = polys.length ∧
  ∀ (j : Nat) (p : Polygon ℝ × PolygonMode), polys[j]? = some p → (flags[j]? = some true ↔ p.1.evenOdd v)

/-- The polygons that the area just inside of an outline of polygon number `k` belongs to: the same, except that crossing
the outline leads into `k` or out of it. -/
def InsideFlags (polys : List (Polygon ℝ × PolygonMode)) (k : Nat) (v : Pt ℝ) (flags : List Bool) : Prop :=
  flags.length = polys.length ∧
  ∀ (j : Nat) (p : Polygon ℝ × PolygonMode), polys[j]? = some p → (flags[j]? = some true ↔ (p.1.evenOdd v ↔ j ≠ k))

/-- An outline of the result: it goes counterclockwise around an outline of polygon number `k`, and the area inside is
wanted; or it goes clockwise, and the area outside is wanted.  (An area is wanted if it belongs to at least one polygon
and to none whose interior is removed.) -/
def Expected (polys : List (Polygon ℝ × PolygonMode)) (q : List (Pt ℝ)) (flags : List Bool) : Prop :=
  FlagsOk polys flags ∧
  ∃ (k : Nat) (p : Polygon ℝ × PolygonMode) (c : Contour ℝ) (v : Pt ℝ), polys[k]? = some p ∧ c ∈ p.1.contours ∧ q.head? = some v ∧
    (Counterclockwise c.points q ∧ InsideFlags polys k v flags ∨ Clockwise c.points q ∧ OutsideFlags polys v flags)

/-! ### The library -/

/-- What the standard containers guarantee for a comparison that is a total preorder on the elements: sorting sorts, the
heap pops a least element, a binary search finds what is there.  `sort` ends with a result for any comparison that does
not panic (since Rust 1.81 it may panic if the comparison is not a total order). -/
structure Lib.Lawful (lib : Lib) : Prop where
  sort_returns : ∀ {α : Type} (cmp : α → α → Res Ordering) (l : List α), (∀ a ∈ l, ∀ b ∈ l, ∃ o, cmp a b = .ok o) →
    ∃ l', lib.sort cmp l = .ok l'
  sort_sorts : ∀ {α : Type} (cmp : α → α → Res Ordering) (l : List α), TotalPreorderOn (· ∈ l) cmp →
    ∃ l', lib.sort cmp l = .ok l' ∧ l'.Perm l ∧ l'.Pairwise fun a b => cmp a b ≠ .ok .gt
  search_missing : ∀ {α : Type} (cmp : α → α → Res Ordering) (x : α) (l₁ l₂ : List α), (∀ y ∈ l₁, cmp y x = .ok .lt) →
    (∀ y ∈ l₂, cmp y x = .ok .gt) → lib.binarySearch cmp x (l₁ ++ l₂) = .ok (false, l₁.length)
  search_found : ∀ {α : Type} (cmp : α → α → Res Ordering) (x y : α) (l₁ l₂ : List α), (∀ y ∈ l₁, cmp y x = .ok .lt) →
    cmp y x = .ok .eq → (∀ y ∈ l₂, cmp y x = .ok .gt) → lib.binarySearch cmp x (l₁ ++ y :: l₂) = .ok (true, l₁.length)
  heap : ∃ Heap : {α : Type} → (α → α → Res Ordering) → List α → Prop,
    (∀ {α : Type} (cmp : α → α → Res Ordering), Heap cmp []) ∧
    (∀ {α : Type} (cmp cmp' : α → α → Res Ordering) (l : List α), (∀ a ∈ l, ∀ b ∈ l, cmp a b = cmp' a b) → Heap cmp l → Heap cmp' l) ∧
    (∀ {α : Type} (cmp : α → α → Res Ordering) (x : α) (l : List α), TotalPreorderOn (· ∈ x :: l) cmp → Heap cmp l →
      ∃ l', lib.heapPush cmp x l = .ok l' ∧ l'.Perm (x :: l) ∧ Heap cmp l') ∧
    (∀ {α : Type} (cmp : α → α → Res Ordering), lib.heapPop cmp [] = .ok none) ∧
    (∀ {α : Type} (cmp : α → α → Res Ordering) (l : List α), l ≠ [] → TotalPreorderOn (· ∈ l) cmp → Heap cmp l →
      ∃ x l', lib.heapPop cmp l = .ok (some (x, l')) ∧ l.Perm (x :: l') ∧ Heap cmp l' ∧ ∀ y ∈ l', cmp x y ≠ .ok .gt)

end Idc
