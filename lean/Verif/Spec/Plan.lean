import Verif.Spec.Simple
/-!
# Polygons whose outlines share corners and edges, and what `compute` has to make of them

Everything here is about exact real arithmetic and independent of how `compute` works.
-/

namespace Idc

/-! ### The polygons -/

/-- An edge of one of the polygons, in either direction.  (A repeated corner makes no edge.) -/
def Drawn (polys : List (Polygon ℝ × PolygonMode)) (d : Pt ℝ × Pt ℝ) : Prop :=
  d.1 ≠ d.2 ∧ (d ∈ allEdges polys ∨ d.swap ∈ allEdges polys)

/-- Outlines that may share corners and whole edges, but do not cross: two edges coincide, or have no point in common
unless it is an end of both.  No polygon has an edge twice.  The coordinates are whole numbers, or at least corners and edges are told apart
(`Separate`); edges are parallel or the angle between them is more than 0.018°; parallel edges are on one line, or the angles at which their
ends see each other differ from that of the lines by more than 0.018°. -/
structure Planar (polys : List (Polygon ℝ × PolygonMode)) : Prop where
  separate : Separate (· ∈ allCorners polys) (Drawn polys)
  once : ∀ p ∈ polys, p.1.edges.Pairwise fun e e' => e.1 ≠ e.2 → e' ≠ e ∧ e' ≠ e.swap
  apart : ∀ e e', Drawn polys e → Drawn polys e' → e' ≠ e → e' ≠ e.swap → ∀ q, CommonPoint e e' q → EndOf e q ∧ EndOf e' q
  angles : ∀ e e', Drawn polys e → Drawn polys e' → ParallelEdges e e' ∨ ¬ NearlyParallel e e'
  distances : ∀ e e', Drawn polys e → Drawn polys e' → ParallelEdges e e' → OnLine e e'.1 ∨ ClearlyOff e e.1 e'.1

/-! ### The result -/

/-- A point to the left of the middle of an edge, at a distance of `δ` times its length. -/
noncomputable def leftPoint (d : Pt ℝ × Pt ℝ) (δ : ℝ) : Pt ℝ :=
  ⟨(d.1.x + d.2.x) / 2 - δ * (d.2.y - d.1.y), (d.1.y + d.2.y) / 2 + δ * (d.2.x - d.1.x)⟩

/-- The polygons, one flag for each, that the area just left of an edge belongs to by the even-odd rule. -/
def AreaLeft (polys : List (Polygon ℝ × PolygonMode)) (d : Pt ℝ × Pt ℝ) (flags : List Bool) : Prop :=
  flags.length = polys.length ∧ ∃ δ₀ : ℝ, 0 < δ₀ ∧ ∀ δ, 0 < δ → δ < δ₀ →
    ∀ (j : Nat) (p : Polygon ℝ × PolygonMode), polys[j]? = some p → (flags[j]? = some true ↔ p.1.evenOdd (leftPoint d δ))

/-- `2` times the area of the triangle with the sides `a` and `b`, positive if `b` is to the left of `a`. -/
def cross2 (a b : Pt ℝ × Pt ℝ) : ℝ := (a.2.x - a.1.x) * (b.2.y - b.1.y) - (a.2.y - a.1.y) * (b.2.x - b.1.x)

/-- Three edges that start at one point: turning counterclockwise from `a`, one comes to `b`, then to `c`, then back to `a`. -/
def TurnsThrough (a b c : Pt ℝ × Pt ℝ) : Prop :=
  (0 < cross2 a b ∧ 0 < cross2 b c) ∨ (0 < cross2 b c ∧ 0 < cross2 c a) ∨ (0 < cross2 c a ∧ 0 < cross2 a b)

/-- The next edge, `d`, below the left end of an edge `e`.  Among the edges that go to the right from there, and are below `e`,
it is the highest; if there are none, it is the first edge below the point. -/
structure NextBelow (polys : List (Polygon ℝ × PolygonMode)) (e d : Pt ℝ × Pt ℝ) : Prop where
  drawn : Drawn polys d
  right : LeftOf d.1 d.2
  next : (d.1 = e.1 ∧ 0 < cross2 d e ∧ ∀ u, Drawn polys u → LeftOf u.1 u.2 → u.1 = e.1 → 0 < cross2 u e → 0 ≤ cross2 u d) ∨
    ((∀ u, Drawn polys u → LeftOf u.1 u.2 → u.1 = e.1 → ¬ 0 < cross2 u e) ∧ FirstBelow (allEdges polys) e.1 d)

/-- All edges of the outlines, in the direction in which the outlines go along them. -/
def outlineEdges (r : Polygon ℝ) : List (Pt ℝ × Pt ℝ) := r.contours.flatMap fun c => closedEdges c.points

end Idc
