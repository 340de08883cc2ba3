import Verif.Spec.Removed
import Mathlib.Logic.Equiv.Defs
/-!
# All of what `compute` has to return

Everything here is about exact real arithmetic and independent of how `compute` works.
-/

namespace Idc

/-- The result `compute` has to return, in all its parts: the outlines and their order; labels; neighbors; which outlines are external, and
which clockwise; and the lists of holes, in increasing order.  There is none if a clockwise outline is an orphan. -/
structure IsResult (polys : List (Polygon ℝ × PolygonMode)) (r : Polygon ℝ) : Prop where
  outlines : KeptOutlines polys (r.contours.map fun c => c.points)
  parents : ∀ c ∈ r.contours, ¬ Orphan polys c.points
  labels : ∀ c ∈ r.contours, c.from_polygons.length = polys.length ∧
    ∀ m : ℕ, c.from_polygons[m]? = some true ↔ ∃ d ∈ closedEdges c.points, ∃ f, AreaLeft polys d f ∧ f[m]? = some true
  neighbors : ∀ c ∈ r.contours, c.neighbors.length = r.contours.length ∧
    ∀ (j : ℕ) c', r.contours[j]? = some c' → (c.neighbors[j]? = some true ↔ ∃ d ∈ closedEdges c.points, d.swap ∈ closedEdges c'.points)
  external : ∀ c ∈ r.contours, c.external = true ↔ 0 < signedArea2 c.points
  clockwise : ∀ c ∈ r.contours, ∃ b, c.is_clockwise = some b ∧ (b = true ↔ signedArea2 c.points < 0)
  sorted : ∀ c ∈ r.contours, c.holes.Pairwise (· < ·)
  holes : ∀ c ∈ r.contours, ∀ j : ℕ, j ∈ c.holes ↔ ∃ h, r.contours[j]? = some h ∧ signedArea2 h.points < 0 ∧
    ∃ v b d, h.points.head? = some v ∧ h.points.getLast? = some b ∧ d ∈ closedEdges c.points ∧ NextBelow polys (v, b) d

/-- The outline `ps'` is the outline `ps`, beginning at another corner or in the other direction. -/
def Retraced (ps ps' : List (Pt ℝ)) : Prop := ps' ~r ps ∨ ps' ~r ps.reverse

/-- The polygons `polys'` are the polygons `polys`, each with the outlines in another order, and each outline beginning at another corner or
in the other direction.  Whatever else is recorded for the outlines may differ. -/
def Redrawn (polys polys' : List (Polygon ℝ × PolygonMode)) : Prop :=
  List.Forall₂ (fun p p' => p'.2 = p.2 ∧ ∃ cs, cs.Perm p.1.contours ∧ List.Forall₂ (fun c c' => Retraced c.points c'.points) cs p'.1.contours) polys polys'

/-- The entries of a list in another order. -/
def reorder {α : Type} (l : List α) (σ : Equiv.Perm (Fin l.length)) : List α := List.ofFn fun i => l.get (σ i)

/-- A result with the labels for the polygons in another order. -/
def relabel {n : ℕ} (σ : Equiv.Perm (Fin n)) (r : Polygon ℝ) : Polygon ℝ :=
  ⟨r.contours.map fun c => { c with from_polygons := List.ofFn fun i => c.from_polygons.getD (σ i) false }⟩

end Idc
