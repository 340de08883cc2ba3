import Verif.Spec.Tidy
import Verif.Spec.Shape
/-!
# Outlines that do not touch themselves
-/

namespace Idc

/-- The corners of an outline that does not touch itself: at least three, all different, and two edges have no point in
common unless it is an end of both.  (The coordinates are any real numbers.) -/
structure SimpleOutline (ps : List (Pt ℝ)) : Prop where
  corners : 3 ≤ ps.length
  distinct : ps.Nodup
  apart : ∀ e ∈ closedEdges ps, ∀ e' ∈ closedEdges ps, e ≠ e' → ∀ q, CommonPoint e e' q → EndOf e q ∧ EndOf e' q

/-- The outline comes from `b` to its leftmost corner `v` and goes on to `a`. -/
structure LeftmostCorner (ps : List (Pt ℝ)) (b v a : Pt ℝ) : Prop where
  comes : (b, v) ∈ closedEdges ps
  goes : (v, a) ∈ closedEdges ps
  leftmost : ∀ p ∈ ps, p = v ∨ LeftOf v p

/-- Coming from `b` to `v` and going on to `a` is a right turn. -/
def RightTurn (b v a : Pt ℝ) : Prop := (a.x - v.x) * (b.y - v.y) - (a.y - v.y) * (b.x - v.x) < 0

/-- Coming from `b` to `v` and going on to `a` is a left turn. -/
def LeftTurn (b v a : Pt ℝ) : Prop := 0 < (a.x - v.x) * (b.y - v.y) - (a.y - v.y) * (b.x - v.x)

/-! ### What is below a point -/

/-- The height of the edge over `x`. -/
noncomputable def heightAt (e : Pt ℝ × Pt ℝ) (x : ℝ) : ℝ := e.1.y + (x - e.1.x) * ((e.2.y - e.1.y) / (e.2.x - e.1.x))

/-- The edge extends over `x`. -/
def Over (e : Pt ℝ × Pt ℝ) (x : ℝ) : Prop := Min.min e.1.x e.2.x ≤ x ∧ x ≤ Max.max e.1.x e.2.x

/-- The edge is the first one below `v`: the vertical line down from `v` crosses it, and none of the other edges that line
crosses is anywhere above it. -/
def FirstBelow (edges : List (Pt ℝ × Pt ℝ)) (v : Pt ℝ) (e : Pt ℝ × Pt ℝ) : Prop :=
  CrossesBelow v e ∧ ∀ e' ∈ edges, CrossesBelow v e' → ∀ x, Over e x → Over e' x → heightAt e' x ≤ heightAt e x

end Idc
