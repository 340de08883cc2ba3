import Verif.Spec.Result
/-!
# Which area of a result a point lies in

Everything here is about exact real arithmetic and independent of how `compute` works.
-/

namespace Idc

/-- Outline `j` is a hole in outline `i`, or in one of its holes, and so on. -/
inductive HoleWithin {F : Type} (r : Polygon F) (i : ℕ) : ℕ → Prop
  | hole {c : Contour F} {j : ℕ} : r.contours[i]? = some c → j ∈ c.holes → HoleWithin r i j
  | nested {c : Contour F} {k j : ℕ} : HoleWithin r i k → r.contours[k]? = some c → j ∈ c.holes → HoleWithin r i j

/-- The point is inside of the outline, by the even-odd rule. -/
def InsideOutline (c : Contour ℝ) (q : Pt ℝ) : Prop := (⟨[c]⟩ : Polygon ℝ).evenOdd q

/-- The point lies in the area of the external outline `i`: inside of the outline, but of none of the holes. -/
structure InArea (r : Polygon ℝ) (i : ℕ) (q : Pt ℝ) : Prop where
  inside : ∃ c, r.contours[i]? = some c ∧ c.external = true ∧ InsideOutline c q
  holes : ∀ j h, HoleWithin r i j → r.contours[j]? = some h → ¬ InsideOutline h q

/-- The polygons, one flag for each, that a point is inside of, by the even-odd rule. -/
def PointFlags (polys : List (Polygon ℝ × PolygonMode)) (q : Pt ℝ) (flags : List Bool) : Prop :=
  flags.length = polys.length ∧ ∀ (j : Nat) p, polys[j]? = some p → (flags[j]? = some true ↔ p.1.evenOdd q)

end Idc
