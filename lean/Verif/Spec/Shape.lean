import Verif.Model.Shape
import Verif.Spec.Float
import Mathlib.Data.List.Rotate
/-!
# Signed areas, operation histories, containment
-/

namespace Idc

open FloatOps

/-- Twice the signed area of the closed polygon with the given corners (shoelace formula: the cross
product of every corner with the next, cyclically, added up): positive if they go around
counterclockwise with the y axis pointing up. -/
noncomputable def signedArea2 (ps : List (Pt ℝ)) : ℝ :=
  ((ps.zip (ps.rotate 1)).map fun e => e.1.x * e.2.y - e.1.y * e.2.x).sum

/-- The calls that query or change a contour's orientation. -/
inductive OrientOp where
  | clockwise
  | counterclockwise
  | changeOrientation
  | setClockwise
  | setCounterclockwise
  deriving DecidableEq, Repr

/-- The contour after a call. -/
def OrientOp.run {F : Type} [FloatOps F] (c : Contour F) : OrientOp → Res (Contour F)
  | .clockwise => do let (_, c) ← c.clockwise; pure c
  | .counterclockwise => do let (_, c) ← c.counterclockwise; pure c
  | .changeOrientation => .ok c.changeOrientation
  | .setClockwise => c.setClockwise
  | .setCounterclockwise => c.setCounterclockwise

/-- A fresh contour with the given points: `Contour::new()` followed by `add` of each. -/
def Contour.ofPoints {F : Type} (ps : List (Pt F)) : Contour F :=
  ps.foldl Contour.add Contour.new

/-- `r` covers the point `p`. -/
def Rect.Covers (r : Rect ℝ) (p : Pt ℝ) : Prop := r.x ≤ p.x ∧ p.x ≤ r.x + r.width ∧ r.y ≤ p.y ∧ p.y ≤ r.y + r.height

/-- The rectangle has no extent. -/
def Rect.Degenerate (r : Rect ℝ) : Prop := r.width = 0 ∧ r.height = 0

/-- The rectangle is the smallest one around the points `S` (of which there are some). -/
structure Around (r : Rect ℝ) (S : Pt ℝ → Prop) : Prop where
  wide : 0 ≤ r.width ∧ 0 ≤ r.height
  inside : ∀ p, S p → r.Covers p
  left : ∃ p, S p ∧ p.x = r.x
  right : ∃ p, S p ∧ p.x = r.x + r.width
  bottom : ∃ p, S p ∧ p.y = r.y
  top : ∃ p, S p ∧ p.y = r.y + r.height

/-- Three points lie on one line. -/
def CollinearPts (a b c : Pt ℝ) : Prop :=
  ∃ l m n : ℝ, (l ≠ 0 ∨ m ≠ 0) ∧ l * a.x + m * a.y = n ∧ l * b.x + m * b.y = n ∧ l * c.x + m * c.y = n

end Idc
