import Verif.Spec.Stretched
import Verif.Spec.Sharp
import Mathlib.Data.Real.Basic
import Mathlib.Order.Monotone.Basic
/-!
# Drawings on a grid, for C92
-/

namespace Idc

open FloatOps

/-- Arithmetic without rounding: each number has a value, and each operation gives the number with the right value. Only the square roots of
squares need be right. ℝ and ℚ are examples. -/
class Exact (F : Type) [FloatOps F] where
  val : F → ℝ
  inj : Function.Injective val
  ofInt (n : ℤ) : val (FloatOps.ofInt n) = n
  lit (m : ℤ) (k : ℕ) : val (FloatOps.lit m k) = m / 10 ^ k
  add (a b : F) : val (FloatOps.add a b) = val a + val b
  sub (a b : F) : val (FloatOps.sub a b) = val a - val b
  mul (a b : F) : val (FloatOps.mul a b) = val a * val b
  div (a b : F) : val (FloatOps.div a b) = val a / val b
  abs (a : F) : val (FloatOps.abs a) = |val a|
  min (a b : F) : val (FloatOps.min a b) = Min.min (val a) (val b)
  max (a b : F) : val (FloatOps.max a b) = Max.max (val a) (val b)
  lt (a b : F) : FloatOps.lt a b = decide (val a < val b)
  eq (a b : F) : FloatOps.eq a b = decide (val a = val b)
  fract (n : ℤ) : val (FloatOps.fract (FloatOps.ofInt n : F)) = 0
  round (n : ℤ) : val (FloatOps.round (FloatOps.ofInt n : F)) = n
  sqrt (n : ℤ) : val (FloatOps.sqrt (FloatOps.ofInt (n * n) : F)) = |(n : ℝ)|

/-- Coordinates can be replaced: `f` and `g` keep the order on `X` and `Y`, and what is different stays apart far enough for the tolerance of the test
whether segments are on the same line. -/
structure Grid (X Y : Set ℤ) (f g : ℤ → ℤ) : Prop where
  monoX : StrictMonoOn f X
  monoY : StrictMonoOn g Y
  apartX : ∀ a ∈ X, ∀ a' ∈ X, a ≠ a' → ∀ b ∈ Y, ∀ b' ∈ Y, |g b - g b'| ≤ 3162 * |f a - f a'|
  apartY : ∀ a ∈ X, ∀ a' ∈ X, ∀ b ∈ Y, ∀ b' ∈ Y, b ≠ b' → |f a - f a'| ≤ 3162 * |g b - g b'|

/-- The point is on the grid. -/
def OnGrid (X Y : Set ℤ) (p : Pt ℤ) : Prop := p.x ∈ X ∧ p.y ∈ Y

/-- All corners of all polygons are on the grid, and all edges are horizontal or vertical (or of length 0). -/
structure OnLines (X Y : Set ℤ) (polys : List (Polygon ℤ × PolygonMode)) : Prop where
  corners : ∀ p ∈ polys, ∀ c ∈ p.1.contours, ∀ q ∈ c.points, OnGrid X Y q
  straight : ∀ p ∈ polys, ∀ c ∈ p.1.contours, ∀ e ∈ c.points.zip (c.points.rotate 1), e.1.x = e.2.x ∨ e.1.y = e.2.y

/-- Twice the area inside the closed curve through the points, negative if it is clockwise (with the second axis up). -/
def ptsArea (l : List (Pt ℤ)) : ℤ := ((l.zip (l.rotate 1)).map fun e => e.1.x * e.2.y - e.1.y * e.2.x).sum

end Idc
