import Verif.Model.Intersect
import Verif.Spec.Float
/-!
# What the intersection of two segments is
-/

namespace Idc

/-- `p` lies on the segment from `s.1` to `s.2`. -/
def OnSegment (s : Pt ℝ × Pt ℝ) (p : Pt ℝ) : Prop :=
  ∃ t : ℝ, 0 ≤ t ∧ t ≤ 1 ∧ p.x = s.1.x + t * (s.2.x - s.1.x) ∧ p.y = s.1.y + t * (s.2.y - s.1.y)

/-- `p` lies on both segments. -/
def CommonPoint (s s' : Pt ℝ × Pt ℝ) (p : Pt ℝ) : Prop := OnSegment s p ∧ OnSegment s' p

/-- The square of the sine of the angle between the segments is at most 10⁻⁷ (the angle is at most 0.018°), or one of
them has length 0. -/
def NearlyParallel (s s' : Pt ℝ × Pt ℝ) : Prop :=
  ((s.2.x - s.1.x) * (s'.2.y - s'.1.y) - (s.2.y - s.1.y) * (s'.2.x - s'.1.x)) ^ 2 ≤
    1 / 10 ^ 7 * ((s.2.x - s.1.x) ^ 2 + (s.2.y - s.1.y) ^ 2) * ((s'.2.x - s'.1.x) ^ 2 + (s'.2.y - s'.1.y) ^ 2)

/-- `p` lies on the line through the ends of `s`. -/
def OnLine (s : Pt ℝ × Pt ℝ) (p : Pt ℝ) : Prop :=
  (p.x - s.1.x) * (s.2.y - s.1.y) = (p.y - s.1.y) * (s.2.x - s.1.x)

/-- `q` is within 2·10⁻⁷ of `p` in both coordinates. -/
def CloseTo (p q : Pt ℝ) : Prop := |q.x - p.x| < 2 / 10 ^ 7 ∧ |q.y - p.y| < 2 / 10 ^ 7

/-- The coordinates are whole numbers. -/
def WholePt (p : Pt ℝ) : Prop := ∃ m n : Int, p = ⟨m, n⟩

/-- A whole number, or at least 10⁻⁹ away from any. -/
def Steady (x : ℝ) : Prop := ∀ m : Int, x = m ∨ 1 / 10 ^ 9 ≤ |x - m|

/-- The points `V` and edges `E` are told apart in spite of tolerances: a coordinate is a whole number or at least 10⁻⁹ away from any;
two points are the same or at least 3.2·10⁻⁸ apart; a point is on the line through an edge or makes a triangle with it of area more than
0.5·10⁻⁷.  Points with whole coordinates always are. -/
structure Separate (V : Pt ℝ → Prop) (E : Pt ℝ × Pt ℝ → Prop) : Prop where
  steady : ∀ q, V q → Steady q.x ∧ Steady q.y
  spaced : ∀ q q', V q → V q' → q = q' ∨ 1 / 10 ^ 15 ≤ (q.x - q'.x) ^ 2 + (q.y - q'.y) ^ 2
  clear : ∀ e q, E e → V q → OnLine e q ∨ 1 / 10 ^ 7 < |(e.2.x - e.1.x) * (q.y - e.1.y) - (e.2.y - e.1.y) * (q.x - e.1.x)|

end Idc
