import Verif.Model.Segment
import Verif.Spec.Float
/-!
# Segments one above the other
-/

namespace Idc

variable {T : Type}

/-- The height of the line through a segment that is not vertical, at `x`. -/
noncomputable def SweepSegment.heightAt (s : SweepSegment ℝ T) (x : ℝ) : ℝ :=
  s.left_point.y + (x - s.left_point.x) * ((s.right_point.y - s.left_point.y) / (s.right_point.x - s.left_point.x))

/-- The sweep line at `x` passes through the segment, to the right of its left end.  (So it is not vertical.) -/
def SweepSegment.Alive (s : SweepSegment ℝ T) (x : ℝ) : Prop := s.left_point.x < x ∧ x ≤ s.right_point.x

/-- The tolerance plays no role: each end of `s'` is on the line through `s`, or makes a triangle with `s` of area more
than 0.5·10⁻⁷. -/
def ClearOf (s s' : SweepSegment ℝ T) : Prop :=
  ∀ p ∈ [s'.left_point, s'.right_point],
    let double := (s.right_point.x - s.left_point.x) * (p.y - s.left_point.y) - (s.right_point.y - s.left_point.y) * (p.x - s.left_point.x)
    double = 0 ∨ 1 / 10 ^ 7 < |double|

/-- Up to `x0` the segments have no point in common, unless they start at the same point. -/
def ApartUpTo (x0 : ℝ) (s s' : SweepSegment ℝ T) : Prop :=
  ∀ x, s.left_point.x ≤ x → s'.left_point.x ≤ x → x ≤ x0 → s.heightAt x = s'.heightAt x →
    s.left_point = s'.left_point ∧ x = s.left_point.x

/-- The segments of a set are on the sweep line at `x0`, and each two of them are apart and beyond the tolerance. -/
structure OnSweepLine (x0 : ℝ) (P : SweepSegment ℝ T → Prop) : Prop where
  alive : ∀ s, P s → s.Alive x0
  named : ∀ s s', P s → P s' → s.index = s'.index → s = s'
  clear : ∀ s s', P s → P s' → s ≠ s' → ClearOf s s'
  apart : ∀ s s', P s → P s' → s ≠ s' → ApartUpTo x0 s s'

end Idc
