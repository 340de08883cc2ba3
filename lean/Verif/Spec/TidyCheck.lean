import Verif.Spec.Tidy
/-!
# A check for outlines that do not touch

For outlines with given whole coordinates, `Tidy` can be established by calculation; that the check implies `Tidy` is
proved in Props/TidyExample.
-/

namespace Idc

/-- A point with whole coordinates. -/
abbrev ZPt := Int × Int

/-- The point. -/
noncomputable def ZPt.toPt (p : ZPt) : Pt ℝ := ⟨p.1, p.2⟩

/-- Twice the area of a triangle. -/
def zcross (a b c : ZPt) : Int := (b.1 - a.1) * (c.2 - a.2) - (b.2 - a.2) * (c.1 - a.1)

/-- The segments `ab` and `cd` have at most an end in common: the ends of one are on the same side of the other, or `b` is
`c` or `a` is `d` and the segments have different directions, or their bounding boxes do not overlap. -/
def apartCheck (a b c d : ZPt) : Bool :=
  decide (0 < zcross a b c ∧ 0 < zcross a b d) || decide (zcross a b c < 0 ∧ zcross a b d < 0) ||
  decide (0 < zcross c d a ∧ 0 < zcross c d b) || decide (zcross c d a < 0 ∧ zcross c d b < 0) ||
  decide (b = c ∧ zcross a b d ≠ 0) || decide (d = a ∧ zcross c d b ≠ 0) ||
  decide (a.1 < c.1 ∧ a.1 < d.1 ∧ b.1 < c.1 ∧ b.1 < d.1) || decide (c.1 < a.1 ∧ d.1 < a.1 ∧ c.1 < b.1 ∧ d.1 < b.1) ||
  decide (a.2 < c.2 ∧ a.2 < d.2 ∧ b.2 < c.2 ∧ b.2 < d.2) || decide (c.2 < a.2 ∧ d.2 < a.2 ∧ c.2 < b.2 ∧ d.2 < b.2)

/-- The product of the directions of two segments. -/
def zdir (a b c d : ZPt) : Int := (b.1 - a.1) * (d.2 - c.2) - (b.2 - a.2) * (d.1 - c.1)

/-- The square of the length. -/
def zlen (a b : ZPt) : Int := (b.1 - a.1) ^ 2 + (b.2 - a.2) ^ 2

/-- `q`, seen from `p`, is clearly off the direction of `ab`. -/
def offCheck (a b p q : ZPt) : Bool :=
  decide (zlen a b * zlen p q < 10 ^ 7 * ((q.1 - p.1) * (b.2 - a.2) - (q.2 - p.2) * (b.1 - a.1)) ^ 2)

/-- The segments are parallel or clearly not. -/
def angleCheck (a b c d : ZPt) : Bool := decide (zdir a b c d = 0) || decide (zlen a b * zlen c d < 10 ^ 7 * zdir a b c d ^ 2)

/-- Parallel segments are on one line or clearly not. -/
def distanceCheck (a b c d : ZPt) : Bool := decide (zdir a b c d ≠ 0) || decide (zcross a b c = 0) ||
  (offCheck a b a c && offCheck a b a d && offCheck a b b c && offCheck a b b d)

/-- The edges of a closed chain. -/
def zEdges (ps : List ZPt) : List (ZPt × ZPt) := ps.zip (ps.rotate 1)

/-- A list of outlines passes. -/
def ringsCheck (rs : List (List ZPt)) : Bool :=
  (rs.all fun r => decide (3 ≤ r.length)) && decide (rs.flatMap fun r => r).Nodup &&
  ((rs.flatMap zEdges).all fun e => (rs.flatMap zEdges).all fun e' => decide (e = e') ||
    (apartCheck e.1 e.2 e'.1 e'.2 && angleCheck e.1 e.2 e'.1 e'.2 && distanceCheck e.1 e.2 e'.1 e'.2))

/-- The polygon with the given outlines. -/
noncomputable def zPolygon (rs : List (List ZPt)) : Polygon ℝ := ⟨rs.map fun r => { (Contour.new : Contour ℝ) with points := r.map ZPt.toPt }⟩

end Idc
