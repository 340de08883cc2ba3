import Verif.Spec.TidyCheck
import Verif.Spec.Sharp
/-!
# A check for outlines with a bit of room at their angles

For outlines with given whole coordinates, `Sharp` can be established by calculation; that the check implies `Sharp` is
proved in Props/SharpExample.
-/

namespace Idc

/-- The polygon with the given outlines, with whole coordinates. -/
def wholePolygon (rs : List (List ZPt)) : Polygon ℤ := ⟨rs.map fun r => { (Contour.new : Contour ℤ) with points := r.map fun p => ⟨p.1, p.2⟩ }⟩

/-- The angle between the edges is clear. -/
def sharpAngleCheck (a b c d : ZPt) : Bool := decide (11 * zlen a b * zlen c d < 10 ^ 8 * zdir a b c d ^ 2)

/-- The outlines pass. -/
def sharpCheck (rs : List (List ZPt)) : Bool :=
  (rs.all fun r => decide (r.length ≤ 2 ^ 21) && r.all fun p => decide (|p.1| ≤ 2 ^ 15) && decide (|p.2| ≤ 2 ^ 15)) &&
  ((rs.flatMap zEdges).all fun e => (rs.flatMap zEdges).all fun e' => decide (e = e') ||
    ((decide (zdir e.1 e.2 e'.1 e'.2 = 0) || sharpAngleCheck e.1 e.2 e'.1 e'.2) &&
     (decide (zdir e.1 e.2 e'.1 e'.2 ≠ 0) || decide (zcross e.1 e.2 e'.1 = 0) ||
      (sharpAngleCheck e.1 e.2 e.1 e'.1 && sharpAngleCheck e.1 e.2 e.1 e'.2 && sharpAngleCheck e.1 e.2 e.2 e'.1 && sharpAngleCheck e.1 e.2 e.2 e'.2))))

end Idc
