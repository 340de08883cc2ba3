import Verif.Props.Narrow100
import Verif.Spec.SharpCheck
import Verif.Spec.Lib
/-!
# C94: the checked run for two rooms 100 wide and high

The imports are there so that not too many evaluations, which take much memory, go on at the same time.
-/

namespace Idc

/-- The polygons of two rooms 100 wide and high. -/
def suitePolys : List (Polygon ℤ × PolygonMode) :=
  [(wholePolygon [[(0, 0), (0, 100), (100, 100), (100, 0)]], .removeEdges),
    (wholePolygon [[(100, 100), (200, 100), (200, 0), (100, 0)]], .removeEdges),
    (wholePolygon [[(-16, 116), (16, 116), (16, 84), (16, -16), (-16, -16), (-16, 16)]], .removeInterior),
    (wholePolygon [[(84, 116), (116, 116), (116, 84), (16, 84), (-16, 84), (-16, 116)]], .removeInterior),
    (wholePolygon [[(184, 116), (216, 116), (216, 84), (116, 84), (84, 84), (84, 116)]], .removeInterior),
    (wholePolygon [[(184, 116), (216, 116), (216, 84), (216, -16), (184, -16), (184, 16)]], .removeInterior),
    (wholePolygon [[(84, -16), (84, 16), (116, 16), (216, 16), (216, -16), (184, -16)]], .removeInterior),
    (wholePolygon [[(-16, -16), (-16, 16), (16, 16), (116, 16), (116, -16), (84, -16)]], .removeInterior),
    (wholePolygon [[(84, 116), (116, 116), (116, 84), (116, -16), (84, -16), (84, 16)]], .normal)]

/-- The areas of two rooms 100 wide and high: the left room, the opening, the right room. -/
def suiteResult : Polygon ℤ :=
  ⟨[⟨[⟨16, 16⟩, ⟨84, 16⟩, ⟨84, 84⟩, ⟨16, 84⟩], [], [true, false, false, false, false, false, false, false, false], [false, true, false], true, some false⟩,
    ⟨[⟨84, 16⟩, ⟨100, 16⟩, ⟨116, 16⟩, ⟨116, 84⟩, ⟨100, 84⟩, ⟨84, 84⟩], [], [true, true, false, false, false, false, false, false, true], [true, false, true], true, some false⟩,
    ⟨[⟨116, 16⟩, ⟨184, 16⟩, ⟨184, 84⟩, ⟨116, 84⟩], [], [false, true, false, false, false, false, false, false, false], [false, true, false], true, some false⟩]⟩

theorem suite_run : checkedCompute 1000 (asPolygons ℚ suitePolys) = .ok (asPolygon ℚ suiteResult) := by decide +kernel

end Idc
