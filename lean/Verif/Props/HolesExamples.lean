import Verif.Props.Holes
import Verif.Spec.Rat
/-!
# C53 on concrete polygons
-/

namespace Idc

/-- A counterclockwise rectangle. -/
def exRect (x y w h : Rat) : Contour Rat := Contour.ofPoints [⟨x, y⟩, ⟨x + w, y⟩, ⟨x + w, y + h⟩, ⟨x, y + h⟩]

/-- Three nested squares and one beside them. -/
def exNested : Polygon Rat := ⟨[exRect 12 12 2 2, exRect 0 0 30 30, exRect 10 10 10 10, exRect 40 0 5 5]⟩

/-- The hypotheses of `C53_hole_forest` are met by nested squares, and the forest is the nesting. -/
theorem C53_nested_squares : listLib.Ok ∧ (∀ c ∈ exNested.contours, c.Fresh) ∧
    ((exNested.computeHoles listLib).map fun p => p.contours.map fun c => (c.holes, c.external, c.is_clockwise)) =
      .ok [([], false, some false), ([2], true, some false), ([0], false, some true), ([], true, some false)] := by
  refine ⟨listLib_ok, ?_, by decide +kernel⟩
  intro c hc
  have : ∀ c ∈ exNested.contours, c.holes = [] ∧ c.external = true := by decide +kernel
  exact this c hc

/-- The last contour the sweep meets counts, too: a square in a square is its hole. -/
theorem C53_square_in_square : ((⟨[exRect 10 10 10 10, exRect 0 0 30 30]⟩ : Polygon Rat).computeHoles listLib).map
    (fun p => p.contours.map fun c => (c.holes, c.external, c.is_clockwise)) = .ok [([], false, some true), ([0], true, some false)] := by
  decide +kernel

/-- A contour that ends before another begins has no effect on it: a square to the right of another, level with its interior, is no
hole. -/
theorem C53_side_by_side : ((⟨[exRect 0 0 30 30, exRect 40 10 5 5, exRect 50 20 1 1]⟩ : Polygon Rat).computeHoles listLib).map
    (fun p => p.contours.map fun c => (c.holes, c.external, c.is_clockwise)) =
      .ok [([], true, some false), ([], true, some false), ([], true, some false)] := by
  decide +kernel

/-- The contours must be fresh: running `compute_holes` on its own result lists every hole twice. -/
theorem C53_second_run_duplicates : ((exNested.computeHoles listLib).map fun p =>
    (p.computeHoles listLib).map fun p => p.contours.map fun c => c.holes) = .ok (.ok [[], [2, 2], [0, 0], []]) := by
  decide +kernel

end Idc
