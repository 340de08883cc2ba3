import Verif.Props.CheckedCompute
import Verif.Props.GridExample
import Verif.Props.CrossedExample
/-!
# C93: an example
-/

namespace Idc

/-- The three rectangles of `touchSample`, which share corners and parts of edges: their checked run succeeds, and the other hypotheses are met. -/
theorem C93_hypotheses_met : listLib.Lawful ∧ listLib.SearchHonest ∧ OnLines {x | x ∈ [0, 5, 10, 15, 20]} {y | y ∈ [-5, 0, 10]} touchSample ∧
    Grid {x : ℤ | x ∈ [0, 5, 10, 15, 20]} {y : ℤ | y ∈ [-5, 0, 10]} id id ∧ Grid {x : ℤ | x ∈ [0, 5, 10, 15, 20]} {y : ℤ | y ∈ [-5, 0, 10]} farOff (· * 1000) ∧
    checkedCompute 1000 (asPolygons ℚ touchSample) = .ok (asPolygon ℚ touchResult) ∧
    ∀ c ∈ touchResult.contours, (ptsArea (stretchContour farOff (· * 1000) c).points).sign = (ptsArea c.points).sign :=
  ⟨listLib_lawful, listLib_honest, C92_hypotheses_met.1, C92_hypotheses_met.2.1, C92_hypotheses_met.2.2.1, by decide +kernel, C92_hypotheses_met.2.2.2.2⟩

/-- So every lawful implementation finds the same. -/
theorem touch_any {lib : Lib} (hl : lib.Lawful) (hs : lib.SearchHonest) (op : BooleanOpType) :
    ∃ N, ∀ fuel, N ≤ fuel → compute lib fuel (asPolygons ℝ (stretchAll farOff (· * 1000) touchSample)) op = .ok (asPolygon ℝ (stretchPolygon farOff (· * 1000) touchResult)) :=
  have h := C93_hypotheses_met
  C93_layout (F := ℝ) (E := ℚ) hl hs op h.2.2.1 h.2.2.2.1 h.2.2.2.2.1 h.2.2.2.2.2.1 h.2.2.2.2.2.2

end Idc
