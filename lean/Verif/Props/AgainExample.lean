import Verif.Props.AgainDouble
import Verif.Props.RedrawnExample
/-!
# C89: the hypotheses are met
-/

namespace Idc

open Plan

/-- The areas of a sample with holes. -/
theorem C89_hypotheses_met : Planar (areaSample.map fun p => (zPolygon p.1, p.2)) ∧ Removable (areaSample.map fun p => (zPolygon p.1, p.2)) ∧ listLib.Lawful ∧
    ∃ r, ∀ fuel, 2 * (allCorners (areaSample.map fun p => (zPolygon p.1, p.2))).length < fuel →
      compute listLib fuel (areaSample.map fun p => (zPolygon p.1, p.2)) .union = .ok r :=
  ⟨C88_hypotheses_met.1, C88_hypotheses_met.2.1, C88_hypotheses_met.2.2.1, C88_hypotheses_met.2.2.2.1⟩

/-- A square with a hole, another square that touches both with corners, and one in the hole. -/
def againSample : List (List ZPt) :=
  [[(0, 0), (100, 0), (100, 100), (0, 100)], [(20, 20), (80, 20), (80, 80), (20, 80)], [(80, 80), (90, 80), (100, 100), (80, 90)], [(40, 40), (60, 40), (50, 60)]]

theorem C89_again_hypotheses_met : Planar [(zPolygon againSample, .normal)] ∧ listLib.Lawful ∧
    ∃ r, ∀ fuel, 2 * (allCorners [(zPolygon againSample, .normal)]).length < fuel → compute listLib fuel [(zPolygon againSample, .normal)] .union = .ok r ∧
      ∀ c ∈ r.contours, true ∉ c.neighbors := by
  have hP : Planar [(zPolygon againSample, .normal)] := planar_of_check (polys := [(againSample, .normal)]) (by decide +kernel)
  have hm : ∀ p ∈ [(zPolygon againSample, PolygonMode.normal)], p.2 ≠ .removeEdges := fun p hp => by rw [List.mem_singleton.1 hp]; exact fun e => nomatch e
  obtain ⟨r, hr, _⟩ := C81_outlines listLib_lawful hP hm .union
  refine ⟨hP, listLib_lawful, r, fun fuel hf => ⟨hr fuel hf, ?_⟩⟩
  have h := finished listLib_lawful hP (removable_of hm) hf (hr fuel hf)
  exact h.no_neighbors.1 h.single.1

/-- A polygon that crosses itself. -/
theorem C89_crossed_again_hypotheses_met :
    Crossed [(zPolygon [[(0, 0), (100, 100), (100, 0), (0, 100)]], .normal)] [(zPolygon [[(0, 0), (50, 50), (100, 100), (100, 0), (50, 50), (0, 100)]], .normal)] ∧
      listLib.Lawful ∧ listLib.SearchHonest :=
  ⟨crossed_of_check (polys := [([[(0, 0), (100, 100), (100, 0), (0, 100)]], .normal)]) (polys' := [([[(0, 0), (50, 50), (100, 100), (100, 0), (50, 50), (0, 100)]], .normal)])
    (by decide +kernel), listLib_lawful, listLib_honest⟩

/-- Polygons that cross each other. -/
theorem C89_crossed_hypotheses_met : Crossed (crossSample.map fun p => (zPolygon p.1, p.2)) (crossSampleCut.map fun p => (zPolygon p.1, p.2)) ∧
    Removable (crossSampleCut.map fun p => (zPolygon p.1, p.2)) ∧ listLib.Lawful ∧ listLib.SearchHonest := by
  obtain ⟨h1, h2, h3, h4⟩ := C84_hypotheses_met
  exact ⟨h1, removable_of (h1.modes (P := fun m => m ≠ .removeEdges) h2), h3, h4⟩

theorem C89_double_hypotheses_met : Planar (asPolygons ℝ (planSample.map fun p => (wholePolygon p.1, p.2))) ∧
    SharpPlan (asPolygons ℝ (planSample.map fun p => (wholePolygon p.1, p.2))) ∧ Removable (asPolygons ℝ (planSample.map fun p => (wholePolygon p.1, p.2))) ∧
    (∃ r, IsResult (asPolygons ℝ (planSample.map fun p => (wholePolygon p.1, p.2))) r) ∧
    2 * (allCorners (asPolygons ℝ (planSample.map fun p => (wholePolygon p.1, p.2)))).length ≤ 2 ^ 20 := by
  obtain ⟨h1, h2, h3, h4, _⟩ := C86_double_hypotheses_met
  refine ⟨h1, h2, h3, h4, ?_⟩
  rw [asPolygons_whole]
  unfold allCorners planSample zPolygon
  simp

theorem C89_double_again_hypotheses_met : Planar [(asPolygon ℝ (wholePolygon againSample), .normal)] ∧ SharpPlan [(asPolygon ℝ (wholePolygon againSample), .normal)] := by
  have e := asPolygons_whole [(againSample, PolygonMode.normal)]
  have h1 : Planar (asPolygons ℝ ([(againSample, PolygonMode.normal)].map fun p => (wholePolygon p.1, p.2))) := by rw [e]; exact C89_again_hypotheses_met.1
  have h2 : SharpPlan (asPolygons ℝ ([(againSample, PolygonMode.normal)].map fun p => (wholePolygon p.1, p.2))) := sharpPlan_of_check (by decide +kernel)
  exact ⟨h1, h2⟩

end Idc
