import Verif.Spec.SharpPlanCheck
import Verif.Props.SharpPlan
import Verif.Props.SharpExample
import Verif.Props.PlanExample
/-!
# An example for C82
-/

namespace Idc

/-- The check is enough. -/
theorem sharpPlan_of_check {polys : List (List (List ZPt) × PolygonMode)} (h : sharpPlanCheck (polys.map fun p => p.1) = true) :
    SharpPlan (asPolygons ℝ (polys.map fun p => (wholePolygon p.1, p.2))) := by
  rw [asPolygons_whole]
  simp only [sharpPlanCheck, Bool.and_eq_true, List.all_eq_true, decide_eq_true_iff, Bool.or_eq_true] at h
  obtain ⟨⟨h0, h1⟩, h2⟩ := h
  have hfm : (polys.map fun p => p.1).flatMap (fun rs => rs) = polys.flatMap fun p => p.1 := by rw [List.flatMap_map]
  rw [hfm] at h0 h1
  refine ⟨?_, ?_, ?_, ?_⟩
  · rw [allCorners_z]
    intro q hq
    obtain ⟨p, hp, rfl⟩ := List.mem_map.1 hq
    have := h1 p hp
    show |(p.1 : ℝ)| ≤ 2 ^ 15 ∧ |(p.2 : ℝ)| ≤ 2 ^ 15
    exact ⟨by exact_mod_cast this.1, by exact_mod_cast this.2⟩
  · rw [allCorners_z, List.length_map]
    exact h0
  · intro e e' he he'
    obtain ⟨d, hd, rfl⟩ := drawn_z he
    obtain ⟨d', hd', rfl⟩ := drawn_z he'
    rcases (h2 d hd d' hd').1 with h | h
    · left; exact (parallel_iff _ _ _ _).2 h
    · right; exact sharp_of_angle h
  · intro e e' he he' hp
    obtain ⟨d, hd, rfl⟩ := drawn_z he
    obtain ⟨d', hd', rfl⟩ := drawn_z he'
    rcases (h2 d hd d' hd').2 with (h | h) | h
    · exact absurd ((parallel_iff _ _ _ _).1 hp) h
    · left
      unfold OnLine
      dsimp only
      have h : ((zcross d.1 d.2 d'.1 : Int) : ℝ) = 0 := by exact_mod_cast h
      unfold zcross at h
      push_cast at h
      dsimp only [ZPt.toPt]
      linear_combination -h
    · right
      exact sharp_of_angle h

/-- The sample polygons of C81, with whole coordinates. -/
def sharpPlanSample : List (Polygon ℤ × PolygonMode) := planSample.map fun p => (wholePolygon p.1, p.2)

/-- The hypotheses of C82 are met. -/
theorem C82_hypotheses_met : Planar (asPolygons ℝ sharpPlanSample) ∧ SharpPlan (asPolygons ℝ sharpPlanSample) ∧ (∀ p ∈ sharpPlanSample, p.2 ≠ .removeEdges) ∧ listLib.Lawful := by
  refine ⟨?_, sharpPlan_of_check (by decide +kernel), ?_, listLib_lawful⟩
  · unfold sharpPlanSample
    rw [asPolygons_whole]
    exact C81_hypotheses_met.1
  · intro p hp
    obtain ⟨q, hq, rfl⟩ := List.mem_map.1 hp
    simp only [planSample, List.mem_cons, List.not_mem_nil, or_false] at hq
    rcases hq with rfl | rfl | rfl | rfl <;> simp

/-- What C82 says about the sample, in IEEE 754 binary64 arithmetic: the same as exact arithmetic. -/
theorem C82_sample (op : BooleanOpType) : ∃ z : Polygon ℤ, ∀ fuel, 2 * (allCorners (asPolygons ℝ sharpPlanSample)).length < fuel →
    compute listLib fuel (asPolygons ℝ sharpPlanSample) op = .ok (asPolygon ℝ z) ∧ compute listLib fuel (asPolygons F64 sharpPlanSample) op = .ok (asPolygon F64 z) :=
  C82_same C82_hypotheses_met.2.2.2 C82_hypotheses_met.1 C82_hypotheses_met.2.1 C82_hypotheses_met.2.2.1 op

end Idc
