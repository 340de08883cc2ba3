import Verif.Props.RedrawnCrossed
import Verif.Props.RemovedExample
/-!
# C86: samples
-/

namespace Idc

/-- The polygons, with the outlines in the opposite order and directions, beginning elsewhere. -/
def zRedraw (zs : List (List (List ZPt) × PolygonMode)) : List (List (List ZPt) × PolygonMode) :=
  zs.map fun p => (p.1.reverse.map fun r => r.reverse.rotate 1, p.2)

theorem zRedraw_redrawn (zs : List (List (List ZPt) × PolygonMode)) :
    Redrawn (zs.map fun p => (zPolygon p.1, p.2)) ((zRedraw zs).map fun p => (zPolygon p.1, p.2)) := by
  unfold Redrawn zRedraw
  rw [List.map_map, List.forall₂_map_left_iff, List.forall₂_map_right_iff]
  refine List.forall₂_same.2 fun p _ => ⟨rfl, (zPolygon p.1).contours.reverse, List.reverse_perm _, ?_⟩
  unfold zPolygon
  simp only [Function.comp]
  rw [← List.map_reverse, List.map_map, List.forall₂_map_left_iff, List.forall₂_map_right_iff]
  refine List.forall₂_same.2 fun r _ => Or.inr ?_
  show (r.reverse.rotate 1).map ZPt.toPt ~r (r.map ZPt.toPt).reverse
  rw [← List.map_reverse]
  exact List.IsRotated.map (List.IsRotated.symm ⟨1, rfl⟩) _

theorem removable_reorder {polys : List (Polygon ℝ × PolygonMode)} (hm : ∀ p ∈ polys, p.2 ≠ .removeEdges) (σ : Equiv.Perm (Fin polys.length)) : Removable (reorder polys σ) :=
  Plan.removable_of fun p hp => hm p ((reorder_perm polys σ).mem_iff.1 hp)

theorem C86_hypotheses_met : Planar (planSample.map fun p => (zPolygon p.1, p.2)) ∧ Removable (planSample.map fun p => (zPolygon p.1, p.2)) ∧
    Redrawn (planSample.map fun p => (zPolygon p.1, p.2)) ((zRedraw planSample).map fun p => (zPolygon p.1, p.2)) ∧ zRedraw planSample ≠ planSample ∧
    Removable (reorder (planSample.map fun p => (zPolygon p.1, p.2)) Fin.revPerm) ∧ (∃ r, IsResult (planSample.map fun p => (zPolygon p.1, p.2)) r) ∧ listLib.Lawful := by
  obtain ⟨h1, h2, h3⟩ := C81_hypotheses_met
  refine ⟨h1, Plan.removable_of h2, zRedraw_redrawn _, by decide, removable_reorder h2 _, ?_, h3⟩
  obtain ⟨o, k1, _, k2⟩ := C85_outlines h3 h1 (Plan.removable_of h2) .union
  obtain ⟨r, _, hr⟩ := k2 fun ⟨ps, _, ho⟩ => no_orphan h2 ps ho
  exact ⟨r, compute_isResult h3 h1 (Plan.removable_of h2) (Nat.lt_succ_self _) (hr _ (Nat.lt_succ_self _))⟩

theorem C86_crossed_hypotheses_met : Crossed (removeSample.map fun p => (zPolygon p.1, p.2)) (removeSampleCut.map fun p => (zPolygon p.1, p.2)) ∧
    Removable (removeSampleCut.map fun p => (zPolygon p.1, p.2)) ∧
    Redrawn (removeSample.map fun p => (zPolygon p.1, p.2)) ((zRedraw removeSample).map fun p => (zPolygon p.1, p.2)) ∧ zRedraw removeSample ≠ removeSample :=
  ⟨C85_crossed_hypotheses_met.1, C85_hypotheses_met.2.1, zRedraw_redrawn _, by decide⟩

theorem C86_double_hypotheses_met : Planar (asPolygons ℝ (planSample.map fun p => (wholePolygon p.1, p.2))) ∧ SharpPlan (asPolygons ℝ (planSample.map fun p => (wholePolygon p.1, p.2))) ∧
    Removable (asPolygons ℝ (planSample.map fun p => (wholePolygon p.1, p.2))) ∧ (∃ r, IsResult (asPolygons ℝ (planSample.map fun p => (wholePolygon p.1, p.2))) r) ∧
    Redrawn (asPolygons ℝ (planSample.map fun p => (wholePolygon p.1, p.2))) (asPolygons ℝ ((zRedraw planSample).map fun p => (wholePolygon p.1, p.2))) := by
  obtain ⟨h1, h2, h3, h4, h5, h6, h7⟩ := C86_hypotheses_met
  simp only [asPolygons_whole]
  exact ⟨h1, by rw [← asPolygons_whole]; exact sharpPlan_of_check (by decide +kernel), h2, h6, h3⟩

/-- The samples, run. -/
theorem C86_sample :
    exView ((zRedraw planSample).map fun p => (⟨p.1.map fun r => Contour.ofPoints (r.map fun q => ⟨(q.1 : Rat), q.2⟩)⟩, p.2)) .union =
      exView (planSample.map fun p => (⟨p.1.map fun r => Contour.ofPoints (r.map fun q => ⟨(q.1 : Rat), q.2⟩)⟩, p.2)) .exclusiveOr ∧
    exView ((zRedraw removeSample).map fun p => (⟨p.1.map fun r => Contour.ofPoints (r.map fun q => ⟨(q.1 : Rat), q.2⟩)⟩, p.2)) .union =
      exView (removeSample.map fun p => (⟨p.1.map fun r => Contour.ofPoints (r.map fun q => ⟨(q.1 : Rat), q.2⟩)⟩, p.2)) .union := by
  decide +kernel

end Idc
