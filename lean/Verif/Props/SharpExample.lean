import Verif.Spec.SharpCheck
import Verif.Props.Sharp
import Verif.Props.F64
import Verif.Spec.Textures
import Verif.Props.TidyExample
/-!
# An example for C80
-/

namespace Idc

theorem sharp_of_angle {a b c d : ZPt} (h : sharpAngleCheck a b c d = true) : SharpAngle (a.toPt, b.toPt) (c.toPt, d.toPt) := by
  simp only [sharpAngleCheck, decide_eq_true_iff] at h
  unfold SharpAngle
  dsimp only
  rw [dir_cast, len_cast, len_cast]
  have h : (11 * (zlen a b : ℝ) * zlen c d) < 10 ^ 8 * (zdir a b c d : ℝ) ^ 2 := by exact_mod_cast h
  linarith

theorem asPolygons_whole (polys : List (List (List ZPt) × PolygonMode)) :
    asPolygons ℝ (polys.map fun p => (wholePolygon p.1, p.2)) = polys.map fun p => (zPolygon p.1, p.2) := by
  unfold asPolygons
  rw [List.map_map]
  refine List.map_congr_left fun p _ => ?_
  show (asPolygon ℝ (wholePolygon p.1), p.2) = _
  congr 1
  unfold asPolygon wholePolygon zPolygon
  dsimp only
  rw [List.map_map]
  congr 1
  refine List.map_congr_left fun r _ => ?_
  show asContour ℝ _ = _
  unfold asContour Contour.new
  dsimp only
  rw [List.map_map]
  rfl

/-- The check is enough. -/
theorem sharp_of_check {polys : List (List (List ZPt) × PolygonMode)} (h : sharpCheck (polys.flatMap fun p => p.1) = true) :
    Sharp (asPolygons ℝ (polys.map fun p => (wholePolygon p.1, p.2))) := by
  rw [asPolygons_whole]
  simp only [sharpCheck, Bool.and_eq_true, List.all_eq_true, decide_eq_true_iff, Bool.or_eq_true] at h
  obtain ⟨h1, h2⟩ := h
  have hne : ∀ e e' : ZPt × ZPt, (e.1.toPt, e.2.toPt) ≠ (e'.1.toPt, e'.2.toPt) → ¬ e = e' := by
    rintro e e' h rfl; exact h rfl
  refine ⟨?_, ?_, ?_, ?_⟩
  · rw [allCorners_z]
    intro q hq
    obtain ⟨p, hp, rfl⟩ := List.mem_map.1 hq
    obtain ⟨r, hr, hp⟩ := List.mem_flatMap.1 hp
    have := (h1 r hr).2 p hp
    show |(p.1 : ℝ)| ≤ 2 ^ 15 ∧ |(p.2 : ℝ)| ≤ 2 ^ 15
    exact ⟨by exact_mod_cast this.1, by exact_mod_cast this.2⟩
  · intro p hp c hc
    obtain ⟨p', hp', rfl⟩ := List.mem_map.1 hp
    unfold zPolygon at hc
    obtain ⟨r, hr, rfl⟩ := List.mem_map.1 hc
    show (r.map ZPt.toPt).length ≤ _
    rw [List.length_map]
    exact (h1 r (List.mem_flatMap.2 ⟨p', hp', hr⟩)).1
  · rw [allEdges_z]
    intro e he e' he' hee
    obtain ⟨d, hd, rfl⟩ := List.mem_map.1 he
    obtain ⟨d', hd', rfl⟩ := List.mem_map.1 he'
    rcases ((h2 d hd d' hd').resolve_left (hne _ _ hee)).1 with h | h
    · left; exact (parallel_iff _ _ _ _).2 h
    · right; exact sharp_of_angle h
  · rw [allEdges_z]
    intro e he e' he' hee hp
    obtain ⟨d, hd, rfl⟩ := List.mem_map.1 he
    obtain ⟨d', hd', rfl⟩ := List.mem_map.1 he'
    rcases ((h2 d hd d' hd').resolve_left (hne _ _ hee)).2 with (h | h) | h
    · exact absurd ((parallel_iff _ _ _ _).1 hp) h
    · left
      unfold OnLine
      dsimp only
      have h : ((zcross d.1 d.2 d'.1 : Int) : ℝ) = 0 := by exact_mod_cast h
      unfold zcross at h
      push_cast at h
      dsimp only [ZPt.toPt]
      linear_combination -h
    · right
      obtain ⟨⟨⟨k1, k2⟩, k3⟩, k4⟩ := h
      rintro p q (rfl | rfl) (rfl | rfl)
      · exact sharp_of_angle k1
      · exact sharp_of_angle k2
      · exact sharp_of_angle k3
      · exact sharp_of_angle k4

/-- Small whole numbers are compared correctly (used by C45 and C46). -/
instance : SmallIntOrder F64 where
  pos n hn := by
    have h : |n| ≤ 2 ^ 53 := hn.trans (by norm_num)
    exact IntExact.lt_ofInt 0 n (by norm_num) h

/-- The sample polygons, with whole coordinates. -/
def sharpSample : List (Polygon ℤ × PolygonMode) := tidySample.map fun p => (wholePolygon p.1, p.2)

/-- The hypotheses of C80 are met. -/
theorem C80_hypotheses_met : Tidy (asPolygons ℝ sharpSample) ∧ Sharp (asPolygons ℝ sharpSample) ∧ (∀ p ∈ sharpSample, p.2 ≠ .removeEdges) ∧ listLib.Lawful := by
  refine ⟨?_, sharp_of_check (by decide +kernel), ?_, listLib_lawful⟩
  · unfold sharpSample
    rw [asPolygons_whole]
    exact C76_hypotheses_met.1
  · intro p hp
    obtain ⟨q, hq, rfl⟩ := List.mem_map.1 hp
    simp only [tidySample, List.mem_cons, List.not_mem_nil, or_false] at hq
    rcases hq with rfl | rfl | rfl <;> simp

/-- What C80 says about the sample, in IEEE 754 binary64 arithmetic: the same as exact arithmetic. -/
theorem C80_sample (op : BooleanOpType) : ∃ z : Polygon ℤ, ∀ fuel, 2 * (allCorners (asPolygons ℝ sharpSample)).length < fuel →
    compute listLib fuel (asPolygons ℝ sharpSample) op = .ok (asPolygon ℝ z) ∧ compute listLib fuel (asPolygons F64 sharpSample) op = .ok (asPolygon F64 z) :=
  C80_same C80_hypotheses_met.2.2.2 C80_hypotheses_met.1 C80_hypotheses_met.2.1 C80_hypotheses_met.2.2.1 op

end Idc
