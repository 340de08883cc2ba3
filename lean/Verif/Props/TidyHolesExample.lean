import Verif.Props.TidyHoles
import Verif.Props.TidyExample
import Mathlib.Tactic.NormNum
/-!
# Examples for C77
-/

namespace Idc

/-- An arrow head: an outline with a reflex corner. -/
def zArrow : List ZPt := [(100, 0), (100, 100), (50, 30), (0, 0)]

/-- The hypotheses of `C77_clockwise` are met by an outline with a reflex corner. -/
theorem C77_hypotheses_met : SimpleOutline (zArrow.map ZPt.toPt) ∧ LeftmostCorner (zArrow.map ZPt.toPt) (ZPt.toPt (50, 30)) (ZPt.toPt (0, 0)) (ZPt.toPt (100, 0)) ∧
    LeftTurn (ZPt.toPt (50, 30)) (ZPt.toPt (0, 0)) (ZPt.toPt (100, 0)) := by
  refine ⟨?_, ⟨?_, ?_, ?_⟩, ?_⟩
  · have h : Tidy ([([zArrow], PolygonMode.normal)].map fun p => (zPolygon p.1, p.2)) := tidy_of_check (by decide +kernel)
    exact h.simple (p := (zPolygon [zArrow], .normal)) (by simp) (c := { (Contour.new : Contour ℝ) with points := zArrow.map ZPt.toPt }) (by simp [zPolygon])
  · simp [closedEdges, zArrow, List.rotate]
  · simp [closedEdges, zArrow, List.rotate]
  · intro p hp
    simp only [zArrow, List.map_cons, List.map_nil, List.mem_cons, List.not_mem_nil, or_false] at hp
    rcases hp with rfl | rfl | rfl | rfl <;> simp [LeftOf, ZPt.toPt]
  · simp [LeftTurn, ZPt.toPt]

/-- A square frame. -/
def zFrame : List (List ZPt) := [[(0, 0), (100, 0), (100, 100), (0, 100)], [(20, 20), (20, 80), (80, 80), (80, 20)]]

theorem zFrame_edges : allEdges [(zPolygon zFrame, PolygonMode.normal)] =
    [(⟨0, 0⟩, ⟨100, 0⟩), (⟨100, 0⟩, ⟨100, 100⟩), (⟨100, 100⟩, ⟨0, 100⟩), (⟨0, 100⟩, ⟨0, 0⟩),
     (⟨20, 20⟩, ⟨20, 80⟩), (⟨20, 80⟩, ⟨80, 80⟩), (⟨80, 80⟩, ⟨80, 20⟩), (⟨80, 20⟩, ⟨20, 20⟩)] := by
  simp [allEdges, Polygon.edges, zPolygon, zFrame, closedEdges, List.rotate, ZPt.toPt]

theorem zFrame_edges' : (zPolygon zFrame).edges =
    [(⟨0, 0⟩, ⟨100, 0⟩), (⟨100, 0⟩, ⟨100, 100⟩), (⟨100, 100⟩, ⟨0, 100⟩), (⟨0, 100⟩, ⟨0, 0⟩),
     (⟨20, 20⟩, ⟨20, 80⟩), (⟨20, 80⟩, ⟨80, 80⟩), (⟨80, 80⟩, ⟨80, 20⟩), (⟨80, 20⟩, ⟨20, 20⟩)] := by
  rw [← zFrame_edges]; simp [allEdges]

/-- What C76 and C77 say about a square frame: the outer square is an external outline, the inner one, clockwise, its hole. -/
theorem C77_frame {lib : Lib} (hl : lib.Lawful) (op : BooleanOpType) {fuel : Nat} (hfuel : 16 < fuel) :
    ∃ (r : Polygon ℝ) (c h : Contour ℝ) (i j : Nat), compute lib fuel [(zPolygon zFrame, .normal)] op = .ok r ∧ r.contours[i]? = some c ∧ r.contours[j]? = some h ∧
      c.points = [⟨0, 0⟩, ⟨100, 0⟩, ⟨100, 100⟩, ⟨0, 100⟩] ∧ h.points = [⟨20, 20⟩, ⟨20, 80⟩, ⟨80, 80⟩, ⟨80, 20⟩] ∧
      c.external = true ∧ h.external = false ∧ j ∈ c.holes ∧ i ∉ h.holes := by
  have hT : Tidy [(zPolygon zFrame, .normal)] := tidy_of_check (polys := [(zFrame, .normal)]) (by decide +kernel)
  have hm : ∀ p ∈ [(zPolygon zFrame, PolygonMode.normal)], p.2 ≠ .removeEdges := by simp
  have hf : 2 * (allCorners [(zPolygon zFrame, PolygonMode.normal)]).length < fuel := by
    have : (allCorners [(zPolygon zFrame, PolygonMode.normal)]).length = 8 := by simp [allCorners, zPolygon, zFrame]
    omega
  obtain ⟨r, hr, _, hexp⟩ := C76_disjoint hl hT hm op
  have hr := hr fuel hf
  have ccw : Counterclockwise [⟨0, 0⟩, ⟨100, 0⟩, ⟨100, 100⟩, ⟨0, 100⟩] [⟨0, 0⟩, ⟨100, 0⟩, ⟨100, 100⟩, ⟨0, 100⟩] := by
    refine ⟨⟨0, 0⟩, ⟨100, 0⟩, ⟨0, 100⟩, ⟨Or.inl (List.IsRotated.refl _), _, rfl, rfl, ?_⟩, by norm_num⟩
    intro p hp
    simp only [List.mem_cons, List.not_mem_nil, or_false] at hp
    rcases hp with rfl | rfl | rfl <;> simp [LeftOf]
  have cw : Clockwise [⟨20, 20⟩, ⟨20, 80⟩, ⟨80, 80⟩, ⟨80, 20⟩] [⟨20, 20⟩, ⟨20, 80⟩, ⟨80, 80⟩, ⟨80, 20⟩] := by
    refine ⟨⟨20, 20⟩, ⟨20, 80⟩, ⟨80, 20⟩, ⟨Or.inl (List.IsRotated.refl _), _, rfl, rfl, ?_⟩, by norm_num⟩
    intro p hp
    simp only [List.mem_cons, List.not_mem_nil, or_false] at hp
    rcases hp with rfl | rfl | rfl <;> simp [LeftOf] <;> norm_num
  have hok : FlagsOk [(zPolygon zFrame, PolygonMode.normal)] [true] := by
    refine ⟨rfl, by simp, ?_⟩
    intro i poly mode hp hf hmode
    cases i with
    | zero => simp at hp; rw [← hp.2] at hmode; cases hmode
    | succ i => simp at hp
  have e1 : Expected [(zPolygon zFrame, PolygonMode.normal)] [⟨0, 0⟩, ⟨100, 0⟩, ⟨100, 100⟩, ⟨0, 100⟩] [true] := by
    refine ⟨hok, 0, _, { (Contour.new : Contour ℝ) with points := [⟨0, 0⟩, ⟨100, 0⟩, ⟨100, 100⟩, ⟨0, 100⟩] }, ⟨0, 0⟩, rfl, ?_, rfl, Or.inl ⟨ccw, rfl, ?_⟩⟩
    · simp [zPolygon, zFrame, ZPt.toPt]
    · intro j p hp
      cases j with
      | zero =>
        simp at hp
        subst hp
        unfold Polygon.evenOdd
        rw [zFrame_edges']
        simp [List.countP_cons, CrossesBelow]
      | succ j => simp at hp
  have e2 : Expected [(zPolygon zFrame, PolygonMode.normal)] [⟨20, 20⟩, ⟨20, 80⟩, ⟨80, 80⟩, ⟨80, 20⟩] [true] := by
    refine ⟨hok, 0, _, { (Contour.new : Contour ℝ) with points := [⟨20, 20⟩, ⟨20, 80⟩, ⟨80, 80⟩, ⟨80, 20⟩] }, ⟨20, 20⟩, rfl, ?_, rfl, Or.inr ⟨cw, rfl, ?_⟩⟩
    · simp [zPolygon, zFrame, ZPt.toPt]
    · intro j p hp
      cases j with
      | zero =>
        simp at hp
        subst hp
        unfold Polygon.evenOdd
        rw [zFrame_edges']
        simp [List.countP_cons, CrossesBelow]
        norm_num
      | succ j => simp at hp
  obtain ⟨c, hc, hcp, _⟩ := (hexp _ _).2 e1
  obtain ⟨h, hh, hhp, _⟩ := (hexp _ _).2 e2
  obtain ⟨i, hi⟩ := List.getElem?_of_mem hc
  obtain ⟨j, hj⟩ := List.getElem?_of_mem hh
  refine ⟨r, c, h, i, j, hr, hi, hj, hcp, hhp, ?_, ?_, ?_, ?_⟩
  · rw [(C77_external hl hT hm op hf hr hc).1, hcp]; exact ccw
  · rw [(C77_external hl hT hm op hf hr hh).2, hhp]; exact cw
  · rw [C77_holes hl hT hm op hf hr hi hj, hhp, hcp]
    refine ⟨cw, ⟨20, 20⟩, (⟨0, 0⟩, ⟨100, 0⟩), rfl, by simp [closedEdges, List.rotate], by simp [LeftOf], ?_, ?_⟩
    · simp [CrossesBelow]; norm_num
    · rw [zFrame_edges]
      intro e he hc x _ _
      simp only [List.mem_cons, List.not_mem_nil, or_false] at he
      rcases he with rfl | rfl | rfl | rfl | rfl | rfl | rfl | rfl
      · exact le_refl _
      all_goals
        exfalso
        simp only [CrossesBelow] at hc
        norm_num at hc
  · rw [C77_holes hl hT hm op hf hr hj hi, hcp]
    rintro ⟨k, _⟩
    exact not_both ccw k

end Idc
