import Verif.Props.Redrawn
import Verif.Props.Removed
/-!
# C86 in double precision
-/

namespace Idc

variable {lib lib' : Lib}

theorem asPt_inj {p q : Pt ℤ} (h : asPt ℝ p = asPt ℝ q) : p = q := by
  cases p
  cases q
  unfold asPt at h
  simp only [Pt.mk.injEq, FloatOps.ofInt, Int.cast_inj] at h
  rw [h.1, h.2]

theorem asContour_inj {c c' : Contour ℤ} (h : asContour ℝ c = asContour ℝ c') : c = c' := by
  cases c
  cases c'
  unfold asContour at h
  simp only [Contour.mk.injEq] at h
  obtain ⟨h1, h2, h3, h4, h5, h6⟩ := h
  have := List.map_injective_iff.2 (fun _ _ => asPt_inj) h1
  subst this h2 h3 h4 h5 h6
  rfl

theorem asPolygon_inj {z z' : Polygon ℤ} (h : asPolygon ℝ z = asPolygon ℝ z') : z = z' := by
  cases z
  cases z'
  unfold asPolygon at h
  simp only [Polygon.mk.injEq] at h
  have := List.map_injective_iff.2 (fun _ _ => asContour_inj) h
  rw [this]

theorem Redrawn.sharp {polys polys' : List (Polygon ℝ × PolygonMode)} (h : Redrawn polys polys') (hS : SharpPlan polys) : SharpPlan polys' := by
  refine ⟨fun q hq => hS.box q (h.corners.mem_iff.1 hq), by rw [h.corners.length_eq]; exact hS.count, ?_, ?_⟩
  · simpa only [h.alike.drawn] using hS.angles
  · simpa only [h.alike.drawn] using hS.distances

/-- The run in double precision, given the result. -/
theorem double_of_result {F : Type} [FloatOps F] [Double F] (hl : lib.Lawful) {polys : List (Polygon ℤ × PolygonMode)} (hP : Planar (asPolygons ℝ polys))
    (hS : SharpPlan (asPolygons ℝ polys)) (hR : Removable (asPolygons ℝ polys)) {r : Polygon ℝ} (hr : IsResult (asPolygons ℝ polys) r) (op : BooleanOpType) {fuel : ℕ}
    (hf : 2 * (allCorners (asPolygons ℝ polys)).length < fuel) : ∃ z, r = asPolygon ℝ z ∧ compute lib fuel (asPolygons F polys) op = .ok (asPolygon F z) := by
  obtain ⟨z, hz⟩ := double_of_ok (F := F) hl hP hS (op := op) (r := r) (fun fuel hf => ((C86_exact hl hP hR op hf).1 r).2 hr)
    (fun c hc d hd => hr.outlines.drawn d (List.mem_flatMap.2 ⟨c.points, List.mem_map_of_mem (f := fun c : Contour ℝ => c.points) hc, hd⟩))
    (by rw [outlineEdges_eq]; exact hr.outlines.once)
  refine ⟨z, ?_, (hz fuel hf).2⟩
  have := (hz fuel hf).1
  rw [((C86_exact hl hP hR op hf).1 r).2 hr] at this
  exact Res.ok.inj this

/-- **C86 in double precision.** For whole coordinates as in a map and a bit of room at the angles, and unless exact arithmetic gives no result:
the result in double precision, bit by bit, does not depend on where the outlines begin, in which directions they go and in which order they
are given; nor on the operation asked for or on how the containers work. -/
theorem C86_double {F : Type} [FloatOps F] [Double F] (hl : lib.Lawful) (hl' : lib'.Lawful) {polys polys' : List (Polygon ℤ × PolygonMode)} (hP : Planar (asPolygons ℝ polys))
    (hS : SharpPlan (asPolygons ℝ polys)) (hR : Removable (asPolygons ℝ polys)) (hex : ∃ r, IsResult (asPolygons ℝ polys) r)
    (h : Redrawn (asPolygons ℝ polys) (asPolygons ℝ polys')) (op op' : BooleanOpType) {fuel fuel' : ℕ}
    (hf : 2 * (allCorners (asPolygons ℝ polys)).length < fuel) (hf' : 2 * (allCorners (asPolygons ℝ polys)).length < fuel') :
    compute lib' fuel' (asPolygons F polys') op' = compute lib fuel (asPolygons F polys) op := by
  obtain ⟨r, hr⟩ := hex
  have hA := h.alike
  have hP' := hA.planar hP fun q hq => h.corners.mem_iff.1 hq
  have hR' := h.removable hP hR
  have hfl : 2 * (allCorners (asPolygons ℝ polys')).length < fuel' := by rw [h.corners.length_eq]; exact hf'
  have hr' : IsResult (asPolygons ℝ polys') r := by
    refine ((C86_exact hl' hP' hR' op' hfl).1 r).1 ?_
    rw [C86_redrawn hl hl' hP hR h op op' hf hf']
    exact ((C86_exact hl hP hR op hf).1 r).2 hr
  obtain ⟨z, hz, e⟩ := double_of_result (F := F) hl hP hS hR hr op hf
  obtain ⟨z', hz', e'⟩ := double_of_result (F := F) hl' hP' (h.sharp hS) hR' hr' op' hfl
  rw [e, e', asPolygon_inj (hz.symm.trans hz')]

end Idc
