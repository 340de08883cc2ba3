import Verif.Spec.Removed
import Verif.Props.SharpPlan
import Verif.Props.Crossed
/-!
# C85: edges left out, where outlines cross, and in double precision
-/

namespace Idc

variable {lib : Lib} {polys polys' : List (Polygon ℝ × PolygonMode)}

/-! ### Outlines that cross -/

/-- **C85, where outlines cross.** `compute` finds the outlines along the pieces of edges, between corners and crossings, that are not left
out; it fails exactly if one of them is clockwise and at its leftmost corner the next piece below is left out, and otherwise these are the
outlines of the result. -/
theorem C85_crossed_outlines (hl : lib.Lawful) (hs : lib.SearchHonest) (hC : Crossed polys polys') (hR : Removable polys') (op : BooleanOpType) :
    ∃ outlines, KeptOutlines polys' outlines ∧
      ((∃ ps ∈ outlines, Orphan polys' ps) → ∀ fuel, 5 * (allCorners polys').length < fuel → compute lib fuel polys op = .panic .unwrap) ∧
      ((¬ ∃ ps ∈ outlines, Orphan polys' ps) → ∃ r, r.contours.map (fun c => c.points) = outlines ∧
        ∀ fuel, 5 * (allCorners polys').length < fuel → compute lib fuel polys op = .ok r) := by
  obtain ⟨o, h1, h2, h3⟩ := C85_outlines hl hC.planar hR op
  refine ⟨o, h1, fun h fuel hf => ?_, fun h => ?_⟩
  · rw [C84_same_run hl hs hC op hf]
    exact h2 h fuel (by omega)
  · obtain ⟨r, hr, k⟩ := h3 h
    refine ⟨r, hr, fun fuel hf => ?_⟩
    rw [C84_same_run hl hs hC op hf]
    exact k fuel (by omega)

/-- **C85, where outlines cross.** An outline is labelled with all the polygons that an area along its left side belongs to. -/
theorem C85_crossed_labels (hl : lib.Lawful) (hs : lib.SearchHonest) (hC : Crossed polys polys') (hR : Removable polys') {op : BooleanOpType} {fuel : ℕ}
    (hfuel : 5 * (allCorners polys').length < fuel) {r : Polygon ℝ} (hr : compute lib fuel polys op = .ok r) {c : Contour ℝ} (hc : c ∈ r.contours) :
    c.from_polygons.length = polys.length ∧
      ∀ m : ℕ, c.from_polygons[m]? = some true ↔ ∃ d ∈ closedEdges c.points, ∃ f, AreaLeft polys d f ∧ f[m]? = some true := by
  rw [C84_same_run hl hs hC op hfuel] at hr
  obtain ⟨h1, h2⟩ := C85_labels hl hC.planar hR (by omega) hr hc
  refine ⟨by rw [h1, hC.length], fun m => ?_⟩
  rw [h2]
  simp only [hC.area]

/-- **C85, where outlines cross.** Two outlines are neighbors exactly if they go along one piece in opposite directions. -/
theorem C85_crossed_neighbors (hl : lib.Lawful) (hs : lib.SearchHonest) (hC : Crossed polys polys') (hR : Removable polys') {op : BooleanOpType} {fuel : ℕ}
    (hfuel : 5 * (allCorners polys').length < fuel) {r : Polygon ℝ} (hr : compute lib fuel polys op = .ok r) {i j : ℕ} {c c' : Contour ℝ}
    (hc : r.contours[i]? = some c) (hc' : r.contours[j]? = some c') :
    c.neighbors.length = r.contours.length ∧ (c.neighbors[j]? = some true ↔ ∃ d ∈ closedEdges c.points, d.swap ∈ closedEdges c'.points) := by
  rw [C84_same_run hl hs hC op hfuel] at hr
  exact C85_neighbors hl hC.planar hR (by omega) hr hc hc'

/-- **C85, where outlines cross.** An outline is external exactly if it goes counterclockwise. -/
theorem C85_crossed_external (hl : lib.Lawful) (hs : lib.SearchHonest) (hC : Crossed polys polys') (hR : Removable polys') {op : BooleanOpType} {fuel : ℕ}
    (hfuel : 5 * (allCorners polys').length < fuel) {r : Polygon ℝ} (hr : compute lib fuel polys op = .ok r) {c : Contour ℝ} (hc : c ∈ r.contours) :
    (c.external = true ↔ 0 < signedArea2 c.points) ∧ (c.external = false ↔ signedArea2 c.points < 0) := by
  rw [C84_same_run hl hs hC op hfuel] at hr
  exact C85_external hl hC.planar hR (by omega) hr hc

/-- **C85, where outlines cross.** Clockwise outlines are recorded as holes, with the outline that goes from left to right along the next
piece below, at their leftmost corner. -/
theorem C85_crossed_holes (hl : lib.Lawful) (hs : lib.SearchHonest) (hC : Crossed polys polys') (hR : Removable polys') {op : BooleanOpType} {fuel : ℕ}
    (hfuel : 5 * (allCorners polys').length < fuel) {r : Polygon ℝ} (hr : compute lib fuel polys op = .ok r) {i j : ℕ} {c h : Contour ℝ}
    (hc : r.contours[i]? = some c) (hh : r.contours[j]? = some h) :
    j ∈ c.holes ↔ signedArea2 h.points < 0 ∧ ∃ v b d, h.points.head? = some v ∧ h.points.getLast? = some b ∧ d ∈ closedEdges c.points ∧ NextBelow polys' (v, b) d := by
  rw [C84_same_run hl hs hC op hfuel] at hr
  exact C85_holes hl hC.planar hR (by omega) hr hc hh

/-! ### Double precision -/

/-- **C85 in double precision.** For whole coordinates as in a map and a bit of room at the angles, `compute` in double precision returns,
bit by bit, the result that exact arithmetic gives, unless that fails. -/
theorem C85_double {F : Type} [FloatOps F] [Double F] (hl : lib.Lawful) {polys : List (Polygon ℤ × PolygonMode)} (hP : Planar (asPolygons ℝ polys))
    (hS : SharpPlan (asPolygons ℝ polys)) (hR : Removable (asPolygons ℝ polys)) (op : BooleanOpType) :
    ∃ outlines, KeptOutlines (asPolygons ℝ polys) outlines ∧ ((¬ ∃ ps ∈ outlines, Orphan (asPolygons ℝ polys) ps) →
      ∃ z : Polygon ℤ, (asPolygon ℝ z).contours.map (fun c => c.points) = outlines ∧ ∀ fuel, 2 * (allCorners (asPolygons ℝ polys)).length < fuel →
        compute lib fuel (asPolygons ℝ polys) op = .ok (asPolygon ℝ z) ∧ compute lib fuel (asPolygons F polys) op = .ok (asPolygon F z)) := by
  obtain ⟨o, h1, h2, h3⟩ := C85_outlines hl hP hR op
  refine ⟨o, h1, fun h => ?_⟩
  obtain ⟨r, hr, k⟩ := h3 h
  have he : outlineEdges r = o.flatMap closedEdges := by
    unfold outlineEdges
    rw [← hr, List.flatMap_map]
  obtain ⟨z, hz⟩ := double_of_ok (F := F) hl hP hS k (fun c hc d hd => h1.drawn d (by rw [← he]; exact List.mem_flatMap.2 ⟨c, hc, hd⟩)) (by rw [he]; exact h1.once)
  refine ⟨z, ?_, hz⟩
  have e := k _ (Nat.lt_succ_self _)
  rw [(hz _ (Nat.lt_succ_self _)).1] at e
  cases e
  exact hr

end Idc
