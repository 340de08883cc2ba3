import Verif.Props.Moved
import Verif.Props.RedrawnDouble
import Verif.Props.Crossed
/-!
# C87: moving and scaling, where outlines cross; and in double precision
-/

namespace Idc

variable {k : ℝ} {v : Pt ℝ} {polys polys' : List (Polygon ℝ × PolygonMode)} {lib lib' : Lib}

theorem Pieces.move (hk : 0 < k) {a b : Pt ℝ} {l : List (Pt ℝ × Pt ℝ)} (h : Pieces a b l) : Pieces (movePt k v a) (movePt k v b) (l.map (moveEdge k v)) := by
  induction h with
  | whole a b => exact .whole _ _
  | step h1 h2 h3 _ ih => exact .step ((onSegment_move (e := (_, _)) hk).2 h1) ((move_inj hk).ne h2) ((move_inj hk).ne h3) ih

theorem Subdivided.move (hk : 0 < k) {ps ps' : List (Pt ℝ)} (h : Subdivided ps ps') : Subdivided (ps.map (movePt k v)) (ps'.map (movePt k v)) := by
  obtain ⟨ds, h1, h2⟩ := h
  refine ⟨ds.map fun l => l.map (moveEdge k v), ?_, ?_⟩
  · rw [closedEdges_move, List.forall₂_map_left_iff, List.forall₂_map_right_iff]
    exact h1.imp fun e d h => h.move hk
  · rw [closedEdges_move, h2, List.map_flatten]

open Classical in
theorem met_move (hk : 0 < k) {e : Pt ℝ × Pt ℝ} {q : Pt ℝ} (h : Met polys e q) : Met (moveAll k v polys) (moveEdge k v e) (movePt k v q) := by
  obtain ⟨h1, h0⟩ := h
  refine ⟨?_, ?_⟩
  · rw [allEdges_move, List.filter_map, List.length_map, ← h1]
    congr 2
    funext u
    simp only [Function.comp, decide_eq_decide]
    rw [onSegment_move hk, endOf_move hk, parallel_move hk]
  · rw [allEdges_move]
    rcases h0 with ⟨e', h2, h3, h4, a, h5, h6⟩ | ⟨r, h2, h3, e', h4, h5, a, h6, h7, h8⟩
    · exact Or.inl ⟨moveEdge k v e', List.mem_map_of_mem h2, (onSegment_move hk).2 h3, h4.imp (endOf_move hk).2 (parallel_move hk).not.2, movePt k v a, (endOf_move hk).2 h5,
        (leftOf_move hk).2 h6⟩
    · refine Or.inr ⟨movePt k v r, (endOf_move hk).2 h2, (leftOf_move hk).2 h3, moveEdge k v e', List.mem_map_of_mem h4, (endOf_move hk).2 h5, movePt k v a, (endOf_move hk).2 h6,
        (leftOf_move hk).2 h7, ?_⟩
      have : cross2 (movePt k v q, movePt k v r) (movePt k v q, movePt k v a) = k * k * cross2 (q, r) (q, a) := by
        unfold cross2 movePt
        ring
      rw [this]
      exact mul_nonpos_of_nonneg_of_nonpos (by positivity) h8

theorem Crossed.move (hk : 0 < k) (hC : Crossed polys polys') (hw : Separate (· ∈ allCorners (moveAll k v polys')) (Drawn (moveAll k v polys'))) : Crossed (moveAll k v polys) (moveAll k v polys') := by
  refine ⟨?_, hC.planar.move hk hw, ?_⟩
  · unfold moveAll movePolygon moveContour
    rw [List.forall₂_map_left_iff, List.forall₂_map_right_iff]
    refine hC.refined.imp fun p p' h => ⟨h.1, ?_⟩
    dsimp only
    rw [List.forall₂_map_left_iff, List.forall₂_map_right_iff]
    exact h.2.imp fun c c' h => h.move hk
  · rw [allEdges_move, allCorners_move]
    refine List.forall_mem_map.2 fun e he => List.forall_mem_map.2 fun q hq h1 h2 => ?_
    exact met_move hk (hC.met e he q hq ((onSegment_move hk).1 h1) fun h => h2 ((endOf_move hk).2 h))

/-- **C87, where outlines cross.** -/
theorem C87_crossed (hl : lib.Lawful) (hs : lib.SearchHonest) (hl' : lib'.Lawful) (hs' : lib'.SearchHonest) (hC : Crossed polys polys') (hR : Removable polys') (hk : 0 < k)
    (hw : Separate (· ∈ allCorners (moveAll k v polys')) (Drawn (moveAll k v polys'))) (op op' : BooleanOpType) {fuel fuel' : ℕ} (hf : 5 * (allCorners polys').length < fuel)
    (hf' : 5 * (allCorners polys').length < fuel') : compute lib' fuel' (moveAll k v polys) op' = compute lib fuel polys op >>= fun r => pure (movePolygon k v r) := by
  rw [C84_same_run hl hs hC op hf, C84_same_run hl' hs' (hC.move hk hw) op' (by rw [allCorners_move, List.length_map]; exact hf')]
  exact C87_moved hl hl' hC.planar hR hk hw op op' (by omega) (by omega)

/-! ### Double precision -/

theorem asPolygon_move (k : ℤ) (v : Pt ℤ) (p : Polygon ℤ) : asPolygon ℝ (movePolygon k v p) = movePolygon (k : ℝ) (asPt ℝ v) (asPolygon ℝ p) := by
  unfold asPolygon movePolygon
  rw [List.map_map, List.map_map]
  congr 1
  refine List.map_congr_left fun c _ => ?_
  simp only [Function.comp, asContour, moveContour, List.map_map]
  congr 1
  refine List.map_congr_left fun q _ => ?_
  simp only [Function.comp, asPt, movePt]
  refine pt_ext ?_ ?_
  · show ((k * q.x + v.x : ℤ) : ℝ) = k * (q.x : ℝ) + (v.x : ℝ)
    push_cast
    rfl
  · show ((k * q.y + v.y : ℤ) : ℝ) = k * (q.y : ℝ) + (v.y : ℝ)
    push_cast
    rfl

theorem asPolygons_move (k : ℤ) (v : Pt ℤ) (ps : List (Polygon ℤ × PolygonMode)) : asPolygons ℝ (moveAll k v ps) = moveAll (k : ℝ) (asPt ℝ v) (asPolygons ℝ ps) := by
  unfold asPolygons moveAll
  rw [List.map_map, List.map_map]
  refine List.map_congr_left fun c _ => ?_
  simp only [Function.comp, asPolygon_move]

theorem as_whole {polys : List (Polygon ℤ × PolygonMode)} {q : Pt ℝ} (hq : q ∈ allCorners (asPolygons ℝ polys)) : WholePt q := by
  unfold allCorners asPolygons at hq
  rw [List.mem_flatMap] at hq
  obtain ⟨p, hp, hq⟩ := hq
  obtain ⟨p, _, rfl⟩ := List.mem_map.1 hp
  obtain ⟨c, hc, hq⟩ := List.mem_flatMap.1 hq
  obtain ⟨c, _, rfl⟩ := List.mem_map.1 hc
  obtain ⟨z, _, rfl⟩ := List.mem_map.1 hq
  exact ⟨z.x, z.y, rfl⟩

/-- **C87 in double precision.** For whole coordinates as in a map, before and after, and a bit of room at the angles, and unless exact arithmetic gives
no result: the result in double precision has whole coordinates, and scaling and moving the polygons by whole numbers scales and moves it, exactly. -/
theorem C87_double {F : Type} [FloatOps F] [Double F] (hl : lib.Lawful) (hl' : lib'.Lawful) {polys : List (Polygon ℤ × PolygonMode)} {k : ℤ} {v : Pt ℤ} (hk : 0 < k)
    (hP : Planar (asPolygons ℝ polys)) (hS : SharpPlan (asPolygons ℝ polys)) (hS' : SharpPlan (asPolygons ℝ (moveAll k v polys))) (hR : Removable (asPolygons ℝ polys))
    (hex : ∃ r, IsResult (asPolygons ℝ polys) r) (op op' : BooleanOpType) {fuel fuel' : ℕ}
    (hf : 2 * (allCorners (asPolygons ℝ polys)).length < fuel) (hf' : 2 * (allCorners (asPolygons ℝ polys)).length < fuel') :
    ∃ z, compute lib fuel (asPolygons F polys) op = .ok (asPolygon F z) ∧
      compute lib' fuel' (asPolygons F (moveAll k v polys)) op' = .ok (asPolygon F (movePolygon k v z)) := by
  obtain ⟨r, hr⟩ := hex
  have hk' : 0 < (k : ℝ) := by exact_mod_cast hk
  have hm := asPolygons_move k v polys
  have hw : Separate (· ∈ allCorners (moveAll (k : ℝ) (asPt ℝ v) (asPolygons ℝ polys))) (Drawn (moveAll (k : ℝ) (asPt ℝ v) (asPolygons ℝ polys))) := by
    rw [← hm]
    exact whole_separate (fun q hq => as_whole hq) fun e he => Plan.drawn_corner he
  have hP' := hP.move hk' hw
  have hR' := hR.move (v := asPt ℝ v) hk'
  have hr' := hr.move (v := asPt ℝ v) hk'
  have hf2 : 2 * (allCorners (moveAll (k : ℝ) (asPt ℝ v) (asPolygons ℝ polys))).length < fuel' := by rw [allCorners_move, List.length_map]; exact hf'
  rw [← hm] at hP' hR' hr' hf2
  obtain ⟨z, hz, e⟩ := double_of_result (F := F) hl hP hS hR hr op hf
  obtain ⟨z', hz', e'⟩ := double_of_result (F := F) hl' hP' hS' hR' hr' op' hf2
  refine ⟨z, e, ?_⟩
  rw [e', show z' = movePolygon k v z from asPolygon_inj ?_]
  rw [← hz', hz, asPolygon_move]

end Idc
