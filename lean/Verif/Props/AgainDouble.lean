import Verif.Props.Again
import Verif.Props.AreasDouble
/-!
# C89 in double precision
-/

namespace Idc

open Plan

variable {lib : Lib} {polys L : List (Polygon ℝ × PolygonMode)} {r : Polygon ℝ}

/-! ### How many corners there are -/

theorem corners_edges (polys : List (Polygon ℝ × PolygonMode)) : (allCorners polys).length = (allEdges polys).length := by
  unfold allCorners allEdges Polygon.edges
  rw [List.length_flatMap, List.length_flatMap]
  congr 1
  refine List.map_congr_left fun p _ => ?_
  rw [List.length_flatMap, List.length_flatMap]
  congr 1
  exact List.map_congr_left fun c _ => (closedEdges_length _).symm

theorem length_le_of_nodup {α : Type} {l l' : List α} (hn : l.Nodup) (h : ∀ a ∈ l, a ∈ l') : l.length ≤ l'.length :=
  (hn.subperm h).length_le

theorem Parts.edges_nodup (h : Parts polys r L) {p : Polygon ℝ × PolygonMode} (hp : p ∈ L) : p.1.edges.Nodup := by
  have h1 := (h.fits p hp).once
  refine h1.imp_of_mem fun {a b} ha _ hab e => ?_
  exact (hab (h.out_drawn ((h.edges a).2 ⟨p, hp, ha⟩)).1).1 e.symm

theorem Finished.out_count (h : Finished polys r) : (outlineEdges r).length ≤ 2 * (allCorners polys).length := by
  rw [corners_edges, two_mul]
  have := length_le_of_nodup (l := outlineEdges r) (l' := allEdges polys ++ (allEdges polys).map Prod.swap)
    (by have := h.res.outlines.once; unfold outlineEdges; rwa [List.flatMap_map] at this) (by
    intro d hd
    obtain ⟨c, hc, hd⟩ := List.mem_flatMap.1 hd
    rcases (drawn_kept ((h.wellDrawn hc).drawn d hd)).2 with g | g
    · exact List.mem_append_left _ g
    · exact List.mem_append_right _ (List.mem_map.2 ⟨_, g, Prod.swap_swap d⟩))
  rwa [List.length_append, List.length_map] at this

theorem Finished.areas_count (h : Finished polys r) : (allCorners (areasOf r)).length ≤ 2 * (allCorners polys).length := by
  refine le_trans ?_ h.out_count
  rw [corners_edges]
  refine length_le_of_nodup ?_ fun d hd => ?_
  · unfold allEdges
    rw [List.nodup_flatMap]
    refine ⟨fun p hp => h.areas.edges_nodup hp, ?_⟩
    unfold areasOf
    rw [List.pairwise_map]
    have hz : (r.contours.zipIdx.filter fun x => x.1.external).Pairwise fun x y => x.2 ≠ y.2 := by
      refine List.Pairwise.filter _ ?_
      rw [← List.pairwise_map (f := Prod.snd) (R := (· ≠ ·)), List.zipIdx_map_snd]
      exact List.nodup_range'
    refine hz.imp_of_mem fun {x y} hx hy hxy => ?_
    obtain ⟨c, i⟩ := x
    obtain ⟨c', i'⟩ := y
    obtain ⟨h1, h2⟩ := List.mem_filter.1 hx
    obtain ⟨h1', h2'⟩ := List.mem_filter.1 hy
    have hi : r.contours[i]? = some c := by simpa [List.mem_zipIdx_iff_getElem?] using h1
    have hi' : r.contours[i']? = some c' := by simpa [List.mem_zipIdx_iff_getElem?] using h1'
    intro d hd hd'
    obtain ⟨j, c₁, w, hj, hd⟩ := (group_edges hi).1 hd
    obtain ⟨j', c₂, w', hj', hd'⟩ := (group_edges hi').1 hd'
    have := h.same hj hj' hd hd'
    subst this
    rw [hj] at hj'
    cases hj'
    obtain ⟨e, he⟩ := h.exists_edge (List.mem_of_getElem? hi)
    obtain ⟨e', he'⟩ := h.exists_edge (List.mem_of_getElem? hi')
    refine hxy (h.root_unique hi hi' h2 h2' he he' ?_ ?_)
    · rw [← h.family (h.fits_outline (List.mem_of_getElem? hi')) w hi hj he hd]
      exact h.family_inside hi' h2' w' hj hd
    · rw [← h.family (h.fits_outline (List.mem_of_getElem? hi)) w' hi' hj he' hd]
      exact h.family_inside hi h2 w hj hd
  · unfold allEdges at hd
    obtain ⟨p, hp, hd⟩ := List.mem_flatMap.1 hd
    exact (h.areas.edges d).2 ⟨p, hp, hd⟩

theorem Finished.one_count {p : Polygon ℝ} (h : Finished [(p, .normal)] r) : (allCorners [(r, PolygonMode.normal)]).length ≤ (allCorners [(p, PolygonMode.normal)]).length := by
  classical
  have hn := h.single.1
  rw [corners_edges, corners_edges]
  have e1 : allEdges [(r, PolygonMode.normal)] = outlineEdges r := by
    unfold allEdges outlineEdges Polygon.edges
    simp
  have e2 : allEdges [(p, PolygonMode.normal)] = p.edges := by
    unfold allEdges
    simp
  rw [e1, e2]
  have hn' : (outlineEdges r).Nodup := by have := h.res.outlines.once; unfold outlineEdges; rwa [List.flatMap_map] at this
  have hdr : ∀ d ∈ outlineEdges r, d ∈ p.edges ∨ d.swap ∈ p.edges := by
    intro d hd
    obtain ⟨c, hc, hd⟩ := List.mem_flatMap.1 hd
    obtain ⟨_, q, hq, he⟩ := drawn_iff.1 (drawn_kept ((h.wellDrawn hc).drawn d hd))
    rwa [List.mem_singleton.1 hq] at he
  have hmap : ((outlineEdges r).map fun d => if d ∈ p.edges then d else d.swap).Nodup := by
    refine List.Nodup.map_on ?_ hn'
    intro d hd d' hd' e
    split at e <;> split at e
    · exact e
    · rw [e] at hd
      exact absurd hd (hn d' hd')
    · rw [← e] at hd'
      exact absurd hd' (hn d hd)
    · exact Prod.swap_injective e
  have := length_le_of_nodup hmap (l' := p.edges) (by
    intro a ha
    obtain ⟨d, hd, rfl⟩ := List.mem_map.1 ha
    split
    · assumption
    · exact (hdr d hd).resolve_left ‹_›)
  rwa [List.length_map] at this

/-! ### Double precision -/

theorem SharpPlan.part (hS : SharpPlan polys) (h : Parts polys r L) (hc : (allCorners L).length ≤ 2 ^ 20) : SharpPlan L where
  box q hq := by
    unfold allCorners at hq
    obtain ⟨p, hp, hq⟩ := List.mem_flatMap.1 hq
    obtain ⟨c, hc, hq⟩ := List.mem_flatMap.1 hq
    exact hS.box q (corner_kept ((h.fits p hp).corners c hc q hq))
  count := hc
  angles e e' he he' := hS.angles e e' (drawn_kept (h.drawn he)) (drawn_kept (h.drawn he'))
  distances e e' he he' := hS.distances e e' (drawn_kept (h.drawn he)) (drawn_kept (h.drawn he'))

section

variable (F : Type) [FloatOps F] (z : Polygon ℤ)

theorem as_get (i : ℕ) : (asPolygon F z).contours[i]? = (z.contours[i]?).map (asContour F) := List.getElem?_map ..

theorem as_within {i j : ℕ} : HoleWithin (asPolygon F z) i j ↔ HoleWithin z i j := by
  constructor
  · intro h
    induction h with
    | hole hi hm =>
      rw [as_get] at hi
      obtain ⟨c, hi', rfl⟩ := Option.map_eq_some_iff.1 hi
      exact .hole hi' hm
    | nested _ hk hm ih =>
      rw [as_get] at hk
      obtain ⟨c, hk', rfl⟩ := Option.map_eq_some_iff.1 hk
      exact .nested ih hk' hm
  · intro h
    induction h with
    | @hole c j hi hm => exact .hole (c := asContour F c) (by rw [as_get, hi]; rfl) hm
    | @nested c k j _ hk hm ih => exact .nested (c := asContour F c) ih (by rw [as_get, hk]; rfl) hm

theorem as_zip : (asPolygon F z).contours.zipIdx = z.contours.zipIdx.map fun x => (asContour F x.1, x.2) := by
  unfold asPolygon
  rw [List.zipIdx_map]
  rfl

theorem as_areas : areasOf (asPolygon F z) = asPolygons F (areasOf z) := by
  unfold areasOf asPolygons
  rw [as_zip, List.filter_map, List.map_map, List.map_map]
  refine List.map_congr_left fun x _ => ?_
  dsimp only [Function.comp]
  congr 1
  unfold asPolygon
  rw [List.map_cons, List.filter_map, List.map_map, List.map_map]
  congr 2
  congr 1
  · refine List.filter_congr fun y _ => ?_
    dsimp only [Function.comp]
    rw [decide_eq_decide]
    exact as_within F z

theorem as_own : ownLabels (asPolygon F z) = asPolygon F (ownLabels z) := by
  unfold ownLabels
  rw [as_zip, List.filter_map, List.map_map]
  unfold asPolygon
  rw [List.map_map]
  congr 1
  refine List.map_congr_left fun y _ => ?_
  dsimp only [Function.comp]
  unfold asContour
  dsimp only
  congr 1
  rw [List.map_map]
  refine List.map_congr_left fun x _ => ?_
  dsimp only [Function.comp]
  rw [decide_eq_decide]
  have := as_within F z (i := x.2) (j := y.2)
  unfold asPolygon at this
  exact or_congr Iff.rfl this

end

/-- **C89 in double precision.** For whole coordinates as in a map and a bit of room at the angles, and unless exact arithmetic gives no result, the areas of the
result come out as they are, bit by bit. -/
theorem C89_double {F : Type} [FloatOps F] [Double F] (hl : lib.Lawful) {polys : List (Polygon ℤ × PolygonMode)} (hP : Planar (asPolygons ℝ polys))
    (hS : SharpPlan (asPolygons ℝ polys)) (hR : Removable (asPolygons ℝ polys)) (hex : ∃ r, IsResult (asPolygons ℝ polys) r)
    (hc : 2 * (allCorners (asPolygons ℝ polys)).length ≤ 2 ^ 20) (op op' : BooleanOpType) {fuel fuel' : ℕ}
    (hf : 2 * (allCorners (asPolygons ℝ polys)).length < fuel) (hf' : 4 * (allCorners (asPolygons ℝ polys)).length < fuel') :
    ∃ r : Polygon F, compute lib fuel (asPolygons F polys) op = .ok r ∧ compute lib fuel' (areasOf r) op' = .ok (ownLabels r) := by
  obtain ⟨r, hr⟩ := hex
  have h := res_of hP hR hr
  obtain ⟨z, rfl, e⟩ := double_of_result (F := F) hl hP hS hR hr op hf
  refine ⟨_, e, ?_⟩
  have hA := h.areas
  have hcount := h.areas_count
  have hres := hA.isResult
  have hPA := hA.planar
  have hRA : Removable (areasOf (asPolygon ℝ z)) := removable_of fun p hp => by rw [hA.modes p hp]; decide
  have hSA := hS.part hA (by omega)
  rw [h.ownLabels] at hres
  rw [as_areas] at hcount hPA hRA hSA hres
  obtain ⟨z', hz', e'⟩ := double_of_result (F := F) hl hPA hSA hRA hres op' (fuel := fuel') (by omega)
  rw [as_areas, e', as_own, asPolygon_inj ((as_own ℝ z).symm.trans hz')]

/-- **C89 in double precision.** What `compute` makes of a single polygon it leaves as it is, bit by bit. -/
theorem C89_double_again {F : Type} [FloatOps F] [Double F] (hl : lib.Lawful) {p : Polygon ℤ} (hP : Planar [(asPolygon ℝ p, .normal)])
    (hS : SharpPlan [(asPolygon ℝ p, .normal)]) (op op' : BooleanOpType) {fuel fuel' : ℕ} (hf : 2 * (allCorners [(asPolygon ℝ p, .normal)]).length < fuel)
    (hf' : 2 * (allCorners [(asPolygon ℝ p, .normal)]).length < fuel') :
    ∃ r : Polygon F, compute lib fuel [(asPolygon F p, .normal)] op = .ok r ∧ compute lib fuel' [(r, .normal)] op' = .ok r := by
  have hm : ∀ q ∈ [((asPolygon ℝ p : Polygon ℝ), PolygonMode.normal)], q.2 ≠ .removeEdges := fun q hq => by rw [List.mem_singleton.1 hq]; exact fun e => nomatch e
  obtain ⟨r, hr, _⟩ := C81_outlines hl hP hm op
  have hres := ((C86_exact hl hP (removable_of hm) op hf).1 r).1 (hr fuel hf)
  have h := res_of hP (removable_of hm) hres
  obtain ⟨z, rfl, e⟩ := double_of_result (F := F) (polys := [(p, .normal)]) hl hP hS (removable_of hm) hres op hf
  refine ⟨_, e, ?_⟩
  obtain ⟨h1, h2⟩ := h.single
  have hA := h.one h1
  have hres' := hA.isResult
  rw [h.oneLabel, h2] at hres'
  have hcount := h.one_count
  have hRA : Removable [((asPolygon ℝ z : Polygon ℝ), PolygonMode.normal)] := removable_of fun p hp => by rw [hA.modes p hp]; decide
  obtain ⟨z', hz', e'⟩ := double_of_result (F := F) (polys := [(z, .normal)]) hl hA.planar (hS.part hA (hcount.trans hS.count)) hRA hres' op' (fuel := fuel') (by
    show 2 * (allCorners [((asPolygon ℝ z : Polygon ℝ), PolygonMode.normal)]).length < fuel'
    omega)
  rw [← asPolygon_inj hz'] at e'
  exact e'

end Idc
