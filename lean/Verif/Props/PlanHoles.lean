import Verif.Props.PlanBelow
/-!
# C81, C85: what `compute` does to outlines that share corners and edges, and to edges that are to be left out
-/

namespace Idc

namespace Plan

open Net

section
variable {G : Plan}

theorem exists_under' {i j : ℕ} (hj : G.Alive (G.tau i) j) (hlow : G.h j (G.tau i) < G.h i (G.tau i)) : ∃ k, G.Under' i k := by
  classical
  let f : ℕ → ℝ ×ₗ ℕ := fun j => toLex (G.h j (G.tau i), G.poly j)
  obtain ⟨k, hk, hm⟩ := Finset.exists_max_image (G.S.filter fun j => G.Alive (G.tau i) j ∧ G.h j (G.tau i) < G.h i (G.tau i)) f
    ⟨j, Finset.mem_filter.2 ⟨hj.1, hj, hlow⟩⟩
  obtain ⟨h1, h2, h3⟩ := Finset.mem_filter.1 hk
  refine ⟨k, h2, h3, fun j a l hkj => ?_⟩
  have := hm j (Finset.mem_filter.2 ⟨a.1, a, l⟩)
  rw [Prod.Lex.toLex_le_toLex] at this
  dsimp only at this
  rcases hkj with hkj | hkj <;> rcases this with h | h
  · exact lt_asymm h hkj
  · rw [h.1] at hkj; exact lt_irrefl _ hkj
  · rw [hkj.1] at h; exact lt_irrefl _ h
  · exact absurd h.2 (not_le.2 hkj.2)

/-- Inside of something, there is something below. -/
theorem under_of_lo {i m : ℕ} (h : G.lo i m ≠ 0) : ∃ k, G.Under' i k := by
  by_contra hn
  apply h
  unfold lo par
  refine Finset.sum_eq_zero fun j hj => ind_false ?_
  rintro ⟨h1, h2, h3⟩
  exact hn (exists_under' ⟨(Finset.mem_filter.1 hj).1, h1, h2⟩ h3)

theorem start_cases {x : EndId} (h : G.Start x) :
    (0 < signedArea2 ((G.arc x).map G.pt) ∧ seemsClockwise G x = false) ∨ (signedArea2 ((G.arc x).map G.pt) < 0 ∧ seemsClockwise G x = true) := by
  have hsc : seemsClockwise G x = FloatOps.lt (signedArea2 ((G.arc x).map G.pt)) (FloatOps.ofInt 0) := by
    unfold seemsClockwise
    rw [areaOf_eq (by obtain ⟨l, hl, _⟩ := arc_chain h.1; rw [hl]; simp)]
  have hz : (FloatOps.ofInt 0 : ℝ) = 0 := by simp [FloatOps.ofInt]
  rw [hz] at hsc
  obtain ⟨h1, h2⟩ := start_area h
  have hne : G.key x ≠ G.key (opp (G.last x)) := fun e => last_ne h.1 (key_inj (x := x) (y := opp (G.last x)) h.1.1 (arc_top h.1 (last_mem h.1)).1 e).symm
  rcases lt_or_gt_of_ne hne with k | k
  · left
    refine ⟨h1 k, ?_⟩
    rw [hsc]
    have := h1 k
    simpa [FloatOps.lt] using this.le
  · right
    refine ⟨h2 k, ?_⟩
    rw [hsc]
    simpa [FloatOps.lt] using h2 k

end

section
variable {polys : List (Polygon ℝ × PolygonMode)} {hP : Planar polys} {A : Arena ℝ} {ls : List EndId} {cs : List (Contour ℝ)}

/-- The parents of the outlines. -/
theorem Led.parent (h : Led polys hP A ls) {x : EndId} (hx : x ∈ ls) :
    (0 < signedArea2 (outline polys hP x) ∧ parentOf (ofPolys polys hP).keep A x = none) ∨
    (signedArea2 (outline polys hP x) < 0 ∧
      ∃ i k, (ofPolys polys hP).keep.last x = (i, .right) ∧ (ofPolys polys hP).Top i ∧ (ofPolys polys hP).lp i = (ofPolys polys hP).pt x ∧
        (ofPolys polys hP).Under' i k ∧ parentOf (ofPolys polys hP).keep A x = some (k, .left)) := by
  obtain ⟨hs, hw⟩ := (h.lead.leaders x).1 hx
  set G := ofPolys polys hP with hG
  rcases start_cases hs with ⟨h1, h2⟩ | ⟨h1, h2⟩
  · left
    refine ⟨h1, ?_⟩
    unfold parentOf
    rw [h2]; rfl
  · right
    refine ⟨h1, ?_⟩
    have hr := hs.last_right
    have hlt := Plan.arc_top hs.1 (last_mem hs.1)
    have hpt := last_pt hs.1
    have hlw := (h.arc_wanted hs.1 (last_mem hs.1)).2 hw
    have hli := h.arc_top hx (last_mem hs.1)
    rw [h.side hli] at hlw
    rw [← hG] at hlw hli
    rcases hl : G.keep.last x with ⟨i, e⟩
    rw [hl] at hr hlt hpt hlw hli
    dsimp only at hr
    subst hr
    have hi : G.Top i := hli
    obtain ⟨m, hm⟩ : ∃ m, G.lo i m ≠ 0 := by
      by_contra hn
      push Not at hn
      have h3 := hlw.1
      unfold flag at h3
      rw [List.mem_map] at h3
      obtain ⟨m, _, e⟩ := h3
      have hF : G.F (i, .right) m = G.lo i m := rfl
      rw [hF, hn m] at e
      simp at e
    obtain ⟨k, hk⟩ := under_of_lo hm
    refine ⟨i, k, rfl, hi, hpt, hk, ?_⟩
    unfold parentOf
    rw [h2, if_pos rfl, hl, (h.good i hi.1).below, B_some.2 hk]
    rfl

theorem Led.head (h : Led polys hP A ls) {x : EndId} (hx : x ∈ ls) : (outline polys hP x).head? = some ((ofPolys polys hP).pt x) := by
  obtain ⟨l, hl, _⟩ := arc_chain (h.start hx).1
  unfold outline
  rw [hl]; rfl

theorem Led.getLast (h : Led polys hP A ls) {x : EndId} (hx : x ∈ ls) : (outline polys hP x).getLast? = some ((ofPolys polys hP).pt ((ofPolys polys hP).keep.last x)) := by
  unfold outline
  rw [List.getLast?_map, arc_getLast (h.start hx).1]; rfl

/-- The next edge below a clockwise outline. -/
theorem Led.below (h : Led polys hP A ls) {x : EndId} (hx : x ∈ ls) {k : ℕ} : parentOf (ofPolys polys hP).keep A x = some (k, .left) ↔
    (ofPolys polys hP).Top k ∧ signedArea2 (outline polys hP x) < 0 ∧ ∃ v b, (outline polys hP x).head? = some v ∧ (outline polys hP x).getLast? = some b ∧
      NextBelow polys (v, b) ((ofPolys polys hP).edge (k, .left)) := by
  rw [h.head hx, h.getLast hx]
  rcases h.parent hx with ⟨h1, h2⟩ | ⟨h1, m, k', hlm, hm, hlp, hu, h2⟩
  · rw [h2]
    constructor
    · intro h3; cases h3
    · rintro ⟨_, h3, _⟩; linarith
  · rw [h2]
    have hb : (ofPolys polys hP).pt ((ofPolys polys hP).keep.last x) = (ofPolys polys hP).rp m := by rw [hlm]; rfl
    rw [hb, ← hlp]
    constructor
    · intro h3
      cases h3
      exact ⟨hu.top, h1, _, _, rfl, rfl, nextBelow_of hm hu⟩
    · rintro ⟨hk, _, v, b, hv, hb', hn⟩
      cases hv
      cases hb'
      rw [hu.unique (under_of_next hm hk hn)]

/-- Outlines without parents. -/
theorem Led.orphan (h : Led polys hP A ls) {x : EndId} (hx : x ∈ ls) : ¬ Safe (ofPolys polys hP) A x ↔ Orphan polys (outline polys hP x) := by
  constructor
  · intro hn
    unfold Safe at hn
    push Not at hn
    obtain ⟨w, h1, h2⟩ := hn
    rcases h.parent hx with ⟨_, h3⟩ | ⟨h3, m, k, hlm, hm, hlp, hu, h4⟩
    · rw [h3] at h1; cases h1
    · rw [h4] at h1
      cases h1
      obtain ⟨hk, _, v, b, hv, hb, hnb⟩ := (h.below hx).1 h4
      refine ⟨h3, v, b, _, hv, hb, hnb, ?_⟩
      rw [drawn_kept h.clear (z := (k, .left)) hk]
      intro hr
      exact h2 (mem_keep.2 ⟨hk.1, hr⟩)
  · rintro ⟨h1, v, b, d, hv, hb, hnb, hd⟩ hS
    obtain ⟨⟨k, e⟩, hk, rfl⟩ := drawn_top (hP := hP) hnb.drawn
    have he := (edge_left hk.1).1 hnb.right
    dsimp only at he
    subst he
    have := hS _ ((h.below hx).2 ⟨hk, h1, v, b, hv, hb, hnb⟩)
    rw [drawn_kept h.clear (z := (k, .left)) hk] at hd
    exact hd (mem_keep.1 this).2

end

end Plan

open Plan

section
variable {lib : Lib} {polygons : List (Polygon ℝ × PolygonMode)}

/-- What `compute` does. -/
theorem compute_led (hl : lib.Lawful) (hP : Planar polygons) (hR : Removable polygons) (op : BooleanOpType) :
    ∃ A ls, Led polygons hP A ls ∧
      ((∃ cs, Done polygons hP A ls cs ∧ (∀ x ∈ ls, ¬ Orphan polygons (outline polygons hP x)) ∧
        ∀ fuel, 2 * (allCorners polygons).length < fuel → compute lib fuel polygons op = .ok ⟨cs⟩) ∨
      ((∃ x ∈ ls, Orphan polygons (outline polygons hP x)) ∧ ∀ fuel, 2 * (allCorners polygons).length < fuel → compute lib fuel polygons op = .panic .unwrap)) := by
  obtain ⟨A, hg, ⟨ls, cs, hr, hf⟩ | ⟨ls, hr, ⟨x, hx, hn⟩, hf⟩⟩ := compute_plan hl hP (removable_clear hR) (removable_blind hR) op
  · have hL : Led polygons hP A ls := ⟨hr.toLeaders, hg, removable_clear hR, removable_blind hR⟩
    refine ⟨A, ls, hL, Or.inl ⟨cs, ⟨hL, hr⟩, fun x hx ho => (hL.orphan hx).2 ho (hr.safe x hx), hf⟩⟩
  · have hL : Led polygons hP A ls := ⟨hr, hg, removable_clear hR, removable_blind hR⟩
    exact ⟨A, ls, hL, Or.inr ⟨⟨x, hx, (hL.orphan hx).1 hn⟩, hf⟩⟩

theorem compute_done_of (hl : lib.Lawful) (hP : Planar polygons) (hR : Removable polygons) {op : BooleanOpType} {fuel : ℕ}
    (hfuel : 2 * (allCorners polygons).length < fuel) {r : Polygon ℝ} (hr : compute lib fuel polygons op = .ok r) :
    ∃ A ls, Done polygons hP A ls r.contours := by
  obtain ⟨A, ls, _, ⟨cs, h1, _, h2⟩ | ⟨_, h2⟩⟩ := compute_led hl hP hR op
  · rw [h2 fuel hfuel] at hr
    cases hr
    exact ⟨A, ls, h1⟩
  · rw [h2 fuel hfuel] at hr
    cases hr

/-! ### C85 -/

/-- **C85.** `compute` finds the outlines along the edges that are not left out; it fails exactly if one of them is clockwise and at its
leftmost corner the next edge below is left out, and otherwise these are the outlines of the result. -/
theorem C85_outlines (hl : lib.Lawful) (hP : Planar polygons) (hR : Removable polygons) (op : BooleanOpType) :
    ∃ outlines, KeptOutlines polygons outlines ∧
      ((∃ ps ∈ outlines, Orphan polygons ps) → ∀ fuel, 2 * (allCorners polygons).length < fuel → compute lib fuel polygons op = .panic .unwrap) ∧
      ((¬ ∃ ps ∈ outlines, Orphan polygons ps) → ∃ r, r.contours.map (fun c => c.points) = outlines ∧
        ∀ fuel, 2 * (allCorners polygons).length < fuel → compute lib fuel polygons op = .ok r) := by
  obtain ⟨A, ls, hL, h⟩ := compute_led hl hP hR op
  refine ⟨_, hL.outlines, ?_, ?_⟩
  · rintro ⟨ps, hps, ho⟩
    obtain ⟨x, hx, rfl⟩ := List.mem_map.1 hps
    rcases h with ⟨cs, _, h2, _⟩ | ⟨_, h2⟩
    · exact absurd ho (h2 x hx)
    · exact h2
  · intro hn
    rcases h with ⟨cs, h1, _, h2⟩ | ⟨⟨x, hx, ho⟩, _⟩
    · exact ⟨⟨cs⟩, h1.points, h2⟩
    · exact absurd ⟨_, List.mem_map_of_mem hx, ho⟩ hn

/-- **C85.** An outline is labelled with all the polygons that an area along its left side belongs to, also with those whose edges are left
out. -/
theorem C85_labels (hl : lib.Lawful) (hP : Planar polygons) (hR : Removable polygons) {op : BooleanOpType} {fuel : ℕ}
    (hfuel : 2 * (allCorners polygons).length < fuel) {r : Polygon ℝ} (hr : compute lib fuel polygons op = .ok r) {c : Contour ℝ} (hc : c ∈ r.contours) :
    c.from_polygons.length = polygons.length ∧
      ∀ m : ℕ, c.from_polygons[m]? = some true ↔ ∃ d ∈ closedEdges c.points, ∃ f, AreaLeft polygons d f ∧ f[m]? = some true := by
  obtain ⟨A, ls, h⟩ := compute_done_of hl hP hR hfuel hr
  obtain ⟨n, hn⟩ := List.getElem?_of_mem hc
  obtain ⟨x, hx, hxm, hp⟩ := h.get hn
  obtain ⟨h1, h2⟩ := h.res.flags n c x hn hx
  refine ⟨h1, fun m => ?_⟩
  rw [h2, hp, h.closed hxm]
  constructor
  · rintro ⟨z, hz, hm⟩
    exact ⟨_, List.mem_map_of_mem hz, _, h.area (h.arc_top hxm hz), hm⟩
  · rintro ⟨d, hd, f, hf, hm⟩
    obtain ⟨z, hz, rfl⟩ := List.mem_map.1 hd
    rw [areaLeft_unique hf (h.area (h.arc_top hxm hz))] at hm
    exact ⟨z, hz, hm⟩

/-- **C85.** Outlines are recorded as neighbors exactly if there is an edge along which they go in opposite directions. -/
theorem C85_neighbors (hl : lib.Lawful) (hP : Planar polygons) (hR : Removable polygons) {op : BooleanOpType} {fuel : ℕ}
    (hfuel : 2 * (allCorners polygons).length < fuel) {r : Polygon ℝ} (hr : compute lib fuel polygons op = .ok r) {i j : ℕ} {c c' : Contour ℝ}
    (hc : r.contours[i]? = some c) (hc' : r.contours[j]? = some c') :
    c.neighbors.length = r.contours.length ∧ (c.neighbors[j]? = some true ↔ ∃ d ∈ closedEdges c.points, d.swap ∈ closedEdges c'.points) := by
  obtain ⟨A, ls, h⟩ := compute_done_of hl hP hR hfuel hr
  obtain ⟨x, hx, hxm, hp⟩ := h.get hc
  obtain ⟨y, hy, hym, hp'⟩ := h.get hc'
  obtain ⟨h1, h2⟩ := h.res.neighbors i c x hc hx
  refine ⟨h1, ?_⟩
  rw [h2 j y hy, hp, hp', h.closed hxm, h.closed hym]
  constructor
  · rintro ⟨z, hz, hz'⟩
    exact ⟨_, List.mem_map_of_mem hz, by rw [← edge_opp]; exact List.mem_map_of_mem hz'⟩
  · rintro ⟨d, hd, hd'⟩
    obtain ⟨z, hz, rfl⟩ := List.mem_map.1 hd
    obtain ⟨w, hw, e⟩ := List.mem_map.1 hd'
    refine ⟨z, hz, ?_⟩
    rw [← edge_opp] at e
    rw [← edge_inj (h.arc_top hym hw) (z := opp z) (show (ofPolys polygons hP).Top z.1 from h.arc_top hxm hz) e]
    exact hw

/-- **C85.** Outlines are recorded as outer ones if they are counterclockwise, by their area; and the area is never zero. -/
theorem C85_external (hl : lib.Lawful) (hP : Planar polygons) (hR : Removable polygons) {op : BooleanOpType} {fuel : ℕ}
    (hfuel : 2 * (allCorners polygons).length < fuel) {r : Polygon ℝ} (hr : compute lib fuel polygons op = .ok r) {c : Contour ℝ} (hc : c ∈ r.contours) :
    (c.external = true ↔ 0 < signedArea2 c.points) ∧ (c.external = false ↔ signedArea2 c.points < 0) := by
  obtain ⟨A, ls, h⟩ := compute_done_of hl hP hR hfuel hr
  obtain ⟨n, hn⟩ := List.getElem?_of_mem hc
  obtain ⟨x, hx, hxm, hp⟩ := h.get hn
  rw [h.res.external n c x hn hx, hp]
  rcases h.parent hxm with ⟨h1, h2⟩ | ⟨h1, i, k, _, _, _, _, h2⟩
  · rw [h2]
    simp [h1, h1.le]
  · rw [h2]
    simp [h1, h1.le]

/-- **C85.** Clockwise outlines are recorded as holes, with the outline that goes from left to right along the next edge below,
at their leftmost corner. -/
theorem C85_holes (hl : lib.Lawful) (hP : Planar polygons) (hR : Removable polygons) {op : BooleanOpType} {fuel : ℕ}
    (hfuel : 2 * (allCorners polygons).length < fuel) {r : Polygon ℝ} (hr : compute lib fuel polygons op = .ok r) {i j : ℕ} {c h : Contour ℝ}
    (hc : r.contours[i]? = some c) (hh : r.contours[j]? = some h) :
    j ∈ c.holes ↔ signedArea2 h.points < 0 ∧ ∃ v b d, h.points.head? = some v ∧ h.points.getLast? = some b ∧ d ∈ closedEdges c.points ∧ NextBelow polygons (v, b) d := by
  obtain ⟨A, ls, hD⟩ := compute_done_of hl hP hR hfuel hr
  obtain ⟨x, hx, hxm, hpx⟩ := hD.get hc
  obtain ⟨y, hy, hym, hp⟩ := hD.get hh
  rw [hD.res.holes i c x hc hx, hp, hpx, hD.closed hxm]
  set G := ofPolys polygons hP with hG
  constructor
  · rintro ⟨y', w, h1, h2, h3⟩
    rw [hy] at h1
    cases h1
    have hw : w.2 = .left := by
      rcases hD.parent hym with ⟨_, h4⟩ | ⟨_, m, k, _, _, _, _, h4⟩
      · rw [h4] at h2; cases h2
      · rw [h4] at h2; cases h2; rfl
    obtain ⟨k, e⟩ := w
    dsimp only at hw
    subst hw
    obtain ⟨_, h4, v, b, hv, hb, hn⟩ := (hD.below hym).1 h2
    exact ⟨h4, v, b, _, hv, hb, List.mem_map_of_mem h3, hn⟩
  · rintro ⟨h4, v, b, d, hv, hb, hd, hn⟩
    obtain ⟨z, hz, rfl⟩ := List.mem_map.1 hd
    have hzt := hD.arc_top hxm hz
    have hzl := (edge_left hzt.1).1 hn.right
    obtain ⟨k, e⟩ := z
    dsimp only at hzl
    subst hzl
    exact ⟨y, (k, .left), hy, (hD.below hym).2 ⟨hzt, h4, v, b, hv, hb, hn⟩, hz⟩

/-! ### C81 -/

theorem outlineEdges_eq (r : Polygon ℝ) : outlineEdges r = (r.contours.map fun c => c.points).flatMap closedEdges := by
  unfold outlineEdges
  rw [List.flatMap_map]

/-- Where nothing is left out, no outline lacks a parent. -/
theorem no_orphan (hm : ∀ p ∈ polygons, p.2 ≠ .removeEdges) (ps : List (Pt ℝ)) : ¬ Orphan polygons ps := by
  rintro ⟨_, v, b, d, _, _, h1, h2⟩
  rw [kept_all hm] at h2
  exact h2 h1.drawn

/-- Where nothing is left out, the area along an outline is one. -/
theorem Plan.Done.arc_side {hP : Planar polygons} {A : Arena ℝ} {ls : List EndId} {cs : List (Contour ℝ)} (h : Done polygons hP A ls cs)
    (hm : ∀ p ∈ polygons, p.2 ≠ .removeEdges) {x y : EndId} (hx : x ∈ ls) (hy : y ∈ (ofPolys polygons hP).keep.arc x) : sideFlags A y = sideFlags A x := by
  have hs := h.start hx
  rw [h.side (keep_top' h.toLed hs.1), h.side (h.arc_top hx hy)]
  rw [keep_eq (G := ofPolys polygons hP) (by
    rintro i hi ⟨p, h1, h2⟩
    exact hm p (List.mem_of_getElem? h1) h2)] at hs hy
  congr 1
  funext m
  exact arc_F hs.1 hy m

/-- **C81.** On outlines that share corners and edges but do not cross, `compute` succeeds, and the outlines of the result
consist of exactly the edges that have an area in the result on their left, each once; an outline has the same area on its
left all along, the one it is labelled with. -/
theorem C81_outlines (hl : lib.Lawful) (hP : Planar polygons) (hm : ∀ p ∈ polygons, p.2 ≠ .removeEdges) (op : BooleanOpType) :
    ∃ r, (∀ fuel, 2 * (allCorners polygons).length < fuel → compute lib fuel polygons op = .ok r) ∧
      (∀ c ∈ r.contours, FlagsOk polygons c.from_polygons ∧ ∀ d ∈ closedEdges c.points, Drawn polygons d ∧ AreaLeft polygons d c.from_polygons) ∧
      (∀ d flags, Drawn polygons d → AreaLeft polygons d flags → (d ∈ outlineEdges r ↔ FlagsOk polygons flags)) ∧
      (outlineEdges r).Nodup := by
  obtain ⟨A, ls, hL, ⟨cs, h, _, hf⟩ | ⟨⟨x, _, ho⟩, _⟩⟩ := compute_led hl hP (removable_of hm) op
  swap
  · exact absurd ho (no_orphan hm _)
  have hO := hL.outlines
  rw [← h.points] at hO
  refine ⟨⟨cs⟩, hf, ?_, ?_, by rw [outlineEdges_eq]; exact hO.once⟩
  · intro c hc
    obtain ⟨j, hj⟩ := List.getElem?_of_mem hc
    obtain ⟨x, hx, hxm, hp⟩ := h.get hj
    obtain ⟨f1, f2⟩ := h.res.flags j c x hj hx
    have hs := h.start hxm
    have hxt := keep_top' h.toLed hs.1
    have hfl : c.from_polygons = sideFlags A x := by
      refine List.ext_getElem? fun m => ?_
      have hlen : c.from_polygons.length = (sideFlags A x).length := by rw [f1, h.side hxt, flag_length]
      have hiff : c.from_polygons[m]? = some true ↔ (sideFlags A x)[m]? = some true := by
        rw [f2]
        constructor
        · rintro ⟨z, hz, e⟩
          rwa [h.arc_side hm hxm hz] at e
        · intro e
          exact ⟨x, self_mem_arc hs.1, e⟩
      rcases h1 : c.from_polygons[m]? with _ | b
      · rw [List.getElem?_eq_none_iff] at h1
        rw [List.getElem?_eq_none_iff.2 (by omega)]
      · obtain ⟨b', h2⟩ : ∃ b', (sideFlags A x)[m]? = some b' := ⟨_, List.getElem?_eq_getElem (by rw [← hlen]; exact (List.getElem?_eq_some_iff.1 h1).1)⟩
        rw [h1, h2] at hiff
        rw [h2]
        cases b <;> cases b' <;> simp at hiff ⊢
    have hw := ((h.lead.leaders x).1 hxm).2
    rw [hfl, hp, h.closed hxm]
    refine ⟨(h.wanted hxt).1 hw, ?_⟩
    intro d hd
    obtain ⟨z, hz, rfl⟩ := List.mem_map.1 hd
    have hzt := h.arc_top hxm hz
    refine ⟨top_drawn hzt, ?_⟩
    rw [← h.arc_side hm hxm hz]
    exact h.area hzt
  · intro d flags hd ha
    rw [outlineEdges_eq, hO.edges d flags hd ha, kept_all hm]
    exact and_iff_right hd

theorem done_outlines (hl : lib.Lawful) (hP : Planar polygons) (hR : Removable polygons) {op : BooleanOpType} {fuel : ℕ}
    (hfuel : 2 * (allCorners polygons).length < fuel) {r : Polygon ℝ} (hr : compute lib fuel polygons op = .ok r) :
    KeptOutlines polygons (r.contours.map fun c => c.points) := by
  obtain ⟨A, ls, h⟩ := compute_done_of hl hP hR hfuel hr
  rw [h.points]
  exact h.outlines

/-- **C81.** At each corner an outline goes on along the first edge it comes to when turning, clockwise, from where it came
from. -/
theorem C81_turns (hl : lib.Lawful) (hP : Planar polygons) (hm : ∀ p ∈ polygons, p.2 ≠ .removeEdges) {op : BooleanOpType} {fuel : ℕ}
    (hfuel : 2 * (allCorners polygons).length < fuel) {r : Polygon ℝ} (hr : compute lib fuel polygons op = .ok r) {c : Contour ℝ} (hc : c ∈ r.contours)
    {j : ℕ} {d d' : Pt ℝ × Pt ℝ} (hd : (closedEdges c.points)[j]? = some d) (hd' : (closedEdges c.points)[j + 1]? = some d') :
    d'.1 = d.2 ∧ d' ≠ d.swap ∧ ∀ u, Drawn polygons u → u.1 = d.2 → u ≠ d' → u ≠ d.swap → TurnsThrough u d' d.swap := by
  have := (done_outlines hl hP (removable_of hm) hfuel hr).turns _ (List.mem_map_of_mem hc) j d d' hd hd'
  rwa [kept_all hm] at this

/-- **C81.** An outline starts at its leftmost corner, and does not come back there before its end. -/
theorem C81_start (hl : lib.Lawful) (hP : Planar polygons) (hm : ∀ p ∈ polygons, p.2 ≠ .removeEdges) {op : BooleanOpType} {fuel : ℕ}
    (hfuel : 2 * (allCorners polygons).length < fuel) {r : Polygon ℝ} (hr : compute lib fuel polygons op = .ok r) {c : Contour ℝ} (hc : c ∈ r.contours) :
    ∃ v rest, c.points = v :: rest ∧ ∀ q ∈ rest, LeftOf v q :=
  (done_outlines hl hP (removable_of hm) hfuel hr).start _ (List.mem_map_of_mem hc)

/-- **C81.** Outlines are recorded as neighbors exactly if there is an edge along which they go in opposite directions. -/
theorem C81_neighbors (hl : lib.Lawful) (hP : Planar polygons) (hm : ∀ p ∈ polygons, p.2 ≠ .removeEdges) {op : BooleanOpType} {fuel : ℕ}
    (hfuel : 2 * (allCorners polygons).length < fuel) {r : Polygon ℝ} (hr : compute lib fuel polygons op = .ok r) {i j : ℕ} {c c' : Contour ℝ}
    (hc : r.contours[i]? = some c) (hc' : r.contours[j]? = some c') :
    c.neighbors.length = r.contours.length ∧ (c.neighbors[j]? = some true ↔ ∃ d ∈ closedEdges c.points, d.swap ∈ closedEdges c'.points) :=
  C85_neighbors hl hP (removable_of hm) hfuel hr hc hc'

/-- **C81.** The outlines come in the order of their leftmost corners, and, if they have the leftmost corner in common, in the
order of their first edges, counterclockwise. -/
theorem C81_order (hl : lib.Lawful) (hP : Planar polygons) (hm : ∀ p ∈ polygons, p.2 ≠ .removeEdges) {op : BooleanOpType} {fuel : ℕ}
    (hfuel : 2 * (allCorners polygons).length < fuel) {r : Polygon ℝ} (hr : compute lib fuel polygons op = .ok r) {i j : ℕ} (hij : i < j) {c c' : Contour ℝ}
    (hc : r.contours[i]? = some c) (hc' : r.contours[j]? = some c') :
    ∃ d d', (closedEdges c.points).head? = some d ∧ (closedEdges c'.points).head? = some d' ∧ (LeftOf d.1 d'.1 ∨ d.1 = d'.1 ∧ 0 < cross2 d d') := by
  have h := (done_outlines hl hP (removable_of hm) hfuel hr).order
  rw [List.pairwise_map, List.pairwise_iff_getElem] at h
  obtain ⟨h1, e1⟩ := List.getElem?_eq_some_iff.1 hc
  obtain ⟨h2, e2⟩ := List.getElem?_eq_some_iff.1 hc'
  have := h i j h1 h2 hij
  rwa [e1, e2] at this

/-- **C81.** Outlines are recorded as outer ones if they are counterclockwise, by their area; and the area is never zero. -/
theorem C81_external (hl : lib.Lawful) (hP : Planar polygons) (hm : ∀ p ∈ polygons, p.2 ≠ .removeEdges) {op : BooleanOpType} {fuel : ℕ}
    (hfuel : 2 * (allCorners polygons).length < fuel) {r : Polygon ℝ} (hr : compute lib fuel polygons op = .ok r) {c : Contour ℝ} (hc : c ∈ r.contours) :
    (c.external = true ↔ 0 < signedArea2 c.points) ∧ (c.external = false ↔ signedArea2 c.points < 0) :=
  C85_external hl hP (removable_of hm) hfuel hr hc

/-- **C81.** Clockwise outlines are recorded as holes, with the outline that goes from left to right along the next edge below,
at their leftmost corner. -/
theorem C81_holes (hl : lib.Lawful) (hP : Planar polygons) (hm : ∀ p ∈ polygons, p.2 ≠ .removeEdges) {op : BooleanOpType} {fuel : ℕ}
    (hfuel : 2 * (allCorners polygons).length < fuel) {r : Polygon ℝ} (hr : compute lib fuel polygons op = .ok r) {i j : ℕ} {c h : Contour ℝ}
    (hc : r.contours[i]? = some c) (hh : r.contours[j]? = some h) :
    j ∈ c.holes ↔ signedArea2 h.points < 0 ∧ ∃ v b d, h.points.head? = some v ∧ h.points.getLast? = some b ∧ d ∈ closedEdges c.points ∧ NextBelow polygons (v, b) d :=
  C85_holes hl hP (removable_of hm) hfuel hr hc hh

end

/-- **C81.** No edge gets lost: unless a polygon's interior is removed, every edge of a polygon is an edge of an outline, in at least one
direction. -/
theorem C81_edges_kept {lib : Lib} {polygons : List (Polygon ℝ × PolygonMode)} (hl : lib.Lawful) (hP : Planar polygons)
    (hm : ∀ p ∈ polygons, p.2 = .normal) {op : BooleanOpType} {fuel : ℕ}
    (hfuel : 2 * (allCorners polygons).length < fuel) {r : Polygon ℝ} (hr : compute lib fuel polygons op = .ok r)
    {d : Pt ℝ × Pt ℝ} (hd : d ∈ allEdges polygons) (hne : d.1 ≠ d.2) : d ∈ outlineEdges r ∨ d.swap ∈ outlineEdges r := by
  have hm' : ∀ p ∈ polygons, p.2 ≠ .removeEdges := fun p hp => by rw [hm p hp]; decide
  obtain ⟨r', h1, _, h3, _⟩ := C81_outlines hl hP hm' op
  rw [h1 fuel hfuel] at hr
  cases hr
  have hd1 : Drawn polygons d := ⟨hne, Or.inl hd⟩
  obtain ⟨z, hz, rfl⟩ := drawn_top (hP := hP) hd1
  have hz' : (ofPolys polygons hP).Top (opp z).1 := hz
  have a1 := areaLeft_flag hz
  have a2 := areaLeft_flag hz'
  rw [edge_opp] at a2
  have hn : (ofPolys polygons hP).poly z.1 < (ofPolys polygons hP).n := (ofPolys polygons hP).poly_lt z.1 hz.1
  have key : ∀ f : ℕ → ZMod 2, f ((ofPolys polygons hP).poly z.1) = 1 → FlagsOk polygons ((ofPolys polygons hP).flag f) := by
    intro f hf
    refine ⟨flag_length _, ?_, ?_⟩
    · refine List.mem_of_getElem? (i := (ofPolys polygons hP).poly z.1) ?_
      rw [flag_get, if_pos hn, hf]; rfl
    · intro i poly mode hi _
      have : mode = .normal := hm _ (List.mem_of_getElem? hi)
      rw [this]
      decide
  have hF := F_ne hz
  have two : ∀ a b : ZMod 2, b ≠ a → a = 1 ∨ b = 1 := by decide
  rcases two _ _ hF with hb | hb
  · exact Or.inl ((h3 _ _ hd1 a1).2 (key _ hb))
  · exact Or.inr ((h3 _ _ (Drawn.swap hd1) a2).2 (key _ hb))

end Idc
