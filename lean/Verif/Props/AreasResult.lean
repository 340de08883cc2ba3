import Verif.Props.AreasOutline
import Verif.Props.Redrawn
import Verif.Props.Holes
import Verif.Props.TidyLib
import Verif.Props.PlanExample
import Verif.Spec.Areas
/-!
# The areas of a result, for C88
-/

namespace Idc

open Plan

variable {polys : List (Polygon ℝ × PolygonMode)} {X : Polygon ℝ} {r : Polygon ℝ}

/-- The edges that are left of a wanted area. -/
theorem wanted_congr (hP : Planar polys) {d d' : Pt ℝ × Pt ℝ} (h : ∀ p ∈ polys, InsideLeft p.1 d ↔ InsideLeft p.1 d') {f f' : List Bool}
    (hf : AreaLeft polys d f) (hf' : AreaLeft polys d' f') : f = f' := by
  refine flags_eq (hf.1.trans hf'.1.symm) fun m => ?_
  by_cases hm : m < polys.length
  · have hp : polys[m]? = some polys[m] := List.getElem?_eq_getElem hm
    rw [insideLeft_area hf hp, insideLeft_area hf' hp]
    exact h _ (List.mem_of_getElem? hp)
  · rw [List.getElem?_eq_none (by rw [hf.1]; omega), List.getElem?_eq_none (by rw [hf'.1]; omega)]

theorem drawn_kept {d : Pt ℝ × Pt ℝ} (h : Drawn (keptPolygons polys) d) : Drawn polys d := by
  obtain ⟨hne, p, hp, he⟩ := drawn_iff.1 h
  exact drawn_iff.2 ⟨hne, p, (List.mem_filter.1 hp).1, he⟩

theorem corner_kept {q : Pt ℝ} (h : q ∈ allCorners (keptPolygons polys)) : q ∈ allCorners polys := by
  unfold allCorners at h
  obtain ⟨p, hp, hq⟩ := List.mem_flatMap.1 h
  exact List.mem_flatMap.2 ⟨p, (List.mem_filter.1 hp).1, hq⟩

theorem planar_kept (hP : Planar polys) : Planar (keptPolygons polys) where
  separate := hP.separate.mono (fun _ => corner_kept) fun _ => drawn_kept
  once p hp := hP.once p (List.mem_filter.1 hp).1
  apart e e' he he' := hP.apart e e' (drawn_kept he) (drawn_kept he')
  angles e e' he he' := hP.angles e e' (drawn_kept he) (drawn_kept he')
  distances e e' he he' := hP.distances e e' (drawn_kept he) (drawn_kept he')

theorem fits_kept (h : Fits (keptPolygons polys) X) : Fits polys X := ⟨fun d hd hne => drawn_kept (h.drawn d hd hne), fun c hc q hq => corner_kept (h.corners c hc q hq), h.once⟩

/-- All that is needed about a result. -/
structure Finished (polys : List (Polygon ℝ × PolygonMode)) (r : Polygon ℝ) : Prop where
  planar : Planar polys
  removable : Removable polys
  res : IsResult polys r
  holesOk : HolesOk r.contours
  done : ∃ A ls, Done polys planar A ls r.contours

theorem res_of (hP : Planar polys) (hR : Removable polys) (h : IsResult polys r) : Finished polys r := by
  have hc := ((C86_exact listLib_lawful hP hR .union (fuel := 2 * (allCorners polys).length + 1) (by omega)).1 r).2 h
  exact ⟨hP, hR, h, (C58_holes listLib listLib_ok _ _ _ _ hc).1, compute_done_of listLib_lawful hP hR (by omega) hc⟩

namespace Finished

theorem kplanar (h : Finished polys r) : Planar (keptPolygons polys) := planar_kept h.planar

/-- An edge is in the result if it is kept and wanted. -/
theorem mem_iff (h : Finished polys r) {d : Pt ℝ × Pt ℝ} (hd : Drawn polys d) {f : List Bool} (hf : AreaLeft polys d f) :
    (∃ c ∈ r.contours, d ∈ closedEdges c.points) ↔ Drawn (keptPolygons polys) d ∧ FlagsOk polys f := by
  have := h.res.outlines.edges d f hd hf
  rw [List.flatMap_map, List.mem_flatMap] at this
  exact this

theorem wellDrawn (h : Finished polys r) {c : Contour ℝ} (hc : c ∈ r.contours) : WellDrawn (keptPolygons polys) c.points where
  drawn d hd := by
    have hdr := h.res.outlines.drawn d (List.mem_flatMap.2 ⟨_, List.mem_map.2 ⟨c, hc, rfl⟩, hd⟩)
    obtain ⟨f, hf⟩ := EdgesAlike.exists_area h.planar hdr
    exact ((h.mem_iff hdr hf).1 ⟨c, hc, hd⟩).1
  nodup := (List.nodup_flatMap.1 h.res.outlines.once).1 _ (List.mem_map.2 ⟨c, hc, rfl⟩)
  turns j d d' hd hd' := h.res.outlines.turns _ (List.mem_map.2 ⟨c, hc, rfl⟩) j d d' hd hd'
  start := h.res.outlines.start _ (List.mem_map.2 ⟨c, hc, rfl⟩)

/-- No edge is in two outlines. -/
theorem same (h : Finished polys r) {i j : ℕ} {c c' : Contour ℝ} (hi : r.contours[i]? = some c) (hj : r.contours[j]? = some c') {d : Pt ℝ × Pt ℝ}
    (hd : d ∈ closedEdges c.points) (hd' : d ∈ closedEdges c'.points) : i = j := by
  have hn := (List.nodup_flatMap.1 h.res.outlines.once).2
  by_contra hne
  have key : ∀ {i j : ℕ} {c c' : Contour ℝ}, r.contours[i]? = some c → r.contours[j]? = some c' → d ∈ closedEdges c.points → d ∈ closedEdges c'.points → i < j → False := by
    intro i j c c' hi hj hd hd' hij
    obtain ⟨i1, i2⟩ := List.getElem?_eq_some_iff.1 hi
    obtain ⟨j1, j2⟩ := List.getElem?_eq_some_iff.1 hj
    have := List.pairwise_iff_getElem.1 hn i j (by simpa using i1) (by simpa using j1) hij
    simp only [Function.onFun, List.getElem_map, i2, j2] at this
    exact this hd hd'
  rcases lt_or_gt_of_ne hne with g | g
  · exact key hi hj hd hd' g
  · exact key hj hi hd' hd g

/-- How an outline leaves its first corner, and how it comes back. -/
theorem first (h : Finished polys r) {c : Contour ℝ} (hc : c ∈ r.contours) : ∃ e b, (closedEdges c.points).head? = some e ∧ c.points.head? = some e.1 ∧
    c.points.getLast? = some b ∧ (b, e.1) ∈ closedEdges c.points ∧ LeftOf e.1 b ∧ LeftOf e.1 e.2 ∧
    ((0 < signedArea2 c.points ∧ 0 < cross2 e (e.1, b)) ∨ (signedArea2 c.points < 0 ∧ 0 < cross2 (e.1, b) e)) := by
  obtain ⟨A, ls, hD⟩ := h.done
  obtain ⟨j, hj⟩ := List.mem_iff_getElem?.1 hc
  obtain ⟨x, _, hx, hp⟩ := hD.get hj
  have hst := hD.toLed.start hx
  set G := (ofPolys polys h.planar).keep with hG
  have hcl := hD.toLed.closed hx
  have hh := hD.toLed.head hx
  have hl := hD.toLed.getLast hx
  rw [← hp] at hcl hh hl
  have hlast : (opp (G.last x)).2 = .left := by
    have := hst.last_right
    unfold opp
    rw [this]
    rfl
  have hT : G.Top (G.last x).1 := arc_top hst.1 (last_mem hst.1)
  have hlp := last_pt hst.1
  refine ⟨G.edge x, G.pt (G.last x), ?_, hh, hl, ?_, ?_, ?_, ?_⟩
  · rw [hcl, List.head?_map, List.head?_eq_getElem?, arc_get hst.1 (len_spec hst.1).1]
    rfl
  · rw [hcl]
    refine List.mem_map.2 ⟨G.last x, last_mem hst.1, ?_⟩
    show (G.pt (G.last x), G.pt (opp (G.last x))) = (_, G.pt x)
    rw [hlp]
  · have := (edge_left (G := G) (z := opp (G.last x)) hT.1).2 hlast
    unfold Plan.edge at this
    rw [opp_opp, hlp] at this
    exact this
  · exact (edge_left hst.1.1).2 hst.left
  · have hx2 := hst.left
    have he : ((G.edge x).1, G.pt (G.last x)) = G.edge (opp (G.last x)) := by
      unfold Plan.edge
      rw [opp_opp, hlp]
    rw [he, ← crs_edge, ← crs_edge]
    have hne : G.key x ≠ G.key (opp (G.last x)) := fun e => last_ne hst.1 (key_inj (x := x) (y := opp (G.last x)) hst.1.1 hT.1 e).symm
    obtain ⟨h1, h2⟩ := start_area hst
    have hpe : c.points = (G.arc x).map G.pt := hp
    rw [hpe]
    obtain ⟨i, s⟩ := x
    dsimp only at hx2
    subst hx2
    rcases ho : opp (G.last (i, .left)) with ⟨k, s'⟩
    rw [ho] at hlast hne h1 h2 hlp
    dsimp only at hlast
    subst hlast
    have hk : G.Top k := by
      have : (opp (G.last (i, .left))).1 = k := by rw [ho]
      rw [← this]
      exact hT
    rcases lt_or_gt_of_ne hne with g | g
    · exact .inl ⟨h1 g, crs_of_key hst.1 hk hlp.symm g⟩
    · exact .inr ⟨h2 g, crs_of_key hk hst.1 hlp g⟩

theorem external (h : Finished polys r) {c : Contour ℝ} (hc : c ∈ r.contours) : (c.external = true ↔ 0 < signedArea2 c.points) ∧
    (c.external = false ↔ signedArea2 c.points < 0) := by
  have h1 := h.res.external c hc
  refine ⟨h1, ?_⟩
  rw [← Bool.not_eq_true, h1]
  obtain ⟨_, _, _, _, _, _, _, _, h2⟩ := h.first hc
  rcases h2 with h2 | h2
  · exact ⟨fun g => absurd h2.1 g, fun g => by linarith [h2.1]⟩
  · exact ⟨fun _ => h2.1, fun g => by linarith [h2.1]⟩

/-- The area on the left of an outline's edges is inside of it, if it is external, and otherwise outside. -/
theorem inside (h : Finished polys r) {c : Contour ℝ} (hc : c ∈ r.contours) {d : Pt ℝ × Pt ℝ} (hd : d ∈ closedEdges c.points) : InsideLeft (only c) d ↔ c.external = true := by
  rw [(h.wellDrawn hc).inside h.kplanar hd, (h.external hc).1]

/-- A hole has the same area on the left as the outline it is a hole of. -/
theorem link (h : Finished polys r) (hX : Fits (keptPolygons polys) X) {i j : ℕ} {c c' : Contour ℝ} (hi : r.contours[i]? = some c) (hj : r.contours[j]? = some c') (hm : j ∈ c.holes)
    {d d' : Pt ℝ × Pt ℝ} (hd : d ∈ closedEdges c.points) (hd' : d' ∈ closedEdges c'.points) : InsideLeft X d' ↔ InsideLeft X d := by
  have hc := List.mem_of_getElem? hi
  have hc' := List.mem_of_getElem? hj
  obtain ⟨h', hj', _, v, b, k, hv, hb, hk, hn⟩ := (h.res.holes c hc j).1 hm
  rw [hj] at hj'
  cases hj'
  obtain ⟨e, b', _, h2, h3, h4, h5, _⟩ := h.first hc'
  rw [h2] at hv
  cases hv
  rw [h3] at hb
  cases hb
  have hdr : Drawn polys (e.1, b) := Plan.Drawn.swap (drawn_kept ((h.wellDrawn hc').drawn _ h4))
  have := InsideLeft.below h.planar (fits_kept hX) hdr h5 hn
  rw [(h.wellDrawn hc').const h.kplanar hX hd' h4, (h.wellDrawn hc).const h.kplanar hX hd hk]
  exact this

theorem within (h : Finished polys r) (hX : Fits (keptPolygons polys) X) {i j : ℕ} (hw : HoleWithin r i j) : ∀ {c c' : Contour ℝ}, r.contours[i]? = some c → r.contours[j]? = some c' →
    ∀ {d d' : Pt ℝ × Pt ℝ}, d ∈ closedEdges c.points → d' ∈ closedEdges c'.points → (InsideLeft X d' ↔ InsideLeft X d) := by
  induction hw with
  | hole hi hm =>
    intro c c' h1 h2 d d' hd hd'
    rw [h1] at hi
    cases hi
    exact h.link hX h1 h2 hm hd hd'
  | @nested c₁ k j _ hk hm ih =>
    intro c c' h1 h2 d d' hd hd'
    obtain ⟨e, b, he, _⟩ := h.first (List.mem_of_getElem? hk)
    have he' := List.mem_of_mem_head? he
    exact (h.link hX hk h2 hm he' hd').trans (ih h1 hk hd he')

theorem cross_right {a b : Pt ℝ × Pt ℝ} (h : 0 < cross2 a b) (h' : 0 < cross2 b a) : False := by
  unfold cross2 at h h'
  linarith

/-- A hole comes after the outline it is a hole of. -/
theorem hole_lt (h : Finished polys r) {i j : ℕ} {c : Contour ℝ} (hi : r.contours[i]? = some c) (hm : j ∈ c.holes) : i < j := by
  obtain ⟨h1, h2⟩ := h.holesOk.order i c hi j hm
  refine lt_of_le_of_ne h1 ?_
  rintro rfl
  have hc := List.mem_of_getElem? hi
  obtain ⟨h', hj', ha, v, b, k, hv, hb, hk, hn⟩ := (h.res.holes c hc i).1 hm
  rw [hi] at hj'
  cases hj'
  obtain ⟨e, b', g1, g2, g3, g4, g5, g6, g7⟩ := h.first hc
  rw [g2] at hv
  cases hv
  rw [g3] at hb
  cases hb
  obtain ⟨v, rest, hps, hr⟩ := (h.wellDrawn hc).start
  have hev : e.1 = v := by rw [hps] at g2; cases g2; rfl
  have hkm : k.1 ∈ c.points := (closed_fst hk).1
  rcases hn.next with ⟨n1, n2, _⟩ | ⟨_, n2, _⟩
  · -- the first edge
    have hke : k = e := by
      obtain ⟨m, hm⟩ := List.mem_iff_getElem?.1 hk
      rw [hps] at hm g1
      cases m with
      | zero =>
        rw [List.head?_eq_getElem?, hm] at g1
        cases g1
        rfl
      | succ m =>
        have := (closed_some.1 hm).1
        rw [List.getElem?_cons_succ, n1] at this
        have := hr _ (List.mem_of_getElem? this)
        rw [← hev] at this
        rcases this with g | g
        · exact absurd g (lt_irrefl _)
        · exact absurd g.2 (lt_irrefl _)
    rw [hke] at n2
    rcases g7 with g | g
    · linarith [g.1]
    · exact cross_right n2 g.2
  · have hlt : LeftOf k.1 e.1 := by
      obtain ⟨c1, c2, c3⟩ := n2
      dsimp only at c1 c2 c3
      have hkx : k.1.x < k.2.x := by
        rcases hn.right with g | g
        · exact g
        · rw [g.1, min_self] at c1
          rw [g.1, max_self] at c2
          linarith
      rw [min_eq_left hkx.le] at c1
      rcases c1.lt_or_eq with g | g
      · exact .inl g
      · refine .inr ⟨g, ?_⟩
        rw [← g, sub_self, zero_mul, add_zero] at c3
        exact c3
    rw [hps] at hkm
    rcases List.mem_cons.1 hkm with g | g
    · rw [g, ← hev] at hlt
      rcases hlt with g | g
      · exact absurd g (lt_irrefl _)
      · exact absurd g.2 (lt_irrefl _)
    · have := hr _ g
      rw [← hev] at this
      rcases this with g | g <;> rcases hlt with g' | g' <;> linarith [g, g']

/-- Every outline is external, or within an external one. -/
theorem root (h : Finished polys r) : ∀ (j : ℕ) (c : Contour ℝ), r.contours[j]? = some c →
    ∃ i c', r.contours[i]? = some c' ∧ c'.external = true ∧ (i = j ∨ HoleWithin r i j) := by
  intro j
  induction j using Nat.strong_induction_on with
  | _ j ih =>
    intro c hc
    by_cases he : c.external = true
    · exact ⟨j, c, hc, he, .inl rfl⟩
    · have hcnt := h.holesOk.once j c hc
      rw [if_neg he] at hcnt
      have hm : j ∈ r.contours.flatMap fun c => c.holes := List.count_pos_iff.1 (by omega)
      obtain ⟨c₁, h1, h2⟩ := List.mem_flatMap.1 hm
      obtain ⟨k, hk⟩ := List.mem_iff_getElem?.1 h1
      obtain ⟨i, c', h3, h4, h5⟩ := ih k (h.hole_lt hk h2) c₁ hk
      refine ⟨i, c', h3, h4, .inr ?_⟩
      rcases h5 with rfl | h5
      · exact .hole hk h2
      · exact .nested h5 hk h2

/-- The holes are not external. -/
theorem not_external (h : Finished polys r) {i j : ℕ} (hw : HoleWithin r i j) {c : Contour ℝ} (hj : r.contours[j]? = some c) : c.external = false := by
  have key : ∀ {k : ℕ} {c' : Contour ℝ}, r.contours[k]? = some c' → j ∈ c'.holes → c.external = false := by
    intro k c' hk hm
    obtain ⟨_, g1, g2, _⟩ := (h.res.holes c' (List.mem_of_getElem? hk) j).1 hm
    rw [hj] at g1
    cases g1
    exact (h.external (List.mem_of_getElem? hj)).2.2 g2
  cases hw with
  | hole hi hm => exact key hi hm
  | nested _ hk hm => exact key hk hm

end Finished

end Idc
