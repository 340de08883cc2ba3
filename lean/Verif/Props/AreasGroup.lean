import Verif.Props.AreasOrder
/-!
# An outline with its holes, for C88
-/

namespace Idc

open Plan

variable {polys : List (Polygon ℝ × PolygonMode)} {X : Polygon ℝ} {r : Polygon ℝ}

/-- The outline, or one of its holes. -/
def Family (r : Polygon ℝ) (i j : ℕ) : Prop := i = j ∨ HoleWithin r i j

open Classical in
/-- The outline with all of its holes. -/
noncomputable def group (r : Polygon ℝ) (i : ℕ) (c : Contour ℝ) : Polygon ℝ :=
  ⟨c :: (r.contours.zipIdx.filter fun x => HoleWithin r i x.2).map Prod.fst⟩

theorem mem_group {i : ℕ} {c c' : Contour ℝ} : c' ∈ (group r i c).contours ↔ c' = c ∨ ∃ j, HoleWithin r i j ∧ r.contours[j]? = some c' := by
  classical
  unfold group
  simp only [List.mem_cons, List.mem_map, List.mem_filter, decide_eq_true_iff]
  refine or_congr Iff.rfl ⟨?_, ?_⟩
  · rintro ⟨⟨a, j⟩, ⟨h1, h2⟩, rfl⟩
    exact ⟨j, h2, by simpa using List.mem_zipIdx_iff_getElem?.1 h1⟩
  · rintro ⟨j, h1, h2⟩
    exact ⟨(c', j), ⟨List.mem_zipIdx_iff_getElem?.2 h2, h1⟩, rfl⟩

theorem group_edges {i : ℕ} {c : Contour ℝ} (hi : r.contours[i]? = some c) {d : Pt ℝ × Pt ℝ} :
    d ∈ (group r i c).edges ↔ ∃ j c', Family r i j ∧ r.contours[j]? = some c' ∧ d ∈ closedEdges c'.points := by
  unfold Polygon.edges
  rw [List.mem_flatMap]
  constructor
  · rintro ⟨c', h1, h2⟩
    rcases mem_group.1 h1 with rfl | ⟨j, h3, h4⟩
    · exact ⟨i, c', .inl rfl, hi, h2⟩
    · exact ⟨j, c', .inr h3, h4, h2⟩
  · rintro ⟨j, c', rfl | h1, h2, h3⟩
    · rw [hi] at h2
      cases h2
      exact ⟨c, mem_group.2 (.inl rfl), h3⟩
    · exact ⟨c', mem_group.2 (.inr ⟨j, h1, h2⟩), h3⟩

/-- From edge to edge, upwards. -/
theorem climb {Q : List (Polygon ℝ × PolygonMode)} (hQ : Planar Q) {P : Pt ℝ × Pt ℝ → Prop}
    (below : ∀ d d', Drawn Q d → Drawn Q d' → (∀ p ∈ Q, InsideLeft p.1 d ↔ InsideLeft p.1 d') → P d → P d')
    (none : ∀ d, Drawn Q d → (∀ p ∈ Q, ¬ InsideLeft p.1 d) → P d) (across : ∀ d, Drawn Q d → P d.swap → P d) : ∀ d, Drawn Q d → P d := by
  classical
  set G := ofPolys Q hQ with hG
  have hdr : ∀ z : EndId, G.Top z.1 → Drawn Q (G.edge z) := fun z hz => top_drawn (hP := hQ) hz
  have key : ∀ (N : ℕ) (t : ℝ) (k : ℕ), G.Quiet t → G.Alive t k → G.Top k → (G.S.filter fun j => G.Alive t j ∧ G.h j t < G.h k t).card = N → ∀ s, P (G.edge (k, s)) := by
    intro N
    induction N using Nat.strong_induction_on with
    | _ N ih =>
      intro t k ht hk hT hN
      have hleft : ∀ (m : ℕ) (p : Polygon ℝ × PolygonMode), Q[m]? = some p → ∀ s, InsideLeft p.1 (G.edge (k, s)) ↔ G.F (k, s) m = 1 := fun m p hm s =>
        insideLeft_iff (hP := hQ) hm (z := (k, s)) hT
      have hbelow : P (G.edge (k, .right)) := by
        rcases exists_highest (G := G) t (G.h k t) with hno | ⟨k', hk', hT', hlt, hb⟩
        · refine none _ (hdr (k, .right) hT) fun p hp hin => ?_
          obtain ⟨m, hm⟩ := List.mem_iff_getElem?.1 hp
          have h1 := (hleft m p hm .right).1 hin
          have h0 : G.F (k, .right) m = 0 := by
            show G.lo k m = 0
            rw [← Plan.lo_eq hk.1 m ht hk.2.1 hk.2.2]
            exact par_none hno m
          rw [h0] at h1
          exact zero_ne_one h1
        · have hcard : (G.S.filter fun j => G.Alive t j ∧ G.h j t < G.h k' t).card < N := by
            rw [← hN]
            refine Finset.card_lt_card ⟨?_, ?_⟩
            · intro j hj
              obtain ⟨j1, j2, j3⟩ := Finset.mem_filter.1 hj
              exact Finset.mem_filter.2 ⟨j1, j2, j3.trans hlt⟩
            · intro hsub
              have := Finset.mem_filter.1 (hsub (Finset.mem_filter.2 ⟨hk'.1, hk', hlt⟩))
              exact lt_irrefl _ this.2.2
          refine below _ _ (hdr (k', .left) hT') (hdr (k, .right) hT) (fun p hp => ?_) (ih _ hcard t k' ht hk' hT' rfl .left)
          obtain ⟨m, hm⟩ := List.mem_iff_getElem?.1 hp
          have a1 := hleft m p hm .right
          have a2 := insideLeft_iff (hP := hQ) hm (z := (k', .left)) hT'
          have hF : G.F (k, .right) m = G.F (k', .left) m := lo_of_below ht hk hk' hT' hlt hb m
          rw [hF] at a1
          exact a2.trans a1.symm
      intro s
      cases s
      · exact across _ (hdr (k, .left) hT) hbelow
      · exact hbelow
  intro d hd
  obtain ⟨⟨k, s⟩, hz, rfl⟩ := drawn_top (hP := hQ) hd
  exact key _ (G.tau k) k (G.tau_quiet k) (alive_self hz.1) hz rfl s

/-- Just the polygons that have the edge are different on the two sides. -/
theorem sides {Q : List (Polygon ℝ × PolygonMode)} (hQ : Planar Q) {p : Polygon ℝ × PolygonMode} (hp : p ∈ Q) {d : Pt ℝ × Pt ℝ} (hd : Drawn Q d) :
    (InsideLeft p.1 d ↔ InsideLeft p.1 d.swap) ↔ ¬ (d ∈ p.1.edges ∨ d.swap ∈ p.1.edges) := by
  obtain ⟨z, hz, rfl⟩ := drawn_top (hP := hQ) hd
  obtain ⟨n, hn⟩ := List.mem_iff_getElem?.1 hp
  set G := ofPolys Q hQ with hG
  have hT : G.Top z.1 := hz
  have hgrp : G.grp z.1 n = 1 ↔ G.edge z ∈ p.1.edges ∨ (G.edge z).swap ∈ p.1.edges := by
    rw [grp_eq hT]
    constructor
    · intro h1
      have : ∃ l ∈ G.S.filter (fun l => G.poly l = n), ind (G.Same l z.1) ≠ 0 := by
        by_contra hne
        push Not at hne
        rw [Finset.sum_eq_zero hne] at h1
        exact zero_ne_one h1
      obtain ⟨l, hl, hs⟩ := this
      obtain ⟨l1, l2⟩ := Finset.mem_filter.1 hl
      have hs : G.Same l z.1 := by
        by_contra hne
        exact hs (ind_false hne)
      obtain ⟨p', p1, p2⟩ := poly_edge (hP := hQ) l1
      have l2' : (ofPolys Q hQ).poly l = n := l2
      rw [l2', hn] at p1
      cases p1
      change (G.lp l, G.rp l) ∈ p.1.edges ∨ (G.rp l, G.lp l) ∈ p.1.edges at p2
      rw [hs.1, hs.2] at p2
      obtain ⟨k, s⟩ := z
      cases s
      · exact p2
      · exact p2.symm
    · intro h1
      obtain ⟨l, l1, l2, l3⟩ := exists_listed (hP := hQ) hn h1 (z := z) hz rfl
      rw [Finset.sum_eq_single_of_mem l (Finset.mem_filter.2 ⟨l1, l2⟩)]
      · exact ind_true (Same.symm l3)
      · intro l' hl' hne
        obtain ⟨m1, m2⟩ := Finset.mem_filter.1 hl'
        refine ind_false fun hs => ?_
        refine G.poly_ne m1 l1 hne ⟨hs.1.trans l3.1, hs.2.trans l3.2⟩ (m2.trans l2.symm)
  have h1 := insideLeft_iff (hP := hQ) hn hz
  have h2 := insideLeft_iff (hP := hQ) hn (z := opp z) hz
  rw [edge_opp] at h2
  have h3 : (ofPolys Q hQ).F (opp z) n + (ofPolys Q hQ).F z n = (ofPolys Q hQ).grp z.1 n := by
    rw [add_comm, F_opp]
  rw [← hgrp, ← h3, h1, h2]
  have : ∀ a b : ZMod 2, (a = 1 ↔ b = 1) ↔ ¬ b + a = 1 := by decide
  exact this _ _

/-- Even-odd rule for many outlines. -/
theorem evenOdd_sum (q : Pt ℝ) : ∀ cs : List (Contour ℝ), ind ((⟨cs⟩ : Polygon ℝ).evenOdd q) = (cs.map fun c => ind (InsideOutline c q)).sum := by
  classical
  have e : ∀ cs : List (Contour ℝ), ind ((⟨cs⟩ : Polygon ℝ).evenOdd q) = ((cs.map fun c => ((closedEdges c.points).map fun e => ind (CrossesBelow q e)).sum).sum) := by
    intro cs
    have h1 : ind ((⟨cs⟩ : Polygon ℝ).evenOdd q) = (((⟨cs⟩ : Polygon ℝ).edges.countP fun e => decide (CrossesBelow q e) : ℕ) : ZMod 2) := by
      by_cases h : (⟨cs⟩ : Polygon ℝ).evenOdd q
      · rw [ind_true h]
        unfold Polygon.evenOdd at h
        exact (ZMod.natCast_eq_one_iff_odd.2 h).symm
      · rw [ind_false h]
        unfold Polygon.evenOdd at h
        exact (ZMod.natCast_eq_zero_iff_even.2 (Nat.not_odd_iff_even.1 h)).symm
    rw [h1, sum_ind]
    unfold Polygon.edges
    induction cs with
    | nil => rfl
    | cons c cs ih =>
      rw [List.flatMap_cons, List.map_append, List.sum_append, List.map_cons, List.sum_cons, ih]
      by_cases h : (⟨cs⟩ : Polygon ℝ).evenOdd q
      · rw [ind_true h]
        unfold Polygon.evenOdd at h
        exact (ZMod.natCast_eq_one_iff_odd.2 h).symm
      · rw [ind_false h]
        unfold Polygon.evenOdd at h
        exact (ZMod.natCast_eq_zero_iff_even.2 (Nat.not_odd_iff_even.1 h)).symm
  intro cs
  rw [e cs]
  congr 1
  refine List.map_congr_left fun c _ => ?_
  unfold InsideOutline
  rw [e [c]]
  simp

theorem InArea.group {i : ℕ} {c : Contour ℝ} {q : Pt ℝ} (hi : r.contours[i]? = some c) (h : InArea r i q) : (group r i c).evenOdd q := by
  classical
  obtain ⟨c', h1, _, h2⟩ := h.inside
  rw [hi] at h1
  cases h1
  by_contra hn
  have h3 := evenOdd_sum q (Idc.group r i c).contours
  rw [ind_false (P := (⟨(Idc.group r i c).contours⟩ : Polygon ℝ).evenOdd q) hn] at h3
  unfold Idc.group at h3
  dsimp only at h3
  rw [List.map_cons, List.sum_cons, ind_true h2, List.sum_eq_zero, add_zero] at h3
  · exact zero_ne_one h3
  · intro a ha
    obtain ⟨c', hc, rfl⟩ := List.mem_map.1 ha
    obtain ⟨⟨c', j⟩, hx, rfl⟩ := List.mem_map.1 hc
    rw [List.mem_filter, decide_eq_true_iff] at hx
    exact ind_false (h.holes j c' hx.2 (by simpa using List.mem_zipIdx_iff_getElem?.1 hx.1))

namespace Finished

theorem exists_edge (h : Finished polys r) {c : Contour ℝ} (hc : c ∈ r.contours) : ∃ d, d ∈ closedEdges c.points := by
  obtain ⟨e, _, h1, _⟩ := h.first hc
  exact ⟨e, List.mem_of_mem_head? h1⟩

theorem family (h : Finished polys r) (hX : Fits (keptPolygons polys) X) {i j : ℕ} (hw : Family r i j) {c c' : Contour ℝ} (hi : r.contours[i]? = some c) (hj : r.contours[j]? = some c')
    {d d' : Pt ℝ × Pt ℝ} (hd : d ∈ closedEdges c.points) (hd' : d' ∈ closedEdges c'.points) : InsideLeft X d' ↔ InsideLeft X d := by
  rcases hw with rfl | hw
  · rw [hi] at hj
    cases hj
    exact (h.wellDrawn (List.mem_of_getElem? hi)).const h.kplanar hX hd' hd
  · exact h.within hX hw hi hj hd hd'

theorem fits_outline (h : Finished polys r) {c : Contour ℝ} (hc : c ∈ r.contours) : Fits (keptPolygons polys) (only c) := (h.wellDrawn hc).fits h.kplanar

/-- No edge is used in both directions by an outline and its holes. -/
theorem family_swap (h : Finished polys r) {i j j' : ℕ} {c c₁ c₂ : Contour ℝ} (hi : r.contours[i]? = some c) (h1 : r.contours[j]? = some c₁) (h2 : r.contours[j']? = some c₂)
    (w1 : Family r i j) (w2 : Family r i j') {d : Pt ℝ × Pt ℝ} (hd : d ∈ closedEdges c₁.points) : d.swap ∉ closedEdges c₂.points := by
  intro hs
  obtain ⟨p, hp, hn⟩ := sides_differ h.kplanar ((h.wellDrawn (List.mem_of_getElem? h1)).drawn d hd)
  obtain ⟨e, he⟩ := h.exists_edge (List.mem_of_getElem? hi)
  exact hn ((h.family (fits_self h.kplanar hp) w2 hi h2 he hs).trans (h.family (fits_self h.kplanar hp) w1 hi h1 he hd).symm)

theorem fits_group (h : Finished polys r) {i : ℕ} {c : Contour ℝ} (hi : r.contours[i]? = some c) (he : c.external = true) : Fits (keptPolygons polys) (group r i c) := by
  classical
  have hin : ∀ c' ∈ (group r i c).contours, ∃ j, Family r i j ∧ r.contours[j]? = some c' := by
    intro c' hc
    rcases mem_group.1 hc with rfl | ⟨j, h1, h2⟩
    · exact ⟨i, .inl rfl, hi⟩
    · exact ⟨j, .inr h1, h2⟩
  refine fits_of _ ?_ ?_ ?_
  · intro c' hc d hd
    obtain ⟨j, _, hj⟩ := hin c' hc
    exact (h.wellDrawn (List.mem_of_getElem? hj)).drawn d hd
  · rw [List.map_cons, List.flatMap_cons, List.nodup_append']
    refine ⟨(h.wellDrawn (List.mem_of_getElem? hi)).nodup, ?_, ?_⟩
    · have hsub : ((r.contours.zipIdx.filter fun x => decide (HoleWithin r i x.2)).map Prod.fst).Sublist r.contours := by
        have := (List.filter_sublist (l := r.contours.zipIdx) (p := fun x => decide (HoleWithin r i x.2))).map Prod.fst
        rwa [List.zipIdx_map_fst] at this
      exact ((hsub.map fun c => c.points).flatMap closedEdges).nodup h.res.outlines.once
    · intro d h1 h2
      rw [List.flatMap_map] at h2
      obtain ⟨c', hc, hd⟩ := List.mem_flatMap.1 h2
      obtain ⟨⟨c', j⟩, hx, rfl⟩ := List.mem_map.1 hc
      rw [List.mem_filter, decide_eq_true_iff] at hx
      have hj : r.contours[j]? = some c' := by simpa using List.mem_zipIdx_iff_getElem?.1 hx.1
      have := h.same hi hj h1 hd
      subst this
      rw [h.not_external hx.2 hi] at he
      exact Bool.false_ne_true he
  · intro c₁ hc₁ c₂ hc₂ d hd
    obtain ⟨j, w1, h1⟩ := hin c₁ hc₁
    obtain ⟨j', w2, h2⟩ := hin c₂ hc₂
    exact h.family_swap hi h1 h2 w1 w2 hd

/-- The area left of an outline or its holes is inside of the external outline. -/
theorem family_inside (h : Finished polys r) {i j : ℕ} {c c' : Contour ℝ} (hi : r.contours[i]? = some c) (he : c.external = true) (hw : Family r i j)
    (hj : r.contours[j]? = some c') {d : Pt ℝ × Pt ℝ} (hd : d ∈ closedEdges c'.points) : InsideLeft (only c) d := by
  have hc := List.mem_of_getElem? hi
  obtain ⟨e, he'⟩ := h.exists_edge hc
  exact (h.family (h.fits_outline hc) hw hi hj he' hd).2 ((h.inside hc he').2 he)

/-- Outlines are inside of something. -/
theorem inside_some {d : Pt ℝ × Pt ℝ} {f : List Bool} (hf : AreaLeft polys d f) (ho : FlagsOk polys f) : ∃ p ∈ polys, InsideLeft p.1 d := by
  obtain ⟨_, ht, _⟩ := ho
  obtain ⟨m, hm⟩ := List.mem_iff_getElem?.1 ht
  have hl : m < polys.length := by have := (List.getElem?_eq_some_iff.1 hm).1; rw [hf.1] at this; exact this
  have hp : polys[m]? = some polys[m] := List.getElem?_eq_getElem hl
  exact ⟨_, List.mem_of_getElem? hp, (insideLeft_area hf hp).1 hm⟩

end Finished

/-- The outlines of the result, and the polygons that are kept. -/
noncomputable def guides (polys : List (Polygon ℝ × PolygonMode)) (r : Polygon ℝ) : List (Polygon ℝ) := r.contours.map only ++ (keptPolygons polys).map Prod.fst

theorem only_guides {c : Contour ℝ} (hc : c ∈ r.contours) : only c ∈ guides polys r := List.mem_append_left _ (List.mem_map.2 ⟨c, hc, rfl⟩)

/-- The area left of the edge is in the result, and inside of the same outlines and kept polygons as the area left of an edge of the outline or of its holes. -/
def Beside (polys : List (Polygon ℝ × PolygonMode)) (r : Polygon ℝ) (i : ℕ) (c : Contour ℝ) (d : Pt ℝ × Pt ℝ) : Prop :=
  (∃ f, AreaLeft polys d f ∧ FlagsOk polys f) ∧ ∃ d' ∈ (group r i c).edges, ∀ X ∈ guides polys r, InsideLeft X d ↔ InsideLeft X d'

namespace Finished

theorem fits_guides (h : Finished polys r) (hX : X ∈ guides polys r) : Fits (keptPolygons polys) X := by
  rcases List.mem_append.1 hX with hX | hX
  · obtain ⟨c', hc, rfl⟩ := List.mem_map.1 hX
    exact h.fits_outline hc
  · obtain ⟨p, hp, rfl⟩ := List.mem_map.1 hX
    exact fits_self h.kplanar hp

theorem wanted_iff (h : Finished polys r) {d d' : Pt ℝ × Pt ℝ} (hd' : Drawn polys d') (h1 : ∀ p ∈ polys, InsideLeft p.1 d ↔ InsideLeft p.1 d')
    (hw : ∃ f, AreaLeft polys d f ∧ FlagsOk polys f) : ∃ f, AreaLeft polys d' f ∧ FlagsOk polys f := by
  obtain ⟨f, hf, ho⟩ := hw
  obtain ⟨f', hf'⟩ := EdgesAlike.exists_area h.planar hd'
  refine ⟨f', hf', ?_⟩
  rw [← wanted_congr h.planar h1 hf hf']
  exact ho

/-- Across an edge that is left out. -/
theorem wanted_across (h : Finished polys r) {d : Pt ℝ × Pt ℝ} (hd : Drawn polys d) (hk : ¬ Drawn (keptPolygons polys) d) :
    (∃ f, AreaLeft polys d f ∧ FlagsOk polys f) ↔ ∃ f, AreaLeft polys d.swap f ∧ FlagsOk polys f := by
  obtain ⟨f, hf⟩ := EdgesAlike.exists_area h.planar hd
  obtain ⟨f', hf'⟩ := EdgesAlike.exists_area h.planar (Plan.Drawn.swap hd)
  have hb := h.removable.blind _ f f' hd hk hf hf'
  constructor
  · rintro ⟨f₁, a1, a2⟩
    refine ⟨f', hf', hb.1 ?_⟩
    rw [wanted_congr h.planar (fun _ _ => Iff.rfl) hf a1]
    exact a2
  · rintro ⟨f₁, a1, a2⟩
    refine ⟨f, hf, hb.2 ?_⟩
    rw [wanted_congr h.planar (fun _ _ => Iff.rfl) hf' a1]
    exact a2

theorem beside_congr {i : ℕ} {c : Contour ℝ} {d d' : Pt ℝ × Pt ℝ} (h1 : (∃ f, AreaLeft polys d f ∧ FlagsOk polys f) ↔ ∃ f, AreaLeft polys d' f ∧ FlagsOk polys f)
    (h2 : ∀ X ∈ guides polys r, InsideLeft X d ↔ InsideLeft X d') : Beside polys r i c d ↔ Beside polys r i c d' := by
  unfold Beside
  rw [h1]
  refine and_congr Iff.rfl (exists_congr fun e => and_congr Iff.rfl (forall_congr' fun c => forall_congr' fun hc => ?_))
  rw [h2 c hc]

/-- For an edge that is kept. -/
theorem beside_kept (h : Finished polys r) {i : ℕ} {c : Contour ℝ} (hi : r.contours[i]? = some c) (he : c.external = true) {d : Pt ℝ × Pt ℝ} (hd : Drawn (keptPolygons polys) d) :
    Beside polys r i c d ↔ d ∈ (group r i c).edges := by
  constructor
  · rintro ⟨⟨f, hf, ho⟩, d₀, hg, h2⟩
    obtain ⟨j, cj, w, hj, hdj⟩ := (group_edges hi).1 hg
    obtain ⟨c', hc', hdc⟩ := (h.mem_iff (drawn_kept hd) hf).2 ⟨hd, ho⟩
    obtain ⟨j', hj'⟩ := List.mem_iff_getElem?.1 hc'
    obtain ⟨i', ci', hi', he', w'⟩ := h.root j' c' hj'
    have w' : Family r i' j' := w'
    obtain ⟨e, hee⟩ := h.exists_edge (List.mem_of_getElem? hi)
    obtain ⟨e', hee'⟩ := h.exists_edge (List.mem_of_getElem? hi')
    have : i = i' := by
      refine h.root_unique hi hi' he he' hee hee' ?_ ?_
      · rw [← h.family (h.fits_outline (List.mem_of_getElem? hi')) w hi hj hee hdj, ← h2 _ (only_guides (List.mem_of_getElem? hi'))]
        exact h.family_inside hi' he' w' hj' hdc
      · rw [← h.family (h.fits_outline (List.mem_of_getElem? hi)) w' hi' hj' hee' hdc, h2 _ (only_guides (List.mem_of_getElem? hi))]
        exact h.family_inside hi he w hj hdj
    subst this
    exact (group_edges hi).2 ⟨j', c', w', hj', hdc⟩
  · intro hg
    obtain ⟨j, cj, w, hj, hdj⟩ := (group_edges hi).1 hg
    obtain ⟨f, hf⟩ := EdgesAlike.exists_area h.planar (drawn_kept hd)
    exact ⟨⟨f, hf, ((h.mem_iff (drawn_kept hd) hf).1 ⟨cj, List.mem_of_getElem? hj, hdj⟩).2⟩, d, hg, fun _ _ => Iff.rfl⟩

/-- The edges with the area of an outline with its holes on the left. -/
theorem inside_group (h : Finished polys r) {i : ℕ} {c : Contour ℝ} (hi : r.contours[i]? = some c) (he : c.external = true) {d : Pt ℝ × Pt ℝ} (hd : Drawn polys d) :
    InsideLeft (group r i c) d ↔ Beside polys r i c d := by
  classical
  set g := group r i c with hg
  have hfit' : ∀ X ∈ guides polys r ++ [g], Fits (keptPolygons polys) X := by
    intro X hX
    rcases List.mem_append.1 hX with hX | hX
    · exact h.fits_guides hX
    · rw [List.mem_singleton.1 hX]
      exact h.fits_group hi he
  have hfit : ∀ X ∈ guides polys r ++ [g], Fits polys X := fun X hX => fits_kept (hfit' X hX)
  set Q := withPolys polys (guides polys r ++ [g]) with hQd
  have hQ : Planar Q := planar_with h.planar hfit
  have hdr : ∀ {d}, Drawn Q d ↔ Drawn polys d := drawn_with hfit
  have hmem : ∀ X ∈ guides polys r ++ [g], (X, PolygonMode.normal) ∈ Q := fun X hX => mem_with.2 (.inr ⟨X, hX, rfl⟩)
  have hgm : g ∈ guides polys r ++ [g] := by simp
  refine climb hQ (P := fun d => InsideLeft g d ↔ Beside polys r i c d) ?_ ?_ ?_ d (hdr.2 hd)
  · intro d d' hd hd' hall hIH
    rw [← hall _ (hmem g hgm), hIH]
    have b1 : ∀ p ∈ polys, InsideLeft p.1 d ↔ InsideLeft p.1 d' := fun p hp => hall p (mem_with.2 (.inl hp))
    exact beside_congr ⟨h.wanted_iff (hdr.1 hd') b1, h.wanted_iff (hdr.1 hd) fun p hp => (b1 p hp).symm⟩ fun X hX => hall _ (hmem X (List.mem_append_left _ hX))
  · intro d hd hno
    refine ⟨fun h1 => absurd h1 (hno _ (hmem g hgm)), ?_⟩
    rintro ⟨⟨f, hf, ho⟩, _⟩
    obtain ⟨p, hp, hin⟩ := inside_some hf ho
    exact absurd hin (hno p (mem_with.2 (.inl hp)))
  · intro d hd hbelow
    have hd' := hdr.1 hd
    by_cases hkept : Drawn (keptPolygons polys) d
    · rw [h.beside_kept hi he (Plan.Drawn.swap hkept)] at hbelow
      rw [h.beside_kept hi he hkept]
      have hnot : ¬ (d ∈ g.edges ∧ d.swap ∈ g.edges) := by
        rintro ⟨h1, h2⟩
        obtain ⟨j, c₁, w1, a1, a2⟩ := (group_edges hi).1 h1
        obtain ⟨j', c₂, w2, b1, b2⟩ := (group_edges hi).1 h2
        exact h.family_swap hi a1 b1 w1 w2 a2 b2
      have h3 := sides hQ (hmem g hgm) hd
      dsimp only at h3
      tauto
    · have hacross : ∀ X ∈ guides polys r ++ [g], InsideLeft X d ↔ InsideLeft X d.swap := by
        intro X hX
        refine (sides hQ (hmem X hX) hd).2 ?_
        rintro (h1 | h1)
        · exact hkept ((hfit' X hX).drawn _ h1 hd'.1)
        · exact hkept (Plan.Drawn.swap ((hfit' X hX).drawn _ h1 hd'.1.symm))
      rw [hacross g hgm, hbelow]
      exact beside_congr (h.wanted_across hd' hkept).symm fun X hX => (hacross X (List.mem_append_left _ hX)).symm

/-- Whatever is in the result is beside some outline. -/
theorem exists_beside (h : Finished polys r) {d : Pt ℝ × Pt ℝ} (hd : Drawn polys d) (hw : ∃ f, AreaLeft polys d f ∧ FlagsOk polys f) :
    ∃ i c, r.contours[i]? = some c ∧ c.external = true ∧ Beside polys r i c d := by
  have hfit' : ∀ X ∈ guides polys r, Fits (keptPolygons polys) X := fun X hX => h.fits_guides hX
  have hfit : ∀ X ∈ guides polys r, Fits polys X := fun X hX => fits_kept (hfit' X hX)
  set Q := withPolys polys (guides polys r) with hQd
  have hQ : Planar Q := planar_with h.planar hfit
  have hdr : ∀ {d}, Drawn Q d ↔ Drawn polys d := drawn_with hfit
  have hmem : ∀ X ∈ guides polys r, (X, PolygonMode.normal) ∈ Q := fun X hX => mem_with.2 (.inr ⟨X, hX, rfl⟩)
  refine climb hQ (P := fun d => (∃ f, AreaLeft polys d f ∧ FlagsOk polys f) → ∃ i c, r.contours[i]? = some c ∧ c.external = true ∧ Beside polys r i c d) ?_ ?_ ?_ d (hdr.2 hd) hw
  · intro d d' hd hd' hall hIH hw
    have b1 : ∀ p ∈ polys, InsideLeft p.1 d ↔ InsideLeft p.1 d' := fun p hp => hall p (mem_with.2 (.inl hp))
    have hw' := h.wanted_iff (hdr.1 hd) (fun p hp => (b1 p hp).symm) hw
    obtain ⟨i, c, h1, h2, h3⟩ := hIH hw'
    exact ⟨i, c, h1, h2, (beside_congr (iff_of_true hw' hw) fun X hX => hall _ (hmem X hX)).1 h3⟩
  · rintro d hd hno ⟨f, hf, ho⟩
    obtain ⟨p, hp, hin⟩ := inside_some hf ho
    exact absurd hin (hno p (mem_with.2 (.inl hp)))
  · intro d hd hIH hw
    have hd' := hdr.1 hd
    by_cases hkept : Drawn (keptPolygons polys) d
    · obtain ⟨f, hf, ho⟩ := hw
      obtain ⟨c', hc', hdc⟩ := (h.mem_iff hd' hf).2 ⟨hkept, ho⟩
      obtain ⟨j, hj⟩ := List.mem_iff_getElem?.1 hc'
      obtain ⟨i, c, hi, he, w⟩ := h.root j c' hj
      exact ⟨i, c, hi, he, (h.beside_kept hi he hkept).2 ((group_edges hi).2 ⟨j, c', w, hj, hdc⟩)⟩
    · have hw' := (h.wanted_across hd' hkept).1 hw
      obtain ⟨i, c, h1, h2, h3⟩ := hIH hw'
      refine ⟨i, c, h1, h2, (beside_congr (iff_of_true hw' hw) fun X hX => ?_).1 h3⟩
      refine ((sides hQ (hmem X hX) hd).2 ?_).symm
      rintro (g1 | g1)
      · exact hkept ((hfit' X hX).drawn _ g1 hd'.1)
      · exact hkept (Plan.Drawn.swap ((hfit' X hX).drawn _ g1 hd'.1.symm))

end Finished

end Idc
