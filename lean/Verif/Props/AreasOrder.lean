import Verif.Props.AreasResult
/-!
# Outlines that come first are outside of the ones that come later, for C88
-/

namespace Idc

open Plan

variable {polys : List (Polygon ℝ × PolygonMode)} {X : Polygon ℝ} {r : Polygon ℝ}

theorem cross_trans {v p q s : Pt ℝ} (hp : LeftOf v p) (hq : LeftOf v q) (hs : LeftOf v s) (h1 : 0 < cross2 (v, p) (v, q)) (h2 : 0 < cross2 (v, q) (v, s)) :
    0 < cross2 (v, p) (v, s) := by
  unfold cross2 at *
  dsimp only at *
  have key : ∀ a b c d e f : ℝ, (0 < a ∨ a = 0 ∧ 0 < b) → (0 < c ∨ c = 0 ∧ 0 < d) → (0 < e ∨ e = 0 ∧ 0 < f) → 0 < a * d - b * c → 0 < c * f - d * e → 0 < a * f - b * e := by
    intro a b c d e f ha hc he g1 g2
    rcases hc with hc | ⟨rfl, hd⟩
    · have ha' : 0 < a := by
        rcases ha with ha | ⟨rfl, hb⟩
        · exact ha
        · nlinarith
      have he' : 0 ≤ e := by rcases he with he | he <;> linarith [he]
      have : (a * f - b * e) * c = (a * d - b * c) * e + (c * f - d * e) * a := by ring
      nlinarith [mul_pos g2 ha', mul_nonneg g1.le he']
    · rcases he with he | ⟨rfl, he⟩ <;> nlinarith
  have cv : ∀ q : Pt ℝ, LeftOf v q → (0 < q.x - v.x ∨ q.x - v.x = 0 ∧ 0 < q.y - v.y) := by
    rintro q (h | h)
    · exact .inl (by linarith)
    · exact .inr ⟨by linarith [h.1], by linarith [h.2]⟩
  exact key _ _ _ _ _ _ (cv p hp) (cv q hq) (cv s hs) h1 h2

/-- An edge that starts at the first corner is the first one. -/
theorem first_edge {v : Pt ℝ} {rest : List (Pt ℝ)} (hr : ∀ q ∈ rest, LeftOf v q) {d : Pt ℝ × Pt ℝ} (hd : d ∈ closedEdges (v :: rest)) (h : d.1 = v) :
    (closedEdges (v :: rest)).head? = some d := by
  obtain ⟨m, hm⟩ := List.mem_iff_getElem?.1 hd
  cases m with
  | zero => rw [List.head?_eq_getElem?, hm]
  | succ m =>
    have := (closed_some.1 hm).1
    rw [List.getElem?_cons_succ, h] at this
    exact absurd (hr _ (List.mem_of_getElem? this)) (LeftOf.irrefl v)

/-- An edge that ends at the first corner is the last one. -/
theorem last_edge {v : Pt ℝ} {rest : List (Pt ℝ)} (hr : ∀ q ∈ rest, LeftOf v q) {d : Pt ℝ × Pt ℝ} (hd : d ∈ closedEdges (v :: rest)) (h : d.2 = v) :
    (v :: rest).getLast? = some d.1 := by
  obtain ⟨m, hm⟩ := List.mem_iff_getElem?.1 hd
  obtain ⟨h1, h2⟩ := closed_some.1 hm
  have hm' : m = rest.length := by
    rcases lt_or_ge m rest.length with g | g
    · rw [List.getElem?_append_left g, h] at h2
      exact absurd (hr _ (List.mem_of_getElem? h2)) (LeftOf.irrefl v)
    · have := (List.getElem?_eq_some_iff.1 h1).1
      simp only [List.length_cons] at this
      omega
  rw [List.getLast?_eq_getElem?, ← h1, hm']
  rfl

namespace Finished

/-- The area left of an outline is outside of the external outlines that come later. -/
theorem exclusive (h : Finished polys r) {i j : ℕ} {c c' : Contour ℝ} (hi : r.contours[i]? = some c) (hj : r.contours[j]? = some c') (hij : i < j)
    (he : c'.external = true) {d : Pt ℝ × Pt ℝ} (hd : d ∈ closedEdges c.points) : ¬ InsideLeft (only c') d := by
  have hc := List.mem_of_getElem? hi
  have hc' := List.mem_of_getElem? hj
  have hF := (h.wellDrawn hc').fits h.kplanar
  have hQ := planar_with h.kplanar (fits_one hF)
  obtain ⟨e, b, g1, g2, g3, g4, g5, g6, g7⟩ := h.first hc
  obtain ⟨e', b', k1, k2, k3, k4, k5, k6, k7⟩ := h.first hc'
  obtain ⟨v, rest, hps, hr⟩ := (h.wellDrawn hc').start
  have hv : e'.1 = v := by rw [hps] at k2; cases k2; rfl
  have harea := (h.external hc').1.1 he
  have k8 : 0 < cross2 e' (e'.1, b') := by
    rcases k7 with k7 | k7
    · exact k7.2
    · linarith [k7.1]
  -- the order
  have hord : LeftOf e.1 e'.1 ∨ e.1 = e'.1 ∧ 0 < cross2 e e' := by
    obtain ⟨i1, i2⟩ := List.getElem?_eq_some_iff.1 hi
    obtain ⟨j1, j2⟩ := List.getElem?_eq_some_iff.1 hj
    have := List.pairwise_iff_getElem.1 h.res.outlines.order i j (by simpa using i1) (by simpa using j1) hij
    simp only [List.getElem_map, i2, j2] at this
    obtain ⟨d, d', h1, h2, h3⟩ := this
    rw [g1] at h1
    rw [k1] at h2
    cases h1
    cases h2
    exact h3
  rw [(h.wellDrawn hc).const h.kplanar hF hd (List.mem_of_mem_head? g1)]
  have hdr : Drawn (withPolys (keptPolygons polys) [only c']) e := (drawn_with (fits_one hF)).2 ((h.wellDrawn hc).drawn _ (List.mem_of_mem_head? g1))
  obtain ⟨k, hk, hke⟩ := drawn_right (hP := hQ) hdr g6
  set G := ofPolys _ hQ with hG
  have hlk : G.lp k = e.1 := by rw [hke]
  have hstart : ∀ l ∈ G.S, G.poly l = (keptPolygons polys).length → G.Alive (G.tau k) l → G.h k (G.tau k) < G.h l (G.tau k) := by
    intro l hl hp ha
    obtain ⟨p, p1, p2⟩ := poly_edge (hP := hQ) hl
    have hp' : (ofPolys _ hQ).poly l = (keptPolygons polys).length := hp
    rw [hp', with_last] at p1
    cases p1
    dsimp only at p2
    rw [only_edges] at p2
    change (G.lp l, G.rp l) ∈ _ ∨ (G.rp l, G.lp l) ∈ _ at p2
    have hmem : G.lp l ∈ c'.points := by
      rcases p2 with p2 | p2
      · exact (closed_fst p2).1
      · exact (closed_fst p2).2
    have hge : v = G.lp l ∨ LeftOf v (G.lp l) := by
      rw [hps] at hmem
      rcases List.mem_cons.1 hmem with g | g
      · exact .inl g.symm
      · exact .inr (hr _ g)
    have hle : G.lp k = v ∨ LeftOf (G.lp k) v := by
      rw [hlk, ← hv]
      rcases hord with g | g
      · exact .inr g
      · exact .inl g.1
    have hll : G.lp l = G.lp k := by
      rcases alive_cases hk.1 ha with g | g
      · exact g
      · have : G.lp k = G.lp l ∨ LeftOf (G.lp k) (G.lp l) := by
          rcases hge with e1 | e1 <;> rcases hle with e2 | e2
          · exact .inl (e2.trans e1)
          · exact .inr (e1 ▸ e2)
          · exact .inr (e2 ▸ e1)
          · exact .inr (e2.trans e1)
        rcases this with e1 | e1
        · exact e1.symm
        · have := G.eps_lt k hk.1 l hl _ _ (.inl rfl) (.inl rfl) e1
          have h1 : G.a l < G.a k := g.1
          exact absurd h1 (not_lt.2 (le_of_lt this))
    have hlv : G.lp l = v := by
      rcases hge with e1 | e1
      · exact e1.symm
      · rw [hll] at e1
        rcases hle with e2 | e2
        · rw [e2] at e1
          exact absurd e1 (LeftOf.irrefl v)
        · exact absurd (e1.trans e2) (LeftOf.irrefl v)
    have hcr : 0 < cross2 e e' := by
      rcases hord with g | g
      · rw [← hlk, hv, ← hll, hlv] at g
        exact absurd g (LeftOf.irrefl v)
      · exact g.2
    have hev : e.1 = v := by rw [← hlk, ← hll, hlv]
    have key : 0 < cross2 e (G.lp l, G.rp l) := by
      rcases p2 with p2 | p2
      · rw [hps] at p2 k1
        have := first_edge hr p2 hlv
        rw [this] at k1
        cases k1
        exact hcr
      · rw [hps] at p2 k3
        have := last_edge hr p2 hlv
        rw [this] at k3
        cases k3
        rw [hv] at k8 k5
        rw [hlv]
        have q1 : e = (v, e.2) := by rw [← hev]
        have q2 : e' = (v, e'.2) := by rw [← hv]
        rw [q1, q2] at hcr
        rw [q2] at k8
        rw [q1]
        rw [hev] at g6
        rw [hv] at k6
        exact cross_trans g6 k6 k5 hcr k8
    refine ((crs_h (i := l) (j := k) hl hk.1 hll.symm ha.2.1).1).1 ?_
    rw [crs_edge]
    show 0 < cross2 (G.lp k, G.rp k) (G.lp l, G.rp l)
    rw [← hke]
    exact key
  have h0 : G.F (k, .left) (keptPolygons polys).length = 0 := by
    show G.lo k (keptPolygons polys).length + G.grp k (keptPolygons polys).length = 0
    have e1 : G.lo k (keptPolygons polys).length = 0 := by
      unfold Plan.lo par
      refine Finset.sum_eq_zero fun l hl => ind_false ?_
      rintro ⟨a1, a2, a3⟩
      obtain ⟨l1, l2⟩ := Finset.mem_filter.1 hl
      exact lt_asymm a3 (hstart l l1 l2 ⟨l1, a1, a2⟩)
    have e2 : G.grp k (keptPolygons polys).length = 0 := by
      rw [grp_eq hk]
      refine Finset.sum_eq_zero fun l hl => ind_false ?_
      intro a1
      obtain ⟨l1, l2⟩ := Finset.mem_filter.1 hl
      have := hstart l l1 l2 ((alive_self hk.1).same l1 a1)
      rw [a1.h] at this
      exact lt_irrefl _ this
    rw [e1, e2, add_zero]
  have h1 := insideLeft_iff (hP := hQ) with_last (z := (k, .left)) hk
  have h2 : (ofPolys _ hQ).edge (k, .left) = e := hke.symm
  rw [h2] at h1
  intro hn
  have := h1.1 hn
  have h0' : (ofPolys _ hQ).F (k, .left) (keptPolygons polys).length = 0 := h0
  rw [h0'] at this
  exact zero_ne_one this

/-- Two external outlines are not inside of each other. -/
theorem root_unique (h : Finished polys r) {i j : ℕ} {c c' : Contour ℝ} (hi : r.contours[i]? = some c) (hj : r.contours[j]? = some c')
    (he : c.external = true) (he' : c'.external = true) {d d' : Pt ℝ × Pt ℝ} (hd : d ∈ closedEdges c.points) (hd' : d' ∈ closedEdges c'.points)
    (h1 : InsideLeft (only c') d) (h2 : InsideLeft (only c) d') : i = j := by
  rcases lt_trichotomy i j with g | g | g
  · exact absurd h1 (h.exclusive hi hj g he' hd)
  · exact g
  · exact absurd h2 (h.exclusive hj hi g he hd')

end Finished

end Idc
