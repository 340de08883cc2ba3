import Verif.Spec.Removed
import Verif.Props.PlanEven
import Verif.Props.Tidy
/-!
# The edges of the polygons and of the outlines, in terms of plans, for C81 and C85
-/

namespace Idc

namespace Plan

open Net

/-! ### Edges and endpoints -/

section
variable {G : Plan}

theorem edge_opp (z : EndId) : G.edge (opp z) = (G.edge z).swap := by
  unfold edge
  rw [opp_opp]
  rfl

/-- Endpoints that stand for others are determined by their edges. -/
theorem edge_inj {y z : EndId} (hy : G.Top y.1) (hz : G.Top z.1) (h : G.edge y = G.edge z) : y = z := by
  obtain ⟨i, e⟩ := y
  obtain ⟨j, f⟩ := z
  have h1 : G.pt (i, e) = G.pt (j, f) := congrArg Prod.fst h
  have h2 : G.pt (opp (i, e)) = G.pt (opp (j, f)) := congrArg Prod.snd h
  have wi := G.a_lt_b hy.1
  have wj := G.a_lt_b hz.1
  unfold Plan.a Plan.b at wi wj
  cases e <;> cases f <;> simp only [pt, opp, SegmentEnd.other] at h1 h2
  · have := hy.unique hz ⟨h1, h2⟩
    dsimp only at this
    rw [this]
  · dsimp only at wi wj; rw [h1, h2] at wi; linarith
  · dsimp only at wi wj; rw [h1, h2] at wi; linarith
  · have := hy.unique hz ⟨h2, h1⟩
    dsimp only at this
    rw [this]

theorem crs_edge (w z : EndId) : G.crs w z = cross2 (G.edge w) (G.edge z) := rfl

theorem ccw_turns {w z y : EndId} (h : G.Ccw w z y) : TurnsThrough (G.edge w) (G.edge z) (G.edge y) := h

theorem edge_left {z : EndId} (hz : z.1 ∈ G.S) : LeftOf (G.edge z).1 (G.edge z).2 ↔ z.2 = .left := by
  obtain ⟨i, e⟩ := z
  have := G.wf i hz
  cases e
  · exact ⟨fun _ => rfl, fun _ => this⟩
  · refine ⟨fun h => ?_, fun h => by cases h⟩
    rcases h with h | h <;> rcases this with k | k <;> simp only [edge, pt, opp, SegmentEnd.other] at h <;> linarith [h, k]

end

section
variable {polys : List (Polygon ℝ × PolygonMode)} {hP : Planar polys}

theorem top_drawn {z : EndId} (hz : (ofPolys polys hP).Top z.1) : Drawn polys ((ofPolys polys hP).edge z) := by
  have h := drawn_toRight (nth_mem (Finset.mem_range.1 hz.1))
  obtain ⟨i, e⟩ := z
  cases e
  · exact h
  · exact Drawn.swap h

theorem drawn_top {d : Pt ℝ × Pt ℝ} (h : Drawn polys d) : ∃ z : EndId, (ofPolys polys hP).Top z.1 ∧ (ofPolys polys hP).edge z = d := by
  set G := ofPolys polys hP with hG
  have key : ∀ d, Drawn polys d → d ∈ allEdges polys → ∃ z : EndId, G.Top z.1 ∧ G.edge z = d := by
    intro d hd he
    unfold allEdges at he
    rw [List.mem_flatMap] at he
    obtain ⟨p, hp, he⟩ := he
    obtain ⟨k, hk⟩ := List.getElem?_of_mem hp
    have hm : (k, d) ∈ listed 0 polys := mem_listed.2 ⟨k, p, hk, by simp, he, hd.1⟩
    obtain ⟨n, hn⟩ := List.getElem?_of_mem hm
    have hlt := (List.getElem?_eq_some_iff.1 hn).1
    have hnth : nth polys n = (k, d) := by rw [nth_get hlt] at hn; exact Option.some.inj hn
    obtain ⟨j, hj, hs, _⟩ := exists_top (G := G) (i := n) (Finset.mem_range.2 hlt)
    have e : (G.lp j, G.rp j) = toRight d := by
      rw [← hs.1, ← hs.2]
      show ((toRight (nth polys n).2).1, (toRight (nth polys n).2).2) = _
      rw [hnth]
    rcases toRight_or d with h | h
    · exact ⟨(j, .left), hj, by rw [← h, ← e]; rfl⟩
    · refine ⟨(j, .right), hj, ?_⟩
      have : G.edge (j, .right) = (G.lp j, G.rp j).swap := rfl
      rw [this, e, h, Prod.swap_swap]
  rcases h.2 with h' | h'
  · exact key d h h'
  · obtain ⟨z, hz, e⟩ := key _ (Drawn.swap h) h'
    exact ⟨opp z, hz, by rw [edge_opp, e, Prod.swap_swap]⟩

/-- The flags of the area beside an edge are unique. -/
theorem areaLeft_unique {d : Pt ℝ × Pt ℝ} {f g : List Bool} (hf : AreaLeft polys d f) (hg : AreaLeft polys d g) : f = g := by
  obtain ⟨l1, δ₁, p1, h1⟩ := hf
  obtain ⟨l2, δ₂, p2, h2⟩ := hg
  have hδ : 0 < Min.min δ₁ δ₂ / 2 := by have := lt_min p1 p2; linarith
  have m1 := min_le_left δ₁ δ₂
  have m2 := min_le_right δ₁ δ₂
  exact flags_ext l1 l2 (h1 _ hδ (by linarith)) (h2 _ hδ (by linarith))

/-- The endpoint of an edge, in the list of a polygon. -/
theorem exists_listed {k : ℕ} {p : Polygon ℝ × PolygonMode} {d : Pt ℝ × Pt ℝ} (hp : polys[k]? = some p) (hd : d ∈ p.1.edges ∨ d.swap ∈ p.1.edges) {z : EndId}
    (hz : (ofPolys polys hP).Top z.1) (e : (ofPolys polys hP).edge z = d) :
    ∃ n ∈ (ofPolys polys hP).S, (ofPolys polys hP).poly n = k ∧ (ofPolys polys hP).Same z.1 n := by
  set G := ofPolys polys hP with hG
  have hne : d.1 ≠ d.2 := by rw [← e]; exact (top_drawn (hP := hP) hz).1
  have key : ∀ d', d' ∈ p.1.edges → d'.1 ≠ d'.2 → (d' = d ∨ d' = d.swap) → ∃ n ∈ G.S, G.poly n = k ∧ G.Same z.1 n := by
    intro d' hd' hne' hor
    have hm : (k, d') ∈ listed 0 polys := mem_listed.2 ⟨k, p, hp, by simp, hd', hne'⟩
    obtain ⟨n, hn⟩ := List.getElem?_of_mem hm
    have hlt := (List.getElem?_eq_some_iff.1 hn).1
    have hnth : nth polys n = (k, d') := by rw [nth_get hlt] at hn; exact Option.some.inj hn
    have hS : n ∈ G.S := Finset.mem_range.2 hlt
    refine ⟨n, hS, by show (nth polys n).1 = k; rw [hnth], ?_⟩
    have e1 : (G.lp n, G.rp n) = toRight d' := by
      show ((toRight (nth polys n).2).1, (toRight (nth polys n).2).2) = _
      rw [hnth]
    have w1 := G.wf z.1 hz.1
    have w2 := G.wf n hS
    have asym : ∀ {a b : Pt ℝ}, LeftOf a b → LeftOf b a → False := by
      intro a b h h'
      rcases h with h | h <;> rcases h' with h' | h' <;> linarith [h, h']
    have two : (G.lp n, G.rp n) = d ∨ (G.lp n, G.rp n) = d.swap := by
      rw [e1]
      rcases toRight_or d' with h | h <;> rw [h] <;> rcases hor with h' | h' <;> rw [h'] <;> simp
    obtain ⟨i, s⟩ := z
    have h0 : d = (G.lp i, G.rp i) ∨ d = (G.rp i, G.lp i) := by
      rw [← e]
      cases s
      · exact Or.inl rfl
      · exact Or.inr rfl
    dsimp only at w1
    rcases h0 with h0 | h0 <;> rcases two with h1 | h1 <;> rw [h0] at h1 <;>
      simp only [Prod.swap_prod_mk, Prod.mk.injEq] at h1
    · exact ⟨h1.1.symm, h1.2.symm⟩
    · rw [h1.1, h1.2] at w2; exact (asym w1 w2).elim
    · rw [h1.1, h1.2] at w2; exact (asym w1 w2).elim
    · exact ⟨h1.1.symm, h1.2.symm⟩
  rcases hd with hd | hd
  · exact key d hd hne (Or.inl rfl)
  · exact key _ hd (Ne.symm hne) (Or.inr rfl)

/-- The polygon that a segment is from. -/
theorem poly_edge {i : ℕ} (hi : i ∈ (ofPolys polys hP).S) : ∃ p, polys[(ofPolys polys hP).poly i]? = some p ∧
    (((ofPolys polys hP).lp i, (ofPolys polys hP).rp i) ∈ p.1.edges ∨ ((ofPolys polys hP).lp i, (ofPolys polys hP).rp i).swap ∈ p.1.edges) := by
  obtain ⟨k, p, h1, h2, h3, _⟩ := mem_listed.1 (nth_mem (Finset.mem_range.1 hi))
  refine ⟨p, by show polys[(nth polys i).1]? = _; rw [h2, Nat.zero_add]; exact h1, ?_⟩
  show toRight (nth polys i).2 ∈ _ ∨ (toRight (nth polys i).2).swap ∈ _
  rcases toRight_or (nth polys i).2 with h | h <;> rw [h]
  · exact Or.inl h3
  · right; rw [Prod.swap_swap]; exact h3

theorem edge_or (G : Plan) (z : EndId) : G.edge z = (G.lp z.1, G.rp z.1) ∨ G.edge z = (G.lp z.1, G.rp z.1).swap := by
  obtain ⟨i, e⟩ := z
  cases e
  · exact Or.inl rfl
  · exact Or.inr rfl

theorem mem_kept {p : Polygon ℝ × PolygonMode} : p ∈ keptPolygons polys ↔ p ∈ polys ∧ p.2 ≠ .removeEdges := by
  unfold keptPolygons
  rw [List.mem_filter, decide_eq_true_iff]

theorem drawn_iff {d : Pt ℝ × Pt ℝ} : Drawn polys d ↔ d.1 ≠ d.2 ∧ ∃ p ∈ polys, d ∈ p.1.edges ∨ d.swap ∈ p.1.edges := by
  unfold Drawn allEdges
  rw [List.mem_flatMap, List.mem_flatMap]
  refine and_congr_right fun _ => ?_
  constructor
  · rintro (⟨p, h1, h2⟩ | ⟨p, h1, h2⟩)
    · exact ⟨p, h1, Or.inl h2⟩
    · exact ⟨p, h1, Or.inr h2⟩
  · rintro ⟨p, h1, h2 | h2⟩
    · exact Or.inl ⟨p, h1, h2⟩
    · exact Or.inr ⟨p, h1, h2⟩

theorem kept_drawn {d : Pt ℝ × Pt ℝ} (h : Drawn (keptPolygons polys) d) : Drawn polys d := by
  obtain ⟨h1, p, h2, h3⟩ := drawn_iff.1 h
  exact drawn_iff.2 ⟨h1, p, (mem_kept.1 h2).1, h3⟩

/-- Segments that are not left out are from kept polygons. -/
theorem kept_of_not_rem {i : ℕ} (hi : i ∈ (ofPolys polys hP).S) (hr : ¬ (ofPolys polys hP).rem ((ofPolys polys hP).poly i)) :
    Drawn (keptPolygons polys) ((ofPolys polys hP).lp i, (ofPolys polys hP).rp i) := by
  obtain ⟨p, h1, h2⟩ := poly_edge hi
  refine drawn_iff.2 ⟨(drawn_toRight (nth_mem (Finset.mem_range.1 hi))).1, p, mem_kept.2 ⟨List.mem_of_getElem? h1, fun e => hr ⟨p, h1, e⟩⟩, h2⟩

theorem removable_clear (hR : Removable polys) : (ofPolys polys hP).Clear := by
  intro i j hi hr hj hs
  by_contra hn
  obtain ⟨p, h1, h2⟩ := poly_edge hi.1
  obtain ⟨p', h1', h3⟩ := hr
  rw [h1] at h1'
  cases h1'
  have hd := kept_of_not_rem hj hn
  rw [← hs.1, ← hs.2] at hd
  obtain ⟨k', p', h4, h5, h6, h7⟩ := hR.hides _ p _ h1 h3 h2 hd
  obtain ⟨n, k1, k2, k3⟩ := exists_listed (hP := hP) h5 h7 (z := (i, .left)) hi rfl
  have := hi.2 n k1 k3
  omega

/-- Which edges are kept. -/
theorem drawn_kept (hC : (ofPolys polys hP).Clear) {z : EndId} (hz : (ofPolys polys hP).Top z.1) :
    Drawn (keptPolygons polys) ((ofPolys polys hP).edge z) ↔ ¬ (ofPolys polys hP).rem ((ofPolys polys hP).poly z.1) := by
  constructor
  · intro h hr
    obtain ⟨h1, p, h2, h3⟩ := drawn_iff.1 h
    obtain ⟨h2, h4⟩ := mem_kept.1 h2
    obtain ⟨k, hk⟩ := List.getElem?_of_mem h2
    obtain ⟨n, k1, k2, k3⟩ := exists_listed (hP := hP) hk h3 hz rfl
    obtain ⟨q, q1, q2⟩ := hC z.1 n hz hr k1 k3
    rw [k2, hk] at q1
    cases q1
    exact h4 q2
  · intro h
    have := kept_of_not_rem hz.1 h
    rcases edge_or (ofPolys polys hP) z with e | e <;> rw [e]
    · exact this
    · exact Drawn.swap this

theorem removable_blind (hR : Removable polys) : (ofPolys polys hP).Blind (Wanted (polys.map fun p => p.2)) := by
  intro i hi hr
  have a1 := areaLeft_flag (z := (i, .left)) hi
  have a2 := areaLeft_flag (z := opp (i, .left)) hi
  rw [wanted_iff (flag_length _), wanted_iff (flag_length _)]
  refine (hR.blind _ _ _ (top_drawn (z := (i, .left)) hi) ?_ a1 (by rw [← edge_opp]; exact a2)).symm
  rw [drawn_kept (removable_clear hR) (z := (i, .left)) hi]
  exact not_not.2 hr

/-- Nothing to be left out. -/
theorem kept_all (hm : ∀ p ∈ polys, p.2 ≠ .removeEdges) : keptPolygons polys = polys := by
  unfold keptPolygons
  rw [List.filter_eq_self]
  intro p hp
  rw [decide_eq_true_iff]
  exact hm p hp

theorem removable_of (hm : ∀ p ∈ polys, p.2 ≠ .removeEdges) : Removable polys := by
  refine ⟨fun k p d hp h => absurd h (hm p (List.mem_of_getElem? hp)), fun d f f' h1 h2 => ?_⟩
  rw [kept_all hm] at h2
  exact absurd h1 h2

/-! ### The outlines -/

/-- What the outlines are, in terms of the plan. -/
structure Led (polys : List (Polygon ℝ × PolygonMode)) (hP : Planar polys) (A : Arena ℝ) (ls : List EndId) : Prop where
  lead : Leaders (ofPolys polys hP) A (polys.map fun p => p.2) ls
  good : ∀ i ∈ (ofPolys polys hP).S, (ofPolys polys hP).Good (dat A i) i
  clear : (ofPolys polys hP).Clear
  blind : (ofPolys polys hP).Blind (Wanted (polys.map fun p => p.2))

/-- The corners of an outline. -/
noncomputable def outline (polys : List (Polygon ℝ × PolygonMode)) (hP : Planar polys) (x : EndId) : List (Pt ℝ) := ((ofPolys polys hP).keep.arc x).map (ofPolys polys hP).pt

variable {A : Arena ℝ} {ls : List EndId} {cs : List (Contour ℝ)}

theorem keep_top' (h : Led polys hP A ls) {i : ℕ} (hi : (ofPolys polys hP).keep.Top i) : (ofPolys polys hP).Top i := ((keep_top h.clear).1 hi).1

theorem Led.side (h : Led polys hP A ls) {z : EndId} (hz : (ofPolys polys hP).Top z.1) : sideFlags A z = (ofPolys polys hP).flag ((ofPolys polys hP).F z) := by
  obtain ⟨i, e⟩ := z
  cases e
  · exact (h.good i hz.1).left
  · exact (h.good i hz.1).right

theorem Led.area (h : Led polys hP A ls) {z : EndId} (hz : (ofPolys polys hP).Top z.1) : AreaLeft polys ((ofPolys polys hP).edge z) (sideFlags A z) := by
  rw [h.side hz]; exact areaLeft_flag hz

theorem Led.wanted (h : Led polys hP A ls) {z : EndId} (hz : (ofPolys polys hP).Top z.1) :
    Wanted (polys.map fun p => p.2) (sideFlags A z) ↔ FlagsOk polys (sideFlags A z) :=
  wanted_iff (h.area hz).1

theorem Led.start (h : Led polys hP A ls) {x : EndId} (hx : x ∈ ls) : (ofPolys polys hP).keep.Start x := ((h.lead.leaders x).1 hx).1

theorem Led.arc_top (h : Led polys hP A ls) {x y : EndId} (hx : x ∈ ls) (hy : y ∈ (ofPolys polys hP).keep.arc x) : (ofPolys polys hP).Top y.1 :=
  keep_top' h (Plan.arc_top (h.start hx).1 hy)

theorem Led.arc_wanted (h : Led polys hP A ls) {x y : EndId} (hx : (ofPolys polys hP).keep.Top x.1) (hy : y ∈ (ofPolys polys hP).keep.arc x) :
    Wanted (polys.map fun p => p.2) (sideFlags A y) ↔ Wanted (polys.map fun p => p.2) (sideFlags A x) := by
  rw [h.side (keep_top' h hx), h.side (keep_top' h (Plan.arc_top hx hy))]
  exact Plan.arc_wanted h.clear h.blind hx hy

theorem Led.closed (h : Led polys hP A ls) {x : EndId} (hx : x ∈ ls) : closedEdges (outline polys hP x) = ((ofPolys polys hP).keep.arc x).map (ofPolys polys hP).edge := by
  have := arc_edges (h.start hx).1
  unfold outline
  exact this

theorem Led.edges (h : Led polys hP A ls) : (ls.map (outline polys hP)).flatMap closedEdges = (ls.flatMap (ofPolys polys hP).keep.arc).map (ofPolys polys hP).edge := by
  rw [List.map_flatMap, List.flatMap_map, List.flatMap_def, List.flatMap_def]
  congr 1
  exact List.map_congr_left fun x hx => h.closed hx

theorem Led.nodup (h : Led polys hP A ls) : ((ls.map (outline polys hP)).flatMap closedEdges).Nodup := by
  rw [h.edges]
  refine List.Nodup.map_on ?_ ?_
  · intro y hy z hz e
    obtain ⟨x, hx, hy⟩ := List.mem_flatMap.1 hy
    obtain ⟨x', hx', hz⟩ := List.mem_flatMap.1 hz
    exact edge_inj (h.arc_top hx hy) (h.arc_top hx' hz) e
  · rw [List.nodup_flatMap]
    refine ⟨fun x hx => arc_nodup (h.start hx).1, ?_⟩
    refine h.lead.order.imp_of_mem ?_
    intro x y hx hy hlt z h1 h2
    rw [arc_unique (h.start hx) (h.start hy) h1 h2] at hlt
    exact lt_irrefl _ hlt

/-- The outlines, by their edges. -/
theorem Led.mem_edges (h : Led polys hP A ls) {z : EndId} (hz : (ofPolys polys hP).Top z.1) :
    (ofPolys polys hP).edge z ∈ (ls.map (outline polys hP)).flatMap closedEdges ↔
      ¬ (ofPolys polys hP).rem ((ofPolys polys hP).poly z.1) ∧ Wanted (polys.map fun p => p.2) (sideFlags A z) := by
  rw [h.edges, List.mem_map]
  constructor
  · rintro ⟨y, hy, e⟩
    obtain ⟨x, hx, hy⟩ := List.mem_flatMap.1 hy
    obtain ⟨h1, h2⟩ := (h.lead.leaders x).1 hx
    have hyt := Plan.arc_top h1.1 hy
    rw [← edge_inj (h.arc_top hx hy) hz e, h.arc_wanted h1.1 hy]
    exact ⟨((keep_top h.clear).1 hyt).2, h2⟩
  · rintro ⟨hr, hw⟩
    have hzk := (keep_top h.clear).2 ⟨hz, hr⟩
    obtain ⟨x, hx, hzx⟩ := exists_start hzk
    refine ⟨z, List.mem_flatMap.2 ⟨x, (h.lead.leaders x).2 ⟨hx, ?_⟩, hzx⟩, rfl⟩
    rw [← h.arc_wanted hx.1 hzx]
    exact hw

theorem Led.turns (h : Led polys hP A ls) {x : EndId} (hx : x ∈ ls) {j : ℕ} {d d' : Pt ℝ × Pt ℝ} (hd : (closedEdges (outline polys hP x))[j]? = some d)
    (hd' : (closedEdges (outline polys hP x))[j + 1]? = some d') :
    d'.1 = d.2 ∧ d' ≠ d.swap ∧ ∀ u, Drawn (keptPolygons polys) u → u.1 = d.2 → u ≠ d' → u ≠ d.swap → TurnsThrough u d' d.swap := by
  have hs := h.start hx
  rw [h.closed hx] at hd hd'
  set G := ofPolys polys hP with hG
  rw [List.getElem?_map] at hd hd'
  have hlen : j + 1 < G.keep.len x := by
    rcases hg : (G.keep.arc x)[j + 1]? with _ | z
    · rw [hg] at hd'; cases hd'
    · have := (List.getElem?_eq_some_iff.1 hg).1
      rwa [arc_length] at this
  rw [arc_get hs.1 (by omega)] at hd
  rw [arc_get hs.1 hlen, Function.iterate_succ_apply'] at hd'
  have hd := Option.some.inj hd
  have hd' := Option.some.inj hd'
  set z := G.keep.next^[j] x with hz
  have tz : G.keep.Top z.1 := iter_top hs.1 j
  have hsw : d.swap = G.keep.edge (opp z) := by rw [← hd]; exact (edge_opp (G := G.keep) z).symm
  have h2 : d.2 = G.keep.pt (opp z) := by rw [← hd]; rfl
  have hd' : G.keep.edge (G.keep.next z) = d' := hd'
  refine ⟨?_, ?_, ?_⟩
  · rw [h2, ← hd']; exact next_pt tz
  · rw [hsw, ← hd']
    intro e
    exact next_ne_opp tz (edge_inj (next_top tz) tz e)
  · intro u hu hu1 hne hne'
    obtain ⟨w, hw, rfl⟩ := drawn_top (hP := hP) (kept_drawn hu)
    have hwk : G.keep.Top w.1 := (keep_top h.clear).2 ⟨hw, (drawn_kept h.clear hw).1 hu⟩
    rw [hsw, ← hd']
    apply ccw_turns (G := G.keep) (w := w)
    have hc := next_spec tz
    refine cyc_ccw (G := G.keep) (p := G.keep.pt (opp z)) (mem_corner.2 ⟨hwk, by rw [← h2, ← hu1]; rfl⟩) hc.1 (opp_corner tz) hc.2 ?_ ?_
    · rintro rfl; exact hne hd'
    · rintro rfl; exact hne' hsw.symm

theorem Led.leftmost (h : Led polys hP A ls) {x : EndId} (hx : x ∈ ls) : ∃ v rest, outline polys hP x = v :: rest ∧ ∀ q ∈ rest, LeftOf v q := by
  have hs := h.start hx
  set G := ofPolys polys hP with hG
  obtain ⟨l, hl, _⟩ := arc_chain hs.1
  refine ⟨G.pt x, l.map G.pt, by unfold outline; rw [hl]; rfl, ?_⟩
  intro q hq
  obtain ⟨z, hz, rfl⟩ := List.mem_map.1 hq
  have hzm : z ∈ G.keep.arc x := by rw [hl]; exact List.mem_cons_of_mem _ hz
  have hne : z ≠ x := by
    rintro rfl
    have := arc_nodup hs.1
    rw [hl] at this
    exact (List.nodup_cons.1 this).1 hz
  exact (G.keep.leftOf_iff hs.1.1 (Plan.arc_top hs.1 hzm).1).2 (arc_time hs hzm hne)

theorem Led.sorted (h : Led polys hP A ls) : (ls.map (outline polys hP)).Pairwise fun ps ps' => ∃ d d', (closedEdges ps).head? = some d ∧
    (closedEdges ps').head? = some d' ∧ (LeftOf d.1 d'.1 ∨ d.1 = d'.1 ∧ 0 < cross2 d d') := by
  rw [List.pairwise_map]
  refine h.lead.order.imp_of_mem ?_
  intro x y hx hy hk
  have hs := h.start hx
  have hs' := h.start hy
  rw [h.closed hx, h.closed hy]
  set G := ofPolys polys hP with hG
  obtain ⟨l, hl, _⟩ := arc_chain hs.1
  obtain ⟨l', hl', _⟩ := arc_chain hs'.1
  refine ⟨G.edge x, G.edge y, by rw [hl]; rfl, by rw [hl']; rfl, ?_⟩
  have hxl := hs.left
  have hyl := hs'.left
  obtain ⟨a, e⟩ := x
  obtain ⟨b, e'⟩ := y
  dsimp only at hxl hyl
  subst hxl hyl
  by_cases hp : G.pt (a, .left) = G.pt (b, .left)
  · exact Or.inr ⟨hp, crs_of_key (keep_top' h hs.1) (keep_top' h hs'.1) hp hk⟩
  · rcases LeftOf.total hp with g | g
    · exact Or.inl g
    · exact absurd (key_lt_of_leftOf g) (not_lt.2 hk.le)

theorem Led.outlines (h : Led polys hP A ls) : KeptOutlines polys (ls.map (outline polys hP)) := by
  refine ⟨?_, ?_, h.nodup, ?_, ?_, h.sorted⟩
  · intro d f hd ha
    obtain ⟨z, hz, rfl⟩ := drawn_top (hP := hP) hd
    have := areaLeft_unique ha (h.area hz)
    rw [this, h.mem_edges hz, h.wanted hz, drawn_kept h.clear hz]
  · intro d hd
    rw [h.edges, List.mem_map] at hd
    obtain ⟨z, hz, rfl⟩ := hd
    obtain ⟨x, hx, hz⟩ := List.mem_flatMap.1 hz
    exact top_drawn (h.arc_top hx hz)
  · intro ps hps j d d' hd hd'
    obtain ⟨x, hx, rfl⟩ := List.mem_map.1 hps
    exact h.turns hx hd hd'
  · intro ps hps
    obtain ⟨x, hx, rfl⟩ := List.mem_map.1 hps
    exact h.leftmost hx

/-- What the result is, in terms of the plan. -/
structure Done (polys : List (Polygon ℝ × PolygonMode)) (hP : Planar polys) (A : Arena ℝ) (ls : List EndId) (cs : List (Contour ℝ)) : Prop extends Led polys hP A ls where
  res : PlanResult (ofPolys polys hP) A (polys.map fun p => p.2) ls cs

theorem Done.get (h : Done polys hP A ls cs) {j : ℕ} {c : Contour ℝ} (hc : cs[j]? = some c) : ∃ x, ls[j]? = some x ∧ x ∈ ls ∧ c.points = outline polys hP x := by
  have hlt := (List.getElem?_eq_some_iff.1 hc).1
  obtain ⟨x, hx⟩ : ∃ x, ls[j]? = some x := ⟨_, List.getElem?_eq_getElem (by rw [← h.res.len]; exact hlt)⟩
  exact ⟨x, hx, List.mem_of_getElem? hx, h.res.points j c x hc hx⟩

theorem Done.points (h : Done polys hP A ls cs) : cs.map (fun c => c.points) = ls.map (outline polys hP) := by
  apply List.ext_getElem?
  intro j
  rw [List.getElem?_map, List.getElem?_map]
  rcases hc : cs[j]? with _ | c
  · have : ls[j]? = none := by
      rw [List.getElem?_eq_none_iff] at hc ⊢
      rw [← h.res.len]; exact hc
    rw [this]; rfl
  · obtain ⟨x, hx, _, e⟩ := h.get hc
    rw [hx]
    show some c.points = _
    rw [e]; rfl

end

end Plan

end Idc
