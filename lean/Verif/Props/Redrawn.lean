import Verif.Props.Result
/-!
# C86: other drawings of the same polygons
-/

namespace Idc

variable {lib lib' : Lib} {polys polys' : List (Polygon ℝ × PolygonMode)}

/-! ### Polygons with the same edges -/

/-- The edges are the same, up to order and direction. -/
def SameEdges (p p' : Polygon ℝ) : Prop := ∃ l, l.Perm p.edges ∧ List.Forall₂ (fun e e' => e' = e ∨ e' = e.swap) l p'.edges

theorem SameEdges.refl (p : Polygon ℝ) : SameEdges p p := ⟨p.edges, List.Perm.refl _, List.forall₂_same.2 fun _ _ => Or.inl rfl⟩

theorem SameEdges.mem {p p' : Polygon ℝ} (h : SameEdges p p') (d : Pt ℝ × Pt ℝ) : (d ∈ p'.edges ∨ d.swap ∈ p'.edges) ↔ (d ∈ p.edges ∨ d.swap ∈ p.edges) := by
  obtain ⟨l, h1, h2⟩ := h
  rw [← h1.mem_iff, ← h1.mem_iff]
  generalize p'.edges = l' at h2
  clear h1
  induction h2 with
  | nil => rfl
  | @cons e e' l l' h _ ih =>
    simp only [List.mem_cons]
    have hs : d.swap = e.swap ↔ d = e := Prod.swap_injective.eq_iff
    have hs' : d.swap = e ↔ d = e.swap := ⟨fun h => by rw [← h, Prod.swap_swap], fun h => by rw [h, Prod.swap_swap]⟩
    rcases h with rfl | rfl
    · tauto
    · rw [hs, hs']
      tauto

theorem SameEdges.evenOdd {p p' : Polygon ℝ} (h : SameEdges p p') (v : Pt ℝ) : p'.evenOdd v ↔ p.evenOdd v := by
  classical
  obtain ⟨l, h1, h2⟩ := h
  unfold Polygon.evenOdd
  rw [← h1.countP_eq]
  have : p'.edges.countP (fun e => decide (CrossesBelow v e)) = l.countP (fun e => decide (CrossesBelow v e)) := by
    generalize p'.edges = l' at h2
    clear h1
    induction h2 with
    | nil => rfl
    | @cons e e' l l' h _ ih =>
      rw [List.countP_cons, List.countP_cons, ih]
      rcases h with rfl | rfl
      · rfl
      · simp only [decide_eq_true_eq, crosses_swap v (e := e), Prod.swap]
  rw [this]

theorem SameEdges.symm {p p' : Polygon ℝ} (h : SameEdges p p') : SameEdges p' p := by
  obtain ⟨l, h1, h2⟩ := h
  have h3 : List.Forall₂ (fun e e' => e' = e ∨ e' = e.swap) p'.edges l := by
    refine List.Forall₂.flip (h2.imp ?_)
    rintro a b (rfl | rfl)
    · exact Or.inl rfl
    · exact Or.inr (by simp)
  obtain ⟨l', h4, h5⟩ := List.perm_comp_forall₂ h1.symm (List.Forall₂.flip h3)
  exact ⟨l', h5, List.Forall₂.flip h4⟩

/-- The polygons of `polys'` are the polygons of `polys`, in another order, with the same edges. -/
structure EdgesAlike (σ : ℕ → ℕ) (polys polys' : List (Polygon ℝ × PolygonMode)) : Prop where
  len : polys'.length = polys.length
  lt : ∀ m, m < polys.length → σ m < polys.length
  onto : ∀ k, k < polys.length → ∃ m, m < polys.length ∧ σ m = k
  same : ∀ (m : ℕ) p p', polys[σ m]? = some p → polys'[m]? = some p' → p'.2 = p.2 ∧ SameEdges p.1 p'.1

/-- The flags in the other order. -/
def reflag (σ : ℕ → ℕ) (n : ℕ) (f : List Bool) : List Bool := (List.range n).map fun m => f.getD (σ m) false

theorem reflag_length (σ : ℕ → ℕ) (n : ℕ) (f : List Bool) : (reflag σ n f).length = n := by simp [reflag]

theorem reflag_true {σ : ℕ → ℕ} {n : ℕ} {f : List Bool} {m : ℕ} (hm : m < n) : (reflag σ n f)[m]? = some true ↔ f[σ m]? = some true := by
  unfold reflag
  rw [List.getElem?_map, List.getElem?_range hm, Option.map_some, Option.some.injEq, List.getD_eq_getElem?_getD]
  rcases f[σ m]? with _ | b <;> simp

namespace EdgesAlike

variable {σ : ℕ → ℕ}

theorem fst (h : EdgesAlike σ polys polys') {m : ℕ} {p' : Polygon ℝ × PolygonMode} (hp : polys'[m]? = some p') :
    ∃ p, polys[σ m]? = some p ∧ p'.2 = p.2 ∧ SameEdges p.1 p'.1 := by
  have hm := (List.getElem?_eq_some_iff.1 hp).1
  rw [h.len] at hm
  exact ⟨_, List.getElem?_eq_getElem (h.lt m hm), h.same m _ p' (List.getElem?_eq_getElem (h.lt m hm)) hp⟩

theorem snd (h : EdgesAlike σ polys polys') {k : ℕ} {p : Polygon ℝ × PolygonMode} (hp : polys[k]? = some p) :
    ∃ m p', σ m = k ∧ polys'[m]? = some p' ∧ p'.2 = p.2 ∧ SameEdges p.1 p'.1 := by
  have hk := (List.getElem?_eq_some_iff.1 hp).1
  obtain ⟨m, hm, rfl⟩ := h.onto k hk
  exact ⟨m, _, rfl, List.getElem?_eq_getElem (h.len ▸ hm), h.same m p _ hp (List.getElem?_eq_getElem (h.len ▸ hm))⟩

theorem symm (h : EdgesAlike σ polys polys') : ∃ τ, EdgesAlike τ polys' polys := by
  have hinj : Set.InjOn σ (Finset.range polys.length : Set ℕ) := by
    refine Finset.injOn_of_surjOn_of_card_le (t := Finset.range polys.length) σ (fun m hm => ?_) (fun k hk => ?_) le_rfl
    · simpa using h.lt m (by simpa using hm)
    · obtain ⟨m, hm, e⟩ := h.onto k (by simpa using hk)
      exact ⟨m, by simpa using hm, e⟩
  choose! τ h1 h2 using h.onto
  refine ⟨τ, h.len.symm, fun k hk => ?_, fun m hm => ?_, fun k p' p hp' hp => ?_⟩
  · rw [h.len] at hk ⊢; exact h1 k hk
  · rw [h.len] at hm ⊢
    exact ⟨σ m, h.lt m hm, hinj (by simpa using h1 _ (h.lt m hm)) (by simpa using hm) (h2 _ (h.lt m hm))⟩
  · have hk := (List.getElem?_eq_some_iff.1 hp).1
    obtain ⟨e1, e2⟩ := h.same (τ k) p p' (by rw [h2 k hk]; exact hp) hp'
    exact ⟨e1.symm, e2.symm⟩

theorem drawn (h : EdgesAlike σ polys polys') (d : Pt ℝ × Pt ℝ) : Drawn polys' d ↔ Drawn polys d := by
  rw [Plan.drawn_iff, Plan.drawn_iff]
  refine and_congr_right fun _ => ⟨?_, ?_⟩
  · rintro ⟨p', hp', hd⟩
    obtain ⟨m, hm⟩ := List.mem_iff_getElem?.1 hp'
    obtain ⟨p, hp, _, hs⟩ := h.fst hm
    exact ⟨p, List.mem_of_getElem? hp, (hs.mem d).1 hd⟩
  · rintro ⟨p, hp, hd⟩
    obtain ⟨k, hk⟩ := List.mem_iff_getElem?.1 hp
    obtain ⟨m, p', _, hp', _, hs⟩ := h.snd hk
    exact ⟨p', List.mem_of_getElem? hp', (hs.mem d).2 hd⟩

theorem kept (h : EdgesAlike σ polys polys') (d : Pt ℝ × Pt ℝ) : Drawn (keptPolygons polys') d ↔ Drawn (keptPolygons polys) d := by
  rw [Plan.drawn_iff, Plan.drawn_iff]
  refine and_congr_right fun _ => ⟨?_, ?_⟩
  · rintro ⟨p', hp', hd⟩
    rw [Plan.mem_kept] at hp'
    obtain ⟨m, hm⟩ := List.mem_iff_getElem?.1 hp'.1
    obtain ⟨p, hp, he, hs⟩ := h.fst hm
    exact ⟨p, Plan.mem_kept.2 ⟨List.mem_of_getElem? hp, he ▸ hp'.2⟩, (hs.mem d).1 hd⟩
  · rintro ⟨p, hp, hd⟩
    rw [Plan.mem_kept] at hp
    obtain ⟨k, hk⟩ := List.mem_iff_getElem?.1 hp.1
    obtain ⟨m, p', _, hp', he, hs⟩ := h.snd hk
    exact ⟨p', Plan.mem_kept.2 ⟨List.mem_of_getElem? hp', he ▸ hp.2⟩, (hs.mem d).2 hd⟩

theorem area (h : EdgesAlike σ polys polys') {d : Pt ℝ × Pt ℝ} {f : List Bool} (hf : AreaLeft polys d f) : AreaLeft polys' d (reflag σ polys.length f) := by
  obtain ⟨_, δ₀, h0, hf⟩ := hf
  refine ⟨by rw [reflag_length, h.len], δ₀, h0, fun δ h1 h2 j p' hp' => ?_⟩
  have hj := (List.getElem?_eq_some_iff.1 hp').1
  rw [h.len] at hj
  obtain ⟨p, hp, _, hs⟩ := h.fst hp'
  rw [reflag_true hj, hf δ h1 h2 _ p hp, hs.evenOdd]

theorem ok (h : EdgesAlike σ polys polys') {f : List Bool} (hl : f.length = polys.length) : FlagsOk polys' (reflag σ polys.length f) ↔ FlagsOk polys f := by
  unfold FlagsOk
  rw [reflag_length]
  refine and_congr (by rw [hl, h.len]) (and_congr ⟨?_, ?_⟩ ⟨?_, ?_⟩)
  · intro ht
    obtain ⟨m, hm⟩ := List.mem_iff_getElem?.1 ht
    have hml := (List.getElem?_eq_some_iff.1 hm).1
    rw [reflag_length] at hml
    exact List.mem_of_getElem? ((reflag_true hml).1 hm)
  · intro ht
    obtain ⟨k, hk⟩ := List.mem_iff_getElem?.1 ht
    have hkl := (List.getElem?_eq_some_iff.1 hk).1
    obtain ⟨m, hm, rfl⟩ := h.onto k (by omega)
    exact List.mem_of_getElem? ((reflag_true hm).2 hk)
  · intro hh k poly mode hk hfk
    obtain ⟨m, p', rfl, hp', he, _⟩ := h.snd hk
    have hm := (List.getElem?_eq_some_iff.1 hp').1
    rw [h.len] at hm
    have := hh m p'.1 p'.2 hp' ((reflag_true hm).2 hfk)
    rwa [he] at this
  · intro hh m poly mode hm hfm
    have hml := (List.getElem?_eq_some_iff.1 hm).1
    rw [h.len] at hml
    obtain ⟨p, hp, he, _⟩ := h.fst hm
    have := hh (σ m) p.1 p.2 hp ((reflag_true hml).1 hfm)
    rwa [← he] at this

theorem firstBelow {v : Pt ℝ} {e : Pt ℝ × Pt ℝ} : FirstBelow (allEdges polys) v e ↔
    CrossesBelow v e ∧ ∀ e', Drawn polys e' → CrossesBelow v e' → ∀ x, Over e x → Over e' x → heightAt e' x ≤ heightAt e x := by
  refine and_congr_right fun _ => ⟨?_, ?_⟩
  · intro h e' he' hc x h1 h2
    rcases he'.2 with hm | hm
    · exact h e' hm hc x h1 h2
    · have hx : e'.1.x ≠ e'.2.x := by
        intro hx
        have h3 := hc.1
        have h4 := hc.2.1
        rw [hx, min_self] at h3
        rw [hx, max_self] at h4
        linarith
      have := h e'.swap hm ((crosses_swap v (e := e')).2 hc) x h1 ((over_swap e' x).2 h2)
      rwa [show e'.swap = (e'.2, e'.1) from rfl, heightAt_swap hx] at this
  · intro h e' he' hc
    refine h e' ⟨fun hx => ?_, Or.inl he'⟩ hc
    have h3 := hc.1
    have h4 := hc.2.1
    rw [hx, min_self] at h3
    rw [hx, max_self] at h4
    linarith

theorem next (h : EdgesAlike σ polys polys') {e d : Pt ℝ × Pt ℝ} : NextBelow polys' e d ↔ NextBelow polys e d := by
  constructor
  · rintro ⟨h1, h2, h3⟩
    refine ⟨(h.drawn d).1 h1, h2, ?_⟩
    simpa only [firstBelow, h.drawn] using h3
  · rintro ⟨h1, h2, h3⟩
    refine ⟨(h.drawn d).2 h1, h2, ?_⟩
    simpa only [firstBelow, h.drawn] using h3

theorem orphan (h : EdgesAlike σ polys polys') {ps : List (Pt ℝ)} : Orphan polys' ps ↔ Orphan polys ps := by
  unfold Orphan
  simp only [h.next, h.kept]

theorem exists_area (hP : Planar polys) {d : Pt ℝ × Pt ℝ} (hd : Drawn polys d) : ∃ f, AreaLeft polys d f := by
  obtain ⟨z, hz, rfl⟩ := Plan.drawn_top (hP := hP) hd
  exact ⟨_, Plan.areaLeft_flag hz⟩

theorem area_back (h : EdgesAlike σ polys polys') (hP : Planar polys) {d : Pt ℝ × Pt ℝ} (hd : Drawn polys d) {f' : List Bool} (hf' : AreaLeft polys' d f') :
    ∃ f, AreaLeft polys d f ∧ f' = reflag σ polys.length f := by
  obtain ⟨f, hf⟩ := exists_area hP hd
  exact ⟨f, hf, Plan.areaLeft_unique hf' (h.area hf)⟩

theorem outlines (h : EdgesAlike σ polys polys') (hP : Planar polys) {o : List (List (Pt ℝ))} (ho : KeptOutlines polys o) : KeptOutlines polys' o := by
  refine ⟨fun d f' hd hf' => ?_, fun d hd => (h.drawn d).2 (ho.drawn d hd), ho.once, ?_, ho.start, ho.order⟩
  · rw [h.drawn] at hd
    obtain ⟨f, hf, rfl⟩ := h.area_back hP hd hf'
    rw [h.kept, h.ok hf.1]
    exact ho.edges d f hd hf
  · simpa only [h.kept] using ho.turns

/-- The result with the flags in the other order. -/
def relab (σ : ℕ → ℕ) (n : ℕ) (r : Polygon ℝ) : Polygon ℝ := ⟨r.contours.map fun c => { c with from_polygons := reflag σ n c.from_polygons }⟩

theorem result (h : EdgesAlike σ polys polys') (hP : Planar polys) {r : Polygon ℝ} (hr : IsResult polys r) : IsResult polys' (relab σ polys.length r) := by
  have hback : ∀ (j : ℕ) c', (relab σ polys.length r).contours[j]? = some c' → ∃ c, r.contours[j]? = some c ∧ c' = { c with from_polygons := reflag σ polys.length c.from_polygons } := by
    intro j c' hc'
    unfold relab at hc'
    rw [List.getElem?_map, Option.map_eq_some_iff] at hc'
    obtain ⟨c, hc, rfl⟩ := hc'
    exact ⟨c, hc, rfl⟩
  have hmem : ∀ c' ∈ (relab σ polys.length r).contours, ∃ c ∈ r.contours, c' = { c with from_polygons := reflag σ polys.length c.from_polygons } := by
    intro c' hc'
    obtain ⟨j, hj⟩ := List.mem_iff_getElem?.1 hc'
    obtain ⟨c, hc, e⟩ := hback j c' hj
    exact ⟨c, List.mem_of_getElem? hc, e⟩
  have hlen : (relab σ polys.length r).contours.length = r.contours.length := by simp [relab]
  constructor
  · have : (relab σ polys.length r).contours.map (fun c => c.points) = r.contours.map fun c => c.points := by
      unfold relab
      rw [List.map_map]
      rfl
    rw [this]
    exact h.outlines hP hr.outlines
  · intro c' hc'
    obtain ⟨c, hc, rfl⟩ := hmem c' hc'
    rw [h.orphan]
    exact hr.parents c hc
  · intro c' hc'
    obtain ⟨c, hc, rfl⟩ := hmem c' hc'
    refine ⟨by dsimp only; rw [reflag_length, h.len], fun m => ?_⟩
    dsimp only
    have hed : ∀ d ∈ closedEdges c.points, Drawn polys d := fun d hd => hr.outlines.drawn d
      (List.mem_flatMap.2 ⟨c.points, List.mem_map_of_mem (f := fun c : Contour ℝ => c.points) hc, hd⟩)
    by_cases hm : m < polys.length
    · rw [reflag_true hm, (hr.labels c hc).2]
      constructor
      · rintro ⟨d, hd, f, hf, hfm⟩
        exact ⟨d, hd, _, h.area hf, (reflag_true hm).2 hfm⟩
      · rintro ⟨d, hd, f', hf', hfm⟩
        obtain ⟨f, hf, rfl⟩ := h.area_back hP (hed d hd) hf'
        exact ⟨d, hd, f, hf, (reflag_true hm).1 hfm⟩
    · rw [List.getElem?_eq_none (by rw [reflag_length]; omega)]
      refine ⟨fun h => (nomatch h), ?_⟩
      rintro ⟨d, hd, f', hf', hfm⟩
      have := (List.getElem?_eq_some_iff.1 hfm).1
      rw [hf'.1, h.len] at this
      exact absurd this hm
  · intro c' hc'
    obtain ⟨c, hc, rfl⟩ := hmem c' hc'
    rw [hlen]
    refine ⟨(hr.neighbors c hc).1, fun j d' hd' => ?_⟩
    obtain ⟨d, hd, rfl⟩ := hback j d' hd'
    exact (hr.neighbors c hc).2 j d hd
  · intro c' hc'
    obtain ⟨c, hc, rfl⟩ := hmem c' hc'
    exact hr.external c hc
  · intro c' hc'
    obtain ⟨c, hc, rfl⟩ := hmem c' hc'
    exact hr.clockwise c hc
  · intro c' hc'
    obtain ⟨c, hc, rfl⟩ := hmem c' hc'
    exact hr.sorted c hc
  · intro c' hc' j
    obtain ⟨c, hc, rfl⟩ := hmem c' hc'
    dsimp only
    rw [hr.holes c hc j]
    simp only [h.next]
    constructor
    · rintro ⟨d, hd, k⟩
      exact ⟨{ d with from_polygons := reflag σ polys.length d.from_polygons }, by unfold relab; rw [List.getElem?_map, hd]; rfl, k⟩
    · rintro ⟨d', hd', k⟩
      obtain ⟨d, hd, rfl⟩ := hback j d' hd'
      exact ⟨d, hd, k⟩

/-- The runs are the same, but for the order of the flags. -/
theorem runs (h : EdgesAlike σ polys polys') (hl : lib.Lawful) (hl' : lib'.Lawful) (hP : Planar polys) (hP' : Planar polys') (hR : Removable polys) (hR' : Removable polys')
    (op op' : BooleanOpType) {fuel fuel' : ℕ} (hf : 2 * (allCorners polys).length < fuel) (hf' : 2 * (allCorners polys').length < fuel') :
    compute lib' fuel' polys' op' = (compute lib fuel polys op).bind fun r => .ok (relab σ polys.length r) := by
  obtain ⟨h1, h2⟩ := C86_exact hl hP hR op hf
  obtain ⟨h1', h2'⟩ := C86_exact hl' hP' hR' op' hf'
  by_cases hex : ∃ r, IsResult polys r
  · obtain ⟨r, hr⟩ := hex
    rw [(h1 r).2 hr]
    exact (h1' _).2 (h.result hP hr)
  · rw [h2 hex, h2' fun ⟨r', hr'⟩ => by
      obtain ⟨τ, h'⟩ := h.symm
      exact hex ⟨_, h'.result hP' hr'⟩]
    rfl

end EdgesAlike

/-! ### Other ways to draw the outlines -/

theorem closedEdges_rotate (ps : List (Pt ℝ)) (k : ℕ) : closedEdges (ps.rotate k) = (closedEdges ps).rotate k := by
  unfold closedEdges
  rw [List.zip_eq_zipWith, List.zip_eq_zipWith, List.zipWith_rotate_distrib _ _ _ _ (by simp), List.rotate_rotate, List.rotate_rotate, Nat.add_comm]

theorem closedEdges_reverse (ps : List (Pt ℝ)) : (closedEdges ps.reverse).Perm ((closedEdges ps).map Prod.swap) := by
  rcases Nat.eq_zero_or_pos ps.length with h0 | h0
  · rw [List.length_eq_zero_iff.1 h0]
    exact List.Perm.refl _
  have h1 : closedEdges ps.reverse = (ps.zip (ps.rotate (ps.length - 1))).reverse := by
    unfold closedEdges
    rw [List.zip_eq_zipWith, List.zip_eq_zipWith, List.reverse_zipWith (by simp), List.rotate_reverse]
    rcases Nat.eq_or_lt_of_le h0 with h | h
    · obtain ⟨p, rfl⟩ := List.length_eq_one_iff.1 h.symm
      simp
    · rw [Nat.mod_eq_of_lt h]
  have h2 : (ps.zip (ps.rotate (ps.length - 1))).rotate 1 = (closedEdges ps).map Prod.swap := by
    unfold closedEdges
    rw [List.zip_eq_zipWith, List.zipWith_rotate_distrib _ _ _ _ (by simp), List.rotate_rotate, Nat.sub_add_cancel h0, List.rotate_length, ← List.zip_eq_zipWith,
      ← List.zip_swap]
  rw [h1, ← h2]
  exact (List.reverse_perm _).trans (List.rotate_perm _ _).symm

theorem retraced_edges {ps ps' : List (Pt ℝ)} (h : Retraced ps ps') : ∃ l, l.Perm (closedEdges ps) ∧ List.Forall₂ (fun e e' => e' = e ∨ e' = e.swap) l (closedEdges ps') := by
  rcases h with ⟨k, h⟩ | ⟨k, h⟩
  · refine ⟨closedEdges ps', ?_, List.forall₂_same.2 fun _ _ => Or.inl rfl⟩
    rw [← h, closedEdges_rotate]
    exact (List.rotate_perm _ _).symm
  · refine ⟨(closedEdges ps').map Prod.swap, ?_, ?_⟩
    · have h1 : (closedEdges ps').Perm ((closedEdges ps).map Prod.swap) := by
        refine List.Perm.trans ?_ (closedEdges_reverse ps)
        rw [← h, closedEdges_rotate]
        exact (List.rotate_perm _ _).symm
      have := h1.map Prod.swap
      rwa [List.map_map, Prod.swap_swap_eq, List.map_id] at this
    · rw [List.forall₂_map_left_iff]
      exact List.forall₂_same.2 fun e _ => Or.inr (by simp)

theorem retraced_points {ps ps' : List (Pt ℝ)} (h : Retraced ps ps') : ps'.Perm ps := by
  rcases h with h | h
  · exact h.perm
  · exact h.perm.trans (List.reverse_perm _)

theorem flatMap_forall₂ {α β γ δ : Type} {R : α → β → Prop} {S : γ → δ → Prop} {f : α → List γ} {g : β → List δ}
    (h : ∀ a b, R a b → ∃ l, l.Perm (f a) ∧ List.Forall₂ S l (g b)) : ∀ {as : List α} {bs : List β}, List.Forall₂ R as bs →
    ∃ l, l.Perm (as.flatMap f) ∧ List.Forall₂ S l (bs.flatMap g)
  | [], [], .nil => ⟨[], List.Perm.refl _, .nil⟩
  | a :: as, b :: bs, .cons h1 h2 => by
    obtain ⟨l1, p1, q1⟩ := h a b h1
    obtain ⟨l2, p2, q2⟩ := flatMap_forall₂ h h2
    exact ⟨l1 ++ l2, by rw [List.flatMap_cons]; exact p1.append p2, by rw [List.flatMap_cons]; exact List.rel_append q1 q2⟩

theorem redrawn_edges {p p' : Polygon ℝ} (h : ∃ cs, cs.Perm p.contours ∧ List.Forall₂ (fun c c' : Contour ℝ => Retraced c.points c'.points) cs p'.contours) : SameEdges p p' := by
  obtain ⟨cs, h1, h2⟩ := h
  obtain ⟨l, h3, h4⟩ := flatMap_forall₂ (f := fun c : Contour ℝ => closedEdges c.points) (g := fun c : Contour ℝ => closedEdges c.points) (fun a b h => retraced_edges h) h2
  exact ⟨l, h3.trans (h1.flatMap_right _), h4⟩

theorem redrawn_points {p p' : Polygon ℝ} (h : ∃ cs, cs.Perm p.contours ∧ List.Forall₂ (fun c c' : Contour ℝ => Retraced c.points c'.points) cs p'.contours) :
    (p'.contours.flatMap fun c => c.points).Perm (p.contours.flatMap fun c => c.points) := by
  obtain ⟨cs, h1, h2⟩ := h
  refine List.Perm.trans ?_ (h1.flatMap_right _)
  clear h1
  generalize p'.contours = l at h2
  induction h2 with
  | nil => rfl
  | cons h _ ih =>
    rw [List.flatMap_cons, List.flatMap_cons]
    exact (retraced_points h).append ih

theorem SameEdges.once {p p' : Polygon ℝ} (h : SameEdges p p') (hp : p.edges.Pairwise fun e e' => e.1 ≠ e.2 → e' ≠ e ∧ e' ≠ e.swap) :
    p'.edges.Pairwise fun e e' => e.1 ≠ e.2 → e' ≠ e ∧ e' ≠ e.swap := by
  obtain ⟨l, h1, h2⟩ := h
  have h3 : l.Pairwise fun e e' => e.1 ≠ e.2 → e' ≠ e ∧ e' ≠ e.swap := by
    refine (h1.symm.pairwise_iff ?_).1 hp
    intro a b hab hb
    by_cases ha : a.1 = a.2
    · constructor
      · rintro rfl; exact hb ha
      · rintro rfl; exact hb ha.symm
    · obtain ⟨h1, h2⟩ := hab ha
      exact ⟨h1.symm, fun e => h2 (by rw [e, Prod.swap_swap])⟩
  clear hp h1
  generalize p'.edges = l' at h2
  induction h2 with
  | nil => exact List.Pairwise.nil
  | @cons e e' l l' h hl ih =>
    rw [List.pairwise_cons] at h3 ⊢
    refine ⟨fun d' hd' => ?_, ih h3.2⟩
    obtain ⟨d, hd, hdd⟩ : ∃ d ∈ l, d' = d ∨ d' = d.swap := forall₂_right hl hd'
    have := h3.1 d hd
    rcases h with rfl | rfl <;> rcases hdd with rfl | rfl
    · exact this
    · intro hn
      have := this hn
      exact ⟨fun e => this.2 (by rw [← e, Prod.swap_swap]), fun e => this.1 (Prod.swap_injective e)⟩
    · intro hn
      have := this (Ne.symm hn)
      exact ⟨this.2, by rw [Prod.swap_swap]; exact this.1⟩
    · intro hn
      have := this (Ne.symm hn)
      exact ⟨fun e => this.1 (Prod.swap_injective e), fun e => this.2 (by rw [Prod.swap_swap] at e; rw [← e, Prod.swap_swap])⟩

theorem Redrawn.alike (h : Redrawn polys polys') : EdgesAlike id polys polys' := by
  refine ⟨h.length_eq.symm, fun m hm => hm, fun k hk => ⟨k, hk, rfl⟩, fun m p p' hp hp' => ?_⟩
  rw [id] at hp
  have h2 := List.Forall₂.get h (i := m) (List.getElem?_eq_some_iff.1 hp).1 (List.getElem?_eq_some_iff.1 hp').1
  rw [List.get_eq_getElem, List.get_eq_getElem] at h2
  dsimp only at h2
  rw [(List.getElem?_eq_some_iff.1 hp).2, (List.getElem?_eq_some_iff.1 hp').2] at h2
  exact ⟨h2.1, redrawn_edges h2.2⟩

theorem Redrawn.corners (h : Redrawn polys polys') : (allCorners polys').Perm (allCorners polys) := by
  unfold allCorners
  induction h with
  | nil => rfl
  | cons h _ ih =>
    rw [List.flatMap_cons, List.flatMap_cons]
    exact (redrawn_points h.2).append ih

theorem EdgesAlike.planar {σ : ℕ → ℕ} (h : EdgesAlike σ polys polys') (hP : Planar polys) (hc : ∀ q ∈ allCorners polys', q ∈ allCorners polys) : Planar polys' := by
  refine ⟨hP.separate.mono hc fun e he => (h.drawn e).1 he, fun p' hp' => ?_, ?_, ?_, ?_⟩
  · obtain ⟨m, hm⟩ := List.mem_iff_getElem?.1 hp'
    obtain ⟨p, hp, _, hs⟩ := h.fst hm
    exact hs.once (hP.once p (List.mem_of_getElem? hp))
  · simpa only [h.drawn] using hP.apart
  · simpa only [h.drawn] using hP.angles
  · simpa only [h.drawn] using hP.distances

theorem Redrawn.removable (h : Redrawn polys polys') (hP : Planar polys) (hR : Removable polys) : Removable polys' := by
  have hA := h.alike
  constructor
  · intro k p' d hp' hm hd hk
    obtain ⟨p, hp, he, hs⟩ := hA.fst hp'
    obtain ⟨k2, p2, h1, h2, h3, h4⟩ := hR.hides k p d hp (he ▸ hm) ((hs.mem d).1 hd) ((hA.kept d).1 hk)
    obtain ⟨m, p2', e, h5, h6, h7⟩ := hA.snd h2
    cases e
    exact ⟨_, p2', h1, h5, h6 ▸ h3, (h7.mem d).2 h4⟩
  · intro d f f' hd hk hf hf'
    rw [hA.drawn] at hd
    rw [hA.kept] at hk
    obtain ⟨g, hg, rfl⟩ := hA.area_back hP hd hf
    obtain ⟨g', hg', rfl⟩ := hA.area_back hP (Plan.Drawn.swap hd) hf'
    rw [hA.ok hg.1, hA.ok hg'.1]
    exact hR.blind d g g' hd hk hg hg'

theorem reflag_id {n : ℕ} {f : List Bool} (h : f.length = n) : reflag id n f = f :=
  flags_eq (by rw [reflag_length, h]) fun m => by
    by_cases hm : m < n
    · exact reflag_true hm
    · rw [List.getElem?_eq_none (by rw [reflag_length]; omega), List.getElem?_eq_none (by omega)]

/-- **C86.** The result does not depend on where the outlines begin, in which directions they go and in which order they are given; nor on the
operation asked for or on how the containers work. -/
theorem C86_redrawn (hl : lib.Lawful) (hl' : lib'.Lawful) (hP : Planar polys) (hR : Removable polys) (h : Redrawn polys polys') (op op' : BooleanOpType)
    {fuel fuel' : ℕ} (hf : 2 * (allCorners polys).length < fuel) (hf' : 2 * (allCorners polys).length < fuel') :
    compute lib' fuel' polys' op' = compute lib fuel polys op := by
  have hA := h.alike
  rw [hA.runs hl hl' hP (hA.planar hP fun q hq => h.corners.mem_iff.1 hq) hR (h.removable hP hR) op op' hf (by rw [h.corners.length_eq]; exact hf')]
  rcases hr : compute lib fuel polys op with r | _ | _ | _ <;> try rfl
  show Res.ok _ = Res.ok _
  congr 1
  unfold EdgesAlike.relab
  have := compute_isResult hl hP hR hf hr
  cases r
  congr 1
  refine (List.map_congr_left fun c hc => ?_).trans (List.map_id _)
  rw [reflag_id (this.labels c hc).1]
  rfl

/-- **C86.** The containers do not matter. -/
theorem C86_library (hl : lib.Lawful) (hl' : lib'.Lawful) (hP : Planar polys) (hR : Removable polys) (op op' : BooleanOpType)
    {fuel fuel' : ℕ} (hf : 2 * (allCorners polys).length < fuel) (hf' : 2 * (allCorners polys).length < fuel') :
    compute lib' fuel' polys op' = compute lib fuel polys op :=
  C86_redrawn hl hl' hP hR (List.forall₂_same.2 fun p _ => ⟨rfl, p.1.contours, List.Perm.refl _, List.forall₂_same.2 fun _ _ => Or.inl (List.IsRotated.refl _)⟩) op op' hf hf'

/-! ### The polygons in another order -/

theorem reorder_alike (σ : Equiv.Perm (Fin polys.length)) : EdgesAlike (fun m => if h : m < polys.length then (σ ⟨m, h⟩).1 else m) polys (reorder polys σ) := by
  refine ⟨by simp [reorder], fun m hm => by rw [dif_pos hm]; exact (σ _).2, fun k hk => ⟨(σ.symm ⟨k, hk⟩).1, (σ.symm _).2, ?_⟩, fun m p p' hp hp' => ?_⟩
  · rw [dif_pos (σ.symm _).2]
    simp
  · have hm := (List.getElem?_eq_some_iff.1 hp').1
    rw [show (reorder polys σ).length = polys.length by simp [reorder]] at hm
    unfold reorder at hp'
    rw [List.getElem?_ofFn, dif_pos hm, Option.some.injEq] at hp'
    rw [dif_pos hm, List.getElem?_eq_getElem (σ _).2, Option.some.injEq] at hp
    rw [List.get_eq_getElem] at hp'
    rw [hp] at hp'
    rw [← hp']
    exact ⟨rfl, SameEdges.refl _⟩

theorem reorder_perm {α : Type} (l : List α) (σ : Equiv.Perm (Fin l.length)) : (reorder l σ).Perm l := by
  have := (Equiv.Perm.ofFn_comp_perm σ l.get)
  unfold reorder
  rw [List.ofFn_get] at this
  exact this

/-- **C86.** If the polygons are given in another order, the result is the same, with the labels in the other order. -/
theorem C86_reordered (hl : lib.Lawful) (hl' : lib'.Lawful) (hP : Planar polys) (hR : Removable polys) (σ : Equiv.Perm (Fin polys.length)) (hR' : Removable (reorder polys σ))
    (op op' : BooleanOpType) {fuel fuel' : ℕ} (hf : 2 * (allCorners polys).length < fuel) (hf' : 2 * (allCorners polys).length < fuel') :
    compute lib' fuel' (reorder polys σ) op' = (compute lib fuel polys op).bind fun r => .ok (relabel σ r) := by
  have hA := reorder_alike σ
  have hc : (allCorners (reorder polys σ)).Perm (allCorners polys) := (reorder_perm polys σ).flatMap_right _
  rw [hA.runs hl hl' hP (hA.planar hP fun q hq => hc.mem_iff.1 hq) hR hR' op op' hf (by rw [hc.length_eq]; exact hf')]
  congr 1
  funext r
  congr 1
  unfold EdgesAlike.relab relabel
  congr 1
  refine List.map_congr_left fun c _ => ?_
  congr 1
  unfold reflag
  apply List.ext_getElem?
  intro m
  rw [List.getElem?_map, List.getElem?_ofFn]
  by_cases hm : m < polys.length
  · rw [List.getElem?_range hm, dif_pos hm, Option.map_some]
    dsimp only
    rw [dif_pos hm]
  · rw [dif_neg hm, List.getElem?_eq_none (by simpa using hm)]
    rfl

end Idc
