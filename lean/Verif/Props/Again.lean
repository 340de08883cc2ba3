import Verif.Spec.Again
import Verif.Props.Areas
/-!
# The areas of a result, given to `compute` again
-/

namespace Idc

open Plan

variable {lib : Lib} {polys polys' L : List (Polygon ℝ × PolygonMode)} {r : Polygon ℝ}

/-- The next edge below is unique. -/
theorem NextBelow.unique (hP : Planar polys) {e d d' : Pt ℝ × Pt ℝ} (he : Drawn polys e) (hl : LeftOf e.1 e.2) (h : NextBelow polys e d)
    (h' : NextBelow polys e d') : d = d' := by
  obtain ⟨i, hi, rfl⟩ := drawn_right (hP := hP) he hl
  obtain ⟨k, hk, rfl⟩ := drawn_right (hP := hP) h.drawn h.right
  obtain ⟨k', hk', rfl⟩ := drawn_right (hP := hP) h'.drawn h'.right
  rw [(under_of_next hi hk h).unique (under_of_next hi hk' h')]

/-- With fewer edges, the next edge below is still the same, if it is still there. -/
theorem NextBelow.fewer (h : ∀ u, Drawn L u → Drawn polys u) {e d : Pt ℝ × Pt ℝ} (hd : Drawn L d) (hn : NextBelow polys e d) : NextBelow L e d where
  drawn := hd
  right := hn.right
  next := by
    rcases hn.next with ⟨h1, h2, h3⟩ | ⟨h1, h2, h3⟩
    · exact .inl ⟨h1, h2, fun u hu => h3 u (h u hu)⟩
    · refine .inr ⟨fun u hu => h1 u (h u hu), h2, ?_⟩
      intro e' he' hc x ho ho'
      have hx := crosses_x hc
      have hne : e'.1 ≠ e'.2 := fun e => hx (by rw [e])
      have hd : Drawn polys e' := h e' ⟨hne, .inl he'⟩
      rcases hd.2 with hd | hd
      · exact h3 e' hd hc x ho ho'
      · have := h3 e'.swap hd ((crosses_swap _).2 hc) x ho ((over_swap e' x).2 ho')
        have e1 : heightAt e'.swap x = heightAt e' x := heightAt_swap hx x
        rwa [e1] at this

/-- Polygons that the result consists of. -/
structure Parts (polys : List (Polygon ℝ × PolygonMode)) (r : Polygon ℝ) (L : List (Polygon ℝ × PolygonMode)) : Prop where
  fin : Finished polys r
  modes : ∀ p ∈ L, p.2 = .normal
  fits : ∀ p ∈ L, Fits (keptPolygons polys) p.1
  inside : ∀ p ∈ L, ∀ d, Drawn (keptPolygons polys) d → (InsideLeft p.1 d ↔ d ∈ p.1.edges)
  edges : ∀ d, d ∈ outlineEdges r ↔ ∃ p ∈ L, d ∈ p.1.edges

open Classical in
/-- The result, labelled with the polygons it consists of. -/
noncomputable def partLabels (r : Polygon ℝ) (L : List (Polygon ℝ × PolygonMode)) : Polygon ℝ :=
  ⟨r.contours.map fun c => { c with from_polygons := L.map fun p => decide (∃ d ∈ closedEdges c.points, d ∈ p.1.edges) }⟩

namespace Parts

theorem out_drawn (h : Parts polys r L) {d : Pt ℝ × Pt ℝ} (hd : d ∈ outlineEdges r) : Drawn (keptPolygons polys) d := by
  obtain ⟨c, hc, hd⟩ := List.mem_flatMap.1 hd
  exact (h.fin.wellDrawn hc).drawn d hd

theorem out (h : Parts polys r L) {d : Pt ℝ × Pt ℝ} (hd : d ∈ outlineEdges r) : Drawn L d := by
  obtain ⟨p, hp, he⟩ := (h.edges d).1 hd
  exact drawn_iff.2 ⟨(h.out_drawn hd).1, p, hp, .inl he⟩

theorem drawn (h : Parts polys r L) {d : Pt ℝ × Pt ℝ} (hd : Drawn L d) : Drawn (keptPolygons polys) d := by
  obtain ⟨hne, p, hp, he⟩ := drawn_iff.1 hd
  rcases he with he | he
  · exact (h.fits p hp).drawn d he hne
  · exact Plan.Drawn.swap ((h.fits p hp).drawn _ he (fun e => hne e.symm))

theorem kept (h : Parts polys r L) : keptPolygons L = L := kept_all fun p hp => by rw [h.modes p hp]; decide

theorem planar (h : Parts polys r L) : Planar L where
  separate := h.fin.kplanar.separate.mono (by
    intro q hq
    unfold allCorners at hq
    obtain ⟨p, hp, hq⟩ := List.mem_flatMap.1 hq
    obtain ⟨c, hc, hq'⟩ := List.mem_flatMap.1 hq
    exact (h.fits p hp).corners c hc q hq') fun e he => h.drawn he
  once p hp := (h.fits p hp).once
  apart e e' he he' := h.fin.kplanar.apart e e' (h.drawn he) (h.drawn he')
  angles e e' he he' := h.fin.kplanar.angles e e' (h.drawn he) (h.drawn he')
  distances e e' he he' := h.fin.kplanar.distances e e' (h.drawn he) (h.drawn he')

theorem flag (h : Parts polys r L) {d : Pt ℝ × Pt ℝ} (hd : Drawn L d) {f : List Bool} (hf : AreaLeft L d f) {m : ℕ} {p : Polygon ℝ × PolygonMode}
    (hp : L[m]? = some p) : f[m]? = some true ↔ d ∈ p.1.edges := by
  rw [insideLeft_area hf hp]
  exact h.inside p (List.mem_of_getElem? hp) d (h.drawn hd)

theorem wanted (h : Parts polys r L) {d : Pt ℝ × Pt ℝ} (hd : Drawn L d) {f : List Bool} (hf : AreaLeft L d f) : d ∈ outlineEdges r ↔ FlagsOk L f := by
  rw [h.edges]
  constructor
  · rintro ⟨p, hp, he⟩
    obtain ⟨m, hm⟩ := List.mem_iff_getElem?.1 hp
    refine ⟨hf.1, List.mem_of_getElem? ((h.flag hd hf hm).2 he), fun i poly mode hi _ => ?_⟩
    have := h.modes _ (List.mem_of_getElem? hi)
    rw [show mode = .normal from this]
    decide
  · rintro ⟨_, ht, _⟩
    obtain ⟨m, hm⟩ := List.mem_iff_getElem?.1 ht
    have hlt : m < L.length := by rw [← hf.1]; exact (List.getElem?_eq_some_iff.1 hm).1
    exact ⟨L[m], List.getElem_mem hlt, (h.flag hd hf (List.getElem?_eq_getElem hlt)).1 hm⟩

theorem isResult (h : Parts polys r L) : IsResult L (partLabels r L) := by
  have hres := h.fin.res
  have hpts : (partLabels r L).contours.map (fun c => c.points) = r.contours.map fun c => c.points := by
    unfold partLabels
    rw [List.map_map]
    rfl
  have hout : ∀ {d}, d ∈ (r.contours.map fun c => c.points).flatMap closedEdges ↔ d ∈ outlineEdges r := by
    intro d
    unfold outlineEdges
    rw [List.flatMap_map]
  have hget : ∀ {j : ℕ} {c'}, (partLabels r L).contours[j]? = some c' → ∃ c, r.contours[j]? = some c ∧ c'.points = c.points := by
    intro j c' hc'
    unfold partLabels at hc'
    rw [List.getElem?_map] at hc'
    obtain ⟨c, h1, rfl⟩ := Option.map_eq_some_iff.1 hc'
    exact ⟨c, h1, rfl⟩
  have hget' : ∀ {j : ℕ} {c}, r.contours[j]? = some c → ∃ c', (partLabels r L).contours[j]? = some c' ∧ c'.points = c.points := by
    intro j c hc
    unfold partLabels
    rw [List.getElem?_map, hc]
    exact ⟨_, rfl, rfl⟩
  have hdr : ∀ u, Drawn L u → Drawn polys u := fun u hu => drawn_kept (h.drawn hu)
  refine ⟨?_, ?_, ?_, ?_, ?_, ?_, ?_, ?_⟩
  · rw [hpts]
    refine ⟨fun d f hd hf => ?_, fun d hd => h.out (hout.1 hd), hres.outlines.once, fun ps hps j d d' hd hd' => ?_, hres.outlines.start, hres.outlines.order⟩
    · rw [hout, h.wanted hd hf, h.kept]
      exact ⟨fun g => ⟨hd, g⟩, fun g => g.2⟩
    · obtain ⟨h1, h2, h3⟩ := hres.outlines.turns ps hps j d d' hd hd'
      rw [h.kept]
      exact ⟨h1, h2, fun u hu => h3 u (h.drawn hu)⟩
  · rintro c _ ⟨_, v, b, d, _, _, hn, hk⟩
    rw [h.kept] at hk
    exact hk hn.drawn
  · intro c' hc'
    unfold partLabels at hc'
    obtain ⟨c, hc, rfl⟩ := List.mem_map.1 hc'
    refine ⟨List.length_map _, fun m => ?_⟩
    dsimp only
    rw [List.getElem?_map, Option.map_eq_some_iff]
    constructor
    · rintro ⟨p, hp, he⟩
      obtain ⟨d, hd, he⟩ := of_decide_eq_true he
      have hdL := h.out (List.mem_flatMap.2 ⟨c, hc, hd⟩)
      obtain ⟨f, hf⟩ := EdgesAlike.exists_area h.planar hdL
      exact ⟨d, hd, f, hf, (h.flag hdL hf hp).2 he⟩
    · rintro ⟨d, hd, f, hf, hm⟩
      have hdL := h.out (List.mem_flatMap.2 ⟨c, hc, hd⟩)
      have hlt : m < L.length := by rw [← hf.1]; exact (List.getElem?_eq_some_iff.1 hm).1
      exact ⟨L[m], List.getElem?_eq_getElem hlt, decide_eq_true ⟨d, hd, (h.flag hdL hf (List.getElem?_eq_getElem hlt)).1 hm⟩⟩
  · intro c' hc'
    have hc0 := hc'
    unfold partLabels at hc'
    obtain ⟨c, hc, rfl⟩ := List.mem_map.1 hc'
    obtain ⟨h1, h2⟩ := hres.neighbors c hc
    refine ⟨by rw [h1]; unfold partLabels; rw [List.length_map], fun j c' hj => ?_⟩
    obtain ⟨c₁, hj, hp⟩ := hget hj
    rw [hp]
    exact h2 j c₁ hj
  · intro c' hc'
    unfold partLabels at hc'
    obtain ⟨c, hc, rfl⟩ := List.mem_map.1 hc'
    exact hres.external c hc
  · intro c' hc'
    unfold partLabels at hc'
    obtain ⟨c, hc, rfl⟩ := List.mem_map.1 hc'
    exact hres.clockwise c hc
  · intro c' hc'
    unfold partLabels at hc'
    obtain ⟨c, hc, rfl⟩ := List.mem_map.1 hc'
    exact hres.sorted c hc
  · intro c' hc' j
    unfold partLabels at hc'
    obtain ⟨c, hc, rfl⟩ := List.mem_map.1 hc'
    dsimp only
    constructor
    · intro hj
      obtain ⟨g, h1, h2, v, b, d, h3, h4, h5, h6⟩ := (hres.holes c hc j).1 hj
      obtain ⟨g', h1', hp⟩ := hget' h1
      exact ⟨g', h1', by rw [hp]; exact h2, v, b, d, by rw [hp]; exact h3, by rw [hp]; exact h4, h5,
        h6.fewer hdr (h.out (List.mem_flatMap.2 ⟨c, hc, h5⟩))⟩
    · rintro ⟨g', h1', h2, v, b, d, h3, h4, h5, h6⟩
      obtain ⟨g, h1, hp⟩ := hget h1'
      rw [hp] at h2 h3 h4
      have hg := List.mem_of_getElem? h1
      have he : ¬ g.external = true := by rw [(h.fin.external hg).2.2 h2]; decide
      have hcnt := h.fin.holesOk.once j g h1
      rw [if_neg he] at hcnt
      obtain ⟨c₁, hc₁, hm⟩ := List.mem_flatMap.1 (List.count_pos_iff.1 (show 0 < (r.contours.flatMap fun c => c.holes).count j by omega))
      obtain ⟨g₁, k1, _, v', b', d', k3, k4, k5, k6⟩ := (hres.holes c₁ hc₁ j).1 hm
      rw [h1] at k1
      cases k1
      rw [h3] at k3
      cases k3
      rw [h4] at k4
      cases k4
      obtain ⟨e, b₁, _, f2, f3, f4, f5, _⟩ := h.fin.first hg
      rw [f2] at h3
      cases h3
      rw [f3] at h4
      cases h4
      have hdr' : Drawn L (e.1, b) := Plan.Drawn.swap (h.out (List.mem_flatMap.2 ⟨g, hg, f4⟩))
      have := NextBelow.unique h.planar hdr' f5 h6 (k6.fewer hdr (h.out (List.mem_flatMap.2 ⟨c₁, hc₁, k5⟩)))
      subst this
      obtain ⟨i, hi⟩ := List.mem_iff_getElem?.1 hc
      obtain ⟨i₁, hi₁⟩ := List.mem_iff_getElem?.1 hc₁
      have := h.fin.same hi hi₁ h5 k5
      subst this
      rw [hi] at hi₁
      cases hi₁
      exact hm

theorem run (h : Parts polys r L) (hl : lib.Lawful) (op : BooleanOpType) {fuel : ℕ} (hf : 2 * (allCorners L).length < fuel) :
    compute lib fuel L op = .ok (partLabels r L) :=
  ((C86_exact hl h.planar (removable_of fun p hp => by rw [h.modes p hp]; decide) op hf).1 _).2 h.isResult

end Parts

/-! ### The areas -/

theorem mem_areasOf {p : Polygon ℝ × PolygonMode} : p ∈ areasOf r ↔ ∃ i c, r.contours[i]? = some c ∧ c.external = true ∧ p = (group r i c, .normal) := by
  unfold areasOf
  rw [List.mem_map]
  constructor
  · rintro ⟨⟨c, i⟩, hx, rfl⟩
    obtain ⟨h1, h2⟩ := List.mem_filter.1 hx
    exact ⟨i, c, by simpa [List.mem_zipIdx_iff_getElem?] using h1, h2, rfl⟩
  · rintro ⟨i, c, hi, he, rfl⟩
    exact ⟨(c, i), List.mem_filter.2 ⟨by simpa [List.mem_zipIdx_iff_getElem?] using hi, he⟩, rfl⟩

theorem Finished.areas (h : Finished polys r) : Parts polys r (areasOf r) where
  fin := h
  modes p hp := by
    obtain ⟨i, c, _, _, rfl⟩ := mem_areasOf.1 hp
    rfl
  fits p hp := by
    obtain ⟨i, c, hi, he, rfl⟩ := mem_areasOf.1 hp
    exact h.fits_group hi he
  inside p hp d hd := by
    obtain ⟨i, c, hi, he, rfl⟩ := mem_areasOf.1 hp
    exact (h.inside_group hi he (drawn_kept hd)).trans (h.beside_kept hi he hd)
  edges d := by
    constructor
    · intro hd
      obtain ⟨c, hc, hd⟩ := List.mem_flatMap.1 hd
      obtain ⟨j, hj⟩ := List.mem_iff_getElem?.1 hc
      obtain ⟨i, c', hi, he, hw⟩ := h.root j c hj
      exact ⟨_, mem_areasOf.2 ⟨i, c', hi, he, rfl⟩, (group_edges hi).2 ⟨j, c, hw, hj, hd⟩⟩
    · rintro ⟨p, hp, hd⟩
      obtain ⟨i, c, hi, he, rfl⟩ := mem_areasOf.1 hp
      obtain ⟨j, c', _, hj, hd⟩ := (group_edges hi).1 hd
      exact List.mem_flatMap.2 ⟨c', List.mem_of_getElem? hj, hd⟩

theorem Finished.ownLabels (h : Finished polys r) : partLabels r (areasOf r) = ownLabels r := by
  unfold partLabels Idc.ownLabels
  congr 1
  refine List.ext_getElem? fun j => ?_
  rw [List.getElem?_map, List.getElem?_map, List.getElem?_zipIdx]
  cases hj : r.contours[j]? with
  | none => rfl
  | some c' =>
    rw [Option.map_some, Option.map_some, Option.map_some]
    congr 2
    unfold areasOf
    rw [List.map_map]
    refine List.map_congr_left fun ⟨c, i⟩ hx => ?_
    obtain ⟨h1, h2⟩ := List.mem_filter.1 hx
    have hi : r.contours[i]? = some c := by simpa [List.mem_zipIdx_iff_getElem?] using h1
    dsimp only [Function.comp]
    rw [decide_eq_decide, zero_add]
    show (∃ d ∈ closedEdges c'.points, d ∈ (group r i c).edges) ↔ _
    constructor
    · rintro ⟨d, hd, hg⟩
      obtain ⟨k, c₁, hw, hk, hd'⟩ := (group_edges hi).1 hg
      rw [h.same hj hk hd hd']
      exact hw
    · intro hw
      obtain ⟨d, hd⟩ := h.exists_edge (List.mem_of_getElem? hj)
      exact ⟨d, hd, (group_edges hi).2 ⟨j, c', hw, hj, hd⟩⟩

/-! ### The result as one polygon -/

theorem ind_or {a b : Prop} (h : ¬ (a ∧ b)) : ind (a ∨ b) = ind a + ind b := by
  unfold ind
  by_cases ha : a <;> by_cases hb : b <;> simp_all

theorem ind_count {α : Type} (P : α → Prop) : ∀ (l : List α), (l.Pairwise fun a b => ¬ (P a ∧ P b)) → (l.map fun a => ind (P a)).sum = ind (∃ a ∈ l, P a)
  | [], _ => by simp [ind]
  | a :: l, h => by
    rw [List.map_cons, List.sum_cons, ind_count P l (List.pairwise_cons.1 h).2, ← ind_or]
    · congr 1
      simp
    · rintro ⟨h1, b, hb, h2⟩
      exact (List.pairwise_cons.1 h).1 b hb ⟨h1, h2⟩

theorem Finished.ind_out (h : Finished polys r) (d : Pt ℝ × Pt ℝ) : (r.contours.map fun c => ind (d ∈ closedEdges c.points)).sum = ind (d ∈ outlineEdges r) := by
  rw [ind_count]
  · unfold outlineEdges
    rw [List.mem_flatMap]
  · rw [List.pairwise_iff_getElem]
    intro i j hi hj hij ⟨h1, h2⟩
    exact absurd (h.same (List.getElem?_eq_getElem hi) (List.getElem?_eq_getElem hj) h1 h2) (by omega)

theorem sum_add_map {α : Type} (f g : α → ZMod 2) : ∀ l : List α, (l.map fun a => f a + g a).sum = (l.map f).sum + (l.map g).sum
  | [] => by simp
  | a :: l => by
    rw [List.map_cons, List.sum_cons, List.map_cons, List.sum_cons, List.map_cons, List.sum_cons, sum_add_map f g l]
    ring

theorem ind_ne {a b e : Prop} (h : (a ↔ b) ↔ ¬ e) : ind a = ind b + ind e := by
  unfold ind
  by_cases ha : a <;> by_cases hb : b <;> by_cases he : e <;> simp_all <;> rfl

/-- Whether the area left of an edge is in the result, counted by outlines. -/
theorem Finished.parity (h : Finished polys r) {d : Pt ℝ × Pt ℝ} (hd : Drawn polys d) :
    (r.contours.map fun c => ind (InsideLeft (only c) d)).sum = ind (∃ f, AreaLeft polys d f ∧ FlagsOk polys f) := by
  have hfit' : ∀ X ∈ r.contours.map only, Fits (keptPolygons polys) X := by
    intro X hX
    obtain ⟨c, hc, rfl⟩ := List.mem_map.1 hX
    exact h.fits_outline hc
  have hfit : ∀ X ∈ r.contours.map only, Fits polys X := fun X hX => fits_kept (hfit' X hX)
  set Q := withPolys polys (r.contours.map only) with hQd
  have hQ : Planar Q := planar_with h.planar hfit
  have hdr : ∀ {d}, Drawn Q d ↔ Drawn polys d := drawn_with hfit
  have hmem : ∀ c ∈ r.contours, (only c, PolygonMode.normal) ∈ Q := fun c hc => mem_with.2 (.inr ⟨_, List.mem_map.2 ⟨c, hc, rfl⟩, rfl⟩)
  refine climb hQ (P := fun d => (r.contours.map fun c => ind (InsideLeft (only c) d)).sum = ind (∃ f, AreaLeft polys d f ∧ FlagsOk polys f)) ?_ ?_ ?_ d (hdr.2 hd)
  · intro d d' hd hd' hall hIH
    have b1 : ∀ p ∈ polys, InsideLeft p.1 d ↔ InsideLeft p.1 d' := fun p hp => hall p (mem_with.2 (.inl hp))
    have b2 : (∃ f, AreaLeft polys d f ∧ FlagsOk polys f) ↔ ∃ f, AreaLeft polys d' f ∧ FlagsOk polys f :=
      ⟨h.wanted_iff (hdr.1 hd') b1, h.wanted_iff (hdr.1 hd) fun p hp => (b1 p hp).symm⟩
    rw [← propext b2, ← hIH]
    congr 1
    refine List.map_congr_left fun c hc => ?_
    rw [propext (hall _ (hmem c hc))]
  · intro d hd hno
    rw [List.map_congr_left (g := fun _ => (0 : ZMod 2))]
    · have : ¬ ∃ f, AreaLeft polys d f ∧ FlagsOk polys f := by
        rintro ⟨f, hf, ho⟩
        obtain ⟨p, hp, hin⟩ := inside_some hf ho
        exact absurd hin (hno p (mem_with.2 (.inl hp)))
      simp [ind, this]
    · intro c hc
      have := hno _ (hmem c hc)
      dsimp only at this
      simp [ind, this]
  · intro d hd hbelow
    have hd' := hdr.1 hd
    have hsum : (r.contours.map fun c => ind (InsideLeft (only c) d)).sum = (r.contours.map fun c => ind (InsideLeft (only c) d.swap)).sum +
        (ind (d ∈ outlineEdges r) + ind (d.swap ∈ outlineEdges r)) := by
      rw [← h.ind_out, ← h.ind_out, ← sum_add_map, ← sum_add_map]
      congr 1
      refine List.map_congr_left fun c hc => ?_
      have h3 := sides hQ (hmem c hc) hd
      dsimp only at h3
      rw [only_edges] at h3
      rw [ind_ne h3, ind_or]
      rintro ⟨h1, h2⟩
      exact (h.wellDrawn hc).swap h.kplanar h1 h2
    rw [hsum, hbelow]
    obtain ⟨f, hf⟩ := EdgesAlike.exists_area h.planar hd'
    obtain ⟨f', hf'⟩ := EdgesAlike.exists_area h.planar (Plan.Drawn.swap hd')
    have o1 := h.mem_iff hd' hf
    have o2 := h.mem_iff (Plan.Drawn.swap hd') hf'
    have w1 : (∃ f, AreaLeft polys d f ∧ FlagsOk polys f) ↔ FlagsOk polys f :=
      ⟨fun ⟨g, hg, ho⟩ => by rw [areaLeft_unique hf hg]; exact ho, fun ho => ⟨f, hf, ho⟩⟩
    have w2 : (∃ f, AreaLeft polys d.swap f ∧ FlagsOk polys f) ↔ FlagsOk polys f' :=
      ⟨fun ⟨g, hg, ho⟩ => by rw [areaLeft_unique hf' hg]; exact ho, fun ho => ⟨f', hf', ho⟩⟩
    have m1 : d ∈ outlineEdges r ↔ Drawn (keptPolygons polys) d ∧ FlagsOk polys f := by rw [← o1]; unfold outlineEdges; rw [List.mem_flatMap]
    have m2 : d.swap ∈ outlineEdges r ↔ Drawn (keptPolygons polys) d.swap ∧ FlagsOk polys f' := by rw [← o2]; unfold outlineEdges; rw [List.mem_flatMap]
    by_cases hkept : Drawn (keptPolygons polys) d
    · have hkept' := Plan.Drawn.swap hkept
      rw [propext w1, propext w2, propext m1, propext m2]
      simp only [hkept, hkept', true_and]
      unfold ind
      by_cases ha : FlagsOk polys f <;> by_cases hb : FlagsOk polys f' <;> simp_all <;> rfl
    · have hkept' : ¬ Drawn (keptPolygons polys) d.swap := fun hh => hkept (Plan.Drawn.swap hh)
      rw [propext m1, propext m2, propext (h.wanted_across hd' hkept)]
      simp [hkept, hkept', ind]

/-- The area left of an edge is inside of the result, by the even-odd rule, exactly if it is to be in it. -/
theorem Finished.whole (h : Finished polys r) {d : Pt ℝ × Pt ℝ} (hd : Drawn polys d) : InsideLeft r d ↔ ∃ f, AreaLeft polys d f ∧ FlagsOk polys f := by
  have hfit : ∀ X ∈ r.contours.map only, Fits polys X := by
    intro X hX
    obtain ⟨c, hc, rfl⟩ := List.mem_map.1 hX
    exact fits_kept (h.fits_outline hc)
  set Q := withPolys polys (r.contours.map only) with hQd
  have hQ : Planar Q := planar_with h.planar hfit
  obtain ⟨f, hf⟩ := EdgesAlike.exists_area hQ ((drawn_with hfit).2 hd)
  obtain ⟨_, δ₀, h0, hδ⟩ := id hf
  have key : ∀ δ, 0 < δ → δ < δ₀ → (r.evenOdd (leftPoint d δ) ↔ ∃ f, AreaLeft polys d f ∧ FlagsOk polys f) := by
    intro δ d0 d1
    have hp := h.parity hd
    have : ind (r.evenOdd (leftPoint d δ)) = ind (∃ f, AreaLeft polys d f ∧ FlagsOk polys f) := by
      rw [← hp]
      refine (evenOdd_sum _ r.contours).trans ?_
      congr 1
      refine List.map_congr_left fun c hc => ?_
      congr 1
      have hm : (only c, PolygonMode.normal) ∈ Q := mem_with.2 (.inr ⟨_, List.mem_map.2 ⟨c, hc, rfl⟩, rfl⟩)
      obtain ⟨m, hm⟩ := List.mem_iff_getElem?.1 hm
      have g1 := hδ δ d0 d1 m _ hm
      have g2 := insideLeft_area hf hm
      exact propext (g1.symm.trans g2)
    unfold ind at this
    by_cases ha : r.evenOdd (leftPoint d δ) <;> by_cases hb : ∃ f, AreaLeft polys d f ∧ FlagsOk polys f
    · exact ⟨fun _ => hb, fun _ => ha⟩
    · rw [if_pos ha, if_neg hb] at this
      exact absurd this (by decide)
    · rw [if_neg ha, if_pos hb] at this
      exact absurd this (by decide)
    · exact ⟨fun g => absurd g ha, fun g => absurd g hb⟩
  constructor
  · rintro ⟨δ₁, h1, h'⟩
    have d0 : 0 < Min.min δ₀ δ₁ / 2 := by have := lt_min h0 h1; linarith
    have d1 : Min.min δ₀ δ₁ / 2 < δ₀ := by have := min_le_left δ₀ δ₁; linarith
    have d2 : Min.min δ₀ δ₁ / 2 < δ₁ := by have := min_le_right δ₀ δ₁; linarith
    exact (key _ d0 d1).1 (h' _ d0 d2)
  · intro hw
    exact ⟨δ₀, h0, fun δ d0 d1 => (key δ d0 d1).2 hw⟩

/-- A point on no edge is inside of the result, by the even-odd rule, exactly if it is to be in it. -/
theorem Finished.whole_point (h : Finished polys r) {q : Pt ℝ} {f : List Bool} (hq : ∀ d, Drawn polys d → ¬ OnSegment d q) (hf : PointFlags polys q f) :
    r.evenOdd q ↔ FlagsOk polys f := by
  have hfit : ∀ X ∈ r.contours.map only, Fits polys X := by
    intro X hX
    obtain ⟨c, hc, rfl⟩ := List.mem_map.1 hX
    exact fits_kept (h.fits_outline hc)
  have hind : ∀ {a b : Prop}, ind a = ind b → (a ↔ b) := by
    intro a b hab
    unfold ind at hab
    by_cases ha : a <;> by_cases hb : b
    · exact ⟨fun _ => hb, fun _ => ha⟩
    · rw [if_pos ha, if_neg hb] at hab
      exact absurd hab (by decide)
    · rw [if_neg ha, if_pos hb] at hab
      exact absurd hab (by decide)
    · exact ⟨fun g => absurd g ha, fun g => absurd g hb⟩
  refine hind ((evenOdd_sum q r.contours).trans ?_)
  rcases beside h hq _ hfit with ⟨h1, h2⟩ | ⟨d, hd, h1, h2⟩
  · rw [List.map_congr_left (g := fun _ => (0 : ZMod 2))]
    · have : ¬ FlagsOk polys f := by
        rintro ⟨_, ht, _⟩
        obtain ⟨m, hm⟩ := List.mem_iff_getElem?.1 ht
        have hlt : m < polys.length := by rw [← hf.1]; exact (List.getElem?_eq_some_iff.1 hm).1
        exact h1 _ (List.getElem_mem hlt) ((hf.2 m _ (List.getElem?_eq_getElem hlt)).1 hm)
      simp [ind, this]
    · intro c hc
      have : ¬ InsideOutline c q := h2 (only c) (List.mem_map.2 ⟨c, hc, rfl⟩)
      simp [ind, this]
  · have ha := flags_area h hf hd h1
    have hw : (∃ f, AreaLeft polys d f ∧ FlagsOk polys f) ↔ FlagsOk polys f :=
      ⟨fun ⟨g, hg, ho⟩ => by rw [areaLeft_unique ha hg]; exact ho, fun ho => ⟨f, ha, ho⟩⟩
    rw [← propext hw, ← h.parity hd]
    congr 1
    refine List.map_congr_left fun c hc => ?_
    have : InsideOutline c q ↔ InsideLeft (only c) d := h2 (only c) (List.mem_map.2 ⟨c, hc, rfl⟩)
    rw [propext this]

/-- A result in which no area borders on another, as one polygon. -/
theorem Finished.one (h : Finished polys r) (hn : ∀ d ∈ outlineEdges r, d.swap ∉ outlineEdges r) : Parts polys r [(r, .normal)] where
  fin := h
  modes p hp := by rw [List.mem_singleton.1 hp]
  fits p hp := by
    rw [List.mem_singleton.1 hp]
    refine fits_of r.contours (fun c hc d hd => (h.wellDrawn hc).drawn d hd) h.res.outlines.once ?_
    intro c hc c' hc' d hd hd'
    exact hn d (List.mem_flatMap.2 ⟨c, hc, hd⟩) (List.mem_flatMap.2 ⟨c', hc', hd'⟩)
  inside p hp d hd := by
    rw [List.mem_singleton.1 hp]
    show InsideLeft r d ↔ d ∈ r.edges
    rw [h.whole (drawn_kept hd)]
    obtain ⟨f, hf⟩ := EdgesAlike.exists_area h.planar (drawn_kept hd)
    have := h.mem_iff (drawn_kept hd) hf
    unfold Polygon.edges
    rw [List.mem_flatMap, this]
    exact ⟨fun ⟨g, hg, ho⟩ => ⟨hd, by rw [areaLeft_unique hf hg]; exact ho⟩, fun g => ⟨f, hf, g.2⟩⟩
  edges d := by
    constructor
    · intro hd
      exact ⟨_, List.mem_singleton.2 rfl, hd⟩
    · rintro ⟨p, hp, hd⟩
      rw [List.mem_singleton.1 hp] at hd
      exact hd

theorem Finished.no_neighbors (h : Finished polys r) : (∀ d ∈ outlineEdges r, d.swap ∉ outlineEdges r) ↔ ∀ c ∈ r.contours, true ∉ c.neighbors := by
  constructor
  · intro hn c hc ht
    obtain ⟨j, hj⟩ := List.mem_iff_getElem?.1 ht
    obtain ⟨h1, h2⟩ := h.res.neighbors c hc
    have hlt : j < r.contours.length := by rw [← h1]; exact (List.getElem?_eq_some_iff.1 hj).1
    obtain ⟨d, hd, hd'⟩ := (h2 j _ (List.getElem?_eq_getElem hlt)).1 hj
    exact hn d (List.mem_flatMap.2 ⟨c, hc, hd⟩) (List.mem_flatMap.2 ⟨_, List.getElem_mem hlt, hd'⟩)
  · intro hn d hd hd'
    obtain ⟨c, hc, hd⟩ := List.mem_flatMap.1 hd
    obtain ⟨c', hc', hd'⟩ := List.mem_flatMap.1 hd'
    obtain ⟨j, hj⟩ := List.mem_iff_getElem?.1 hc'
    exact hn c hc (List.mem_of_getElem? (((h.res.neighbors c hc).2 j c' hj).2 ⟨d, hd, hd'⟩))

theorem Finished.oneLabel (h : Finished polys r) : partLabels r [(r, .normal)] = ⟨r.contours.map fun c => { c with from_polygons := [true] }⟩ := by
  unfold partLabels
  congr 1
  refine List.map_congr_left fun c hc => ?_
  congr 1
  rw [List.map_singleton, decide_eq_true]
  obtain ⟨d, hd⟩ := h.exists_edge hc
  exact ⟨d, hd, List.mem_flatMap.2 ⟨c, hc, hd⟩⟩

/-- The result of a single polygon. -/
theorem Finished.single {p : Polygon ℝ} (h : Finished [(p, .normal)] r) : (∀ d ∈ outlineEdges r, d.swap ∉ outlineEdges r) ∧
    (⟨r.contours.map fun c => { c with from_polygons := [true] }⟩ : Polygon ℝ) = r := by
  have hp : (p, PolygonMode.normal) ∈ [(p, PolygonMode.normal)] := List.mem_singleton.2 rfl
  have hk : keptPolygons [(p, PolygonMode.normal)] = [(p, .normal)] := kept_all fun q hq => by rw [List.mem_singleton.1 hq]; exact fun e => nomatch e
  have key : ∀ d ∈ outlineEdges r, Drawn [(p, PolygonMode.normal)] d ∧ InsideLeft p d := by
    intro d hd
    obtain ⟨c, hc, hd⟩ := List.mem_flatMap.1 hd
    have hdr := drawn_kept ((h.wellDrawn hc).drawn d hd)
    obtain ⟨f, hf⟩ := EdgesAlike.exists_area h.planar hdr
    obtain ⟨p', hp', hi⟩ := inside_some hf ((h.mem_iff hdr hf).1 ⟨c, hc, hd⟩).2
    rw [List.mem_singleton.1 hp'] at hi
    exact ⟨hdr, hi⟩
  constructor
  · intro d hd hd'
    obtain ⟨h1, h2⟩ := key d hd
    obtain ⟨h3, h4⟩ := key _ hd'
    have := (sides h.planar hp h1).1 ⟨fun _ => h4, fun _ => h2⟩
    obtain ⟨_, q, hq, he⟩ := drawn_iff.1 h1
    rw [List.mem_singleton.1 hq] at he
    exact this he
  · cases r with
    | mk cs =>
      congr 1
      conv_rhs => rw [← List.map_id cs]
      refine List.map_congr_left fun c hc => ?_
      have : c.from_polygons = [true] := by
        obtain ⟨h1, h2⟩ := h.res.labels c hc
        obtain ⟨d, hd⟩ := h.exists_edge hc
        obtain ⟨g1, g2⟩ := key d (List.mem_flatMap.2 ⟨c, hc, hd⟩)
        obtain ⟨f, hf⟩ := EdgesAlike.exists_area h.planar g1
        have h3 : c.from_polygons[0]? = some true := (h2 0).2 ⟨d, hd, f, hf, (insideLeft_area hf (m := 0) rfl).2 g2⟩
        match hc : c.from_polygons, h1, h3 with
        | [b], _, h3 => simpa using h3
      rw [← this]
      rfl

/-! ### The theorems -/

/-- **C89.** The areas of a result, given to `compute` as polygons of their own, come out as they are: the same outlines in the same order, with the same holes,
neighbors and flags, each labelled with its own area alone. -/
theorem C89_areas (hl : lib.Lawful) (hP : Planar polys) (hR : Removable polys) {op op' : BooleanOpType} {fuel fuel' : ℕ}
    (hfuel : 2 * (allCorners polys).length < fuel) (hr : compute lib fuel polys op = .ok r) (hfuel' : 2 * (allCorners (areasOf r)).length < fuel') :
    compute lib fuel' (areasOf r) op' = .ok (ownLabels r) := by
  have h := finished hl hP hR hfuel hr
  rw [← h.ownLabels]
  exact h.areas.run hl op' hfuel'


/-- **C89.** The same for polygons that cross. -/
theorem C89_crossed_areas (hl : lib.Lawful) (hs : lib.SearchHonest) (hC : Crossed polys polys') (hR : Removable polys') {op op' : BooleanOpType} {fuel fuel' : ℕ}
    (hfuel : 5 * (allCorners polys').length < fuel) (hr : compute lib fuel polys op = .ok r) (hfuel' : 2 * (allCorners (areasOf r)).length < fuel') :
    compute lib fuel' (areasOf r) op' = .ok (ownLabels r) := by
  have h := crossed_finished hl hs hC hR hfuel hr
  rw [← h.ownLabels]
  exact h.areas.run hl op' hfuel'

/-- **C89.** A result in which no outline is a neighbor of another comes out as it is if it is given to `compute` as one polygon. -/
theorem C89_one (hl : lib.Lawful) (hP : Planar polys) (hR : Removable polys) {op op' : BooleanOpType} {fuel fuel' : ℕ}
    (hfuel : 2 * (allCorners polys).length < fuel) (hr : compute lib fuel polys op = .ok r) (hn : ∀ c ∈ r.contours, true ∉ c.neighbors)
    (hfuel' : 2 * (allCorners [(r, .normal)]).length < fuel') :
    compute lib fuel' [(r, .normal)] op' = .ok ⟨r.contours.map fun c => { c with from_polygons := [true] }⟩ := by
  have h := finished hl hP hR hfuel hr
  rw [← h.oneLabel]
  exact (h.one (h.no_neighbors.2 hn)).run hl op' hfuel'

/-- **C89.** The same for polygons that cross. -/
theorem C89_crossed_one (hl : lib.Lawful) (hs : lib.SearchHonest) (hC : Crossed polys polys') (hR : Removable polys') {op op' : BooleanOpType} {fuel fuel' : ℕ}
    (hfuel : 5 * (allCorners polys').length < fuel) (hr : compute lib fuel polys op = .ok r) (hn : ∀ c ∈ r.contours, true ∉ c.neighbors)
    (hfuel' : 2 * (allCorners [(r, .normal)]).length < fuel') :
    compute lib fuel' [(r, .normal)] op' = .ok ⟨r.contours.map fun c => { c with from_polygons := [true] }⟩ := by
  have h := crossed_finished hl hs hC hR hfuel hr
  rw [← h.oneLabel]
  exact (h.one (h.no_neighbors.2 hn)).run hl op' hfuel'

/-- **C89.** What `compute` makes of a single polygon it leaves as it is. -/
theorem C89_again {p : Polygon ℝ} (hl : lib.Lawful) (hP : Planar [(p, .normal)]) {op op' : BooleanOpType} {fuel fuel' : ℕ}
    (hfuel : 2 * (allCorners [(p, .normal)]).length < fuel) (hr : compute lib fuel [(p, .normal)] op = .ok r)
    (hfuel' : 2 * (allCorners [(r, .normal)]).length < fuel') : compute lib fuel' [(r, .normal)] op' = .ok r := by
  have h := finished hl hP (removable_of fun q hq => by rw [List.mem_singleton.1 hq]; exact fun e => nomatch e) hfuel hr
  obtain ⟨h1, h2⟩ := h.single
  have := (h.one h1).run hl op' hfuel'
  rwa [h.oneLabel, h2] at this

/-- **C89.** The same for a polygon that crosses itself. -/
theorem C89_crossed_again {p : Polygon ℝ} (hl : lib.Lawful) (hs : lib.SearchHonest) (hC : Crossed [(p, .normal)] polys') {op op' : BooleanOpType} {fuel fuel' : ℕ}
    (hfuel : 5 * (allCorners polys').length < fuel) (hr : compute lib fuel [(p, .normal)] op = .ok r)
    (hfuel' : 2 * (allCorners [(r, .normal)]).length < fuel') : compute lib fuel' [(r, .normal)] op' = .ok r := by
  have hm : ∀ q ∈ polys', q.2 ≠ .removeEdges := hC.modes (P := fun m => m ≠ .removeEdges) fun q hq => by rw [List.mem_singleton.1 hq]; exact fun e => nomatch e
  have h := crossed_finished hl hs hC (removable_of hm) hfuel hr
  obtain ⟨p', rfl⟩ : ∃ p', polys' = [(p', .normal)] := by
    have := hC.refined
    match polys', this with
    | [(p', m)], .cons h1 .nil => exact ⟨p', by rw [show m = .normal from h1.1]⟩
  obtain ⟨h1, h2⟩ := h.single
  have := (h.one h1).run hl op' hfuel'
  rwa [h.oneLabel, h2] at this

/-- **C88.** All outlines of the result taken together, a point is inside of it by the even-odd rule exactly if it is inside of a polygon, and of none whose interior
is to be removed. -/
theorem C88_even_odd (hl : lib.Lawful) (hP : Planar polys) (hR : Removable polys) {op : BooleanOpType} {fuel : ℕ}
    (hfuel : 2 * (allCorners polys).length < fuel) (hr : compute lib fuel polys op = .ok r) {q : Pt ℝ} {f : List Bool} (hq : ∀ e ∈ allEdges polys, ¬ OnSegment e q)
    (hf : PointFlags polys q f) : r.evenOdd q ↔ FlagsOk polys f :=
  (finished hl hP hR hfuel hr).whole_point (off_drawn hq) hf

/-- **C88.** The same for polygons that cross. -/
theorem C88_crossed_even_odd (hl : lib.Lawful) (hs : lib.SearchHonest) (hC : Crossed polys polys') (hR : Removable polys') {op : BooleanOpType} {fuel : ℕ}
    (hfuel : 5 * (allCorners polys').length < fuel) (hr : compute lib fuel polys op = .ok r) {q : Pt ℝ} {f : List Bool} (hq : ∀ e ∈ allEdges polys, ¬ OnSegment e q)
    (hf : PointFlags polys q f) : r.evenOdd q ↔ FlagsOk polys f :=
  ((crossed_finished hl hs hC hR hfuel hr).whole_point (off_drawn (hC.off hq)) (hC.pointFlags hf)).trans hC.flagsOk

end Idc
