import Verif.Props.AreasGroup
import Verif.Props.CrossMade
/-!
# C88: which points are in the areas of a result, and what the labels say about them
-/

namespace Idc

open Plan

variable {lib : Lib} {polys polys' : List (Polygon ℝ × PolygonMode)} {r : Polygon ℝ} {q : Pt ℝ} {f : List Bool}

/-- A point off the edges is outside of all polygons, or where the left side of some edge is. -/
theorem point_beside (hQ : Planar polys) (hq : ∀ d, Drawn polys d → ¬ OnSegment d q) :
    (∀ p ∈ polys, ¬ p.1.evenOdd q) ∨ ∃ d, Drawn polys d ∧ ∀ p ∈ polys, p.1.evenOdd q ↔ InsideLeft p.1 d := by
  set G := ofPolys polys hQ with hG
  have hoff : ∀ k ∈ G.S, ¬ OnSegment (G.lp k, G.rp k) q := fun k hk => hq _ (drawn_toRight (nth_mem (Finset.mem_range.1 hk)))
  obtain ⟨t, ht, hu⟩ := under_par (G := G) (t := G.time q) (y := q.y) fun k hk h1 h2 h3 => hoff k hk (on_of_h hk h1 h2.le h3)
  have hev : ∀ p ∈ polys, ∃ m : ℕ, polys[m]? = some p ∧ (p.1.evenOdd q ↔ G.par m t q.y = 1) := by
    intro p hp
    obtain ⟨m, hm⟩ := List.mem_iff_getElem?.1 hp
    refine ⟨m, hm, ?_⟩
    rw [evenOdd_under (hP := hQ) hm hoff, ← hu]
  rcases exists_highest (G := G) t q.y with hno | ⟨k, hk, hT, hlt, hb⟩
  · left
    intro p hp hin
    obtain ⟨m, _, h⟩ := hev p hp
    have := h.1 hin
    rw [par_none hno] at this
    exact zero_ne_one this
  · right
    refine ⟨G.edge (k, .left), top_drawn (hP := hQ) (z := (k, .left)) hT, fun p hp => ?_⟩
    obtain ⟨m, hm, h⟩ := hev p hp
    rw [h, par_highest ht hk hT hlt hb]
    exact (insideLeft_iff (hP := hQ) hm (z := (k, .left)) hT).symm

theorem exists_pointFlags (polys : List (Polygon ℝ × PolygonMode)) (q : Pt ℝ) : ∃ f, PointFlags polys q f := by
  classical
  refine ⟨polys.map fun p => decide (p.1.evenOdd q), by simp, fun j p hp => ?_⟩
  rw [List.getElem?_map, hp]
  simp

namespace Finished

theorem beside (h : Finished polys r) (hq : ∀ d, Drawn polys d → ¬ OnSegment d q) (Xs : List (Polygon ℝ)) (hX : ∀ X ∈ Xs, Fits polys X) :
    ((∀ p ∈ polys, ¬ p.1.evenOdd q) ∧ ∀ X ∈ Xs, ¬ X.evenOdd q) ∨
      ∃ d, Drawn polys d ∧ (∀ p ∈ polys, p.1.evenOdd q ↔ InsideLeft p.1 d) ∧ ∀ X ∈ Xs, X.evenOdd q ↔ InsideLeft X d := by
  rcases point_beside (planar_with h.planar hX) (q := q) (fun d hd => hq d ((drawn_with hX).1 hd)) with g | ⟨d, g1, g2⟩
  · exact .inl ⟨fun p hp => g p (mem_with.2 (.inl hp)), fun X hX => g (X, .normal) (mem_with.2 (.inr ⟨X, hX, rfl⟩))⟩
  · exact .inr ⟨d, (drawn_with hX).1 g1, fun p hp => g2 p (mem_with.2 (.inl hp)), fun X hX => g2 (X, .normal) (mem_with.2 (.inr ⟨X, hX, rfl⟩))⟩

theorem flags_area (h : Finished polys r) (hf : PointFlags polys q f) {d : Pt ℝ × Pt ℝ} (hd : Drawn polys d) (he : ∀ p ∈ polys, p.1.evenOdd q ↔ InsideLeft p.1 d) :
    AreaLeft polys d f := by
  obtain ⟨f', hf'⟩ := EdgesAlike.exists_area h.planar hd
  have : f = f' := by
    refine flags_eq (hf.1.trans hf'.1.symm) fun m => ?_
    by_cases hm : m < polys.length
    · have hp : polys[m]? = some polys[m] := List.getElem?_eq_getElem hm
      rw [hf.2 m _ hp, insideLeft_area hf' hp]
      exact he _ (List.mem_of_getElem? hp)
    · rw [List.getElem?_eq_none (by rw [hf.1]; omega), List.getElem?_eq_none (by rw [hf'.1]; omega)]
  rw [this]
  exact hf'

theorem area_edge (h : Finished polys r) (hq : ∀ d, Drawn polys d → ¬ OnSegment d q) {i : ℕ} {c : Contour ℝ} (hi : r.contours[i]? = some c) (ha : InArea r i q) :
    ∃ d, Drawn polys d ∧ (∀ p ∈ polys, p.1.evenOdd q ↔ InsideLeft p.1 d) ∧ Beside polys r i c d ∧ (∀ c ∈ r.contours, InsideOutline c q ↔ InsideLeft (only c) d) := by
  have he : c.external = true := by
    obtain ⟨c', h1, h2, _⟩ := ha.inside
    rw [hi] at h1
    cases h1
    exact h2
  have hX : ∀ X ∈ group r i c :: r.contours.map only, Fits polys X := by
    intro X hX
    rcases List.mem_cons.1 hX with rfl | hX
    · exact fits_kept (h.fits_group hi he)
    · obtain ⟨c', hc, rfl⟩ := List.mem_map.1 hX
      exact fits_kept (h.fits_outline hc)
  rcases h.beside hq _ hX with ⟨_, g⟩ | ⟨d, g1, g2, g3⟩
  · exact absurd (ha.group hi) (g _ (by simp))
  · exact ⟨d, g1, g2, (h.inside_group hi he g1).1 ((g3 _ (by simp)).1 (ha.group hi)), fun c hc => g3 _ (List.mem_cons_of_mem _ (List.mem_map.2 ⟨c, hc, rfl⟩))⟩

/-- An area beside an outline is inside of what all of the outline is inside of. -/
theorem beside_edge (h : Finished polys r) {i : ℕ} {c : Contour ℝ} (hi : r.contours[i]? = some c) {d e : Pt ℝ × Pt ℝ} (hb : Beside polys r i c d) (he : e ∈ closedEdges c.points)
    {X : Polygon ℝ} (hX : X ∈ guides polys r) : InsideLeft X d ↔ InsideLeft X e := by
  obtain ⟨_, d', hg, h2⟩ := hb
  obtain ⟨j, cj, w, hj, hdj⟩ := (group_edges hi).1 hg
  rw [h2 X hX]
  exact h.family (h.fits_guides hX) w hi hj he hdj

theorem area_flags (h : Finished polys r) (hq : ∀ d, Drawn polys d → ¬ OnSegment d q) (hf : PointFlags polys q f) {i : ℕ} (ha : InArea r i q) : FlagsOk polys f := by
  obtain ⟨c, hi, _⟩ := ha.inside
  obtain ⟨d, h1, h2, ⟨⟨f', hf', ho⟩, _⟩, _⟩ := h.area_edge hq hi ha
  rw [wanted_congr h.planar (fun _ _ => Iff.rfl) (h.flags_area hf h1 h2) hf']
  exact ho

theorem area_label (h : Finished polys r) (hq : ∀ d, Drawn polys d → ¬ OnSegment d q) {i : ℕ} {c : Contour ℝ} (hi : r.contours[i]? = some c) (ha : InArea r i q)
    {m : ℕ} {p : Polygon ℝ × PolygonMode} (hp : polys[m]? = some p) (hk : p.2 ≠ .removeEdges) : c.from_polygons[m]? = some true ↔ p.1.evenOdd q := by
  obtain ⟨d, h1, h2, h3, _⟩ := h.area_edge hq hi ha
  have hc := List.mem_of_getElem? hi
  have hpK : p ∈ keptPolygons polys := List.mem_filter.2 ⟨List.mem_of_getElem? hp, by simpa using hk⟩
  have hX : p.1 ∈ guides polys r := List.mem_append_right _ (List.mem_map.2 ⟨p, hpK, rfl⟩)
  rw [(h.res.labels c hc).2, h2 p (List.mem_of_getElem? hp)]
  constructor
  · rintro ⟨e, he, f, hf, hm⟩
    exact (h.beside_edge hi h3 he hX).2 ((insideLeft_area hf hp).1 hm)
  · intro hin
    obtain ⟨e, he⟩ := h.exists_edge hc
    obtain ⟨f, hf⟩ := EdgesAlike.exists_area h.planar (drawn_kept ((h.wellDrawn hc).drawn e he))
    exact ⟨e, he, f, hf, (insideLeft_area hf hp).2 ((h.beside_edge hi h3 he hX).1 hin)⟩

theorem area_exists (h : Finished polys r) (hq : ∀ d, Drawn polys d → ¬ OnSegment d q) (hf : PointFlags polys q f) (ho : FlagsOk polys f) : ∃ i, InArea r i q := by
  have hX : ∀ X ∈ r.contours.map only, Fits polys X := by
    intro X hX
    obtain ⟨c', hc, rfl⟩ := List.mem_map.1 hX
    exact fits_kept (h.fits_outline hc)
  rcases h.beside hq _ hX with ⟨g, _⟩ | ⟨d, g1, g2, g3⟩
  · exfalso
    obtain ⟨_, ht, _⟩ := ho
    obtain ⟨m, hm⟩ := List.mem_iff_getElem?.1 ht
    have hl : m < polys.length := by have := (List.getElem?_eq_some_iff.1 hm).1; rw [hf.1] at this; exact this
    have hp : polys[m]? = some polys[m] := List.getElem?_eq_getElem hl
    exact g _ (List.mem_of_getElem? hp) ((hf.2 m _ hp).1 hm)
  · obtain ⟨i, c, hi, he, hb⟩ := h.exists_beside g1 ⟨f, h.flags_area hf g1 g2, ho⟩
    have hon : ∀ c ∈ r.contours, InsideOutline c q ↔ InsideLeft (only c) d := fun c hc => g3 _ (List.mem_map.2 ⟨c, hc, rfl⟩)
    have hc := List.mem_of_getElem? hi
    obtain ⟨e, hee⟩ := h.exists_edge hc
    refine ⟨i, ⟨c, hi, he, (hon c hc).2 ((h.beside_edge hi hb hee (only_guides hc)).2 ((h.inside hc hee).2 he))⟩, ?_⟩
    intro k ck hw hk hin
    have hck := List.mem_of_getElem? hk
    obtain ⟨e', hee'⟩ := h.exists_edge hck
    have h1 := (hon ck hck).1 hin
    rw [h.beside_edge hi hb hee (only_guides hck), ← h.within (h.fits_outline hck) hw hi hk hee hee', h.inside hck hee', h.not_external hw hk] at h1
    exact Bool.false_ne_true h1

theorem area_unique (h : Finished polys r) (hq : ∀ d, Drawn polys d → ¬ OnSegment d q) {i j : ℕ} (hi : InArea r i q) (hj : InArea r j q) : i = j := by
  obtain ⟨c, i1, i2, i3⟩ := hi.inside
  obtain ⟨c', j1, j2, j3⟩ := hj.inside
  obtain ⟨d, h1, h2, h3, h4⟩ := h.area_edge hq i1 hi
  obtain ⟨d', h1', h2', h3', h4'⟩ := h.area_edge hq j1 hj
  have hc := List.mem_of_getElem? i1
  have hc' := List.mem_of_getElem? j1
  obtain ⟨e, he⟩ := h.exists_edge hc
  obtain ⟨e', he'⟩ := h.exists_edge hc'
  refine h.root_unique i1 j1 i2 j2 he he' ?_ ?_
  · rw [← h.beside_edge i1 h3 he (only_guides hc')]
    exact (h4 _ hc').1 j3
  · rw [← h.beside_edge j1 h3' he' (only_guides hc)]
    exact (h4' _ hc).1 i3

end Finished

theorem off_drawn (hq : ∀ e ∈ allEdges polys, ¬ OnSegment e q) : ∀ d, Drawn polys d → ¬ OnSegment d q := by
  intro d hd hon
  rcases hd.2 with h | h
  · exact hq d h hon
  · exact hq _ h (on_swap hon)

theorem finished (hl : lib.Lawful) (hP : Planar polys) (hR : Removable polys) {op : BooleanOpType} {fuel : ℕ}
    (hfuel : 2 * (allCorners polys).length < fuel) (hr : compute lib fuel polys op = .ok r) : Finished polys r :=
  res_of hP hR (compute_isResult hl hP hR hfuel hr)

/-- **C88.** A point that is on none of the edges is in one area of the result, and in no other, if it is inside of a polygon and of none
whose interior is to be removed. -/
theorem C88_in_one_area (hl : lib.Lawful) (hP : Planar polys) (hR : Removable polys) {op : BooleanOpType} {fuel : ℕ}
    (hfuel : 2 * (allCorners polys).length < fuel) (hr : compute lib fuel polys op = .ok r) (hq : ∀ e ∈ allEdges polys, ¬ OnSegment e q)
    (hf : PointFlags polys q f) (ho : FlagsOk polys f) : ∃! i, InArea r i q := by
  have h := finished hl hP hR hfuel hr
  obtain ⟨i, hi⟩ := h.area_exists (off_drawn hq) hf ho
  exact ⟨i, hi, fun j hj => h.area_unique (off_drawn hq) hj hi⟩

/-- **C88.** Otherwise it is in none. -/
theorem C88_in_no_area (hl : lib.Lawful) (hP : Planar polys) (hR : Removable polys) {op : BooleanOpType} {fuel : ℕ}
    (hfuel : 2 * (allCorners polys).length < fuel) (hr : compute lib fuel polys op = .ok r) (hq : ∀ e ∈ allEdges polys, ¬ OnSegment e q)
    (hf : PointFlags polys q f) (ho : ¬ FlagsOk polys f) (i : ℕ) : ¬ InArea r i q :=
  fun hi => ho ((finished hl hP hR hfuel hr).area_flags (off_drawn hq) hf hi)

/-- **C88.** The label of the area a point is in says which polygons it is inside of, except for those whose edges were to be removed. -/
theorem C88_label (hl : lib.Lawful) (hP : Planar polys) (hR : Removable polys) {op : BooleanOpType} {fuel : ℕ}
    (hfuel : 2 * (allCorners polys).length < fuel) (hr : compute lib fuel polys op = .ok r) (hq : ∀ e ∈ allEdges polys, ¬ OnSegment e q)
    {i : ℕ} {c : Contour ℝ} (hi : InArea r i q) (hc : r.contours[i]? = some c) {m : ℕ} {p : Polygon ℝ × PolygonMode} (hp : polys[m]? = some p) (hm : p.2 ≠ .removeEdges) :
    c.from_polygons[m]? = some true ↔ p.1.evenOdd q :=
  (finished hl hP hR hfuel hr).area_label (off_drawn hq) hc hi hp hm

/-- **C88.** If there are none of those, the label is the list of the polygons the point is inside of. -/
theorem C88_whole_label (hl : lib.Lawful) (hP : Planar polys) (hm : ∀ p ∈ polys, p.2 ≠ .removeEdges) {op : BooleanOpType} {fuel : ℕ}
    (hfuel : 2 * (allCorners polys).length < fuel) (hr : compute lib fuel polys op = .ok r) (hq : ∀ e ∈ allEdges polys, ¬ OnSegment e q)
    {i : ℕ} {c : Contour ℝ} (hi : InArea r i q) (hc : r.contours[i]? = some c) : PointFlags polys q c.from_polygons := by
  have h := finished hl hP (removable_of hm) hfuel hr
  exact ⟨(h.res.labels c (List.mem_of_getElem? hc)).1, fun j p hp => h.area_label (off_drawn hq) hc hi hp (hm p (List.mem_of_getElem? hp))⟩

/-- **C88.** With normal polygons only, the areas together are the union of the polygons. -/
theorem C88_union (hl : lib.Lawful) (hP : Planar polys) (hm : ∀ p ∈ polys, p.2 = .normal) {op : BooleanOpType} {fuel : ℕ}
    (hfuel : 2 * (allCorners polys).length < fuel) (hr : compute lib fuel polys op = .ok r) (hq : ∀ e ∈ allEdges polys, ¬ OnSegment e q) :
    (∃ i, InArea r i q) ↔ ∃ p ∈ polys, p.1.evenOdd q := by
  have hm' : ∀ p ∈ polys, p.2 ≠ .removeEdges := fun p hp => by rw [hm p hp]; decide
  obtain ⟨f, hf⟩ := exists_pointFlags polys q
  constructor
  · rintro ⟨i, hi⟩
    obtain ⟨_, ht, _⟩ := (finished hl hP (removable_of hm') hfuel hr).area_flags (off_drawn hq) hf hi
    obtain ⟨m, hm⟩ := List.mem_iff_getElem?.1 ht
    have hl : m < polys.length := by have := (List.getElem?_eq_some_iff.1 hm).1; rw [hf.1] at this; exact this
    have hp : polys[m]? = some polys[m] := List.getElem?_eq_getElem hl
    exact ⟨_, List.mem_of_getElem? hp, (hf.2 m _ hp).1 hm⟩
  · rintro ⟨p, hp, hin⟩
    obtain ⟨m, hpm⟩ := List.mem_iff_getElem?.1 hp
    refine (C88_in_one_area hl hP (removable_of hm') hfuel hr hq hf ⟨hf.1, List.mem_of_getElem? ((hf.2 m p hpm).2 hin), ?_⟩).exists
    intro i poly mode h1 _
    have := hm _ (List.mem_of_getElem? h1)
    dsimp only at this
    rw [this]
    decide

/-! ### Polygons that cross -/

theorem Crossed.pointFlags (h : Crossed polys polys') (hf : PointFlags polys q f) : PointFlags polys' q f := by
  refine ⟨hf.1.trans h.length.symm, fun j p' hp' => ?_⟩
  obtain ⟨p, hp⟩ : ∃ p, polys[j]? = some p := ⟨_, List.getElem?_eq_getElem (by rw [← h.length]; exact (List.getElem?_eq_some_iff.1 hp').1)⟩
  rw [hf.2 j p hp, (h.get hp hp').2]

theorem Crossed.off (h : Crossed polys polys') (hq : ∀ e ∈ allEdges polys, ¬ OnSegment e q) : ∀ e ∈ allEdges polys', ¬ OnSegment e q := by
  intro d hd hon
  obtain ⟨e, he, h1, h2⟩ := h.whole_edge hd
  exact hq e he (on_part h1 h2 hon)

theorem crossed_finished (hl : lib.Lawful) (hs : lib.SearchHonest) (hC : Crossed polys polys') (hR : Removable polys') {op : BooleanOpType} {fuel : ℕ}
    (hfuel : 5 * (allCorners polys').length < fuel) (hr : compute lib fuel polys op = .ok r) : Finished polys' r := by
  rw [C84_same_run hl hs hC op hfuel] at hr
  exact finished hl hC.planar hR (by omega) hr

/-- **C88.** A point on no edge of crossing polygons is in one area of the result, and in no other, if it is inside of a polygon and of none whose interior is
to be removed. -/
theorem C88_crossed_in_one_area (hl : lib.Lawful) (hs : lib.SearchHonest) (hC : Crossed polys polys') (hR : Removable polys') {op : BooleanOpType} {fuel : ℕ}
    (hfuel : 5 * (allCorners polys').length < fuel) (hr : compute lib fuel polys op = .ok r) (hq : ∀ e ∈ allEdges polys, ¬ OnSegment e q)
    (hf : PointFlags polys q f) (ho : FlagsOk polys f) : ∃! i, InArea r i q := by
  rw [C84_same_run hl hs hC op hfuel] at hr
  exact C88_in_one_area hl hC.planar hR (by omega) hr (hC.off hq) (hC.pointFlags hf) (hC.flagsOk.2 ho)

/-- **C88.** Otherwise it is in none. -/
theorem C88_crossed_in_no_area (hl : lib.Lawful) (hs : lib.SearchHonest) (hC : Crossed polys polys') (hR : Removable polys') {op : BooleanOpType} {fuel : ℕ}
    (hfuel : 5 * (allCorners polys').length < fuel) (hr : compute lib fuel polys op = .ok r) (hq : ∀ e ∈ allEdges polys, ¬ OnSegment e q)
    (hf : PointFlags polys q f) (ho : ¬ FlagsOk polys f) (i : ℕ) : ¬ InArea r i q := by
  rw [C84_same_run hl hs hC op hfuel] at hr
  exact C88_in_no_area hl hC.planar hR (by omega) hr (hC.off hq) (hC.pointFlags hf) (fun g => ho (hC.flagsOk.1 g)) i

/-- **C88.** The label of the area a point is in says which polygons it is inside of. -/
theorem C88_crossed_label (hl : lib.Lawful) (hs : lib.SearchHonest) (hC : Crossed polys polys') (hR : Removable polys') {op : BooleanOpType} {fuel : ℕ}
    (hfuel : 5 * (allCorners polys').length < fuel) (hr : compute lib fuel polys op = .ok r) (hq : ∀ e ∈ allEdges polys, ¬ OnSegment e q)
    {i : ℕ} {c : Contour ℝ} (hi : InArea r i q) (hc : r.contours[i]? = some c) {m : ℕ} {p : Polygon ℝ × PolygonMode} (hp : polys[m]? = some p) (hm : p.2 ≠ .removeEdges) :
    c.from_polygons[m]? = some true ↔ p.1.evenOdd q := by
  rw [C84_same_run hl hs hC op hfuel] at hr
  obtain ⟨p', hp'⟩ : ∃ p', polys'[m]? = some p' := ⟨_, List.getElem?_eq_getElem (by rw [hC.length]; exact (List.getElem?_eq_some_iff.1 hp).1)⟩
  have hg := hC.get hp hp'
  rw [C88_label hl hC.planar hR (by omega) hr (hC.off hq) hi hc hp' (by rw [hg.1]; exact hm), hg.2]

/-- **C88.** If no edges are to be left out, it is the list of the polygons the point is inside of. -/
theorem C88_crossed_whole_label (hl : lib.Lawful) (hs : lib.SearchHonest) (hC : Crossed polys polys') (hm : ∀ p ∈ polys, p.2 ≠ .removeEdges) {op : BooleanOpType} {fuel : ℕ}
    (hfuel : 5 * (allCorners polys').length < fuel) (hr : compute lib fuel polys op = .ok r) (hq : ∀ e ∈ allEdges polys, ¬ OnSegment e q)
    {i : ℕ} {c : Contour ℝ} (hi : InArea r i q) (hc : r.contours[i]? = some c) : PointFlags polys q c.from_polygons := by
  have h := crossed_transfer hl hs hC hm hfuel hr
  have h1 := C88_whole_label hl hC.planar (hC.modes (P := fun m => m ≠ .removeEdges) hm) h.1 h.2 (hC.off hq) hi hc
  refine ⟨h1.1.trans hC.length, fun j p hp => ?_⟩
  obtain ⟨p', hp'⟩ : ∃ p', polys'[j]? = some p' := ⟨_, List.getElem?_eq_getElem (by rw [hC.length]; exact (List.getElem?_eq_some_iff.1 hp).1)⟩
  rw [h1.2 j p' hp', (hC.get hp hp').2]

end Idc
