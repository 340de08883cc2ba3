import Verif.Props.CutSetup
import Verif.Props.PlanHoles
/-!
# C84: what `compute` does to outlines that cross
-/

namespace Idc

/-! ### The pieces of an edge, and the even-odd rule -/

open Classical in
theorem Pieces.count {a b : Pt ℝ} {l : List (Pt ℝ × Pt ℝ)} (h : Pieces a b l) (v : Pt ℝ) :
    l.countP (fun e => decide (CrossesBelow v e)) = if CrossesBelow v (a, b) then 1 else 0 := by
  induction h with
  | whole a b => rw [List.countP_cons, List.countP_nil]; simp
  | @step a b c l hc ha hb hl ih =>
    rw [List.countP_cons, ih]
    obtain ⟨t, t0, t1, hx, hy⟩ := on_param hc ha hb
    simp only [decide_eq_true_iff]
    have key : (CrossesBelow v (a, b) ↔ CrossesBelow v (a, c) ∨ CrossesBelow v (c, b)) ∧ ¬ (CrossesBelow v (a, c) ∧ CrossesBelow v (c, b)) := by
      unfold CrossesBelow
      dsimp only
      rcases lt_trichotomy a.x b.x with h | h | h
      · have h1 : a.x < c.x := by nlinarith
        have h2 : c.x < b.x := by nlinarith
        have e1 : (c.y - a.y) / (c.x - a.x) = (b.y - a.y) / (b.x - a.x) := by
          rw [div_eq_div_iff (by linarith) (by linarith), hx, hy]; ring
        have e2 : (b.y - c.y) / (b.x - c.x) = (b.y - a.y) / (b.x - a.x) := by
          rw [div_eq_div_iff (by linarith) (by linarith), hx, hy]; ring
        have e3 : c.y + (v.x - c.x) * ((b.y - a.y) / (b.x - a.x)) = a.y + (v.x - a.x) * ((b.y - a.y) / (b.x - a.x)) := by
          have : b.x - a.x ≠ 0 := by linarith
          rw [hx, hy]; field_simp; ring
        rw [e1, e2, e3, min_eq_left h.le, max_eq_right h.le, min_eq_left h1.le, max_eq_right h1.le, min_eq_left h2.le, max_eq_right h2.le]
        constructor
        · constructor
          · rintro ⟨k1, k2, k3⟩
            rcases lt_or_ge v.x c.x with k | k
            · exact Or.inl ⟨k1, k, k3⟩
            · exact Or.inr ⟨k, k2, k3⟩
          · rintro (⟨k1, k2, k3⟩ | ⟨k1, k2, k3⟩)
            · exact ⟨k1, by linarith, k3⟩
            · exact ⟨by linarith, k2, k3⟩
        · rintro ⟨⟨_, k, _⟩, ⟨k', _⟩⟩; linarith
      · have h1 : c.x = a.x := by rw [hx, ← h]; ring
        rw [h1, ← h, min_self, max_self]
        constructor
        · constructor
          · rintro ⟨k1, k2, _⟩; linarith
          · rintro (⟨k1, k2, _⟩ | ⟨k1, k2, _⟩) <;> linarith
        · rintro ⟨⟨k1, k2, _⟩, _⟩; linarith
      · have h1 : c.x < a.x := by nlinarith
        have h2 : b.x < c.x := by nlinarith
        have e1 : (c.y - a.y) / (c.x - a.x) = (b.y - a.y) / (b.x - a.x) := by
          rw [div_eq_div_iff (by linarith) (by linarith), hx, hy]; ring
        have e2 : (b.y - c.y) / (b.x - c.x) = (b.y - a.y) / (b.x - a.x) := by
          rw [div_eq_div_iff (by linarith) (by linarith), hx, hy]; ring
        have e3 : c.y + (v.x - c.x) * ((b.y - a.y) / (b.x - a.x)) = a.y + (v.x - a.x) * ((b.y - a.y) / (b.x - a.x)) := by
          have : b.x - a.x ≠ 0 := by linarith
          rw [hx, hy]; field_simp; ring
        rw [e1, e2, e3, min_eq_right h.le, max_eq_left h.le, min_eq_right h1.le, max_eq_left h1.le, min_eq_right h2.le, max_eq_left h2.le]
        constructor
        · constructor
          · rintro ⟨k1, k2, k3⟩
            rcases lt_or_ge v.x c.x with k | k
            · exact Or.inr ⟨k1, k, k3⟩
            · exact Or.inl ⟨k, k2, k3⟩
          · rintro (⟨k1, k2, k3⟩ | ⟨k1, k2, k3⟩)
            · exact ⟨by linarith, k2, k3⟩
            · exact ⟨k1, by linarith, k3⟩
        · rintro ⟨⟨k, _⟩, ⟨_, k', _⟩⟩; linarith
    by_cases p1 : CrossesBelow v (a, c) <;> by_cases p2 : CrossesBelow v (c, b) <;> simp [key.1, p1, p2] at key ⊢

open Classical in
theorem pieces_count {es : List (Pt ℝ × Pt ℝ)} {ds : List (List (Pt ℝ × Pt ℝ))} (h : List.Forall₂ (fun e d => Pieces e.1 e.2 d) es ds) (v : Pt ℝ) :
    ds.flatten.countP (fun e => decide (CrossesBelow v e)) = es.countP fun e => decide (CrossesBelow v e) := by
  induction h with
  | nil => rfl
  | cons h1 _ ih =>
    rw [List.flatten_cons, List.countP_append, List.countP_cons, ih, h1.count v, add_comm]
    simp

theorem subdivided_evenOdd {p p' : Polygon ℝ} (h : List.Forall₂ (fun c c' => Subdivided c.points c'.points) p.contours p'.contours) (v : Pt ℝ) :
    p'.evenOdd v ↔ p.evenOdd v := by
  classical
  unfold Polygon.evenOdd Polygon.edges
  have : (p'.contours.flatMap fun c => closedEdges c.points).countP (fun e => decide (CrossesBelow v e)) =
      (p.contours.flatMap fun c => closedEdges c.points).countP fun e => decide (CrossesBelow v e) := by
    generalize p.contours = l at h
    generalize p'.contours = l' at h
    induction h with
    | nil => rfl
    | cons h1 _ ih =>
      obtain ⟨ds, d1, d2⟩ := h1
      rw [List.flatMap_cons, List.flatMap_cons, List.countP_append, List.countP_append, ih, d2, pieces_count d1]
  rw [this]

variable {lib : Lib} {polys polys' : List (Polygon ℝ × PolygonMode)}

theorem Crossed.length (h : Crossed polys polys') : polys'.length = polys.length := h.refined.length_eq.symm

theorem Crossed.get (h : Crossed polys polys') {j : ℕ} {p p' : Polygon ℝ × PolygonMode} (hp : polys[j]? = some p) (hp' : polys'[j]? = some p') :
    p'.2 = p.2 ∧ ∀ v, p'.1.evenOdd v ↔ p.1.evenOdd v := by
  obtain ⟨h1, e1⟩ := List.getElem?_eq_some_iff.1 hp
  obtain ⟨h2, e2⟩ := List.getElem?_eq_some_iff.1 hp'
  have := (List.forall₂_iff_get.1 h.refined).2 j h1 h2
  rw [List.get_eq_getElem, List.get_eq_getElem, e1, e2] at this
  exact ⟨this.1, subdivided_evenOdd this.2⟩

theorem Crossed.area (h : Crossed polys polys') {d : Pt ℝ × Pt ℝ} {f : List Bool} : AreaLeft polys' d f ↔ AreaLeft polys d f := by
  unfold AreaLeft
  rw [h.length]
  have key : ∀ v, (∀ (j : Nat) (p : Polygon ℝ × PolygonMode), polys'[j]? = some p → (f[j]? = some true ↔ p.1.evenOdd v)) ↔
      ∀ (j : Nat) (p : Polygon ℝ × PolygonMode), polys[j]? = some p → (f[j]? = some true ↔ p.1.evenOdd v) := by
    intro v
    constructor
    · intro k j p hp
      obtain ⟨p', hp'⟩ : ∃ p', polys'[j]? = some p' := ⟨_, List.getElem?_eq_getElem (by rw [h.length]; exact (List.getElem?_eq_some_iff.1 hp).1)⟩
      rw [← (h.get hp hp').2 v]; exact k j p' hp'
    · intro k j p' hp'
      obtain ⟨p, hp⟩ : ∃ p, polys[j]? = some p := ⟨_, List.getElem?_eq_getElem (by rw [← h.length]; exact (List.getElem?_eq_some_iff.1 hp').1)⟩
      rw [(h.get hp hp').2 v]; exact k j p hp
  simp only [key]

theorem Crossed.flagsOk (h : Crossed polys polys') {f : List Bool} : FlagsOk polys' f ↔ FlagsOk polys f := by
  unfold FlagsOk
  rw [h.length]
  constructor
  · rintro ⟨h1, h2, h3⟩
    refine ⟨h1, h2, fun i poly mode hp ht => ?_⟩
    obtain ⟨p', hp'⟩ : ∃ p', polys'[i]? = some p' := ⟨_, List.getElem?_eq_getElem (by rw [h.length]; exact (List.getElem?_eq_some_iff.1 hp).1)⟩
    have := h3 i p'.1 p'.2 hp' ht
    rwa [(h.get hp hp').1] at this
  · rintro ⟨h1, h2, h3⟩
    refine ⟨h1, h2, fun i poly mode hp' ht => ?_⟩
    obtain ⟨p, hp⟩ : ∃ p, polys[i]? = some p := ⟨_, List.getElem?_eq_getElem (by rw [← h.length]; exact (List.getElem?_eq_some_iff.1 hp').1)⟩
    have := h3 i p.1 p.2 hp ht
    rwa [← (h.get hp hp').1] at this

theorem Crossed.modes (h : Crossed polys polys') {P : PolygonMode → Prop} (hm : ∀ p ∈ polys, P p.2) : ∀ p ∈ polys', P p.2 := by
  intro p' hp'
  obtain ⟨i, hi⟩ := List.getElem?_of_mem hp'
  obtain ⟨p, hp⟩ : ∃ p, polys[i]? = some p := ⟨_, List.getElem?_eq_getElem (by rw [← h.length]; exact (List.getElem?_eq_some_iff.1 hi).1)⟩
  rw [(h.get hp hi).1]
  exact hm p (List.mem_of_getElem? hp)

/-! ### The theorems -/

/-- **C84.** Where outlines cross, `compute` does what it does if the crossings are made corners first: it returns the same, or panics alike. -/
theorem C84_same_run (hl : lib.Lawful) (hs : lib.SearchHonest) (hC : Crossed polys polys') (op : BooleanOpType) {fuel : ℕ}
    (hfuel : 5 * (allCorners polys').length < fuel) : compute lib fuel polys op = compute lib fuel polys' op := compute_crossed hl hs hC op hfuel

/-- **C84.** If no edges are to be removed, it returns. -/
theorem C84_same_result (hl : lib.Lawful) (hs : lib.SearchHonest) (hC : Crossed polys polys') (hm : ∀ p ∈ polys, p.2 ≠ .removeEdges) (op : BooleanOpType) :
    ∃ r, ∀ fuel, 5 * (allCorners polys').length < fuel → compute lib fuel polys op = .ok r ∧ compute lib fuel polys' op = .ok r := by
  obtain ⟨r, h, _⟩ := C81_outlines hl hC.planar (hC.modes (P := fun m => m ≠ .removeEdges) hm) op
  exact ⟨r, fun fuel hf => ⟨by rw [C84_same_run hl hs hC op hf]; exact h fuel (by omega), h fuel (by omega)⟩⟩

theorem crossed_transfer (hl : lib.Lawful) (hs : lib.SearchHonest) (hC : Crossed polys polys') (hm : ∀ p ∈ polys, p.2 ≠ .removeEdges) {op : BooleanOpType}
    {fuel : ℕ} (hfuel : 5 * (allCorners polys').length < fuel) {r : Polygon ℝ} (hr : compute lib fuel polys op = .ok r) :
    2 * (allCorners polys').length < fuel ∧ compute lib fuel polys' op = .ok r := by
  obtain ⟨r', h⟩ := C84_same_result hl hs hC hm op
  obtain ⟨h1, h2⟩ := h fuel hfuel
  rw [h1] at hr
  cases hr
  exact ⟨by omega, h2⟩

/-- **C84.** `compute` returns; the result consists of exactly those pieces of edges, between corners and crossings, that have an area of the
result on their left, each once, and each outline is labelled with the polygons its area belongs to. -/
theorem C84_outlines (hl : lib.Lawful) (hs : lib.SearchHonest) (hC : Crossed polys polys') (hm : ∀ p ∈ polys, p.2 ≠ .removeEdges) (op : BooleanOpType) :
    ∃ r, (∀ fuel, 5 * (allCorners polys').length < fuel → compute lib fuel polys op = .ok r) ∧
      (∀ c ∈ r.contours, FlagsOk polys c.from_polygons ∧ ∀ d ∈ closedEdges c.points, Drawn polys' d ∧ AreaLeft polys d c.from_polygons) ∧
      (∀ d flags, Drawn polys' d → AreaLeft polys d flags → (d ∈ outlineEdges r ↔ FlagsOk polys flags)) ∧
      (outlineEdges r).Nodup := by
  obtain ⟨r, h⟩ := C84_same_result hl hs hC hm op
  obtain ⟨r', k1, k2, k3, k4⟩ := C81_outlines hl hC.planar (hC.modes (P := fun m => m ≠ .removeEdges) hm) op
  have e : r' = r := by
    have a := k1 (5 * (allCorners polys').length + 1) (by omega)
    rw [(h (5 * (allCorners polys').length + 1) (by omega)).2] at a
    exact (Res.ok.inj a).symm
  subst e
  refine ⟨r', fun fuel hf => (h fuel hf).1, ?_, ?_, k4⟩
  · intro c hc
    refine ⟨hC.flagsOk.1 (k2 c hc).1, fun d hd => ?_⟩
    obtain ⟨a, b⟩ := (k2 c hc).2 d hd
    exact ⟨a, hC.area.1 b⟩
  · intro d flags hd ha
    rw [← hC.flagsOk]
    exact k3 d flags hd (hC.area.2 ha)

/-- **C84.** At each corner or crossing an outline goes on along the first piece clockwise from where it came from. -/
theorem C84_turns (hl : lib.Lawful) (hs : lib.SearchHonest) (hC : Crossed polys polys') (hm : ∀ p ∈ polys, p.2 ≠ .removeEdges) {op : BooleanOpType}
    {fuel : ℕ} (hfuel : 5 * (allCorners polys').length < fuel) {r : Polygon ℝ} (hr : compute lib fuel polys op = .ok r) {c : Contour ℝ} (hc : c ∈ r.contours)
    {j : ℕ} {d d' : Pt ℝ × Pt ℝ} (hd : (closedEdges c.points)[j]? = some d) (hd' : (closedEdges c.points)[j + 1]? = some d') :
    d'.1 = d.2 ∧ d' ≠ d.swap ∧ ∀ u, Drawn polys' u → u.1 = d.2 → u ≠ d' → u ≠ d.swap → TurnsThrough u d' d.swap :=
  have h := crossed_transfer hl hs hC hm hfuel hr
  C81_turns hl hC.planar (hC.modes (P := fun m => m ≠ .removeEdges) hm) h.1 h.2 hc hd hd'

/-- **C84.** An outline starts at its leftmost corner, which it visits once. -/
theorem C84_start (hl : lib.Lawful) (hs : lib.SearchHonest) (hC : Crossed polys polys') (hm : ∀ p ∈ polys, p.2 ≠ .removeEdges) {op : BooleanOpType}
    {fuel : ℕ} (hfuel : 5 * (allCorners polys').length < fuel) {r : Polygon ℝ} (hr : compute lib fuel polys op = .ok r) {c : Contour ℝ} (hc : c ∈ r.contours) :
    ∃ v rest, c.points = v :: rest ∧ ∀ q ∈ rest, LeftOf v q :=
  have h := crossed_transfer hl hs hC hm hfuel hr
  C81_start hl hC.planar (hC.modes (P := fun m => m ≠ .removeEdges) hm) h.1 h.2 hc

/-- **C84.** Two outlines are neighbors exactly if they go along one piece in opposite directions. -/
theorem C84_neighbors (hl : lib.Lawful) (hs : lib.SearchHonest) (hC : Crossed polys polys') (hm : ∀ p ∈ polys, p.2 ≠ .removeEdges) {op : BooleanOpType}
    {fuel : ℕ} (hfuel : 5 * (allCorners polys').length < fuel) {r : Polygon ℝ} (hr : compute lib fuel polys op = .ok r) {i j : ℕ} {c c' : Contour ℝ}
    (hc : r.contours[i]? = some c) (hc' : r.contours[j]? = some c') :
    c.neighbors.length = r.contours.length ∧ (c.neighbors[j]? = some true ↔ ∃ d ∈ closedEdges c.points, d.swap ∈ closedEdges c'.points) :=
  have h := crossed_transfer hl hs hC hm hfuel hr
  C81_neighbors hl hC.planar (hC.modes (P := fun m => m ≠ .removeEdges) hm) h.1 h.2 hc hc'

/-- **C84.** Outlines come in the order of their leftmost corners and, there, counterclockwise. -/
theorem C84_order (hl : lib.Lawful) (hs : lib.SearchHonest) (hC : Crossed polys polys') (hm : ∀ p ∈ polys, p.2 ≠ .removeEdges) {op : BooleanOpType}
    {fuel : ℕ} (hfuel : 5 * (allCorners polys').length < fuel) {r : Polygon ℝ} (hr : compute lib fuel polys op = .ok r) {i j : ℕ} (hij : i < j) {c c' : Contour ℝ}
    (hc : r.contours[i]? = some c) (hc' : r.contours[j]? = some c') :
    ∃ d d', (closedEdges c.points).head? = some d ∧ (closedEdges c'.points).head? = some d' ∧ (LeftOf d.1 d'.1 ∨ d.1 = d'.1 ∧ 0 < cross2 d d') :=
  have h := crossed_transfer hl hs hC hm hfuel hr
  C81_order hl hC.planar (hC.modes (P := fun m => m ≠ .removeEdges) hm) h.1 h.2 hij hc hc'

/-- **C84.** An outline is external exactly if it goes counterclockwise. -/
theorem C84_external (hl : lib.Lawful) (hs : lib.SearchHonest) (hC : Crossed polys polys') (hm : ∀ p ∈ polys, p.2 ≠ .removeEdges) {op : BooleanOpType}
    {fuel : ℕ} (hfuel : 5 * (allCorners polys').length < fuel) {r : Polygon ℝ} (hr : compute lib fuel polys op = .ok r) {c : Contour ℝ} (hc : c ∈ r.contours) :
    (c.external = true ↔ 0 < signedArea2 c.points) ∧ (c.external = false ↔ signedArea2 c.points < 0) :=
  have h := crossed_transfer hl hs hC hm hfuel hr
  C81_external hl hC.planar (hC.modes (P := fun m => m ≠ .removeEdges) hm) h.1 h.2 hc

/-- **C84.** Clockwise outlines are recorded as holes, with the outline that goes from left to right along the next piece below, at their
leftmost corner. -/
theorem C84_holes (hl : lib.Lawful) (hs : lib.SearchHonest) (hC : Crossed polys polys') (hm : ∀ p ∈ polys, p.2 ≠ .removeEdges) {op : BooleanOpType}
    {fuel : ℕ} (hfuel : 5 * (allCorners polys').length < fuel) {r : Polygon ℝ} (hr : compute lib fuel polys op = .ok r) {i j : ℕ} {c h : Contour ℝ}
    (hc : r.contours[i]? = some c) (hh : r.contours[j]? = some h) :
    j ∈ c.holes ↔ signedArea2 h.points < 0 ∧ ∃ v b d, h.points.head? = some v ∧ h.points.getLast? = some b ∧ d ∈ closedEdges c.points ∧ NextBelow polys' (v, b) d :=
  have h := crossed_transfer hl hs hC hm hfuel hr
  C81_holes hl hC.planar (hC.modes (P := fun m => m ≠ .removeEdges) hm) h.1 h.2 hc hh

/-- **C84.** If all polygons are normal, no piece of an edge is lost. -/
theorem C84_edges_kept (hl : lib.Lawful) (hs : lib.SearchHonest) (hC : Crossed polys polys') (hm : ∀ p ∈ polys, p.2 = .normal) {op : BooleanOpType}
    {fuel : ℕ} (hfuel : 5 * (allCorners polys').length < fuel) {r : Polygon ℝ} (hr : compute lib fuel polys op = .ok r)
    {d : Pt ℝ × Pt ℝ} (hd : d ∈ allEdges polys') (hne : d.1 ≠ d.2) : d ∈ outlineEdges r ∨ d.swap ∈ outlineEdges r :=
  have hm' : ∀ p ∈ polys, p.2 ≠ .removeEdges := fun p hp => by rw [hm p hp]; decide
  have h := crossed_transfer hl hs hC hm' hfuel hr
  C81_edges_kept hl hC.planar (hC.modes (P := fun m => m = .normal) hm) h.1 h.2 hd hne

end Idc
