import Verif.Props.RedrawnDouble
/-!
# From double precision back to exact arithmetic
-/

namespace Idc

open FloatOps

section

variable {F : Type} [FloatOps F]

theorem traceContour_steps {included : List (Nat × SegmentEnd)} {id : Nat} {start : Pt F} : ∀ {fuel : Nat} {A A' : Arena F} {c c' : Contour F} {cur cur' : Nat},
    traceContour included id start fuel A c cur = .ok (A', c', cur') → c'.points.length < c.points.length + fuel
  | 0, _, _, _, _, _, _, h => nomatch h
  | fuel + 1, A, A', c, c', cur, cur', h => by
    unfold traceContour at h
    obtain ⟨⟨seg, e⟩, _, h⟩ := Res.bind_eq_ok h
    obtain ⟨s, _, h⟩ := Res.bind_eq_ok h
    dsimp only at h
    obtain ⟨fp, _, h⟩ := Res.bind_eq_ok h
    obtain ⟨A1, _, h⟩ := Res.bind_eq_ok h
    split at h
    · cases h
      show c.points.length < c.points.length + (fuel + 1)
      omega
    · obtain ⟨next, _, h⟩ := Res.bind_eq_ok h
      have := traceContour_steps h
      simp only [Contour.add, List.length_append, List.length_singleton] at this
      omega

theorem modifyContour_keeps {cs cs' : List (Contour F)} {i : Nat} {f : Contour F → Res (Contour F)} (hf : ∀ c c', f c = .ok c' → c'.points = c.points)
    (h : modifyContour cs i f = .ok cs') : cs'.map (·.points) = cs.map (·.points) := by
  unfold modifyContour at h
  obtain ⟨c0, h0, h⟩ := Res.bind_eq_ok h
  obtain ⟨c1, h1, h⟩ := Res.bind_eq_ok h
  cases h
  rw [List.map_set, hf _ _ h1]
  exact map_set_again (fun c : Contour F => c.points) (a := c0) (index_eq_ok h0)

theorem traceStep_steps {fuel : Nat} {included : List (Nat × SegmentEnd)} {A A' : Arena F} {cs cs' : List (Contour F)} {e : Nat × SegmentEnd}
    (h : traceStep fuel included A cs e = .ok (A', cs')) (hc : ∀ ps ∈ cs.map (·.points), ps.length ≤ fuel) : ∀ ps ∈ cs'.map (·.points), ps.length ≤ fuel := by
  unfold traceStep at h
  obtain ⟨s, _, h⟩ := Res.bind_eq_ok h
  split at h
  · cases h
    exact hc
  · dsimp only at h
    obtain ⟨⟨A1, c, last⟩, h1, h⟩ := Res.bind_eq_ok h
    have hl := traceContour_steps h1
    dsimp only at h
    obtain ⟨⟨cw, c1⟩, h2, h⟩ := Res.bind_eq_ok h
    have e1 : c1.points = c.points := by
      unfold Contour.clockwise at h2
      split at h2
      · cases h2; rfl
      · obtain ⟨a, _, h2⟩ := Res.bind_eq_ok h2
        cases h2
        rfl
    have hn : ∀ ps ∈ (cs ++ [c1]).map (·.points), ps.length ≤ fuel := by
      intro ps hps
      rw [List.map_append, List.mem_append] at hps
      rcases hps with hps | hps
      · exact hc ps hps
      · rw [List.map_singleton, List.mem_singleton] at hps
        subst hps
        rw [e1]
        simp only [Contour.add, Contour.new, List.nil_append, List.length_singleton] at hl
        omega
    dsimp only at h
    split at h
    · obtain ⟨⟨seg, _⟩, _, h⟩ := Res.bind_eq_ok h
      obtain ⟨s', _, h⟩ := Res.bind_eq_ok h
      split at h
      · obtain ⟨below, _, h⟩ := Res.bind_eq_ok h
        obtain ⟨parent, _, h⟩ := Res.bind_eq_ok h
        obtain ⟨cs1, h3, h⟩ := Res.bind_eq_ok h
        obtain ⟨cs2, h4, h⟩ := Res.bind_eq_ok h
        cases h
        rw [modifyContour_keeps (fun c c' e => by cases e; rfl) h4, modifyContour_keeps (fun c c' e => by cases e; rfl) h3]
        exact hn
      · cases h
        exact hn
    · cases h
      exact hn

theorem traceAll_steps {fuel : Nat} {included : List (Nat × SegmentEnd)} : ∀ {l : List (Nat × SegmentEnd)} {A A' : Arena F} {cs cs' : List (Contour F)},
    traceAll fuel included l A cs = .ok (A', cs') → (∀ ps ∈ cs.map (·.points), ps.length ≤ fuel) → ∀ ps ∈ cs'.map (·.points), ps.length ≤ fuel
  | [], _, _, _, _, h, hc => by cases h; exact hc
  | e :: l, A, A', cs, cs', h, hc => by
    unfold traceAll at h
    obtain ⟨⟨A1, cs1⟩, h1, h⟩ := Res.bind_eq_ok h
    exact traceAll_steps h (traceStep_steps h1 hc)

/-- An outline has no more corners than there were steps. -/
theorem compute_steps {lib : Lib} {fuel : Nat} {polys : List (Polygon F × PolygonMode)} {op : BooleanOpType} {r : Polygon F} (h : compute lib fuel polys op = .ok r) :
    ∀ c ∈ r.contours, c.points.length ≤ fuel := by
  unfold compute at h
  dsimp only at h
  obtain ⟨st, _, h⟩ := Res.bind_eq_ok h
  obtain ⟨st2, _, h⟩ := Res.bind_eq_ok h
  obtain ⟨⟨segs, ends⟩, _, h⟩ := Res.bind_eq_ok h
  obtain ⟨_, _, h⟩ := Res.bind_eq_ok h
  obtain ⟨included, _, h⟩ := Res.bind_eq_ok h
  obtain ⟨A, _, h⟩ := Res.bind_eq_ok h
  obtain ⟨⟨A2, cs⟩, h1, h⟩ := Res.bind_eq_ok h
  dsimp only at h
  obtain ⟨cs', h2, h⟩ := Res.bind_eq_ok h
  cases h
  intro c hc
  refine traceAll_steps h1 (fun ps hps => by cases hps) c.points ?_
  have := assignNeighbors_points _ h2
  rw [List.map_map] at this
  have e : cs'.map (·.points) = cs.map (·.points) := this
  rw [← e]
  exact List.mem_map.2 ⟨c, hc, rfl⟩

end

variable {F : Type} [FloatOps F] [Double F]

open Plan in
theorem SharpPlan.ends_ne {lib : Lib} (hl : lib.Lawful) {polys : List (Polygon ℤ × PolygonMode)} (hP : Planar (asPolygons ℝ polys)) (st : SweepState ℤ)
    (hst : addPolygons lib polys.length 0 (asPolygons ℝ polys) ⟨[], [], [], []⟩ = .ok (asState ℝ st)) : ∀ s ∈ st.arena, s.left_point ≠ s.right_point := by
  have hlen : (asPolygons ℝ polys).length = polys.length := List.length_map ..
  obtain ⟨Heap, hh⟩ := hl.heapOk
  obtain ⟨st', e1, h1⟩ := addPolygons_plan (hP := hP) hh (asPolygons ℝ polys) 0 [] ⟨[], [], [], []⟩ (fun k => by rw [Nat.zero_add]) rfl (Plan.loaded_nil hh)
  rw [hlen, hst] at e1
  cases e1
  have hA : st.arena.length = (listed 0 (asPolygons ℝ polys)).length := by
    rw [← h1.length]
    exact (List.length_map ..).symm
  intro s hs e
  obtain ⟨i, h⟩ := List.getElem?_of_mem hs
  have hi : i < (listed 0 (asPolygons ℝ polys)).length := hA ▸ (List.getElem?_eq_some_iff.1 h).1
  obtain ⟨s', mode, e', his, _⟩ := h1.seg i hi
  have e' : (st.arena.map (asSeg ℝ))[i]? = some s' := e'
  rw [List.getElem?_map, h] at e'
  cases e'
  have w := ((ofPolys _ hP).wf i (Finset.mem_range.2 hi)).ne
  rw [← his.left, ← his.right] at w
  exact w (congrArg (asPt ℝ) e)

theorem Quiet.back {A : Arena ℤ} (h : Quiet ℝ F A) (hne : ∀ s ∈ A, s.left_point ≠ s.right_point) : Quiet F ℝ A where
  small := h.small
  meets i j s t h1 h2 h3 := (h.meets i j s t h1 h2 h3).imp And.symm And.symm
  self s hs := Double.intersect_same (F := F) (h.small s hs).left (h.small s hs).right fun e => hne s hs (sPt_inj e)
  numbered := h.numbered
  turn i j k c s u d e e' h1 h2 h3 h4 h5 h6 h7 h8 := (h.turn i j k c s u d e e' h1 h2 h3 h4 h5 h6 h7 h8).symm

/-- If there is a result in double precision, there is one in exact arithmetic, and it is the same. -/
theorem real_of_double {lib : Lib} (hl : lib.Lawful) {polys : List (Polygon ℤ × PolygonMode)} (hP : Planar (asPolygons ℝ polys)) (hS : SharpPlan (asPolygons ℝ polys))
    {op : BooleanOpType} {fuel : ℕ} (hf : fuel ≤ 2 ^ 21) {r : Polygon F} (hr : compute lib fuel (asPolygons F polys) op = .ok r) :
    ∃ z, r = asPolygon F z ∧ compute lib fuel (asPolygons ℝ polys) op = .ok (asPolygon ℝ z) := by
  obtain ⟨z, _, e1, e2⟩ := sim_compute_both (E := F) (F := ℝ) lib fuel polys op hS.smallC
    (fun st _ hst hs => (hS.quiet hl hP st hst hs).back (SharpPlan.ends_ne hl hP st hst)) (fun r hr c hc => (compute_steps hr c hc).trans hf) r hr
  exact ⟨z, e1, e2⟩

/-- **C85 in double precision, when there is a result.** For whole coordinates as in a map and a bit of room at the angles: there is a result in double precision exactly
if what `compute` has to return exists, that is, if no outline is an orphan; and then it is that, coordinate by coordinate. -/
theorem C85_double_iff {lib : Lib} (hl : lib.Lawful) {polys : List (Polygon ℤ × PolygonMode)} (hP : Planar (asPolygons ℝ polys)) (hS : SharpPlan (asPolygons ℝ polys))
    (hR : Removable (asPolygons ℝ polys)) (op : BooleanOpType) {fuel : ℕ} (hf : 2 * (allCorners (asPolygons ℝ polys)).length < fuel) (hf' : fuel ≤ 2 ^ 21) (z : Polygon ℤ) :
    (IsResult (asPolygons ℝ polys) (asPolygon ℝ z) → compute lib fuel (asPolygons F polys) op = .ok (asPolygon F z)) ∧
    ((∃ r, compute lib fuel (asPolygons F polys) op = .ok r) ↔ ∃ r, IsResult (asPolygons ℝ polys) r) := by
  refine ⟨fun h => ?_, ?_, ?_⟩
  · obtain ⟨z', e, h'⟩ := double_of_result (F := F) hl hP hS hR h op hf
    rw [h', asPolygon_inj e]
  · rintro ⟨r, hr⟩
    obtain ⟨z, _, h⟩ := real_of_double hl hP hS hf' hr
    exact ⟨_, compute_isResult hl hP hR hf h⟩
  · rintro ⟨r, hr⟩
    obtain ⟨z, _, h⟩ := double_of_result (F := F) hl hP hS hR hr op hf
    exact ⟨_, h⟩

end Idc
