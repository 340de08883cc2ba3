import Verif.Props.Compute
/-!
# The lists of holes of a result are sorted, for C86
-/

namespace Idc

variable {F : Type} [FloatOps F]

open FloatOps

/-- What every contour of a result has: holes in increasing order, and its orientation. -/
structure HolesListed (n : Nat) (c : Contour F) : Prop where
  sorted : c.holes.Pairwise (· < ·)
  lt : ∀ h ∈ c.holes, h < n
  cw : ∃ area, areaOf c.points = .ok area ∧ c.is_clockwise = some (FloatOps.lt area (ofInt 0))

theorem traceContour_kept {included : List (Nat × SegmentEnd)} {id : Nat} {p : Pt F} : ∀ {fuel : Nat} {arena arena' : Arena F} {c c' : Contour F} {cur last : Nat},
    traceContour included id p fuel arena c cur = .ok (arena', c', last) → c'.holes = c.holes ∧ c'.is_clockwise = c.is_clockwise
  | 0, _, _, _, _, _, _, h => by cases h
  | fuel + 1, arena, arena', c, c', cur, last, h => by
    rw [traceContour] at h
    obtain ⟨⟨seg, e⟩, _, h⟩ := Res.bind_eq_ok h
    obtain ⟨s, _, h⟩ := Res.bind_eq_ok h
    obtain ⟨fp, _, h⟩ := Res.bind_eq_ok h
    obtain ⟨a1, _, h⟩ := Res.bind_eq_ok h
    dsimp only at h
    split at h
    · cases h
      exact ⟨rfl, rfl⟩
    · obtain ⟨nx, _, h⟩ := Res.bind_eq_ok h
      have := traceContour_kept h
      exact ⟨this.1, this.2⟩

theorem traceStep_kept {fuel : Nat} {included : List (Nat × SegmentEnd)} {arena arena' : Arena F} {cs cs' : List (Contour F)} {x : Nat × SegmentEnd}
    (h : traceStep fuel included arena cs x = .ok (arena', cs')) (hk : ∀ c ∈ cs, HolesListed cs.length c) : ∀ c ∈ cs', HolesListed cs'.length c := by
  unfold traceStep at h
  obtain ⟨s, _, h⟩ := Res.bind_eq_ok h
  split at h
  · cases h
    exact hk
  obtain ⟨⟨a1, c0, last⟩, h0, h⟩ := Res.bind_eq_ok h
  obtain ⟨e1, e2⟩ := traceContour_kept h0
  obtain ⟨⟨cw, c1⟩, h1, h⟩ := Res.bind_eq_ok h
  unfold Contour.clockwise at h1
  rw [e2, show ((({ (Contour.new : Contour F) with from_polygons := s.data.faces x.2 } : Contour F).add s.left_point).is_clockwise) = none from rfl] at h1
  dsimp only at h1
  obtain ⟨area, ha, h1⟩ := Res.bind_eq_ok h1
  cases h1
  have hc1 : ∀ n, HolesListed n ({ c0 with is_clockwise := some (FloatOps.lt area (ofInt 0)) } : Contour F) := fun n => by
    refine ⟨?_, ?_, area, ha, rfl⟩ <;> (dsimp only; rw [e1]; simp [Contour.new, Contour.add])
  have mono : ∀ {c : Contour F} {n m : Nat}, n ≤ m → HolesListed n c → HolesListed m c := fun hnm hc => ⟨hc.sorted, fun j hj => lt_of_lt_of_le (hc.lt j hj) hnm, hc.cw⟩
  have happ : ∀ c ∈ cs ++ [{ c0 with is_clockwise := some (FloatOps.lt area (ofInt 0)) }], HolesListed cs.length c := by
    intro c hc
    rcases List.mem_append.1 hc with hc | hc
    · exact hk c hc
    · rw [List.mem_singleton] at hc
      rw [hc]; exact hc1 _
  have hdone : ∀ c ∈ cs ++ [{ c0 with is_clockwise := some (FloatOps.lt area (ofInt 0)) }], HolesListed (cs ++ [{ c0 with is_clockwise := some (FloatOps.lt area (ofInt 0)) }]).length c :=
    fun c hc => mono (by simp) (happ c hc)
  dsimp only at h
  split at h
  · obtain ⟨⟨seg, e⟩, _, h⟩ := Res.bind_eq_ok h
    obtain ⟨s', _, h⟩ := Res.bind_eq_ok h
    split at h
    · obtain ⟨b, _, h⟩ := Res.bind_eq_ok h
      obtain ⟨par, _, h⟩ := Res.bind_eq_ok h
      obtain ⟨cs2, hcs2, h⟩ := Res.bind_eq_ok h
      obtain ⟨cs3, hcs3, h⟩ := Res.bind_eq_ok h
      cases h
      obtain ⟨cp, cp', hcp, hcp', rfl⟩ := modify_eq_ok hcs2
      cases hcp'
      obtain ⟨cj, cj', hcj, hcj', rfl⟩ := modify_eq_ok hcs3
      cases hcj'
      simp only [List.length_set]
      have h2 : ∀ c ∈ (cs ++ [{ c0 with is_clockwise := some (FloatOps.lt area (ofInt 0)) }]).set par (cp.addHole cs.length),
          HolesListed (cs ++ [{ c0 with is_clockwise := some (FloatOps.lt area (ofInt 0)) }]).length c := by
        intro c hc
        rcases List.mem_or_eq_of_mem_set hc with hc | rfl
        · exact hdone c hc
        · have := happ cp (List.mem_of_getElem? hcp)
          refine ⟨?_, ?_, this.cw⟩
          · show (cp.holes ++ [cs.length]).Pairwise _
            rw [List.pairwise_append]
            exact ⟨this.sorted, by simp, fun a ha b hb => by rw [List.mem_singleton] at hb; rw [hb]; exact this.lt a ha⟩
          · intro j hj
            have hj : j ∈ cp.holes ++ [cs.length] := hj
            rw [List.mem_append, List.mem_singleton] at hj
            simp only [List.length_append, List.length_singleton]
            rcases hj with hj | hj
            · have := this.lt j hj; omega
            · omega
      intro c hc
      rcases List.mem_or_eq_of_mem_set hc with hc | rfl
      · exact h2 c hc
      · have := h2 cj (List.mem_of_getElem? hcj)
        exact ⟨this.sorted, this.lt, this.cw⟩
    · cases h
      exact hdone
  · cases h
    exact hdone

theorem traceAll_kept {fuel : Nat} {included : List (Nat × SegmentEnd)} : ∀ {l : List (Nat × SegmentEnd)} {arena arena' : Arena F} {cs cs' : List (Contour F)},
    traceAll fuel included l arena cs = .ok (arena', cs') → (∀ c ∈ cs, HolesListed cs.length c) → ∀ c ∈ cs', HolesListed cs'.length c
  | [], _, _, _, _, h, hk => by cases h; exact hk
  | x :: l, arena, arena', cs, cs', h, hk => by
    rw [traceAll] at h
    obtain ⟨⟨a1, cs1⟩, h1, h⟩ := Res.bind_eq_ok h
    exact traceAll_kept h (traceStep_kept h1 hk)

theorem setNeighbor_kept {cs cs' : List (Contour F)} {i j : Nat} (h : setNeighbor cs i j = .ok cs') {n : Nat} (hk : ∀ c ∈ cs, HolesListed n c) : ∀ c ∈ cs', HolesListed n c := by
  unfold setNeighbor at h
  obtain ⟨c, c', hc, hc', rfl⟩ := modify_eq_ok h
  obtain ⟨nb, _, hc'⟩ := Res.bind_eq_ok hc'
  cases hc'
  intro d hd
  rcases List.mem_or_eq_of_mem_set hd with hd | rfl
  · exact hk d hd
  · have := hk c (List.mem_of_getElem? hc)
    exact ⟨this.sorted, this.lt, this.cw⟩

theorem assign_kept {arena : Arena F} {n : Nat} : ∀ {l : List (Nat × SegmentEnd)} {cs cs' : List (Contour F)}, assignNeighbors arena l cs = .ok cs' →
    (∀ c ∈ cs, HolesListed n c) → ∀ c ∈ cs', HolesListed n c
  | [], _, _, h, hk => by cases h; exact hk
  | (seg, _) :: l, cs, cs', h, hk => by
    rw [assignNeighbors] at h
    obtain ⟨s, _, h⟩ := Res.bind_eq_ok h
    split at h
    · obtain ⟨cs1, h1, h⟩ := Res.bind_eq_ok h
      obtain ⟨cs2, h2, h⟩ := Res.bind_eq_ok h
      exact assign_kept h (setNeighbor_kept h2 (setNeighbor_kept h1 hk))
    · exact assign_kept h hk

theorem assign_length {arena : Arena F} : ∀ {l : List (Nat × SegmentEnd)} {cs cs' : List (Contour F)}, assignNeighbors arena l cs = .ok cs' → cs'.length = cs.length
  | [], _, _, h => by cases h; rfl
  | (seg, _) :: l, cs, cs', h => by
    rw [assignNeighbors] at h
    obtain ⟨s, _, h⟩ := Res.bind_eq_ok h
    split at h
    · obtain ⟨cs1, h1, h⟩ := Res.bind_eq_ok h
      obtain ⟨cs2, h2, h⟩ := Res.bind_eq_ok h
      obtain ⟨_, _, _, _, rfl⟩ := modify_eq_ok h1
      obtain ⟨_, _, _, _, rfl⟩ := modify_eq_ok h2
      rw [assign_length h]
      simp
    · exact assign_length h

/-- In any result, the holes of a contour are numbers of contours, in increasing order, and the orientation of a contour is that of its points. -/
theorem compute_kept {lib : Lib} {fuel : Nat} {polys : List (Polygon F × PolygonMode)} {op : BooleanOpType} {r : Polygon F} (h : compute lib fuel polys op = .ok r) :
    ∀ c ∈ r.contours, c.holes.Pairwise (· < ·) ∧ (∀ h ∈ c.holes, h < r.contours.length) ∧ ∃ area, areaOf c.points = .ok area ∧ c.is_clockwise = some (FloatOps.lt area (ofInt 0)) := by
  unfold compute at h
  obtain ⟨st, _, h⟩ := Res.bind_eq_ok h
  obtain ⟨st', _, h⟩ := Res.bind_eq_ok h
  obtain ⟨⟨segs, ends⟩, _, h⟩ := Res.bind_eq_ok h
  obtain ⟨_, _, h⟩ := Res.bind_eq_ok h
  obtain ⟨inc, _, h⟩ := Res.bind_eq_ok h
  obtain ⟨ar, _, h⟩ := Res.bind_eq_ok h
  obtain ⟨⟨ar', cs⟩, h1, h⟩ := Res.bind_eq_ok h
  obtain ⟨cs', h2, h⟩ := Res.bind_eq_ok h
  cases h
  have hk := traceAll_kept h1 (by simp)
  have := assign_kept (n := cs.length) h2 (by
    intro c hc
    obtain ⟨d, hd, rfl⟩ := List.mem_map.1 hc
    have := hk d hd
    exact ⟨this.sorted, this.lt, this.cw⟩)
  exact fun c hc => ⟨(this c hc).sorted, fun j hj => by rw [assign_length h2, List.length_map]; exact (this c hc).lt j hj, (this c hc).cw⟩

end Idc
