import Verif.Props.CutPend
/-!
# Arenas that differ in what is about to be recomputed, for C84
-/

namespace Idc

namespace Cut

open Plan

/-- What `update_polygon_facing` does not recompute. -/
def core (p : SegmentPacket) : SegmentPacket := { p with
  up_faces_outwards := false, is_outside_other_poly := false, left_faces_polygons := bvClear p.left_faces_polygons,
  right_faces_polygons := bvClear p.right_faces_polygons, is_in_result := false, below_in_result := none }

theorem bvClear_length {a b : List Bool} (h : a.length = b.length) : bvClear a = bvClear b := by
  unfold bvClear
  rw [List.map_const', List.map_const', h]

theorem bvClear_union {a b c : List Bool} (h : bvUnion (bvClear a) b = .ok c) : c.length = a.length := by
  unfold bvUnion at h
  split at h
  · cases h
    rename_i e
    unfold bvClear at e ⊢
    simp at e ⊢
    omega
  · cases h

theorem bvSet_length {a c : List Bool} {i : ℕ} {x : Bool} (h : bvSet a i x = .ok c) : c.length = a.length := by
  unfold bvSet at h
  split at h
  · cases h; simp
  · cases h

theorem core_facing {p r : SegmentPacket} {b : Option (BoolSegment ℝ)} (h : facingPacket p b = .ok r) : core r = core p := by
  cases b with
  | none =>
    unfold facingPacket at h
    dsimp only at h
    obtain ⟨l, hl, h⟩ := Res.bind_eq_ok h
    cases h
    unfold core
    dsimp only
    rw [bvClear_length (a := l) (b := p.left_faces_polygons) (by rw [bvSet_length hl]; simp [bvClear]), bvClear_length (a := bvClear p.right_faces_polygons) (b := p.right_faces_polygons) (by simp [bvClear])]
  | some s =>
    unfold facingPacket at h
    dsimp only at h
    obtain ⟨u, hu, h⟩ := Res.bind_eq_ok h
    obtain ⟨l, hl, h⟩ := Res.bind_eq_ok h
    obtain ⟨r', hr, h⟩ := Res.bind_eq_ok h
    obtain ⟨l', hl', h⟩ := Res.bind_eq_ok h
    cases h
    unfold core
    dsimp only
    rw [bvClear_length (a := l') (b := p.left_faces_polygons) (by rw [bvSet_length hl', bvClear_union hl]), bvClear_length (a := r') (b := p.right_faces_polygons) (bvClear_union hr)]

theorem facing_core {p p' r : SegmentPacket} {s : BoolSegment ℝ} (hc : core p = core p') (h : facingPacket p (some s) = .ok r) :
    facingPacket p' (some s) = .ok { r with is_in_result := p'.is_in_result } := by
  obtain ⟨a1, a2, a3, a4, a5, a6, a7, a8, a9, a10, a11, a12, a13, a14, a15, a16⟩ := p
  obtain ⟨b1, b2, b3, b4, b5, b6, b7, b8, b9, b10, b11, b12, b13, b14, b15, b16⟩ := p'
  unfold core at hc
  simp only [SegmentPacket.mk.injEq, true_and] at hc
  obtain ⟨rfl, rfl, rfl, e1, e2, rfl, rfl, rfl, rfl, rfl, rfl, rfl⟩ := hc
  unfold facingPacket facingUp at h ⊢
  dsimp only at h ⊢
  rw [e1, e2] at h
  obtain ⟨u, hu, h⟩ := Res.bind_eq_ok h
  rw [hu]
  obtain ⟨l, hl, h⟩ := Res.bind_eq_ok h
  simp only [Res.bind_ok]
  rw [hl]
  obtain ⟨r', hr, h⟩ := Res.bind_eq_ok h
  simp only [Res.bind_ok]
  rw [hr]
  obtain ⟨l', hl', h⟩ := Res.bind_eq_ok h
  simp only [Res.bind_ok]
  rw [hl']
  cases h
  rfl

theorem put_other {A : Arena ℝ} {i j : ℕ} (h : j ≠ i) (p : SegmentPacket) : (putPacket A i p)[j]? = A[j]? := by
  rw [put_get]
  simp [h]

theorem put_at {A : Arena ℝ} {i : ℕ} {s : BoolSegment ℝ} (h : A[i]? = some s) (p : SegmentPacket) : (putPacket A i p)[i]? = some { s with data := p } := by
  rw [put_get, h]
  simp

/-- Two arenas differ only in what is about to be recomputed for one segment. -/
structure Near (n : ℕ) (A B : Arena ℝ) : Prop where
  rest : ∀ j, j ≠ n → A[j]? = B[j]?
  self : ∃ s p, A[n]? = some s ∧ B[n]? = some { s with data := p } ∧ core s.data = core p

theorem Near.length {n : ℕ} {A B : Arena ℝ} (h : Near n A B) : A.length = B.length := by
  have : ∀ j, j < A.length ↔ j < B.length := by
    intro j
    have key : ∀ D : Arena ℝ, j < D.length ↔ D[j]? ≠ none := fun D => by rw [ne_eq, List.getElem?_eq_none_iff, not_le]
    rw [key, key]
    by_cases e : j = n
    · obtain ⟨s, p, h1, h2, _⟩ := h.self
      rw [e, h1, h2]
      simp
    · rw [h.rest j e]
  have h1 := this B.length
  have h2 := this A.length
  omega

theorem Near.symm {n : ℕ} {A B : Arena ℝ} (h : Near n A B) : Near n B A := by
  obtain ⟨s, p, h1, h2, h3⟩ := h.self
  exact ⟨fun j hj => (h.rest j hj).symm, _, s.data, h2, h1, h3.symm⟩

theorem Near.trans {n : ℕ} {A B D : Arena ℝ} (h : Near n A B) (h' : Near n B D) : Near n A D := by
  obtain ⟨s, p, h1, h2, h3⟩ := h.self
  obtain ⟨s', p', h1', h2', h3'⟩ := h'.self
  rw [h2] at h1'
  cases h1'
  exact ⟨fun j hj => (h.rest j hj).trans (h'.rest j hj), s, p', h1, h2', h3.trans h3'⟩

theorem Near.dat {n : ℕ} {A B : Arena ℝ} (h : Near n A B) {j : ℕ} (hj : j ≠ n) : dat A j = dat B j := by
  unfold Idc.dat
  rw [h.rest j hj]

theorem Near.put {n : ℕ} {A B : Arena ℝ} (h : Near n A B) {m : ℕ} (hm : m ≠ n) (p : SegmentPacket) : Near n (putPacket A m p) (putPacket B m p) := by
  constructor
  · intro j hj
    rw [put_get, put_get, h.rest j hj]
  · obtain ⟨s, p', h1, h2, h3⟩ := h.self
    refine ⟨s, p', ?_, ?_, h3⟩
    · rw [put_other hm.symm, h1]
    · rw [put_other hm.symm, h2]

theorem Near.put_self {n : ℕ} {A B : Arena ℝ} (h : Near n A B) {p p' : SegmentPacket} (hc : core p = core p') : Near n (putPacket A n p) (putPacket B n p') := by
  constructor
  · intro j hj
    rw [put_other hj, put_other hj, h.rest j hj]
  · obtain ⟨s, p0, h1, h2, h3⟩ := h.self
    refine ⟨{ s with data := p }, p', ?_, ?_, hc⟩
    · rw [put_at h1]
    · rw [put_at h2]

theorem Near.borrow {n : ℕ} {A B : Arena ℝ} (h : Near n A B) {m : ℕ} {x : Option ℕ} (hx : x ≠ some n) : borrowBelow A m x = borrowBelow B m x := by
  unfold borrowBelow
  cases x with
  | none => rfl
  | some b =>
    have : b ≠ n := fun e => hx (by rw [e])
    unfold index
    dsimp only
    rw [h.rest b this]

/-- Another segment is updated. -/
theorem Near.update {n : ℕ} {A B A' : Arena ℝ} (h : Near n A B) {m : ℕ} (hm : m ≠ n) {x : Option ℕ} (hx : x ≠ some n) (hu : updatePolygonFacing A m x = .ok A') :
    ∃ B', updatePolygonFacing B m x = .ok B' ∧ Near n A' B' := by
  unfold updatePolygonFacing at hu
  obtain ⟨s, hs, hu⟩ := Res.bind_eq_ok hu
  obtain ⟨b, hb, hu⟩ := Res.bind_eq_ok hu
  obtain ⟨p, hp, hu⟩ := Res.bind_eq_ok hu
  have hs' := index_eq_ok hs
  have hml : m < A.length := by
    by_contra hn
    rw [List.getElem?_eq_none (by omega)] at hs'
    cases hs'
  rw [setPacket_put hml] at hu
  cases hu
  refine ⟨_, ?_, h.put hm _⟩
  unfold updatePolygonFacing index
  rw [← h.rest m hm, hs']
  simp only [Res.bind_ok]
  rw [← h.borrow hx, hb]
  simp only [Res.bind_ok]
  rw [hp]
  simp only [Res.bind_ok]
  rw [setPacket_put (by rw [← h.length]; exact hml)]

/-- The segment itself is updated. -/
theorem Near.merge {n : ℕ} {A B A' : Arena ℝ} (h : Near n A B) {m : ℕ} (hm : m ≠ n) (hu : updatePolygonFacing A n (some m) = .ok A') :
    updatePolygonFacing B n (some m) = .ok A' := by
  obtain ⟨s, p', h1, h2, h3⟩ := h.self
  have hml : n < A.length := by
    by_contra hn
    rw [List.getElem?_eq_none (by omega)] at h1
    cases h1
  unfold updatePolygonFacing at hu
  unfold index at hu
  rw [h1] at hu
  simp only [Res.bind_ok] at hu
  obtain ⟨b, hb, hu⟩ := Res.bind_eq_ok hu
  obtain ⟨p, hp, hu⟩ := Res.bind_eq_ok hu
  rw [setPacket_put hml] at hu
  cases hu
  rw [h.borrow (fun e => hm (Option.some.inj e))] at hb
  unfold updatePolygonFacing index
  rw [h2]
  simp only [Res.bind_ok]
  rw [hb]
  simp only [Res.bind_ok]
  obtain ⟨b', rfl⟩ : ∃ b', b = some b' := by
    unfold borrowBelow at hb
    dsimp only at hb
    split at hb
    · cases hb
    · obtain ⟨x, _, hb⟩ := Res.bind_eq_ok hb
      cases hb
      exact ⟨_, rfl⟩
  rw [facing_core h3 hp]
  simp only [Res.bind_ok]
  rw [setPacket_put (by rw [← h.length]; exact hml)]
  congr 1
  refine List.ext_getElem? fun j => ?_
  by_cases e : j = n
  · subst e
    rw [put_at h1, put_at h2]
    rfl
  · rw [put_other e, put_other e, h.rest j e]

/-- An update of the segment itself is such a difference. -/
theorem near_update {n : ℕ} {A B : Arena ℝ} {x : Option ℕ} (hu : updatePolygonFacing A n x = .ok B) : Near n A B := by
  unfold updatePolygonFacing at hu
  obtain ⟨s, hs, hu⟩ := Res.bind_eq_ok hu
  obtain ⟨b, hb, hu⟩ := Res.bind_eq_ok hu
  obtain ⟨p, hp, hu⟩ := Res.bind_eq_ok hu
  have hs' := index_eq_ok hs
  have hml : n < A.length := by
    by_contra hn
    rw [List.getElem?_eq_none (by omega)] at hs'
    cases hs'
  rw [setPacket_put hml] at hu
  cases hu
  constructor
  · intro j hj
    rw [put_other hj]
  · exact ⟨s, _, hs', put_at hs' _, (core_facing hp).symm⟩

end Cut

end Idc
