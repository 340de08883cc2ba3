import Verif.Spec.Compute
import Verif.Props.Holes
import Verif.Props.Shape
/-!
# What the sweep of `compute` keeps true of every segment
-/

namespace Idc

open FloatOps

variable {F : Type} [FloatOps F] {polys : List (Polygon F × PolygonMode)}

/-- What holds of every segment while `compute` sweeps. -/
structure SegOk (polys : List (Polygon F × PolygonMode)) (s : BoolSegment F) : Prop where
  mode : ∃ poly, polys[s.data.polygon_index]? = some (poly, s.data.mode)
  piece : Piece polys s.data.polygon_index s.left_point s.right_point
  leftLen : s.data.left_faces_polygons.length = polys.length
  rightLen : s.data.right_faces_polygons.length = polys.length
  kept : s.data.is_in_result = true → s.data.mode ≠ .removeEdges
  fresh : s.data.left_contour_id = none ∧ s.data.right_contour_id = none ∧ s.data.left_processed = false ∧ s.data.right_processed = false ∧
    s.data.left_index = 0

/-- Every segment is as it should be. -/
def ArenaOk (polys : List (Polygon F × PolygonMode)) (arena : Arena F) : Prop := ∀ s ∈ arena, SegOk polys s

/-- Segments are added, and the old ones keep their points and polygon. -/
def Grows (a a' : Arena F) : Prop := ∀ (i : Nat) s, a[i]? = some s → ∃ s', a'[i]? = some s' ∧ s'.left_point = s.left_point ∧
  s'.right_point = s.right_point ∧ s'.data.polygon_index = s.data.polygon_index

theorem Grows.refl (a : Arena F) : Grows a a := fun _ s h => ⟨s, h, rfl, rfl, rfl⟩

theorem Grows.trans {a b c : Arena F} (h : Grows a b) (h' : Grows b c) : Grows a c := by
  intro i s hs
  obtain ⟨s', h1, h2, h3, h4⟩ := h i s hs
  obtain ⟨s'', h1', h2', h3', h4'⟩ := h' i s' h1
  exact ⟨s'', h1', h2'.trans h2, h3'.trans h3, h4'.trans h4⟩

theorem mem_of_getElem? {α : Type} {l : List α} {i : Nat} {a : α} (h : l[i]? = some a) : a ∈ l := List.mem_of_getElem? h

theorem setPacket_spec {arena arena' : Arena F} {i : Nat} {p : SegmentPacket} (h : arena.setPacket i p = .ok arena') :
    ∃ s, arena[i]? = some s ∧ arena' = arena.set i { s with data := p } := by
  unfold Arena.setPacket at h
  obtain ⟨s, hs, h⟩ := Res.bind_eq_ok h
  cases h
  exact ⟨s, index_eq_ok hs, rfl⟩

/-- Replacing a packet by one that agrees on polygon, mode and the rest of the invariant. -/
theorem setPacket_ok {arena arena' : Arena F} {i : Nat} {p : SegmentPacket} (ho : ArenaOk polys arena)
    (h : arena.setPacket i p = .ok arena')
    (hp : ∀ s, arena[i]? = some s → p.polygon_index = s.data.polygon_index ∧ p.mode = s.data.mode ∧
      p.left_faces_polygons.length = polys.length ∧ p.right_faces_polygons.length = polys.length ∧
      (p.is_in_result = true → p.mode ≠ .removeEdges) ∧
      p.left_contour_id = none ∧ p.right_contour_id = none ∧ p.left_processed = false ∧ p.right_processed = false ∧ p.left_index = 0) :
    ArenaOk polys arena' ∧ Grows arena arena' := by
  obtain ⟨s, hs, rfl⟩ := setPacket_spec h
  obtain ⟨h1, h2, h3, h4, h5, h6⟩ := hp s hs
  have so := ho s (mem_of_getElem? hs)
  constructor
  · intro t ht
    rcases List.mem_or_eq_of_mem_set ht with ht | rfl
    · exact ho t ht
    · exact ⟨by rw [h1, h2]; exact so.mode, by rw [h1]; exact so.piece, h3, h4, h5, h6⟩
  · intro j t ht
    rw [getElem?_set_of hs]
    by_cases hj : j = i
    · subst hj
      rw [hs] at ht
      cases ht
      exact ⟨_, if_pos rfl, rfl, rfl, h1⟩
    · exact ⟨t, by rw [if_neg hj]; exact ht, rfl, rfl, rfl⟩

theorem bvUnion_length {a b c : List Bool} (h : bvUnion a b = .ok c) : c.length = a.length ∧ a.length = b.length := by
  unfold bvUnion at h
  split at h
  · cases h; simp; omega
  · cases h

theorem bvSet_length {a b : List Bool} {i : Nat} {x : Bool} (h : bvSet a i x = .ok b) : b.length = a.length ∧ i < a.length ∧ b = a.set i x := by
  unfold bvSet at h
  split at h
  · cases h; simp [*]
  · cases h

theorem bvClear_length (a : List Bool) : (bvClear a).length = a.length := by simp [bvClear]

theorem facingPacket_spec {p p' : SegmentPacket} {below : Option (BoolSegment F)} (h : facingPacket p below = .ok p') :
    p'.polygon_index = p.polygon_index ∧ p'.mode = p.mode ∧ p'.left_faces_polygons.length = p.left_faces_polygons.length ∧
      p'.right_faces_polygons.length = p.right_faces_polygons.length ∧
      p'.left_contour_id = p.left_contour_id ∧ p'.right_contour_id = p.right_contour_id ∧
      p'.left_processed = p.left_processed ∧ p'.right_processed = p.right_processed ∧ p'.left_index = p.left_index := by
  rcases below with _ | b
  · simp only [facingPacket] at h
    obtain ⟨l, hl, h⟩ := Res.bind_eq_ok h
    cases h
    have := bvSet_length hl
    rw [bvClear_length] at this
    exact ⟨rfl, rfl, this.1, bvClear_length _, rfl, rfl, rfl, rfl, rfl⟩
  · simp only [facingPacket] at h
    obtain ⟨uo, _, h⟩ := Res.bind_eq_ok h
    obtain ⟨l, hl, h⟩ := Res.bind_eq_ok h
    obtain ⟨r, hr, h⟩ := Res.bind_eq_ok h
    obtain ⟨l', hl', h⟩ := Res.bind_eq_ok h
    cases h
    have e1 := bvUnion_length hl
    have e2 := bvUnion_length hr
    have e3 := bvSet_length hl'
    rw [bvClear_length] at e1 e2
    exact ⟨rfl, rfl, e3.1.trans e1.1, e2.1, rfl, rfl, rfl, rfl, rfl⟩

theorem updateFacing_ok {arena arena' : Arena F} {seg : Nat} {below : Option Nat} (ho : ArenaOk polys arena)
    (h : updatePolygonFacing arena seg below = .ok arena') : ArenaOk polys arena' ∧ Grows arena arena' := by
  unfold updatePolygonFacing at h
  obtain ⟨s, hs, h⟩ := Res.bind_eq_ok h
  obtain ⟨b, _, h⟩ := Res.bind_eq_ok h
  obtain ⟨p, hp, h⟩ := Res.bind_eq_ok h
  obtain ⟨h1, h2, h3, h4, h5, h6, h7, h8, h9⟩ := facingPacket_spec hp
  refine setPacket_ok ho h ?_
  intro s' hs'
  rw [index_eq_ok hs] at hs'
  cases hs'
  have so := ho s (mem_of_getElem? (index_eq_ok hs))
  refine ⟨h1, h2, h3.trans so.leftLen, h4.trans so.rightLen, ?_, h5.trans so.fresh.1, h6.trans so.fresh.2.1, h7.trans so.fresh.2.2.1, h8.trans so.fresh.2.2.2.1, h9.trans so.fresh.2.2.2.2⟩
  intro hr
  dsimp only at hr ⊢
  unfold SegmentPacket.isInResult at hr
  split at hr
  · cases hr
  · split at hr
    · cases hr
    · assumption

/-- The points at which `handle_intersections` says to split are where the segments meet. -/
theorem handle_ok {arena arena' : Arena F} {m1 m2 : Option Nat} {mode : Nat} {pt1 pt2 : Option (Pt F)} (ho : ArenaOk polys arena)
    (h : handleIntersections arena m1 m2 = .ok (arena', mode, pt1, pt2)) :
    ArenaOk polys arena' ∧ Grows arena arena' ∧
    ∀ p, pt1 = some p ∨ pt2 = some p → ∃ (i1 i2 : Nat) (s1 s2 : BoolSegment F), m1 = some i1 ∧ m2 = some i2 ∧ arena[i1]? = some s1 ∧ arena[i2]? = some s2 ∧
      Meet s1.left_point s1.right_point s2.left_point s2.right_point p := by
  unfold handleIntersections at h
  split at h
  · cases h
    exact ⟨ho, Grows.refl _, by simp⟩
  · cases h
    exact ⟨ho, Grows.refl _, by simp⟩
  · rename_i i1 i2
    obtain ⟨s1, hs1, h⟩ := Res.bind_eq_ok h
    obtain ⟨s2, hs2, h⟩ := Res.bind_eq_ok h
    have hs1 := index_eq_ok hs1
    have hs2 := index_eq_ok hs2
    split at h
    · cases h
      exact ⟨ho, Grows.refl _, by simp⟩
    · rename_i q hq
      split at h
      · cases h
        exact ⟨ho, Grows.refl _, by simp⟩
      · cases h
        refine ⟨ho, Grows.refl _, ?_⟩
        intro p hp
        refine ⟨i1, i2, s1, s2, rfl, rfl, hs1, hs2, Or.inl ?_⟩
        rw [hq]
        rcases hp with hp | hp <;> (split at hp <;> cases hp <;> rfl)
    · rename_i x y hq
      split at h
      · cases h
      · obtain ⟨lc, _, h⟩ := Res.bind_eq_ok h
        obtain ⟨rc, _, h⟩ := Res.bind_eq_ok h
        have meet : ∀ p, p = s1.left_point ∨ p = s1.right_point ∨ p = s2.left_point ∨ p = s2.right_point →
            ∃ (j1 j2 : Nat) (t1 t2 : BoolSegment F), some i1 = some j1 ∧ some i2 = some j2 ∧ arena[j1]? = some t1 ∧ arena[j2]? = some t2 ∧
              Meet t1.left_point t1.right_point t2.left_point t2.right_point p :=
          fun p hp => ⟨i1, i2, s1, s2, rfl, rfl, hs1, hs2, Or.inr ⟨⟨x, y, hq⟩, hp⟩⟩
        split at h
        · obtain ⟨a1, ha1, h⟩ := Res.bind_eq_ok h
          obtain ⟨a2, ha2, h⟩ := Res.bind_eq_ok h
          have o1 := setPacket_ok ho ha1 (by
            intro s hs
            rw [hs1] at hs
            cases hs
            have so := ho s1 (mem_of_getElem? hs1)
            exact ⟨rfl, rfl, so.leftLen, so.rightLen, so.kept, so.fresh⟩)
          have o2 : ArenaOk polys a2 ∧ Grows a1 a2 := by
            unfold setUpperType at ha2
            obtain ⟨t2, ht2, ha2⟩ := Res.bind_eq_ok ha2
            split at ha2
            · refine setPacket_ok o1.1 ha2 ?_
              intro s hs
              rw [index_eq_ok ht2] at hs
              cases hs
              have so := o1.1 t2 (mem_of_getElem? (index_eq_ok ht2))
              exact ⟨rfl, rfl, so.leftLen, so.rightLen, so.kept, so.fresh⟩
            · cases ha2
              exact ⟨o1.1, Grows.refl _⟩
          have g := o1.2.trans o2.2
          split at h <;> cases h
          · exact ⟨o2.1, g, by rintro p (hp | hp) <;> cases hp; exact meet _ (Or.inr (Or.inl rfl))⟩
          · exact ⟨o2.1, g, by rintro p (hp | hp) <;> cases hp; exact meet _ (Or.inr (Or.inr (Or.inr rfl)))⟩
          · exact ⟨o2.1, g, by simp⟩
        · split at h <;> cases h
          · exact ⟨ho, Grows.refl _, by rintro p (hp | hp) <;> cases hp; exact meet _ (Or.inr (Or.inr (Or.inl rfl)))⟩
          · exact ⟨ho, Grows.refl _, by rintro p (hp | hp) <;> cases hp; exact meet _ (Or.inl rfl)⟩

theorem newSegment_spec {T : Type} {a b : Pt F} {i o : Nat} {d : T} {s : SweepSegment F T} (h : SweepSegment.new a b i o d = .ok s) :
    s.data = d ∧ s.index = i ∧ (s.left_point = a ∧ s.right_point = b ∨ s.left_point = b ∧ s.right_point = a) := by
  unfold SweepSegment.new at h
  split at h
  · cases h
  · split at h <;> cases h
    · exact ⟨rfl, rfl, Or.inl ⟨rfl, rfl⟩⟩
    · exact ⟨rfl, rfl, Or.inr ⟨rfl, rfl⟩⟩

theorem redirect_ok {arena : Arena F} {i l : Nat} (ho : ArenaOk polys arena) : ArenaOk polys (arena.redirect i l) := by
  intro s hs
  unfold Arena.redirect at hs
  obtain ⟨t, ht, rfl⟩ := List.mem_map.mp hs
  have := ho t ht
  dsimp only
  split
  · exact ⟨this.mode, this.piece, this.leftLen, this.rightLen, this.kept, this.fresh⟩
  · exact this

theorem redirect_grows {arena : Arena F} {i l : Nat} : Grows arena (arena.redirect i l) := by
  intro j s hs
  unfold Arena.redirect
  rw [List.getElem?_map, hs]
  refine ⟨_, rfl, ?_⟩
  dsimp only
  split <;> exact ⟨rfl, rfl, rfl⟩

/-- Splitting a segment where it meets another. -/
theorem split_ok {lib : Lib} {st st' : SweepState F} {i l : Nat} {pt : Pt F} (ho : ArenaOk polys st.arena)
    (hp : ∀ s, st.arena[i]? = some s → Piece polys s.data.polygon_index s.left_point pt ∧ Piece polys s.data.polygon_index s.right_point pt)
    (h : splitSegment lib polys.length st i pt = .ok (st', l)) : ArenaOk polys st'.arena ∧ Grows st.arena st'.arena := by
  unfold splitSegment at h
  obtain ⟨seg, hseg, h⟩ := Res.bind_eq_ok h
  obtain ⟨left, hleft, h⟩ := Res.bind_eq_ok h
  obtain ⟨right, hright, h⟩ := Res.bind_eq_ok h
  obtain ⟨lf, hlf, h⟩ := Res.bind_eq_ok h
  obtain ⟨rf, hrf, h⟩ := Res.bind_eq_ok h
  obtain ⟨⟨found, active⟩, _, h⟩ := Res.bind_eq_ok h
  dsimp only at h
  split at h
  · cases h
  obtain ⟨active', _, h⟩ := Res.bind_eq_ok h
  obtain ⟨q1, _, h⟩ := Res.bind_eq_ok h
  obtain ⟨q2, _, h⟩ := Res.bind_eq_ok h
  obtain ⟨q3, _, h⟩ := Res.bind_eq_ok h
  cases h
  have hseg := index_eq_ok hseg
  have so := ho seg (mem_of_getElem? hseg)
  obtain ⟨p1, p2⟩ := hp seg hseg
  obtain ⟨ld, _, lp⟩ := newSegment_spec hleft
  obtain ⟨rd, _, rp⟩ := newSegment_spec hright
  have e1 := (bvUnion_length hlf).1
  have e2 := (bvUnion_length hrf).1
  rw [bvClear_length, rd] at e1 e2
  simp only [SegmentPacket.new, List.length_replicate] at e1 e2
  have lo : SegOk polys left := by
    refine ⟨by rw [ld]; exact so.mode, ?_, by rw [ld]; exact so.leftLen, by rw [ld]; exact so.rightLen, by rw [ld]; exact so.kept, by rw [ld]; exact so.fresh⟩
    rw [ld]
    rcases lp with ⟨h1, h2⟩ | ⟨h1, h2⟩ <;> rw [h1, h2]
    · exact p1
    · exact p1.turn
  have ro : SegOk polys { right with data := { right.data with left_faces_polygons := lf, right_faces_polygons := rf } } := by
    refine ⟨by rw [rd]; exact so.mode, ?_, e1, e2, (by rw [rd]; intro h; cases h), by rw [rd]; exact ⟨rfl, rfl, rfl, rfl, rfl⟩⟩
    dsimp only
    rw [rd]
    rcases rp with ⟨h1, h2⟩ | ⟨h1, h2⟩ <;> rw [h1, h2]
    · exact p2.turn
    · exact p2
  constructor
  · apply redirect_ok
    intro s hs
    rcases List.mem_append.mp hs with hs | hs
    · exact ho s hs
    · simp only [List.mem_cons, List.not_mem_nil, or_false] at hs
      rcases hs with rfl | rfl
      · exact lo
      · exact ro
  · refine Grows.trans ?_ redirect_grows
    intro j s hs
    refine ⟨s, ?_, rfl, rfl, rfl⟩
    rw [List.getElem?_append_left (lt_of_getElem? hs)]
    exact hs

/-- A cut where two pieces meet leaves pieces. -/
theorem cut_both {arena arena' : Arena F} (ho : ArenaOk polys arena) (hg : Grows arena arena') {i1 i2 : Nat} {s1 s2 : BoolSegment F} {p : Pt F}
    (h1 : arena[i1]? = some s1) (h2 : arena[i2]? = some s2) (hm : Meet s1.left_point s1.right_point s2.left_point s2.right_point p) :
    (∀ s, arena'[i1]? = some s → Piece polys s.data.polygon_index s.left_point p ∧ Piece polys s.data.polygon_index s.right_point p) ∧
    (∀ s, arena'[i2]? = some s → Piece polys s.data.polygon_index s.left_point p ∧ Piece polys s.data.polygon_index s.right_point p) := by
  have o1 := (ho s1 (mem_of_getElem? h1)).piece
  have o2 := (ho s2 (mem_of_getElem? h2)).piece
  constructor
  · intro s hs
    obtain ⟨s', hs', e1, e2, e3⟩ := hg i1 s1 h1
    rw [hs] at hs'
    cases hs'
    rw [e1, e2, e3]
    exact ⟨o1.cut o2 (Or.inl hm), (o1.rest o2 (Or.inl hm)).turn⟩
  · intro s hs
    obtain ⟨s', hs', e1, e2, e3⟩ := hg i2 s2 h2
    rw [hs] at hs'
    cases hs'
    rw [e1, e2, e3]
    exact ⟨o2.cut o1 (Or.inr hm), (o2.rest o1 (Or.inr hm)).turn⟩

theorem splitIf_ok {lib : Lib} {st st' : SweepState F} {i l : Nat} {pt : Option (Pt F)} (ho : ArenaOk polys st.arena)
    (hp : ∀ p, pt = some p → ∀ s, st.arena[i]? = some s → Piece polys s.data.polygon_index s.left_point p ∧ Piece polys s.data.polygon_index s.right_point p)
    (h : splitIf lib polys.length st i pt = .ok (st', l)) : ArenaOk polys st'.arena ∧ Grows st.arena st'.arena := by
  rcases pt with _ | p
  · cases h
    exact ⟨ho, Grows.refl _⟩
  · exact split_ok ho (hp p rfl) h

theorem splitIfOpt_ok {lib : Lib} {st st' : SweepState F} {i l : Option Nat} {pt : Option (Pt F)} (ho : ArenaOk polys st.arena)
    (hp : ∀ p, pt = some p → ∀ i', i = some i' → ∀ s, st.arena[i']? = some s →
      Piece polys s.data.polygon_index s.left_point p ∧ Piece polys s.data.polygon_index s.right_point p)
    (h : splitIfOpt lib polys.length st i pt = .ok (st', l)) : ArenaOk polys st'.arena ∧ Grows st.arena st'.arena := by
  rcases pt with _ | p
  · cases h
    exact ⟨ho, Grows.refl _⟩
  · simp only [splitIfOpt] at h
    obtain ⟨i', hi', h⟩ := Res.bind_eq_ok h
    obtain ⟨⟨st1, l1⟩, hs, h⟩ := Res.bind_eq_ok h
    cases h
    rcases i with _ | i
    · cases hi'
    · cases hi'
      exact split_ok ho (hp p rfl _ rfl) hs

theorem sweepRight_ok {lib : Lib} {st st' : SweepState F} {seg : Nat} (ho : ArenaOk polys st.arena)
    (h : sweepRight lib polys.length st seg = .ok st') : ArenaOk polys st'.arena := by
  unfold sweepRight at h
  obtain ⟨⟨⟨found, below, above⟩, active⟩, _, h⟩ := Res.bind_eq_ok h
  dsimp only at h
  split at h
  · split at h
    · rename_i above below
      obtain ⟨⟨arena, mode, pt1, pt2⟩, hh, h⟩ := Res.bind_eq_ok h
      obtain ⟨o1, g1, m1⟩ := handle_ok ho hh
      obtain ⟨⟨st1, l1⟩, h1, h⟩ := Res.bind_eq_ok h
      obtain ⟨⟨st2, l2⟩, h2, h⟩ := Res.bind_eq_ok h
      cases h
      have k1 := splitIf_ok o1 (by
        rintro p rfl
        obtain ⟨i1, i2, s1, s2, e1, e2, a1, a2, hm⟩ := m1 p (Or.inl rfl)
        cases e1; cases e2
        exact (cut_both ho g1 a1 a2 hm).1) h1
      exact (splitIf_ok k1.1 (by
        rintro p rfl
        obtain ⟨i1, i2, s1, s2, e1, e2, a1, a2, hm⟩ := m1 p (Or.inr rfl)
        cases e1; cases e2
        exact (cut_both ho (g1.trans k1.2) a1 a2 hm).2) h2).1
    · cases h; exact ho
  · cases h; exact ho

theorem sweepLeft_ok {lib : Lib} {st st' : SweepState F} {seg : Nat} (ho : ArenaOk polys st.arena)
    (h : sweepLeft lib polys.length st seg = .ok st') : ArenaOk polys st'.arena := by
  unfold sweepLeft at h
  obtain ⟨⟨⟨below, above⟩, active⟩, _, h⟩ := Res.bind_eq_ok h
  obtain ⟨a0, h0, h⟩ := Res.bind_eq_ok h
  have k0 := updateFacing_ok ho h0
  dsimp only at h
  obtain ⟨⟨a1, mode1, pt1, pt2⟩, hh1, h⟩ := Res.bind_eq_ok h
  obtain ⟨o1, g1, m1⟩ := handle_ok k0.1 hh1
  dsimp only at h
  obtain ⟨⟨st1, seg1⟩, hs1, h⟩ := Res.bind_eq_ok h
  have k1 := splitIf_ok o1 (by
    rintro p rfl
    obtain ⟨i1, i2, s1, s2, e1, e2, b1, b2, hm⟩ := m1 p (Or.inl rfl)
    cases e1; cases e2
    exact (cut_both k0.1 g1 b1 b2 hm).1) hs1
  dsimp only at h
  obtain ⟨⟨st2, above2⟩, hs2, h⟩ := Res.bind_eq_ok h
  have k2 := splitIfOpt_ok k1.1 (by
    rintro p rfl i' rfl
    obtain ⟨i1, i2, s1, s2, e1, e2, b1, b2, hm⟩ := m1 p (Or.inr rfl)
    cases e1; cases e2
    exact (cut_both k0.1 (g1.trans k1.2) b1 b2 hm).2) hs2
  dsimp only at h
  obtain ⟨st3, hst3, h⟩ := Res.bind_eq_ok h
  have k3 : ArenaOk polys st3.arena := by
    unfold updateAfter at hst3
    split at hst3
    · obtain ⟨a3, ha3, hst3⟩ := Res.bind_eq_ok hst3
      obtain ⟨ab, _, hst3⟩ := Res.bind_eq_ok hst3
      obtain ⟨a4, ha4, hst3⟩ := Res.bind_eq_ok hst3
      cases hst3
      exact (updateFacing_ok (updateFacing_ok k2.1 ha3).1 ha4).1
    · cases hst3; exact k2.1
  obtain ⟨⟨a5, mode2, pt3, pt4⟩, hh2, h⟩ := Res.bind_eq_ok h
  obtain ⟨o5, g5, m5⟩ := handle_ok k3 hh2
  dsimp only at h
  obtain ⟨⟨st6, below6⟩, hs6, h⟩ := Res.bind_eq_ok h
  have k6 := splitIfOpt_ok o5 (by
    rintro p rfl i' rfl
    obtain ⟨i1, i2, s1, s2, e1, e2, b1, b2, hm⟩ := m5 p (Or.inl rfl)
    cases e1; cases e2
    exact (cut_both k3 g5 b1 b2 hm).1) hs6
  dsimp only at h
  obtain ⟨⟨st7, seg7⟩, hs7, h⟩ := Res.bind_eq_ok h
  have k7 := splitIf_ok k6.1 (by
    rintro p rfl
    obtain ⟨i1, i2, s1, s2, e1, e2, b1, b2, hm⟩ := m5 p (Or.inr rfl)
    cases e1; cases e2
    exact (cut_both k3 (g5.trans k6.2) b1 b2 hm).2) hs7
  dsimp only at h
  split at h
  · obtain ⟨b, _, h⟩ := Res.bind_eq_ok h
    obtain ⟨prev, _, h⟩ := Res.bind_eq_ok h
    obtain ⟨a8, ha8, h⟩ := Res.bind_eq_ok h
    obtain ⟨a9, ha9, h⟩ := Res.bind_eq_ok h
    cases h
    exact (updateFacing_ok (updateFacing_ok k7.1 ha8).1 ha9).1
  · cases h; exact k7.1

theorem sweepLoop_ok {lib : Lib} : ∀ {fuel : Nat} {st st' : SweepState F}, ArenaOk polys st.arena →
    sweepLoop lib polys.length fuel st = .ok st' → ArenaOk polys st'.arena
  | 0, _, _, _, h => by cases h
  | fuel + 1, st, st', ho, h => by
    simp only [sweepLoop] at h
    obtain ⟨r, _, h⟩ := Res.bind_eq_ok h
    split at h
    · cases h; exact ho
    · obtain ⟨st1, h1, h⟩ := Res.bind_eq_ok h
      refine sweepLoop_ok ?_ h
      rename_i seg e q _ _
      rcases e with _ | _
      · exact sweepLeft_ok (st := { st with queue := q }) ho h1
      · exact sweepRight_ok (st := { st with queue := q }) ho h1

theorem addSegments_ok {lib : Lib} {k : Nat} {poly : Polygon F} {mode : PolygonMode} (hk : polys[k]? = some (poly, mode)) :
    ∀ {segs : List (Pt F × Pt F)} {st st' : SweepState F}, ArenaOk polys st.arena → (∀ s ∈ segs, Piece polys k s.1 s.2) →
    addSegments lib polys.length k mode segs st = .ok st' → ArenaOk polys st'.arena
  | [], _, _, ho, _, h => by cases h; exact ho
  | (p0, p1) :: rest, st, st', ho, hp, h => by
    simp only [addSegments] at h
    split at h
    · exact addSegments_ok hk ho (fun s hs => hp s (List.mem_cons_of_mem _ hs)) h
    · obtain ⟨s, hs, h⟩ := Res.bind_eq_ok h
      obtain ⟨q1, _, h⟩ := Res.bind_eq_ok h
      obtain ⟨q2, _, h⟩ := Res.bind_eq_ok h
      refine addSegments_ok hk ?_ (fun s hs => hp s (List.mem_cons_of_mem _ hs)) h
      intro t ht
      rcases List.mem_append.mp ht with ht | ht
      · exact ho t ht
      · rw [List.mem_singleton] at ht
        subst ht
        obtain ⟨hd, _, hpts⟩ := newSegment_spec hs
        refine ⟨by rw [hd]; exact ⟨poly, hk⟩, ?_, by rw [hd]; simp [SegmentPacket.new], by rw [hd]; simp [SegmentPacket.new],
          (by rw [hd]; intro h; cases h), by rw [hd]; exact ⟨rfl, rfl, rfl, rfl, rfl⟩⟩
        rw [hd]
        have := hp (p0, p1) List.mem_cons_self
        rcases hpts with ⟨h1, h2⟩ | ⟨h1, h2⟩ <;> rw [h1, h2]
        · exact this
        · exact this.turn

theorem addContours_ok {lib : Lib} {k : Nat} {poly : Polygon F} {mode : PolygonMode} (hk : polys[k]? = some (poly, mode)) :
    ∀ {cs : List (Contour F)} {st st' : SweepState F}, ArenaOk polys st.arena → (∀ c ∈ cs, c ∈ poly.contours) →
    addContours lib polys.length k mode cs st = .ok st' → ArenaOk polys st'.arena
  | [], _, _, ho, _, h => by cases h; exact ho
  | c :: cs, st, st', ho, hc, h => by
    simp only [addContours] at h
    obtain ⟨segs, hsegs, h⟩ := Res.bind_eq_ok h
    obtain ⟨st1, h1, h⟩ := Res.bind_eq_ok h
    refine addContours_ok hk ?_ (fun c' hc' => hc c' (List.mem_cons_of_mem _ hc')) h
    refine addSegments_ok hk ho ?_ h1
    intro s hs
    obtain ⟨segs', hs', _, hget⟩ := C52_segments c
    rw [hsegs] at hs'
    cases hs'
    obtain ⟨i, hi⟩ := List.mem_iff_getElem?.mp hs
    exact Piece.edge hk (hc c List.mem_cons_self) ((hget i s.1 s.2).mp hi)

theorem addPolygons_ok {lib : Lib} : ∀ {rest : List (Polygon F × PolygonMode)} {k : Nat} {st st' : SweepState F}, ArenaOk polys st.arena →
    (∀ i : Nat, polys[k + i]? = rest[i]?) → addPolygons lib polys.length k rest st = .ok st' → ArenaOk polys st'.arena
  | [], _, _, _, ho, _, h => by cases h; exact ho
  | (p, mode) :: rest, k, st, st', ho, hr, h => by
    simp only [addPolygons] at h
    obtain ⟨st1, h1, h⟩ := Res.bind_eq_ok h
    refine addPolygons_ok ?_ ?_ h
    · exact addContours_ok (hr 0) ho (fun _ h => h) h1
    · intro i
      have := hr (i + 1)
      rw [show k + (i + 1) = k + 1 + i by omega] at this
      simpa using this

end Idc
