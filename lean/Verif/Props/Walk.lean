import Verif.Props.Trace
/-!
# Walking around a contour
-/

namespace Idc

open FloatOps

variable {F : Type} [FloatOps F] {polys : List (Polygon F × PolygonMode)}

/-- `pts` has a step from `a` to `b`, up to `==`; the first step may have started elsewhere. -/
def WalkStep (pts : List (Pt F)) (astray : Prop) (a b : Pt F) : Prop :=
  ∃ k x y, pts[k]? = some x ∧ pts[k + 1]? = some y ∧ SamePoint y b ∧ (SamePoint x a ∨ k = 0 ∧ astray)

/-- The same for the closed chain. -/
def Closed (pts : List (Pt F)) (astray : Prop) (a b : Pt F) : Prop :=
  ∃ k x y, IsEdge pts k x y ∧ SamePoint y b ∧ (SamePoint x a ∨ k = 0 ∧ astray)

theorem WalkStep.append {pts : List (Pt F)} {astray : Prop} {a b : Pt F} (h : WalkStep pts astray a b) (p : Pt F) : WalkStep (pts ++ [p]) astray a b := by
  obtain ⟨k, x, y, hx, hy, h⟩ := h
  refine ⟨k, x, y, ?_, ?_, h⟩
  · rw [List.getElem?_append_left (lt_of_getElem? hx)]; exact hx
  · rw [List.getElem?_append_left (lt_of_getElem? hy)]; exact hy

theorem WalkStep.closed {pts : List (Pt F)} {astray : Prop} {a b : Pt F} (h : WalkStep pts astray a b) : Closed pts astray a b := by
  obtain ⟨k, x, y, hx, hy, h⟩ := h
  refine ⟨k, x, y, ⟨hx, ?_⟩, h⟩
  rw [Nat.mod_eq_of_lt (lt_of_getElem? hy)]
  exact hy

/-- The state of a walk: the points so far and the endpoint to follow next. -/
structure TraceWalk (polys : List (Polygon F × PolygonMode)) (included : List (Nat × SegmentEnd)) (id : Nat) (astray : Prop) (start o1 : Pt F)
    (arena : Arena F) (pts : List (Pt F)) (cur : Nat) : Prop where
  first : pts[0]? = some start
  edges : ∀ (k : Nat) x y, pts[k]? = some x → pts[k + 1]? = some y →
    ∃ a b, KeptPiece polys a b ∧ SamePoint y b ∧ (SamePoint x a ∨ k = 0 ∧ astray)
  verts : ∀ p ∈ pts, ∃ q, KeptPiece polys p q
  here : ∃ x s, included[cur]? = some x ∧ arena[x.1]? = some s ∧
    ((∃ z, pts.getLast? = some z ∧ SamePoint z (s.pointAt x.2)) ∨ pts.length = 1 ∧ astray) ∧
    (pts.length = 1 → s.otherPointAt x.2 = o1)
  second : ∀ y, pts[1]? = some y → y = o1
  ids : ∀ (i : Nat) t e, arena[i]? = some t → t.data.cid e = some id → WalkStep pts astray (t.pointAt e) (t.otherPointAt e)

theorem cid_assign (p : SegmentPacket) (id : Nat) (e e' : SegmentEnd) :
    (p.assign id e).cid e' = if e' = e then some id else p.cid e' := by
  cases e <;> cases e' <;> rfl

theorem core_assign (s : BoolSegment F) (id : Nat) (e : SegmentEnd) : core { s with data := s.data.assign id e } = core s := by
  cases e <;> rfl

theorem faces_assign (p : SegmentPacket) (id : Nat) (e e' : SegmentEnd) : (p.assign id e).faces e' = p.faces e' := by
  cases e <;> cases e' <;> rfl

theorem frame_set {arena : Arena F} {i : Nat} {s s' : BoolSegment F} (hs : arena[i]? = some s) (hc : core s' = core s) : Frame arena (arena.set i s') := by
  apply List.ext_getElem?
  intro j
  rw [List.getElem?_map, List.getElem?_map, getElem?_set_of hs]
  by_cases hj : j = i
  · rw [if_pos hj, hj, hs, Option.map_some, Option.map_some, hc]
  · rw [if_neg hj]

theorem flags_union {a b c : List Bool} (ha : FlagsOk polys a) (hb : FlagsOk polys b) (h : bvUnion a b = .ok c) : FlagsOk polys c := by
  unfold bvUnion at h
  split at h
  · rename_i hl
    cases h
    refine ⟨by rw [List.length_zipWith, hl, Nat.min_self]; exact hb.1, ?_, ?_⟩
    · obtain ⟨i, hi⟩ := List.mem_iff_getElem?.mp ha.2.1
      have hib : i < b.length := hl ▸ lt_of_getElem? hi
      apply List.mem_of_getElem? (i := i)
      rw [List.getElem?_zipWith, hi, List.getElem?_eq_getElem hib]
      rfl
    · intro i poly mode hp hf
      rw [List.getElem?_zipWith] at hf
      rcases h1 : a[i]? with _ | x <;> rcases h2 : b[i]? with _ | y <;> rw [h1, h2] at hf <;> simp at hf
      rcases hf with rfl | rfl
      · exact ha.2.2 i poly mode hp h1
      · exact hb.2.2 i poly mode hp h2
  · cases h

theorem getLast?_getElem? {α : Type} {l : List α} {z : α} (h : l.getLast? = some z) : l[l.length - 1]? = some z := by
  rwa [← List.getLast?_eq_getElem?]

/-- The result of a walk. -/
theorem contourWalk_ok {included : List (Nat × SegmentEnd)} {id : Nat} {astray : Prop} {start o1 : Pt F} : ∀ {fuel : Nat} {arena arena' : Arena F} {c c' : Contour F} {cur last : Nat},
    (∀ x ∈ included, EndOk polys arena x) → TraceWalk polys included id astray start o1 arena c.points cur → FlagsOk polys c.from_polygons →
    traceContour included id start fuel arena c cur = .ok (arena', c', last) →
    Frame arena arena' ∧
    (∀ (i : Nat) t' e j, arena'[i]? = some t' → t'.data.cid e = some j → j ≠ id → ∃ t, arena[i]? = some t ∧ t.data.cid e = some j) ∧
    c'.points[0]? = some start ∧ (∀ y, c'.points[1]? = some y → y = o1) ∧
    (∀ k x y, IsEdge c'.points k x y → ∃ a b, KeptPiece polys a b ∧ SamePoint y b ∧ (SamePoint x a ∨ k = 0 ∧ astray)) ∧
    (∀ p ∈ c'.points, ∃ q, KeptPiece polys p q) ∧
    (∀ (i : Nat) t e, arena'[i]? = some t → t.data.cid e = some id → Closed c'.points astray (t.pointAt e) (t.otherPointAt e)) ∧
    FlagsOk polys c'.from_polygons ∧ c'.holes = c.holes ∧ c'.external = c.external ∧ c'.neighbors = c.neighbors ∧ c'.is_clockwise = c.is_clockwise ∧
    (c'.points[1]? = none → SamePoint o1 start)
  | 0, _, _, _, _, _, _, _, _, _, h => by cases h
  | fuel + 1, arena, arena', c, c', cur, last, he, hw, hf, h => by
    simp only [traceContour] at h
    obtain ⟨⟨seg, e⟩, hx, h⟩ := Res.bind_eq_ok h
    obtain ⟨s, hs, h⟩ := Res.bind_eq_ok h
    obtain ⟨fp, hfp, h⟩ := Res.bind_eq_ok h
    obtain ⟨arena1, ha1, h⟩ := Res.bind_eq_ok h
    have hx := index_eq_ok hx
    have hs := index_eq_ok hs
    dsimp only at h hs hfp ha1
    obtain ⟨s1, hs1, rfl⟩ := setPacket_spec ha1
    rw [hs] at hs1
    cases hs1
    obtain ⟨x0, s0, hx0, hs0, hhere, hsecond⟩ := hw.here
    rw [hx] at hx0
    cases hx0
    dsimp only at hs0 hhere hsecond
    rw [hs] at hs0
    cases hs0
    obtain ⟨s2, hs2, hkp, hfl⟩ := he (seg, e) (mem_of_getElem? hx)
    dsimp only at hs2 hkp hfl
    rw [hs] at hs2
    cases hs2
    rw [faces_assign] at hfp
    have hf' := flags_union hf hfl hfp
    have hfr : Frame arena (arena.set seg { s with data := s.data.assign id e }) := frame_set hs (core_assign s id e)
    have hne : c.points ≠ [] := by
      intro h0
      have := hw.first
      rw [h0] at this
      cases this
    have hpos : 0 < c.points.length := List.length_pos_iff.mpr hne
    -- where the contour ids come from
    have hids : ∀ (i : Nat) t' e' j, (arena.set seg { s with data := s.data.assign id e })[i]? = some t' → t'.data.cid e' = some j →
        (j = id ∧ i = seg ∧ e' = e ∧ t'.pointAt e' = s.pointAt e ∧ t'.otherPointAt e' = s.otherPointAt e) ∨
        ∃ t, arena[i]? = some t ∧ t.data.cid e' = some j ∧ t'.pointAt e' = t.pointAt e' ∧ t'.otherPointAt e' = t.otherPointAt e' := by
      intro i t' e' j ht hc
      rw [getElem?_set_of hs] at ht
      by_cases hi : i = seg
      · rw [if_pos hi] at ht
        cases ht
        dsimp only at hc
        rw [cid_assign] at hc
        by_cases hee : e' = e
        · rw [if_pos hee] at hc
          cases hc
          subst hee
          left
          exact ⟨rfl, hi, rfl, by cases e' <;> rfl, by cases e' <;> rfl⟩
        · rw [if_neg hee] at hc
          right
          exact ⟨s, by rw [hi]; exact hs, hc, by cases e' <;> rfl, by cases e' <;> rfl⟩
      · rw [if_neg hi] at ht
        right
        exact ⟨t', ht, hc, rfl, rfl⟩
    split at h
    · -- back at the start
      rename_i hb
      cases h
      have hclose : ∀ z, c.points.getLast? = some z → IsEdge c.points (c.points.length - 1) z start := by
        intro z hz
        refine ⟨getLast?_getElem? hz, ?_⟩
        rw [show c.points.length - 1 + 1 = c.points.length by omega, Nat.mod_self]
        exact hw.first
      have hlast : ∃ z, c.points.getLast? = some z := ⟨_, List.getLast?_eq_some_getLast hne⟩
      have hstart : SamePoint start (s.otherPointAt e) := Or.inr (Or.inr hb)
      have closing : Closed c.points astray (s.pointAt e) (s.otherPointAt e) := by
        rcases hhere with ⟨z, hz, hsame⟩ | ⟨hl, ha⟩
        · exact ⟨_, z, start, hclose z hz, hstart, Or.inl hsame⟩
        · obtain ⟨z, hz⟩ := hlast
          exact ⟨_, z, start, hclose z hz, hstart, Or.inr ⟨by omega, ha⟩⟩
      refine ⟨hfr, ?_, hw.first, hw.second, ?_, hw.verts, ?_, hf', rfl, rfl, rfl, rfl, ?_⟩
      · intro i t' e' j ht hc hj
        rcases hids i t' e' j ht hc with ⟨h1, _⟩ | ⟨t, h1, h2, _⟩
        · exact absurd h1 hj
        · exact ⟨t, h1, h2⟩
      · intro k x y hk
        obtain ⟨h1, h2⟩ := hk
        dsimp only at h1 h2
        rcases Nat.lt_or_ge (k + 1) c.points.length with hlt | hge
        · rw [Nat.mod_eq_of_lt hlt] at h2
          exact hw.edges k x y h1 h2
        · have hkl : k = c.points.length - 1 := by have := lt_of_getElem? h1; omega
          rw [show k + 1 = c.points.length by omega, Nat.mod_self, hw.first] at h2
          cases h2
          refine ⟨s.pointAt e, s.otherPointAt e, hkp, hstart, ?_⟩
          rcases hhere with ⟨z, hz, hsame⟩ | ⟨hl, ha⟩
          · rw [hkl, getLast?_getElem? hz] at h1
            cases h1
            exact Or.inl hsame
          · exact Or.inr ⟨by omega, ha⟩
      · intro i t' e' ht hc
        rcases hids i t' e' id ht hc with ⟨_, _, _, h3, h4⟩ | ⟨t, h1, h2, h3, h4⟩
        · rw [h3, h4]; exact closing
        · rw [h3, h4]; exact (hw.ids i t e' h1 h2).closed
      · intro hn
        have : c.points.length = 1 := by
          have := List.getElem?_eq_none_iff.mp hn
          dsimp only at this
          omega
        rw [← hsecond this]
        exact Or.inr (Or.inl hb)
    · obtain ⟨next, hnext, h⟩ := Res.bind_eq_ok h
      have he1 : ∀ x ∈ included, EndOk polys (arena.set seg { s with data := s.data.assign id e }) x := fun x hx => (he x hx).frame hfr
      have hstep : WalkStep (c.points ++ [s.otherPointAt e]) astray (s.pointAt e) (s.otherPointAt e) := by
        have hlt : (c.points ++ [s.otherPointAt e])[c.points.length]? = some (s.otherPointAt e) := by simp
        rcases hhere with ⟨z, hz, hsame⟩ | ⟨hl, ha⟩
        · refine ⟨c.points.length - 1, z, s.otherPointAt e, ?_, ?_, Or.inl rfl, Or.inl hsame⟩
          · rw [List.getElem?_append_left (by omega)]; exact getLast?_getElem? hz
          · rw [show c.points.length - 1 + 1 = c.points.length by omega]; exact hlt
        · refine ⟨0, start, s.otherPointAt e, ?_, ?_, Or.inl rfl, Or.inr ⟨rfl, ha⟩⟩
          · rw [List.getElem?_append_left hpos]; exact hw.first
          · rw [hl] at hlt; exact hlt
      have hw' : TraceWalk polys included id astray start o1 (arena.set seg { s with data := s.data.assign id e }) (c.points ++ [s.otherPointAt e]) next := by
        refine ⟨?_, ?_, ?_, ?_, ?_, ?_⟩
        · rw [List.getElem?_append_left hpos]; exact hw.first
        · intro k x y h1 h2
          rcases Nat.lt_or_ge (k + 1) c.points.length with hlt | hge
          · rw [List.getElem?_append_left (by omega)] at h1 h2
            exact hw.edges k x y h1 h2
          · have hk : k + 1 = c.points.length := by
              have := lt_of_getElem? h2
              simp at this
              omega
            rw [hk, List.getElem?_append_right (Nat.le_refl _)] at h2
            simp only [Nat.sub_self, List.getElem?_cons_zero, Option.some.injEq] at h2
            subst h2
            rw [List.getElem?_append_left (by omega)] at h1
            refine ⟨s.pointAt e, s.otherPointAt e, hkp, Or.inl rfl, ?_⟩
            rcases hhere with ⟨z, hz, hsame⟩ | ⟨hl, ha⟩
            · rw [show k = c.points.length - 1 by omega, getLast?_getElem? hz] at h1
              cases h1
              exact Or.inl hsame
            · exact Or.inr ⟨by omega, ha⟩
        · intro p hp
          rcases List.mem_append.mp hp with hp | hp
          · exact hw.verts p hp
          · rw [List.mem_singleton] at hp
            subst hp
            exact ⟨_, hkp.turn⟩
        · obtain ⟨x1, t1, hx1, ht1, x2, t2, hx2, ht2, hbeq, _⟩ := findNext_ok hnext
          rw [hx] at hx1
          cases hx1
          refine ⟨x2, t2, hx2, ht2, Or.inl ⟨s.otherPointAt e, by simp, ?_⟩, ?_⟩
          · have : t1.otherPointAt e = s.otherPointAt e := by
              obtain ⟨t0, ht0, hc0⟩ := hfr.back ht1
              rw [hs] at ht0
              cases ht0
              exact ((core_pointAt hc0 e).2.1).symm
            rw [this] at hbeq
            exact Or.inr (Or.inl hbeq)
          · intro hl
            simp at hl
            exact absurd hl (by omega)
        · intro y hy
          rcases Nat.lt_or_ge 1 c.points.length with hlt | hge
          · rw [List.getElem?_append_left hlt] at hy
            exact hw.second y hy
          · have hl : c.points.length = 1 := by omega
            rw [List.getElem?_append_right hge, hl] at hy
            simp only [Nat.sub_self, List.getElem?_cons_zero, Option.some.injEq] at hy
            rw [← hy]
            exact hsecond hl
        · intro i t' e' ht hc
          rcases hids i t' e' id ht hc with ⟨_, _, _, h3, h4⟩ | ⟨t, h1, h2, h3, h4⟩
          · rw [h3, h4]; exact hstep
          · rw [h3, h4]; exact (hw.ids i t e' h1 h2).append _
      obtain ⟨r1, r2, r3⟩ := contourWalk_ok (c := ({ c with from_polygons := fp } : Contour F).add (s.otherPointAt e)) he1 hw' hf' h
      refine ⟨hfr.trans r1, ?_, r3⟩
      intro i t' e' j ht hc hj
      obtain ⟨t, ht1, hc1⟩ := r2 i t' e' j ht hc hj
      rcases hids i t e' j ht1 hc1 with ⟨h1, _⟩ | ⟨t0, h1, h2, _⟩
      · exact absurd h1 hj
      · exact ⟨t0, h1, h2⟩

end Idc
