import Verif.Props.PlanSweep
/-!
# A left endpoint, for C81
-/

namespace Idc

namespace Plan

variable {G : Plan}

theorem Kept.put {p : SegmentPacket} {i : ℕ} (h : Kept G p i) (b : Bool) : Kept G { p with is_in_result := b } i :=
  ⟨h.polyi, h.mode, h.lproc, h.rproc, h.lid, h.rid⟩

theorem Kept.typ {p : SegmentPacket} {i : ℕ} (h : Kept G p i) (t : EdgeType) : Kept G { p with edge_type := t } i :=
  ⟨h.polyi, h.mode, h.lproc, h.rproc, h.lid, h.rid⟩

theorem Good.put {p : SegmentPacket} {i : ℕ} (h : Good G p i) (b : Bool) : Good G { p with is_in_result := b } i :=
  ⟨h.right, h.left, h.up, h.below⟩

theorem Good.typ {p : SegmentPacket} {i : ℕ} (h : Good G p i) (t : EdgeType) : Good G { p with edge_type := t } i :=
  ⟨h.right, h.left, h.up, h.below⟩

theorem in_of {p : SegmentPacket} {i : ℕ} (h : Kept G p i) (ht : p.edge_type ≠ .nonContributing) : In G { p with is_in_result := p.isInResult } i := by
  refine ⟨ht, ?_⟩
  show p.isInResult = true ↔ _
  unfold SegmentPacket.isInResult
  rw [if_neg ht, ← h.mode]
  by_cases hm : p.mode = .removeEdges <;> simp [hm]

theorem out_of {p : SegmentPacket} (ht : p.edge_type = .nonContributing) : Out { p with is_in_result := p.isInResult } := by
  refine ⟨ht, ?_⟩
  show p.isInResult = false
  unfold SegmentPacket.isInResult
  rw [if_pos ht]

/-- What is known when a left endpoint is reached. -/
structure Before (G : Plan) (arena : Arena ℝ) (i : ℕ) (l₁ l₂ : List ℕ) : Prop where
  has : G.Has arena
  stack : Stack G (G.tau i) (l₁ ++ i :: l₂)
  complete : ∀ j, G.Alive (G.tau i) j → G.Low (G.tau i) j i → j ∈ l₁
  kept : ∀ j ∈ G.S, Kept G (dat arena j) j
  fresh : Fresh G (dat arena i)
  good : ∀ j ∈ l₁, Good G (dat arena j) j
  inn : ∀ j ∈ l₁, (∀ j' ∈ l₁, G.Same j j' → G.poly j' ≤ G.poly j) → In G (dat arena j) j
  out : ∀ j ∈ l₁, (∃ j' ∈ l₁, G.Same j j' ∧ G.poly j < G.poly j') → Out (dat arena j)
  up : ∀ k, l₂.head? = some k → ¬ G.Same i k

/-- What is known afterwards. -/
structure After (G : Plan) (arena arena' : Arena ℝ) (i : ℕ) : Prop where
  has : G.Has arena'
  length : arena'.length = arena.length
  good : Good G (dat arena' i) i
  kept : Kept G (dat arena' i) i
  inn : In G (dat arena' i) i
  under : ∀ j, G.Under i j → G.Same j i → Good G (dat arena' j) j ∧ Kept G (dat arena' j) j ∧ Out (dat arena' j)
  rest : ∀ j, j ≠ i → ¬ (G.Under i j ∧ G.Same j i) → dat arena' j = dat arena j

theorem Before.mem_i {arena : Arena ℝ} {i : ℕ} {l₁ l₂ : List ℕ} (h : Before G arena i l₁ l₂) : i ∈ G.S := (h.stack.alive i (by simp)).1

theorem Before.last {arena : Arena ℝ} {i : ℕ} {l₁ l₂ : List ℕ} (h : Before G arena i l₁ l₂) {k : ℕ} (hk : l₁.getLast? = some k) : G.Under i k := by
  obtain ⟨l', rfl⟩ := List.getLast?_eq_some_iff.1 hk
  have hs := h.stack
  rw [List.append_assoc, List.singleton_append] at hs
  exact hs.under (by simp) h.complete

theorem Before.none {arena : Arena ℝ} {i : ℕ} {l₁ l₂ : List ℕ} (h : Before G arena i l₁ l₂) (hk : l₁.getLast? = none) :
    ∀ j, G.Alive (G.tau i) j → ¬ G.Low (G.tau i) j i := by
  intro j a l
  have := h.complete j a l
  rw [List.getLast?_eq_none_iff.1 hk] at this
  simp at this

theorem Under.unique {i k k' : ℕ} (h : G.Under i k) (h' : G.Under i k') : k = k' := by
  by_contra hn
  rcases h.alive.low_or h'.alive hn with h1 | h1
  · exact h.max _ h'.alive h'.low h1
  · exact h'.max _ h.alive h.low h1

/-- How the arena changes when a left endpoint is reached, call by call. -/
inductive Steps (G : Plan) (arena : Arena ℝ) (i : ℕ) (l₁ : List ℕ) (arena' : Arena ℝ) : Prop where
  | other : (∀ k, l₁.getLast? = some k → ¬ G.Same k i) → updatePolygonFacing arena i l₁.getLast? = .ok arena' → Steps G arena i l₁ arena'
  | same (k : ℕ) (l : List ℕ) (A1 A2 A3 : Arena ℝ) : l₁ = l ++ [k] → G.Same k i → updatePolygonFacing arena i (some k) = .ok A1 →
      handleIntersections A1 (some k) (some i) = .ok (A2, 2, none, none) → updatePolygonFacing A2 k l.getLast? = .ok A3 →
      updatePolygonFacing A3 i (some k) = .ok arena' → (dat A1 i).edge_type ≠ .nonContributing → (dat A1 i).polygon_index = G.poly i → G.Has A1 →
      G.Has A2 → G.Has A3 → Steps G arena i l₁ arena'

/-- Nothing coincides. -/
theorem sweepLeft_other {lib : Lib} (hl : lib.Lawful) {st : SweepState ℝ} {i : ℕ} {l₁ l₂ : List ℕ} (h : Before G st.arena i l₁ l₂)
    (hact : st.active = l₁ ++ l₂) (hns : ∀ k, l₁.getLast? = some k → ¬ G.Same k i) (np : ℕ) :
    ∃ arena', sweepLeft lib np st i = .ok { st with arena := arena', active := l₁ ++ i :: l₂ } ∧ After G st.arena arena' i ∧ Steps G st.arena i l₁ arena' := by
  have hi := h.mem_i
  have ha := h.has
  have hne : ∀ k, l₁.getLast? = some k → k ∈ G.S ∧ k ≠ i := fun k hk => ⟨(h.last hk).alive.1, (h.last hk).ne⟩
  obtain ⟨p, ⟨hp1, hp2, hp3⟩, hup⟩ := updateFacing ha hi l₁.getLast? hne (fun p => Good G p i ∧ Kept G p i ∧ p.edge_type = (dat st.arena i).edge_type) (by
    intro below hb
    obtain ⟨p', e, g, k, t⟩ := facing_good hi (h.kept i hi) h.fresh.left h.fresh.right below (by
      cases below with
      | none => exact ⟨h.none hb, h.fresh.below⟩
      | some s =>
        obtain ⟨k, hk, hs, is⟩ := hb
        have hkl : k ∈ l₁ := List.mem_of_getLast? hk
        have hu := h.last hk
        refine ⟨k, is, hu, ?_, ?_, fun e => absurd e (hns k hk), fun _ => ?_⟩
        · rw [← dat_of hs]; exact h.good k hkl
        · rw [← dat_of hs]; exact (h.kept k hu.alive.1).polyi
        · rw [← dat_of hs]
          exact (h.inn k hkl fun j hj hkj => hu.top hi (hns k hk) (h.stack.alive j (by simp [hj])).1 hkj.symm).1)
    exact ⟨p', e, g, k, t⟩)
  set p0 : SegmentPacket := { p with is_in_result := p.isInResult } with hp0
  have ha' := ha.put i p0
  refine ⟨putPacket st.arena i p0, ?_, ⟨ha', put_length _ _ _, ?_, ?_, ?_, ?_, ?_⟩, .other hns hup⟩
  · unfold sweepLeft
    rw [hact, inserted hl ha h.stack]
    simp only [Res.bind_ok]
    rw [hup]
    simp only [Res.bind_ok]
    obtain ⟨m1, hm1, e1⟩ := handle_pair ha' (x := some i) (y := l₂.head?) (fun k h => by cases h; exact hi)
      (fun k hk => (h.stack.alive k (by simp [List.mem_of_head? hk])).1) (fun a b h1 h2 => by cases h1; exact h.up b h2)
    obtain ⟨m2, hm2, e2⟩ := handle_pair ha' (x := l₁.getLast?) (y := some i) (fun k h => (hne k h).1) (fun k h => by cases h; exact hi)
      (fun a b h1 h2 => by cases h2; exact hns a h1)
    rw [e1]
    simp only [Res.bind_ok, splitIf, splitIfOpt]
    unfold updateAfter
    rw [if_neg (by omega)]
    simp only [Res.bind_ok]
    rw [e2]
    simp only [Res.bind_ok, splitIf, splitIfOpt]
    rw [if_neg (by omega)]
    rfl
  · rw [dat_put (ha.lt hi), if_pos rfl]; exact hp1.put _
  · rw [dat_put (ha.lt hi), if_pos rfl]; exact hp2.put _
  · rw [dat_put (ha.lt hi), if_pos rfl]
    exact in_of hp2 (by rw [hp3, h.fresh.type]; decide)
  · intro j hu hs
    exfalso
    have hj := h.complete j hu.alive hu.low
    rcases hk : l₁.getLast? with _ | k
    · rw [List.getLast?_eq_none_iff.1 hk] at hj; simp at hj
    · have := (h.last hk).unique hu
      subst this
      exact hns k hk hs
  · intro j hj _
    rw [dat_put (ha.lt hi), if_neg hj]

/-- The segment below coincides. -/
theorem sweepLeft_same {lib : Lib} (hl : lib.Lawful) {st : SweepState ℝ} {i k : ℕ} {l₁ l₂ : List ℕ} (h : Before G st.arena i (l₁ ++ [k]) l₂)
    (hact : st.active = l₁ ++ [k] ++ l₂) (hs : G.Same k i) (np : ℕ) :
    ∃ arena', sweepLeft lib np st i = .ok { st with arena := arena', active := l₁ ++ [k] ++ i :: l₂ } ∧ After G st.arena arena' i ∧ Steps G st.arena i (l₁ ++ [k]) arena' := by
  have hi := h.mem_i
  have ha := h.has
  have hlast : (l₁ ++ [k]).getLast? = some k := by simp
  have hu := h.last hlast
  have hk := hu.alive.1
  have hki := hu.ne
  have hkt : G.tau k = G.tau i := hs.tau
  have hst2 : Stack G (G.tau i) (l₁ ++ k :: i :: l₂) := by
    have := h.stack
    rwa [List.append_assoc, List.singleton_append] at this
  have flen : ∀ {p : SegmentPacket} {j : ℕ}, Good G p j → p.left_faces_polygons.length = G.n ∧ p.right_faces_polygons.length = G.n := by
    intro p j hg
    rw [hg.left, hg.right, flag_length, flag_length]; exact ⟨rfl, rfl⟩
  -- first update of i
  obtain ⟨p1, ⟨hp1k, hp1t, hp1l, hp1r⟩, hup1⟩ := updateFacing ha hi (some k) (by intro k' e; cases e; exact ⟨hk, hki⟩)
    (fun p => Kept G p i ∧ p.edge_type = (dat st.arena i).edge_type ∧ p.left_faces_polygons.length = G.n ∧ p.right_faces_polygons.length = G.n) (by
    intro below hb
    cases below with
    | none => cases hb
    | some s =>
      obtain ⟨k', e, hs', is'⟩ := hb
      cases e
      have hg := flen (h.good k (by simp))
      rw [dat_of hs'] at hg
      exact facing_weak hi (h.kept i hi) h.fresh.left h.fresh.right s hg.1 hg.2)
  set q1 : SegmentPacket := { p1 with is_in_result := p1.isInResult } with hq1
  set A1 := putPacket st.arena i q1 with hA1
  have ha1 : G.Has A1 := ha.put i q1
  have d1i : dat A1 i = q1 := by rw [hA1, dat_put (ha.lt hi), if_pos rfl]
  have d1 : ∀ j, j ≠ i → dat A1 j = dat st.arena j := fun j hj => by rw [hA1, dat_put (ha.lt hi), if_neg hj]
  -- the two coincide
  obtain ⟨t, ht, hh⟩ := handle_same ha1 hk hi hki hs (by rw [d1 k hki]; exact (h.kept k hk).polyi) (by rw [d1i]; exact hp1k.polyi)
    (by rw [d1i]; show p1.edge_type ≠ _; rw [hp1t, h.fresh.type]; decide)
  rw [d1i, d1 k hki] at hh
  set A2 := putPacket (putPacket A1 k { dat st.arena k with edge_type := .nonContributing }) i { q1 with edge_type := t } with hA2
  have ha2 : G.Has A2 := (ha1.put _ _).put _ _
  have ha12 : G.Has (putPacket A1 k { dat st.arena k with edge_type := .nonContributing }) := ha1.put _ _
  have d2i : dat A2 i = { q1 with edge_type := t } := by rw [hA2, dat_put (ha12.lt hi), if_pos rfl]
  have d2k : dat A2 k = { dat st.arena k with edge_type := .nonContributing } := by rw [hA2, dat_put (ha12.lt hi), if_neg hki, dat_put (ha1.lt hk), if_pos rfl]
  have d2 : ∀ j, j ≠ i → j ≠ k → dat A2 j = dat st.arena j := fun j hj hj' => by
    rw [hA2, dat_put (ha12.lt hi), if_neg hj, dat_put (ha1.lt hk), if_neg hj', d1 j hj]
  -- the segment below the two
  have hcompk : ∀ j, G.Alive (G.tau k) j → G.Low (G.tau k) j k → j ∈ l₁ := by
    intro j a l
    rw [hkt] at a l
    rcases List.mem_append.1 (h.complete j a (l.trans hu.low)) with hj | hj
    · exact hj
    · simp only [List.mem_singleton] at hj
      subst hj
      exact absurd l Low.irrefl
  have hlk : ∀ b, l₁.getLast? = some b → G.Under k b := by
    intro b hb
    obtain ⟨l', rfl⟩ := List.getLast?_eq_some_iff.1 hb
    have hs' := hst2
    rw [List.append_assoc, List.singleton_append, ← hkt] at hs'
    exact hs'.under (by simp) hcompk
  have hli : i ∉ l₁ := by
    intro hm
    have := hst2.nodup
    rw [List.nodup_append] at this
    exact this.2.2 i hm i (by simp) rfl
  obtain ⟨p2, ⟨hp2g, hp2k, hp2t⟩, hup2⟩ := updateFacing ha2 hk l₁.getLast? (fun b hb => ⟨(hlk b hb).alive.1, (hlk b hb).ne⟩)
    (fun p => Good G p k ∧ Kept G p k ∧ p.edge_type = .nonContributing) (by
    intro below hb
    rw [d2k]
    have hgk := h.good k (by simp)
    obtain ⟨p', e, g, kp, t'⟩ := facing_good (p := { dat st.arena k with edge_type := .nonContributing }) hk ((h.kept k hk).typ _) (flen (hgk.typ .nonContributing)).1 (flen (hgk.typ .nonContributing)).2 below (by
      cases below with
      | none =>
        have hno : ∀ j, G.Alive (G.tau k) j → ¬ G.Low (G.tau k) j k := by
          intro j a l
          have := hcompk j a l
          rw [List.getLast?_eq_none_iff.1 hb] at this
          simp at this
        refine ⟨hno, ?_⟩
        show (dat st.arena k).below_in_result = _
        rw [hgk.below]
        exact B_none fun j a l => hno j a (Or.inl l)
      | some s =>
        obtain ⟨b, hb, hs', is'⟩ := hb
        have hub := hlk b hb
        have hbl : b ∈ l₁ := List.mem_of_getLast? hb
        have hbi : b ≠ i := fun e => hli (e ▸ hbl)
        have hd : s.data = dat st.arena b := by rw [← dat_of hs', d2 b hbi hub.ne]
        refine ⟨b, is', hub, ?_, ?_, fun e => ?_, fun e => ?_⟩
        · rw [hd]; exact h.good b (by simp [hbl])
        · rw [hd]; exact (h.kept b hub.alive.1).polyi
        · rw [hd]
          exact (h.out b (by simp [hbl]) ⟨k, by simp, e, hub.poly_lt e⟩).1
        · rw [hd]
          exact (h.inn b (by simp [hbl]) fun j hj hbj => hub.top hk e (h.stack.alive j (by
            have := List.mem_append.1 hj
            simp only [List.mem_append, List.mem_cons] at this ⊢
            tauto)).1 hbj.symm).1)
    exact ⟨p', e, g, kp, t'⟩)
  set q2 : SegmentPacket := { p2 with is_in_result := p2.isInResult } with hq2
  set A3 := putPacket A2 k q2 with hA3
  have ha3 : G.Has A3 := ha2.put _ _
  have d3k : dat A3 k = q2 := by rw [hA3, dat_put (ha2.lt hk), if_pos rfl]
  have d3 : ∀ j, j ≠ k → dat A3 j = dat A2 j := fun j hj => by rw [hA3, dat_put (ha2.lt hk), if_neg hj]
  -- the second update of i
  obtain ⟨p3, ⟨hp3g, hp3k, hp3t⟩, hup3⟩ := updateFacing ha3 hi (some k) (by intro k' e; cases e; exact ⟨hk, hki⟩)
    (fun p => Good G p i ∧ Kept G p i ∧ p.edge_type = t) (by
    intro below hb
    rw [d3 i hki.symm, d2i]
    obtain ⟨p', e, g, kp, t'⟩ := facing_good (p := { q1 with edge_type := t }) hi ((hp1k.put _).typ t) hp1l hp1r below (by
      cases below with
      | none => cases hb
      | some s =>
        obtain ⟨k', e, hs', is'⟩ := hb
        cases e
        have hd : s.data = q2 := by rw [← dat_of hs', d3k]
        exact ⟨k, is', hu, by rw [hd]; exact hp2g.put _, by rw [hd]; exact hp2k.polyi, fun _ => by rw [hd]; exact hp2t, fun e => absurd hs e⟩)
    exact ⟨p', e, g, kp, t'⟩)
  set q3 : SegmentPacket := { p3 with is_in_result := p3.isInResult } with hq3
  refine ⟨putPacket A3 i q3, ?_, ⟨ha3.put _ _, ?_, ?_, ?_, ?_, ?_, ?_⟩, .same k l₁ A1 A2 A3 rfl hs hup1 hh hup2 hup3
    (by rw [d1i]; show p1.edge_type ≠ _; rw [hp1t, h.fresh.type]; decide) (by rw [d1i]; exact hp1k.polyi) ha1 ha2 ha3⟩
  · unfold sweepLeft
    rw [hact, inserted hl ha h.stack]
    simp only [Res.bind_ok]
    rw [hlast, hup1]
    simp only [Res.bind_ok]
    obtain ⟨m1, hm1, e1⟩ := handle_pair ha1 (x := some i) (y := l₂.head?) (fun k h => by cases h; exact hi)
      (fun k hk => (h.stack.alive k (by simp [List.mem_of_head? hk])).1) (fun a b h1 h2 => by cases h1; exact h.up b h2)
    rw [e1]
    simp only [Res.bind_ok, splitIf, splitIfOpt]
    unfold updateAfter
    rw [if_neg (by omega)]
    simp only [Res.bind_ok]
    rw [hh]
    simp only [Res.bind_ok, splitIf, splitIfOpt]
    rw [if_pos trivial]
    have hun : unwrap (some k) = .ok k := rfl
    rw [hun]
    simp only [Res.bind_ok]
    have hprev := previous hl ha2 hst2
    rw [show l₁ ++ [k] ++ i :: l₂ = l₁ ++ k :: i :: l₂ by simp, hprev]
    simp only [Res.bind_ok]
    rw [hup2]
    simp only [Res.bind_ok]
    rw [hup3]
    rfl
  · rw [put_length, hA3, put_length, hA2, put_length, put_length, hA1, put_length]
  · rw [dat_put (ha3.lt hi), if_pos rfl]; exact hp3g.put _
  · rw [dat_put (ha3.lt hi), if_pos rfl]; exact hp3k.put _
  · rw [dat_put (ha3.lt hi), if_pos rfl]; exact in_of hp3k (by rw [hp3t]; exact ht)
  · intro j hj _
    obtain rfl := hu.unique hj
    rw [dat_put (ha3.lt hi), if_neg hki, d3k]
    exact ⟨hp2g.put _, hp2k.put _, out_of hp2t⟩
  · intro j hj hn
    have hjk : j ≠ k := by rintro rfl; exact hn ⟨hu, hs⟩
    rw [dat_put (ha3.lt hi), if_neg hj, d3 j hjk, d2 j hj hjk]

/-- A left endpoint: the segment goes where it belongs and gets its flags; a coinciding segment below no longer counts. -/
theorem sweepLeft_plan {lib : Lib} (hl : lib.Lawful) {st : SweepState ℝ} {i : ℕ} {l₁ l₂ : List ℕ} (h : Before G st.arena i l₁ l₂)
    (hact : st.active = l₁ ++ l₂) (np : ℕ) :
    ∃ arena', sweepLeft lib np st i = .ok { st with arena := arena', active := l₁ ++ i :: l₂ } ∧ After G st.arena arena' i ∧ Steps G st.arena i l₁ arena' := by
  by_cases hs : ∃ k, l₁.getLast? = some k ∧ G.Same k i
  · obtain ⟨k, hk, hs⟩ := hs
    obtain ⟨l', rfl⟩ := List.getLast?_eq_some_iff.1 hk
    exact sweepLeft_same hl h hact hs np
  · push Not at hs
    exact sweepLeft_other hl h hact hs np

end Plan

end Idc
