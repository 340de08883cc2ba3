import Verif.Props.Sweep
/-!
# What the tracing phase of `compute` keeps true
-/

namespace Idc

open FloatOps

variable {F : Type} [FloatOps F] {polys : List (Polygon F × PolygonMode)}

/-- What tracing does not change of a segment. -/
def core (s : BoolSegment F) : Pt F × Pt F × List Bool × List Bool × Nat :=
  (s.left_point, s.right_point, s.data.left_faces_polygons, s.data.right_faces_polygons, s.data.left_index)

/-- The segments are the same in that respect. -/
def Frame (a a' : Arena F) : Prop := a'.map core = a.map core

theorem Frame.refl (a : Arena F) : Frame a a := rfl
theorem Frame.trans {a b c : Arena F} (h : Frame a b) (h' : Frame b c) : Frame a c := Eq.trans h' h

theorem Frame.back {a a' : Arena F} (h : Frame a a') {i : Nat} {s' : BoolSegment F} (hs : a'[i]? = some s') :
    ∃ s, a[i]? = some s ∧ core s = core s' := by
  have h1 := congrArg (fun l => l[i]?) h
  simp only [List.getElem?_map, hs, Option.map_some] at h1
  rcases ha : a[i]? with _ | s
  · rw [ha] at h1; cases h1
  · rw [ha] at h1; exact ⟨s, rfl, (Option.some.inj h1).symm⟩

theorem Frame.fwd {a a' : Arena F} (h : Frame a a') {i : Nat} {s : BoolSegment F} (hs : a[i]? = some s) :
    ∃ s', a'[i]? = some s' ∧ core s' = core s := Frame.back (a := a') (a' := a) h.symm hs

theorem core_pointAt {s s' : BoolSegment F} (h : core s = core s') (e : SegmentEnd) :
    s.pointAt e = s'.pointAt e ∧ s.otherPointAt e = s'.otherPointAt e ∧ s.data.faces e = s'.data.faces e := by
  unfold core at h
  simp only [Prod.mk.injEq] at h
  cases e <;> simp only [SweepSegment.pointAt, SweepSegment.otherPointAt, SegmentPacket.faces] <;> tauto

/-- The contour id of a side. -/
def SegmentPacket.cid (p : SegmentPacket) : SegmentEnd → Option Nat
  | .left => p.left_contour_id
  | .right => p.right_contour_id

theorem KeptPiece.turn {a b : Pt F} (h : KeptPiece polys a b) : KeptPiece polys b a := by
  obtain ⟨k, poly, mode, h1, h2, h3⟩ := h
  exact ⟨k, poly, mode, h1, h2, h3.turn⟩

/-- An endpoint that may be traced. -/
def EndOk (polys : List (Polygon F × PolygonMode)) (arena : Arena F) (x : Nat × SegmentEnd) : Prop :=
  ∃ s, arena[x.1]? = some s ∧ KeptPiece polys (s.pointAt x.2) (s.otherPointAt x.2) ∧ FlagsOk polys (s.data.faces x.2)

theorem EndOk.frame {a a' : Arena F} (h : Frame a a') {x : Nat × SegmentEnd} (hx : EndOk polys a x) : EndOk polys a' x := by
  obtain ⟨s, hs, hp, hf⟩ := hx
  obtain ⟨s', hs', hc⟩ := h.fwd hs
  obtain ⟨c1, c2, c3⟩ := core_pointAt hc x.2
  exact ⟨s', hs', by rw [c1, c2]; exact hp, by rw [c3]; exact hf⟩

/-! ### Which endpoints are traced -/

omit [FloatOps F] in
theorem facesRemoved_false {modes : List PolygonMode} : ∀ {flags : List Bool} {i : Nat}, facesRemoved modes i flags = .ok false →
    ∀ j : Nat, flags[j]? = some true → ∃ m, modes[i + j]? = some m ∧ m ≠ .removeInterior
  | [], _, _, j, hj => by simp at hj
  | flag :: rest, i, h, j, hj => by
    simp only [facesRemoved] at h
    split at h
    · obtain ⟨m, hm, h⟩ := Res.bind_eq_ok h
      split at h
      · cases h
      · rcases j with _ | j
        · exact ⟨m, index_eq_ok hm, by assumption⟩
        · have := facesRemoved_false h j (by simpa using hj)
          rwa [show i + 1 + j = i + (j + 1) by omega] at this
    · rcases j with _ | j
      · simp at hj; contradiction
      · have := facesRemoved_false h j (by simpa using hj)
        rwa [show i + 1 + j = i + (j + 1) by omega] at this

theorem skipSide_false {flags : List Bool} (hl : flags.length = polys.length) (h : skipSide (polys.map fun p => p.2) flags = .ok false) :
    FlagsOk polys flags := by
  unfold skipSide at h
  obtain ⟨r, hr, h⟩ := Res.bind_eq_ok h
  simp only [Res.pure_eq, Res.ok.injEq, Bool.or_eq_false_iff] at h
  obtain ⟨rfl, h⟩ := h
  refine ⟨hl, ?_, ?_⟩
  · unfold bvNone at h
    rw [List.all_eq_false] at h
    obtain ⟨x, hx, hn⟩ := h
    cases x
    · simp at hn
    · exact hx
  · intro i poly mode hp hf
    obtain ⟨m, hm, hne⟩ := facesRemoved_false hr i hf
    rw [Nat.zero_add, List.getElem?_map, hp] at hm
    cases hm
    exact hne

theorem segOk_end {arena : Arena F} {i : Nat} {s : BoolSegment F} (ho : SegOk polys s) (hs : arena[i]? = some s) (hr : s.data.is_in_result = true)
    (e : SegmentEnd) (hk : skipSide (polys.map fun p => p.2) (s.data.faces e) = .ok false) : EndOk polys arena (i, e) := by
  obtain ⟨poly, hm⟩ := ho.mode
  have kp : KeptPiece polys s.left_point s.right_point := ⟨_, poly, _, hm, ho.kept hr, ho.piece⟩
  refine ⟨s, hs, ?_, ?_⟩
  · cases e
    · exact kp
    · exact kp.turn
  · apply skipSide_false _ hk
    cases e
    · exact ho.leftLen
    · exact ho.rightLen

theorem include_ok {arena : Arena F} (ho : ArenaOk polys arena) : ∀ {swept segs : List Nat} {ends : List (Nat × SegmentEnd)}
    {r : List Nat × List (Nat × SegmentEnd)},
    (∀ x ∈ ends, EndOk polys arena x) → includeSegments (polys.map fun p => p.2) arena swept segs ends = .ok r → ∀ x ∈ r.2, EndOk polys arena x
  | [], _, _, _, he, h => by cases h; exact he
  | i :: rest, segs, ends, r, he, h => by
    simp only [includeSegments] at h
    obtain ⟨s, hs, h⟩ := Res.bind_eq_ok h
    have hs := index_eq_ok hs
    split at h
    · exact include_ok ho he h
    · rename_i hr
      obtain ⟨sl, hsl, h⟩ := Res.bind_eq_ok h
      obtain ⟨sr, hsr, h⟩ := Res.bind_eq_ok h
      split at h
      · exact include_ok ho he h
      · refine include_ok ho ?_ h
        have hr : s.data.is_in_result = true := by simpa using hr
        have so := ho s (mem_of_getElem? hs)
        intro x hx
        rcases List.mem_append.mp hx with hx | hx
        · rcases List.mem_append.mp hx with hx | hx
          · exact he x hx
          · cases sl
            · simp only [Bool.false_eq_true, if_false, List.mem_singleton] at hx
              subst hx
              exact segOk_end so hs hr .left hsl
            · simp at hx
        · cases sr
          · simp only [Bool.false_eq_true, if_false, List.mem_singleton] at hx
            subst hx
            exact segOk_end so hs hr .right hsr
          · simp at hx

/-! ### Positions of the endpoints -/

/-- What `recordIndices` keeps. -/
def core' (s : BoolSegment F) : Pt F × Pt F × List Bool × List Bool × Option Nat × Option Nat × Bool × Bool :=
  (s.left_point, s.right_point, s.data.left_faces_polygons, s.data.right_faces_polygons,
    s.data.left_contour_id, s.data.right_contour_id, s.data.left_processed, s.data.right_processed)

theorem record_ok {full : List (Nat × SegmentEnd)} : ∀ {rest : List (Nat × SegmentEnd)} {i : Nat} {a a' : Arena F},
    (∀ j : Nat, full[i + j]? = rest[j]?) →
    (∀ (j : Nat) s, a[j]? = some s → (∃ k < i, full[k]? = some (j, .left)) → full[s.data.left_index]? = some (j, .left)) →
    (∀ (j : Nat) s, a[j]? = some s → ¬ (∃ k < i, full[k]? = some (j, .left)) → s.data.left_index = 0) →
    recordIndices i rest a = .ok a' →
    a'.map core' = a.map core' ∧
    (∀ (j : Nat) s, a'[j]? = some s → (j, .left) ∈ full → full[s.data.left_index]? = some (j, .left)) ∧
    (∀ (j : Nat) s, a'[j]? = some s → (j, .left) ∉ full → s.data.left_index = 0)
  | [], i, a, a', hf, h1, h2, h => by
    cases h
    have hlen : full.length ≤ i := by
      have := hf 0
      simpa using this
    refine ⟨rfl, ?_, ?_⟩
    · intro j s hs hm
      obtain ⟨k, hk⟩ := List.mem_iff_getElem?.mp hm
      have := lt_of_getElem? hk
      exact h1 j s hs ⟨k, by omega, hk⟩
    · intro j s hs hm
      refine h2 j s hs ?_
      rintro ⟨k, _, hk⟩
      exact hm (mem_of_getElem? hk)
  | (seg, e) :: rest, i, a, a', hf, h1, h2, h => by
    simp only [recordIndices] at h
    obtain ⟨s, hs, h⟩ := Res.bind_eq_ok h
    obtain ⟨a1, ha1, h⟩ := Res.bind_eq_ok h
    have hs := index_eq_ok hs
    obtain ⟨s1, hs1, rfl⟩ := setPacket_spec ha1
    rw [hs] at hs1
    cases hs1
    have hi : full[i]? = some (seg, e) := by simpa using hf 0
    have ih := record_ok (full := full) (i := i + 1) (rest := rest) (a := a.set seg { s with data := s.data.setIndex i e }) (a' := a') ?_ ?_ ?_ h
    · refine ⟨ih.1.trans ?_, ih.2⟩
      apply List.ext_getElem?
      intro j
      rw [List.getElem?_map, List.getElem?_map, getElem?_set_of hs]
      by_cases hj : j = seg
      · rw [if_pos hj, hj, hs]
        cases e <;> rfl
      · rw [if_neg hj]
    · intro j
      have := hf (j + 1)
      rw [show i + (j + 1) = i + 1 + j by omega] at this
      simpa using this
    · intro j t ht hk
      rw [getElem?_set_of hs] at ht
      by_cases hj : j = seg
      · rw [if_pos hj] at ht
        cases ht
        subst hj
        cases e
        · exact hi
        · refine h1 j s hs ?_
          obtain ⟨k, hk1, hk2⟩ := hk
          refine ⟨k, ?_, hk2⟩
          rcases Nat.lt_or_ge k i with h | h
          · exact h
          · have : k = i := by omega
            rw [this, hi] at hk2
            cases hk2
      · rw [if_neg hj] at ht
        refine h1 j t ht ?_
        obtain ⟨k, hk1, hk2⟩ := hk
        refine ⟨k, ?_, hk2⟩
        rcases Nat.lt_or_ge k i with h | h
        · exact h
        · have : k = i := by omega
          rw [this, hi] at hk2
          cases hk2
          exact absurd rfl hj
    · intro j t ht hk
      have hk' : ¬ ∃ k < i, full[k]? = some (j, SegmentEnd.left) := by
        rintro ⟨k, h1, h2⟩
        exact hk ⟨k, by omega, h2⟩
      rw [getElem?_set_of hs] at ht
      by_cases hj : j = seg
      · rw [if_pos hj] at ht
        cases ht
        subst hj
        cases e
        · exact absurd ⟨i, by omega, hi⟩ hk
        · exact h2 j s hs hk'
      · rw [if_neg hj] at ht
        exact h2 j t ht hk'

/-! ### The next endpoint -/

/-- An unprocessed endpoint at `np`. -/
def GoodNext (arena : Arena F) (included : List (Nat × SegmentEnd)) (np : Pt F) (p : Nat) : Prop :=
  ∃ x s, included[p]? = some x ∧ arena[x.1]? = some s ∧ np.beq (s.pointAt x.2) = true ∧ s.data.isProcessed x.2 = false

theorem considerNext_closest {cv v : Pt F} {pos : Nat} {st : NextState F} {P : Nat → Prop} (h : ∀ p, st.closest = some p → P p) (hp : P pos) :
    ∀ p, (considerNext cv v pos st).closest = some p → P p := by
  intro p hc
  unfold considerNext at hc
  dsimp only at hc
  split at hc
  · cases hc; exact hp
  · split at hc
    · exact h p hc
    · split at hc
      · cases hc; exact hp
      · exact h p hc

theorem search_ok {arena : Arena F} {included : List (Nat × SegmentEnd)} {cur : Nat} {ce : Nat × SegmentEnd} {cv np : Pt F} :
    ∀ {rest : List (Nat × SegmentEnd)} {pos : Nat} {st st' : NextState F}, (∀ j : Nat, included[pos + j]? = rest[j]?) →
    (∀ p, st.closest = some p → GoodNext arena included np p) → searchNext arena cur ce cv np pos rest st = .ok st' →
    ∀ p, st'.closest = some p → GoodNext arena included np p
  | [], _, _, _, _, hg, h => by cases h; exact hg
  | (seg, e) :: rest, pos, st, st', hr, hg, h => by
    have hr' : ∀ j : Nat, included[pos + 1 + j]? = rest[j]? := by
      intro j
      have := hr (j + 1)
      rw [show pos + (j + 1) = pos + 1 + j by omega] at this
      simpa using this
    simp only [searchNext] at h
    obtain ⟨s, hs, h⟩ := Res.bind_eq_ok h
    obtain ⟨c, _, h⟩ := Res.bind_eq_ok h
    split at h
    · exact search_ok hr' hg h
    · rename_i hproc
      obtain ⟨o, _, h⟩ := Res.bind_eq_ok h
      split at h
      · exact search_ok hr' hg h
      · obtain ⟨o', _, h⟩ := Res.bind_eq_ok h
        split at h
        · exact search_ok hr' hg h
        · split at h
          · rename_i hb
            refine search_ok hr' (considerNext_closest hg ?_) h
            exact ⟨(seg, e), s, by simpa using hr 0, index_eq_ok hs, hb, by simpa using hproc⟩
          · cases h; exact hg

theorem findNext_ok {arena : Arena F} {included : List (Nat × SegmentEnd)} {cur p : Nat} (h : findNextSegment arena included cur = .ok p) :
    ∃ x s, included[cur]? = some x ∧ arena[x.1]? = some s ∧ GoodNext arena included (s.otherPointAt x.2) p := by
  unfold findNextSegment at h
  obtain ⟨x, hx, h⟩ := Res.bind_eq_ok h
  obtain ⟨s, hs, h⟩ := Res.bind_eq_ok h
  obtain ⟨start, _, h⟩ := Res.bind_eq_ok h
  obtain ⟨st, hst, h⟩ := Res.bind_eq_ok h
  refine ⟨x, s, index_eq_ok hx, index_eq_ok hs, ?_⟩
  split at h
  · rename_i q hq
    cases h
    exact search_ok (fun j => by rw [List.getElem?_drop]) (by simp) hst _ hq
  · cases h

end Idc
