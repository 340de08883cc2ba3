import Verif.Props.CutHandle
/-!
# Packets of the two runs, for C84
-/

namespace Idc

namespace Cut

open Plan

/-! ### Packets -/

/-- The packet, with the pointer renamed.  (Both runs have the same modes, but this does not matter.) -/
def view (π : ℕ → ℕ) (p : SegmentPacket) : SegmentPacket := { p with below_in_result := p.below_in_result.map π, mode := .normal }

/-- The packet without what is about to be overwritten. -/
def bare (p : SegmentPacket) : SegmentPacket :=
  { p with left_faces_polygons := bvClear p.left_faces_polygons, right_faces_polygons := bvClear p.right_faces_polygons, mode := .normal }

/-- Packets of a segment and of the piece it starts with. -/
structure Psim (π : ℕ → ℕ) (p p' : SegmentPacket) : Prop where
  eq : view π p = view id p'
  mode : p.mode = .removeEdges ↔ p'.mode = .removeEdges

/-- The same, except for what is about to be overwritten. -/
structure Csim (π : ℕ → ℕ) (p p' : SegmentPacket) : Prop where
  eq : bare (view π p) = bare (view id p')
  mode : p.mode = .removeEdges ↔ p'.mode = .removeEdges

theorem Psim.csim {π : ℕ → ℕ} {p p' : SegmentPacket} (h : Psim π p p') : Csim π p p' := ⟨by rw [h.eq], h.mode⟩

theorem Psim.congr {π π' : ℕ → ℕ} {p q p' : SegmentPacket} (h : Psim π p p') (hv : view π' q = view π p) (hm : q.mode = p.mode) : Psim π' q p' :=
  ⟨hv.trans h.eq, hm ▸ h.mode⟩

/-- What must be known of the segments below. -/
def Bsim (π : ℕ → ℕ) : Option (BoolSegment ℝ) → Option (BoolSegment ℝ) → Prop
  | none, none => True
  | some s, some s' => Psim π s.data s'.data ∧ s.vertical = s'.vertical ∧ π s.index = s'.index
  | _, _ => False

theorem facing_sim {π : ℕ → ℕ} {p p' : SegmentPacket} (h : Csim π p p') {b b' : Option (BoolSegment ℝ)} (hb : Bsim π b b') {r' : SegmentPacket}
    (h' : facingPacket p' b' = .ok r') : ∃ r, facingPacket p b = .ok r ∧ Psim π r r' ∧ (∀ x, r.below_in_result = some x →
      p.below_in_result = some x ∨ ∃ s, b = some s ∧ (s.data.below_in_result = some x ∨ s.index = x)) := by
  have e1 : p.polygon_index = p'.polygon_index := (congrArg SegmentPacket.polygon_index h.eq :)
  have e2 : p.edge_type = p'.edge_type := (congrArg SegmentPacket.edge_type h.eq :)
  have e3 : bvClear p.left_faces_polygons = bvClear p'.left_faces_polygons := (congrArg SegmentPacket.left_faces_polygons h.eq :)
  have e4 : bvClear p.right_faces_polygons = bvClear p'.right_faces_polygons := (congrArg SegmentPacket.right_faces_polygons h.eq :)
  have e5 : p.is_in_result = p'.is_in_result := (congrArg SegmentPacket.is_in_result h.eq :)
  have e6 : p.below_in_result.map π = p'.below_in_result.map id := (congrArg SegmentPacket.below_in_result h.eq :)
  have e7 : p.left_processed = p'.left_processed := (congrArg SegmentPacket.left_processed h.eq :)
  have e8 : p.right_processed = p'.right_processed := (congrArg SegmentPacket.right_processed h.eq :)
  have e9 : p.left_contour_id = p'.left_contour_id := (congrArg SegmentPacket.left_contour_id h.eq :)
  have e10 : p.right_contour_id = p'.right_contour_id := (congrArg SegmentPacket.right_contour_id h.eq :)
  have e11 : p.result_in_out = p'.result_in_out := (congrArg SegmentPacket.result_in_out h.eq :)
  have e12 : p.left_index = p'.left_index := (congrArg SegmentPacket.left_index h.eq :)
  have e13 : p.right_index = p'.right_index := (congrArg SegmentPacket.right_index h.eq :)
  cases b with
  | none =>
    cases b' with
    | some s' => exact hb.elim
    | none =>
      unfold facingPacket at h' ⊢
      dsimp only at h' ⊢
      obtain ⟨l, hl, h'⟩ := Res.bind_eq_ok h'
      cases h'
      rw [e3, e1, hl]
      simp only [Res.bind_ok, Res.pure_eq]
      refine ⟨_, rfl, ⟨?_, h.mode⟩, fun x hx => Or.inl hx⟩
      unfold view
      simp only [SegmentPacket.mk.injEq, *]
  | some s =>
    cases b' with
    | none => exact hb.elim
    | some s' =>
      obtain ⟨hs, hv, hi⟩ := hb
      have f1 : s.data.polygon_index = s'.data.polygon_index := (congrArg SegmentPacket.polygon_index hs.eq :)
      have f2 : s.data.edge_type = s'.data.edge_type := (congrArg SegmentPacket.edge_type hs.eq :)
      have f3 : s.data.left_faces_polygons = s'.data.left_faces_polygons := (congrArg SegmentPacket.left_faces_polygons hs.eq :)
      have f4 : s.data.right_faces_polygons = s'.data.right_faces_polygons := (congrArg SegmentPacket.right_faces_polygons hs.eq :)
      have f5 : s.data.up_faces_outwards = s'.data.up_faces_outwards := (congrArg SegmentPacket.up_faces_outwards hs.eq :)
      have f6 : s.data.is_outside_other_poly = s'.data.is_outside_other_poly := (congrArg SegmentPacket.is_outside_other_poly hs.eq :)
      have f7 : s.data.below_in_result.map π = s'.data.below_in_result.map id := (congrArg SegmentPacket.below_in_result hs.eq :)
      have hup : facingUp p s = facingUp p' s' := by
        unfold facingUp
        dsimp only
        rw [e1, f1, f3, f5, f6, hv]
      unfold facingPacket at h' ⊢
      dsimp only at h' ⊢
      obtain ⟨⟨up, out⟩, hu, h'⟩ := Res.bind_eq_ok h'
      obtain ⟨l, hl, h'⟩ := Res.bind_eq_ok h'
      obtain ⟨r, hr, h'⟩ := Res.bind_eq_ok h'
      obtain ⟨l2, hl2, h'⟩ := Res.bind_eq_ok h'
      cases h'
      rw [hup, hu]
      simp only [Res.bind_ok]
      rw [e3, f3, hl]
      simp only [Res.bind_ok]
      rw [e4, f2, f4, hr]
      simp only [Res.bind_ok]
      rw [e1, hl2]
      simp only [Res.bind_ok, Res.pure_eq]
      refine ⟨_, rfl, ⟨?_, h.mode⟩, ?_⟩
      · have hbl : Option.map π (if s.vertical || s'.data.edge_type = .nonContributing then s.data.below_in_result else some s.index) =
            Option.map id (if s'.vertical || s'.data.edge_type = .nonContributing then s'.data.below_in_result else some s'.index) := by
          rw [hv]
          split
          · exact f7
          · simp [hi]
        unfold view
        simp only [SegmentPacket.mk.injEq]
        refine ⟨trivial, trivial, e2, trivial, trivial, trivial, trivial, e5, ?_, e7, e8, e9, e10, e11, e12, e13⟩
        exact hbl
      · intro x hx
        dsimp only at hx
        right
        refine ⟨s, rfl, ?_⟩
        split at hx
        · exact Or.inl hx
        · right; exact Option.some.inj hx

theorem inResult_sim {π : ℕ → ℕ} {p p' : SegmentPacket} (h : Psim π p p') : p.isInResult = p'.isInResult := by
  have f2 : p.edge_type = p'.edge_type := (congrArg SegmentPacket.edge_type h.eq :)
  unfold SegmentPacket.isInResult
  simp only [f2, h.mode]

theorem Psim.put {π : ℕ → ℕ} {p p' : SegmentPacket} (h : Psim π p p') :
    Psim π { p with is_in_result := p.isInResult } { p' with is_in_result := p'.isInResult } := by
  refine ⟨?_, h.mode⟩
  have := congrArg (fun q : SegmentPacket => { q with is_in_result := p'.isInResult }) h.eq
  rw [inResult_sim h]
  exact this

theorem Psim.typ {π : ℕ → ℕ} {p p' : SegmentPacket} (h : Psim π p p') (t : EdgeType) :
    Psim π { p with edge_type := t } { p' with edge_type := t } :=
  ⟨congrArg (fun q : SegmentPacket => { q with edge_type := t }) h.eq, h.mode⟩

/-! ### Arenas -/

/-- Which piece belongs to which segment; the first and the last piece of a segment. -/
structure Ghost where
  cov : ℕ → ℕ
  fst : ℕ → ℕ
  lst : ℕ → ℕ

variable {G : Plan} {C : Cut G}

/-- The segment has not been replaced by parts of it. -/
def Live (g : Ghost) (i : ℕ) : Prop := g.cov (g.fst i) = i

/-- The segments cover the pieces. -/
structure Covers (C : Cut G) (g : Ghost) (len : ℕ) : Prop where
  run : ∀ i < len, C.Run (g.fst i) (g.lst i)
  lt : ∀ k ∈ G.S, g.cov k < len
  live : ∀ k ∈ G.S, Live g (g.cov k)
  within : ∀ k ∈ G.S, C.Within (g.fst (g.cov k)) (g.lst (g.cov k)) k
  cov : ∀ i < len, Live g i → ∀ k, C.Within (g.fst i) (g.lst i) k → g.cov k = i

/-- The arenas of the two runs: the segments are runs of pieces, and their packets are those of their first pieces.  The segments
that have not started have packets about to be overwritten. -/
structure Arenas (C : Cut G) (g : Ghost) (started : ℕ → Prop) (A A' : Arena ℝ) : Prop where
  covers : Covers C g A.length
  seg : ∀ i < A.length, ∃ s, A[i]? = some s ∧ Seg G (g.fst i) (g.lst i) i s
  has : G.Has A'
  sim : ∀ i < A.length, Live g i → started i → Psim g.fst (dat A i) (dat A' (g.fst i))
  fresh : ∀ i < A.length, Live g i → Csim g.fst (dat A i) (dat A' (g.fst i))
  below : ∀ i < A.length, Live g i → ∀ b, (dat A i).below_in_result = some b → b < A.length ∧ Live g b

theorem Live.inj {g : Ghost} {i j : ℕ} (hi : Live g i) (hj : Live g j) (h : g.fst i = g.fst j) : i = j := by
  rw [← hi, ← hj, h]

theorem vertical_eq {T : Type} {k l i : ℕ} (h : C.Run k l) {s s' : SweepSegment ℝ T} (hs : Seg G k l i s) (hs' : G.Is k s') : s.vertical = s'.vertical := by
  rw [hs.vertical h, (seg_of_is hs').vertical (Run.refl (C := C) h.left)]

theorem Arenas.put {g : Ghost} {started : ℕ → Prop} {A A' : Arena ℝ} (h : Arenas C g started A A') {i : ℕ} (hi : i < A.length) (hl : Live g i)
    {p p' : SegmentPacket} (hp : Psim g.fst p p') (hb : ∀ b, p.below_in_result = some b → b < A.length ∧ Live g b) :
    Arenas C g (fun j => started j ∨ j = i) (putPacket A i p) (putPacket A' (g.fst i) p') := by
  have hS : g.fst i ∈ G.S := (h.covers.run i hi).left
  have hi' : g.fst i < A'.length := h.has.lt hS
  have key : ∀ j < A.length, Live g j → (j = i ∧ dat (putPacket A i p) j = p ∧ dat (putPacket A' (g.fst i) p') (g.fst j) = p') ∨
      (j ≠ i ∧ dat (putPacket A i p) j = dat A j ∧ dat (putPacket A' (g.fst i) p') (g.fst j) = dat A' (g.fst j)) := by
    intro j hj hlj
    rw [dat_put hi, dat_put hi']
    by_cases e : j = i
    · subst e
      left
      exact ⟨rfl, if_pos rfl, if_pos rfl⟩
    · right
      refine ⟨e, if_neg e, if_neg fun e' => e (hlj.inj hl e')⟩
  refine ⟨by rw [put_length]; exact h.covers, ?_, h.has.put _ _, ?_, ?_, ?_⟩
  · intro j hj
    rw [put_length] at hj
    obtain ⟨s, hs, is⟩ := h.seg j hj
    rw [put_get, hs]
    refine ⟨_, rfl, ?_⟩
    split
    · exact ⟨is.left, is.right, is.index, is.order⟩
    · exact is
  · intro j hj hlj hst
    rw [put_length] at hj
    rcases key j hj hlj with ⟨e, e1, e2⟩ | ⟨e, e1, e2⟩
    · rw [e1, e2]; exact hp
    · rw [e1, e2]; exact h.sim j hj hlj (hst.resolve_right e)
  · intro j hj hlj
    rw [put_length] at hj
    rcases key j hj hlj with ⟨e, e1, e2⟩ | ⟨e, e1, e2⟩
    · rw [e1, e2]; exact hp.csim
    · rw [e1, e2]; exact h.fresh j hj hlj
  · intro j hj hlj b hb'
    rw [put_length] at hj ⊢
    rcases key j hj hlj with ⟨e, e1, e2⟩ | ⟨e, e1, e2⟩
    · rw [e1] at hb'; exact hb b hb'
    · rw [e1] at hb'; exact h.below j hj hlj b hb'

/-- Both runs compute the flags of a segment. -/
theorem Arenas.update {g : Ghost} {started : ℕ → Prop} {A A' : Arena ℝ} (h : Arenas C g started A A') {i : ℕ} (hi : i < A.length) (hl : Live g i)
    {x : Option ℕ} (hx : ∀ j, x = some j → j < A.length ∧ Live g j ∧ started j) {B' : Arena ℝ} (hB : updatePolygonFacing A' (g.fst i) (x.map g.fst) = .ok B') :
    ∃ B, updatePolygonFacing A i x = .ok B ∧ B.length = A.length ∧ Arenas C g (fun j => started j ∨ j = i) B B' := by
  have hS : g.fst i ∈ G.S := (h.covers.run i hi).left
  have hi' : g.fst i < A'.length := h.has.lt hS
  obtain ⟨s, hs, is⟩ := h.seg i hi
  obtain ⟨s', hs', is'⟩ := h.has.seg _ hS
  unfold updatePolygonFacing at hB ⊢
  have e1 : index A i = .ok s := by unfold index; rw [hs]
  have e2 : index A' (g.fst i) = .ok s' := by unfold index; rw [hs']
  rw [e2] at hB
  rw [e1]
  simp only [Res.bind_ok] at hB ⊢
  obtain ⟨b', hb', hB⟩ := Res.bind_eq_ok hB
  obtain ⟨p', hp', hB⟩ := Res.bind_eq_ok hB
  have hb : ∃ b, borrowBelow A i x = .ok b ∧ Bsim g.fst b b' ∧ ∀ t, b = some t → ∃ j, x = some j ∧ A[j]? = some t ∧ t.index = j := by
    cases x with
    | none =>
      cases hb'
      exact ⟨none, rfl, trivial, by simp⟩
    | some j =>
      obtain ⟨hj, hlj, hsj⟩ := hx j rfl
      obtain ⟨t, ht, it⟩ := h.seg j hj
      have hjS : g.fst j ∈ G.S := (h.covers.run j hj).left
      obtain ⟨t', ht', it'⟩ := h.has.seg _ hjS
      unfold borrowBelow at hb' ⊢
      dsimp only [Option.map] at hb' ⊢
      by_cases hji : g.fst j = g.fst i
      · rw [if_pos hji] at hb'; cases hb'
      · rw [if_neg hji] at hb'
        have e3 : index A' (g.fst j) = .ok t' := by unfold index; rw [ht']
        have e4 : index A j = .ok t := by unfold index; rw [ht]
        rw [e3] at hb'
        simp only [Res.bind_ok, Res.pure_eq] at hb'
        cases hb'
        rw [if_neg (fun e => hji (by rw [e])), e4]
        simp only [Res.bind_ok, Res.pure_eq]
        refine ⟨some t, rfl, ⟨?_, vertical_eq (h.covers.run j hj) it it', by rw [it.index, it'.index]⟩, ?_⟩
        · rw [← dat_of ht, ← dat_of ht']; exact h.sim j hj hlj hsj
        · intro u hu
          cases hu
          exact ⟨j, rfl, ht, it.index⟩
  obtain ⟨b, hb1, hb2, hb3⟩ := hb
  have hcs := h.fresh i hi hl
  rw [dat_of hs, dat_of hs'] at hcs
  obtain ⟨p, hp, hsim, hbel⟩ := facing_sim hcs hb2 hp'
  rw [hb1]
  simp only [Res.bind_ok]
  rw [hp]
  simp only [Res.bind_ok]
  rw [setPacket_put hi']at hB
  rw [setPacket_put hi]
  cases hB
  refine ⟨_, rfl, put_length _ _ _, h.put hi hl hsim.put ?_⟩
  intro c hc
  rcases hbel c hc with hc | ⟨t, ht, hc⟩
  · refine h.below i hi hl c ?_
    rw [dat_of hs]; exact hc
  · obtain ⟨j, hj, htj, hti⟩ := hb3 t ht
    obtain ⟨hj1, hj2, _⟩ := hx j hj
    rcases hc with hc | hc
    · refine h.below j hj1 hj2 c ?_
      rw [dat_of htj]; exact hc
    · rw [← hc, hti]; exact ⟨hj1, hj2⟩

theorem Arenas.mono {g : Ghost} {started started' : ℕ → Prop} {A A' : Arena ℝ} (h : Arenas C g started A A')
    (hs : ∀ i < A.length, Live g i → started' i → started i) : Arenas C g started' A A' :=
  ⟨h.covers, h.seg, h.has, fun i hi hl hst => h.sim i hi hl (hs i hi hl hst), h.fresh, h.below⟩

end Cut

end Idc
