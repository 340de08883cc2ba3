import Verif.Props.TidyOrbit
import Verif.Props.TidyCorner
/-!
# Tracing the outlines of a net, for C76
-/

namespace Idc

open Net

variable {G : Net}

/-- The arena while tracing: `ids` are the contours the endpoints have been assigned to. -/
structure Tr (G : Net) (A : Arena ℝ) (ids : EndId → Option Nat) (arena : Arena ℝ) : Prop where
  has : G.Has arena
  faces : ∀ x : EndId, x.1 < G.N → sideFlags arena x = sideFlags A x
  below : ∀ i < G.N, (dat arena i).below_in_result = (dat A i).below_in_result
  lindex : ∀ i < G.N, (dat arena i).left_index = (dat A i).left_index
  processed : ∀ x : EndId, x.1 < G.N → (dat arena x.1).isProcessed x.2 = (ids x).isSome
  lid : ∀ i < G.N, (dat arena i).left_contour_id = ids (i, .left)
  rid : ∀ i < G.N, (dat arena i).right_contour_id = ids (i, .right)

variable {A : Arena ℝ} {ids : EndId → Option Nat} {arena : Arena ℝ}

theorem Tr.get (h : Tr G A ids arena) {x : EndId} (hx : x.1 < G.N) : ∃ s, index arena x.1 = .ok s ∧ arena[x.1]? = some s ∧ G.Is x.1 s ∧ s.data = dat arena x.1 := by
  obtain ⟨s, hs, is⟩ := h.has.seg x.1 hx
  exact ⟨s, by unfold index; rw [hs], hs, is, (dat_of hs).symm⟩

theorem endpointCmp_net (ha : G.Has arena) {x y : EndId} (hx : x.1 < G.N) (hy : y.1 < G.N) {s s' : BoolSegment ℝ} (hs : arena[x.1]? = some s)
    (hs' : arena[y.1]? = some s') : endpointCmp s x.2 s' y.2 = .ok (compare (G.key x) (G.key y)) := by
  rw [← endCmp_key ha hx hy]
  unfold Arena.endCmp index
  rw [hs, hs']
  rfl

theorem segCmp_net {i j : Nat} {s s' : BoolSegment ℝ} (is : G.Is i s) (is' : G.Is j s') : ∃ o, s.cmp s' = .ok o ∧ (o = .eq ↔ i = j) := by
  by_cases h : i = j
  · refine ⟨.eq, ?_, by simp [h]⟩
    unfold SweepSegment.cmp
    rw [if_pos (by rw [is.index, is'.index, h])]
  · obtain ⟨o, ho, hne⟩ := cmp_ne_eq (s := s) (s' := s') (by rw [is.index, is'.index]; exact h)
    exact ⟨o, ho, by simp [hne, h]⟩

/-! ### The next endpoint -/

theorem firstAt_net (h : Tr G A ids arena) (p : Pt ℝ) : ∀ (l : List EndId) (i : Nat), (∀ x ∈ l, x.1 < G.N) → (∃ x ∈ l, G.pt x = p) →
    ∃ l₁ y l₂, l = l₁ ++ y :: l₂ ∧ (∀ x ∈ l₁, G.pt x ≠ p) ∧ G.pt y = p ∧ firstAt arena p i l = .ok (i + l₁.length)
  | [], _, _, he => by obtain ⟨x, hx, _⟩ := he; simp at hx
  | (seg, e) :: l, i, hl, he => by
    obtain ⟨s, hs, _, is, _⟩ := h.get (x := (seg, e)) (hl _ (by simp))
    rw [firstAt, hs]
    simp only [Res.bind_ok]
    rw [is.pointAt]
    by_cases hp : G.pt (seg, e) = p
    · rw [if_pos (beq_iff.2 hp)]
      exact ⟨[], (seg, e), l, rfl, by simp, hp, rfl⟩
    · rw [if_neg (by rw [beq_iff]; exact hp)]
      obtain ⟨l₁, y, l₂, h1, h2, h3, h4⟩ := firstAt_net h p l (i + 1) (fun x hx => hl x (by simp [hx])) (by
        obtain ⟨x, hx, hxp⟩ := he
        rcases List.mem_cons.1 hx with rfl | hx
        · exact absurd hxp hp
        · exact ⟨x, hx, hxp⟩)
      refine ⟨(seg, e) :: l₁, y, l₂, by rw [h1]; rfl, ?_, h3, ?_⟩
      · intro x hx
        rcases List.mem_cons.1 hx with rfl | hx
        · exact hp
        · exact h2 x hx
      · rw [h4, List.length_cons]
        congr 1
        omega

theorem endpointOrder_net (h : Tr G A ids arena) {w x : EndId} (hw : w.1 < G.N) (hx : x.1 < G.N) {s c : BoolSegment ℝ} (hs : arena[w.1]? = some s)
    (hc : arena[x.1]? = some c) (same : Prop) [Decidable same] : ∃ o, endpointOrder same s w.2 c x.2 = .ok o ∧ (¬ same → w ≠ x → o ≠ .eq) := by
  unfold endpointOrder
  by_cases hsame : same
  · rw [if_pos hsame]
    exact ⟨_, rfl, fun h => absurd hsame h⟩
  · rw [if_neg hsame, endpointCmp_net h.has hw hx hs hc]
    refine ⟨_, rfl, fun _ hne e => hne (key_inj hw hx (compare_eq_iff_eq.1 e))⟩

/-- Endpoints that are done, or on the same segment, are passed over. -/
theorem searchNext_skip (h : Tr G A ids arena) {x : EndId} (hx : x.1 < G.N) (cur : Nat) (vec p : Pt ℝ) : ∀ (l₁ l₂ : List EndId) (pos : Nat) (st : NextState ℝ),
    (∀ w ∈ l₁, w.1 < G.N ∧ ((ids w).isSome ∨ w.1 = x.1)) → searchNext arena cur x vec p pos (l₁ ++ l₂) st = searchNext arena cur x vec p (pos + l₁.length) l₂ st
  | [], _, _, _, _ => rfl
  | (seg, e) :: l₁, l₂, pos, st, hl => by
    obtain ⟨hw, hsk⟩ := hl (seg, e) (by simp)
    obtain ⟨s, hs, hs', is, hd⟩ := h.get (x := (seg, e)) hw
    obtain ⟨c, hc, hc', ic, _⟩ := h.get hx
    have ih := searchNext_skip h hx cur vec p l₁ l₂ (pos + 1) st (fun w hw => hl w (by simp [hw]))
    have hlen : pos + (((seg, e) :: l₁ : List EndId)).length = pos + 1 + l₁.length := by rw [List.length_cons]; omega
    rw [hlen, ← ih, List.cons_append, searchNext, hs, hc]
    simp only [Res.bind_ok]
    rw [hd, h.processed (seg, e) hw]
    split
    · rfl
    · rename_i hn
      have heq := hsk.resolve_left hn
      obtain ⟨o, ho, _⟩ := endpointOrder_net h hw hx hs' hc' (pos = cur)
      rw [ho]
      simp only [Res.bind_ok]
      split
      · rfl
      · obtain ⟨o', ho', he⟩ := segCmp_net is ic
        rw [ho']
        simp only [Res.bind_ok]
        rw [if_pos (he.2 heq)]

/-- Without another endpoint at the right place the search changes nothing. -/
theorem searchNext_tail (h : Tr G A ids arena) {x : EndId} (hx : x.1 < G.N) (cur : Nat) (vec p : Pt ℝ) : ∀ (l : List EndId) (pos : Nat) (st : NextState ℝ),
    (∀ w ∈ l, w.1 < G.N ∧ (G.pt w = p → w.1 = x.1)) → searchNext arena cur x vec p pos l st = .ok st
  | [], _, _, _ => rfl
  | (seg, e) :: l, pos, st, hl => by
    obtain ⟨hw, hsk⟩ := hl (seg, e) (by simp)
    obtain ⟨s, hs, hs', is, hd⟩ := h.get (x := (seg, e)) hw
    obtain ⟨c, hc, hc', ic, _⟩ := h.get hx
    have ih := searchNext_tail h hx cur vec p l (pos + 1) st (fun w hw => hl w (by simp [hw]))
    rw [searchNext, hs, hc]
    simp only [Res.bind_ok]
    split
    · exact ih
    · obtain ⟨o, ho, _⟩ := endpointOrder_net h hw hx hs' hc' (pos = cur)
      rw [ho]
      simp only [Res.bind_ok]
      split
      · exact ih
      · obtain ⟨o', ho', he⟩ := segCmp_net is ic
        rw [ho']
        simp only [Res.bind_ok]
        split
        · exact ih
        · rename_i hne
          rw [if_neg]
          · rfl
          · rw [beq_iff, is.pointAt]
            intro hp
            exact hne (he.2 (hsk hp.symm))

/-- The search finds the next endpoint of the walk. -/
theorem findNext_net (h : Tr G A ids arena) {included : List EndId} (hin : ∀ x ∈ included, x.1 < G.N) (hs : included.Pairwise fun x y => G.key x < G.key y)
    {cur : Nat} {x : EndId} (hcur : included[cur]? = some x) (hnext : G.next x ∈ included) (hfree : ids (G.next x) = none) :
    ∃ pos, included[pos]? = some (G.next x) ∧ findNextSegment arena included cur = .ok pos := by
  have hx : x.1 < G.N := hin x (List.mem_of_getElem? hcur)
  have hnx := G.next_lt x hx
  obtain ⟨c, hc, hc', ic, _⟩ := h.get hx
  have hpt : G.pt (G.next x) = G.pt (opp x) := G.pt_next hx
  obtain ⟨l₁, y, l₂, hl, hbefore, hy, hfirst⟩ := firstAt_net h (G.pt (opp x)) included 0 hin ⟨G.next x, hnext, hpt⟩
  have hrest : included.drop l₁.length = y :: l₂ := by rw [hl]; simp
  -- from the first one on
  have hmem : G.next x ∈ y :: l₂ := by
    rw [hl, List.mem_append] at hnext
    rcases hnext with hn | hn
    · exact absurd hpt (hbefore _ hn)
    · exact hn
  obtain ⟨m₁, m₂, hm⟩ := List.append_of_mem hmem
  rw [hm] at hrest
  have hincl : included = l₁ ++ (m₁ ++ G.next x :: m₂) := by rw [hl, hm]
  have hs' := hs
  rw [hincl] at hs'
  have hs2 := (List.pairwise_append.1 hs').2.1
  have hs3 := List.pairwise_append.1 hs2
  have hinm : ∀ w ∈ m₁ ++ G.next x :: m₂, w.1 < G.N := fun w hw => hin w (by rw [hincl]; simp only [List.mem_append] at hw ⊢; exact Or.inr hw)
  have hm1 : ∀ w ∈ m₁, w.1 < G.N ∧ ((ids w).isSome ∨ w.1 = x.1) := by
    intro w hw
    have hwN := hinm w (by simp [hw])
    refine ⟨hwN, Or.inr ?_⟩
    have hyw : G.key y ≤ G.key w := by
      rw [← hm] at hs2
      rw [List.pairwise_cons] at hs2
      have : w ∈ y :: l₂ := by rw [hm]; simp [hw]
      rcases List.mem_cons.1 this with e | e
      · rw [e]
      · exact (hs2.1 w e).le
    have hwn : G.key w < G.key (G.next x) := hs3.2.2 w hw _ (by simp)
    have hpw : G.pt w = G.pt (opp x) := by
      by_contra hne
      rcases LeftOf.total hne with h1 | h1
      · exact absurd (key_lt_of_leftOf (x := w) (y := y) (by rw [hy]; exact h1)) (not_lt.2 hyw)
      · exact absurd (key_lt_of_leftOf (x := G.next x) (y := w) (by rw [hpt]; exact h1)) (lt_asymm hwn)
    rcases G.only' hx hwN hpw with e | e
    · rw [e]; rfl
    · rw [e] at hwn; exact absurd hwn (lt_irrefl _)
  have hm2 : ∀ w ∈ m₂, w.1 < G.N ∧ (G.pt w = G.pt (opp x) → w.1 = x.1) := by
    intro w hw
    have hwN := hinm w (by simp [hw])
    refine ⟨hwN, fun hpw => ?_⟩
    rcases G.only' hx hwN hpw with e | e
    · rw [e]; rfl
    · have := (List.pairwise_cons.1 hs3.2.1).1 w hw
      rw [e] at this; exact absurd this (lt_irrefl _)
  have hpos : included[l₁.length + m₁.length]? = some (G.next x) := by
    rw [hincl, List.getElem?_append_right (by omega)]
    rw [show l₁.length + m₁.length - l₁.length = m₁.length by omega, List.getElem?_append_right (le_refl _)]
    simp
  refine ⟨l₁.length + m₁.length, hpos, ?_⟩
  unfold findNextSegment
  rw [show index included cur = .ok x from by unfold index; rw [hcur]]
  simp only [Res.bind_ok]
  rw [hc]
  simp only [Res.bind_ok]
  rw [ic.otherPointAt, hfirst]
  simp only [Res.bind_ok, zero_add]
  rw [hrest, searchNext_skip h hx _ _ _ _ _ _ _ hm1]
  -- now the one
  rcases hnn : G.next x with ⟨seg, e⟩
  rw [hnn] at hnx hfree hpt hpos
  obtain ⟨s, hss, hss', is, hd⟩ := h.get (x := (seg, e)) hnx
  rw [searchNext, hss, hc]
  simp only [Res.bind_ok]
  rw [hd, h.processed (seg, e) hnx, hfree]
  rw [if_neg (by simp)]
  obtain ⟨o, ho, hoe⟩ := endpointOrder_net h (w := (seg, e)) hnx hx hss' hc' (l₁.length + m₁.length = cur)
  have hne : (seg, e) ≠ x := fun hh => G.next_ne x hx (by rw [hnn, ← hh])
  have hpc : l₁.length + m₁.length ≠ cur := by
    intro hh
    rw [hh, hcur] at hpos
    exact hne (Option.some.inj hpos).symm
  rw [ho]
  simp only [Res.bind_ok]
  rw [if_neg (hoe hpc hne)]
  obtain ⟨o', ho', he⟩ := segCmp_net is ic
  rw [ho']
  simp only [Res.bind_ok]
  have hsx : ¬ (seg = x.1) := by have := G.next_ne x hx; rw [hnn] at this; exact this
  rw [if_neg (fun hh => hsx (he.1 hh)), if_pos (by rw [beq_iff, is.pointAt, hpt]), searchNext_tail h hx _ _ _ _ _ _ hm2]
  simp only [Res.bind_ok]
  have hcl : ∀ (v w : Pt ℝ), (considerNext v w (l₁.length + m₁.length) (⟨FloatOps.nan, none, false⟩ : NextState ℝ)).closest = some (l₁.length + m₁.length) := by
    intro v w
    unfold considerNext
    simp only [Option.isNone_none, Bool.true_or, if_true, Bool.and_false, Bool.not_false, Bool.and_true, if_false]
    split <;> simp
  rw [hcl]
  rfl

/-! ### One contour -/

/-- The contours after a walk. -/
def assignAll (ids : EndId → Option Nat) (l : List EndId) (id : Nat) (z : EndId) : Option Nat := if z ∈ l then some id else ids z

theorem Tr.assign (h : Tr G A ids arena) {x : EndId} (hx : x.1 < G.N) (id : Nat) :
    Tr G A (assignAll ids [x] id) (putPacket arena x.1 ((dat arena x.1).assign id x.2)) := by
  have hL : x.1 < arena.length := by rw [h.has.length]; exact hx
  have hd := dat_put hL ((dat arena x.1).assign id x.2)
  constructor
  · exact h.has.put _ _
  · intro y hy
    rw [← h.faces y hy]
    unfold sideFlags
    rw [hd]
    split
    · rename_i e
      rw [e]
      obtain ⟨j, e'⟩ := x
      cases e' <;> cases y.2 <;> rfl
    · rfl
  · intro i hi
    rw [← h.below i hi, hd]
    split
    · rename_i e
      rw [e]
      obtain ⟨j, e'⟩ := x
      cases e' <;> rfl
    · rfl
  · intro i hi
    rw [← h.lindex i hi, hd]
    split
    · rename_i e
      rw [e]
      obtain ⟨j, e'⟩ := x
      cases e' <;> rfl
    · rfl
  · intro y hy
    have hp := h.processed y hy
    rw [hd]
    unfold assignAll
    obtain ⟨j, e⟩ := y
    obtain ⟨i, e'⟩ := x
    dsimp only at *
    by_cases hij : j = i
    · subst hij
      rw [if_pos rfl]
      cases e <;> cases e' <;> simp_all [SegmentPacket.assign, SegmentPacket.isProcessed, SegmentPacket.markProcessed]
    · rw [if_neg hij, if_neg (by simp [hij])]
      exact hp
  · intro j hj
    have hp := h.lid j hj
    rw [hd]
    unfold assignAll
    obtain ⟨i, e'⟩ := x
    dsimp only at *
    by_cases hij : j = i
    · subst hij
      rw [if_pos rfl]
      cases e' <;> simp_all [SegmentPacket.assign, SegmentPacket.markProcessed]
    · rw [if_neg hij, if_neg (by simp [hij])]
      exact hp
  · intro j hj
    have hp := h.rid j hj
    rw [hd]
    unfold assignAll
    obtain ⟨i, e'⟩ := x
    dsimp only at *
    by_cases hij : j = i
    · subst hij
      rw [if_pos rfl]
      cases e' <;> simp_all [SegmentPacket.assign, SegmentPacket.markProcessed]
    · rw [if_neg hij, if_neg (by simp [hij])]
      exact hp

theorem zipWith_or_self : ∀ l : List Bool, List.zipWith (· || ·) l l = l
  | [] => rfl
  | x :: l => by rw [List.zipWith_cons_cons, zipWith_or_self]; simp

theorem bvUnion_self (l : List Bool) : bvUnion l l = .ok l := by
  unfold bvUnion
  rw [if_pos rfl, zipWith_or_self]

/-- Part of a walk: each endpoint leads to the next, the last one back to `x`. -/
def Chain (G : Net) (x : EndId) : List EndId → Prop
  | [] => False
  | [y] => G.next y = x
  | y :: z :: l => G.next y = z ∧ Chain G x (z :: l)

/-- A walk is traced to its end. -/
theorem traceContour_net {included : List EndId} (hin : ∀ x ∈ included, x.1 < G.N) (hs : included.Pairwise fun x y => G.key x < G.key y) (id : Nat) {x : EndId}
    (hx : x.1 < G.N) (flags : List Bool) : ∀ (l : List EndId) (y : EndId) (ids : EndId → Option Nat) (arena : Arena ℝ) (contour : Contour ℝ) (cur fuel : Nat),
    Tr G A ids arena → (∀ z ∈ y :: l, z ∈ included ∧ ids z = none ∧ sideFlags A z = flags ∧ opp z ≠ x) → x ∉ l → (y :: l).Nodup → Chain G x (y :: l) →
    included[cur]? = some y → contour.from_polygons = flags → l.length < fuel →
    ∃ arena' last, traceContour included id (G.pt x) fuel arena contour cur = .ok (arena', { contour with points := contour.points ++ l.map G.pt }, last) ∧
      Tr G A (assignAll ids (y :: l) id) arena' ∧ included[last]? = (y :: l).getLast?
  | l, y, ids, arena, contour, cur, fuel => by
    intro h hl hxl hnd hch hcur hflags hfuel
    obtain ⟨f, rfl⟩ : ∃ f, fuel = f + 1 := ⟨fuel - 1, by omega⟩
    obtain ⟨hyi, hfree, hfl, hopp⟩ := hl y (by simp)
    have hy : y.1 < G.N := hin y hyi
    obtain ⟨s, hss, hss', is, hd⟩ := h.get hy
    have hL : y.1 < arena.length := by rw [h.has.length]; exact hy
    have hfaces : ((dat arena y.1).assign id y.2).faces y.2 = flags := by
      rw [← hfl, ← h.faces y hy]
      unfold sideFlags
      cases y.2 <;> rfl
    have hstart : traceContour included id (G.pt x) (f + 1) arena contour cur =
        if (G.pt (opp y)).beq (G.pt x) then pure (putPacket arena y.1 ((dat arena y.1).assign id y.2), contour, cur)
        else (findNextSegment (putPacket arena y.1 ((dat arena y.1).assign id y.2)) included cur) >>= fun nx =>
          traceContour included id (G.pt x) f (putPacket arena y.1 ((dat arena y.1).assign id y.2)) (contour.add (G.pt (opp y))) nx := by
      rw [traceContour]
      rw [show index included cur = .ok y from by unfold index; rw [hcur]]
      simp only [Res.bind_ok]
      rw [hss]
      simp only [Res.bind_ok]
      rw [hd, hfaces, hflags, bvUnion_self]
      simp only [Res.bind_ok]
      rw [setPacket_put hL]
      simp only [Res.bind_ok]
      rw [is.otherPointAt]
      have : ({ contour with from_polygons := flags } : Contour ℝ) = contour := by rw [← hflags]
      rw [this]
    rw [hstart]
    have h' := h.assign hy id
    cases l with
    | nil =>
      have hnx : G.next y = x := hch
      rw [if_pos (by rw [beq_iff, ← hnx, G.pt_next hy])]
      refine ⟨_, cur, ?_, h', ?_⟩
      · simp only [List.map_nil, List.append_nil]; rfl
      · rw [hcur]; rfl
    | cons z l =>
      obtain ⟨hnx, hch'⟩ := hch
      rw [if_neg]
      · have hzi := (hl z (by simp)).1
        rw [List.nodup_cons] at hnd
        obtain ⟨pos, hpos, hfind⟩ := findNext_net h' hin hs hcur (by rw [hnx]; exact hzi) (by
          rw [hnx]
          unfold assignAll
          rw [if_neg]
          · exact (hl z (by simp)).2.1
          · rw [List.mem_singleton]
            rintro rfl
            exact hnd.1 (by simp))
        rw [hfind]
        simp only [Res.bind_ok]
        obtain ⟨arena', last, hrun, htr, hlast⟩ := traceContour_net hin hs id hx flags l z (assignAll ids [y] id) (putPacket arena y.1 ((dat arena y.1).assign id y.2))
          (contour.add (G.pt (opp y))) pos f h' (by
            intro w hw
            obtain ⟨w1, w2, w3, w4⟩ := hl w (by simp [List.mem_cons.1 hw])
            refine ⟨w1, ?_, w3, w4⟩
            unfold assignAll
            rw [if_neg]
            · exact w2
            · rw [List.mem_singleton]
              rintro rfl
              exact hnd.1 hw)
          (fun hm => hxl (by simp [hm])) hnd.2 hch' (hnx ▸ hpos) hflags (by simp only [List.length_cons] at hfuel; omega)
        refine ⟨arena', last, ?_, ?_, ?_⟩
        · rw [hrun]
          have hz : G.pt (opp y) = G.pt z := by rw [← hnx, G.pt_next hy]
          congr 3
          unfold Contour.add
          dsimp only
          rw [hz]
          simp
        · have : assignAll (assignAll ids [y] id) (z :: l) id = assignAll ids (y :: z :: l) id := by
            funext w
            unfold assignAll
            by_cases hwz : w ∈ z :: l
            · rw [if_pos hwz, if_pos (List.mem_cons_of_mem _ hwz)]
            · rw [if_neg hwz]
              by_cases hwy : w = y
              · rw [if_pos (by simp [hwy]), if_pos (by simp [hwy])]
              · rw [if_neg (by simpa using hwy), if_neg (by simp only [List.mem_cons, not_or] at hwz ⊢; exact ⟨hwy, hwz⟩)]
          rw [← this]
          exact htr
        · rw [hlast]; rfl
      · rw [beq_iff]
        intro e
        have hpz : G.pt x = G.pt (opp y) := e.symm
        rcases G.only' hy hx hpz with e | e
        · exact hopp e.symm
        · rw [hnx] at e
          exact hxl (by simp [e])

end Idc
