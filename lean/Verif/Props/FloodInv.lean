import Verif.Props.Flood
/-!
# C62, C63: the chunks of the route finder
-/

namespace Idc

open FloatOps Relation

variable {F : Type} [FloatOps F]

theorem btreeInsert_perm {x : Nat} {l : List Nat} (h : x ∉ l) : (btreeInsert x l).Perm (x :: l) := by
  induction l with
  | nil => exact .refl _
  | cons y l ih =>
    simp only [List.mem_cons, not_or] at h
    unfold btreeInsert
    split
    · exact .refl _
    · rw [if_neg h.1]
      exact ((ih h.2).cons y).trans (.swap x y l)

theorem RouteReachable.lt {start : Pt F} {contours : List (Contour F)} {i : Nat} (h : AtStart start contours i) : i < contours.length := by
  obtain ⟨c, h, _⟩ := h
  exact (List.getElem?_eq_some_iff.1 h).1

/-- One step of walking. -/
abbrev RouteCtx.Go (ctx : RouteCtx F) (X : Nat → Prop) (a b : Nat) : Prop :=
  X a ∧ X b ∧ Touches ctx.contours a b ∧ ctx.Walk a b

/-- What holds all the time: `chunks` are the finished chunks, `seed` began the current one, and `todo` is the
rest of the layer being visited. -/
structure FloodInv (ctx : RouteCtx F) (start : Pt F) (chunks : List (List Nat)) (seed : Nat) (todo : List Nat) (st : FloodState) : Prop where
  seen : ∀ i, i ∈ st.seen ↔ i ∈ chunks.flatten ∨ i ∈ st.chunk ∨ i ∈ todo ∨ i ∈ st.next
  nodup : (chunks.flatten ++ (st.chunk ++ (todo ++ st.next))).Nodup
  seenNodup : st.seen.Nodup
  seenLt : ∀ i ∈ st.seen, i < ctx.contours.length
  seedsLt : ∀ i ∈ st.seeds, i < ctx.contours.length
  seedsSorted : st.seeds.Pairwise (· < ·)
  seenReach : ∀ i ∈ st.seen, RouteReachable start ctx.contours i
  seedsReach : ∀ i ∈ st.seeds, RouteReachable start ctx.contours i
  starts : ∀ i, AtStart start ctx.contours i → i ∈ st.seen ∨ i ∈ st.seeds
  closed : ∀ i, i ∈ chunks.flatten ∨ i ∈ st.chunk → ∀ j, Touches ctx.contours i j → j ∈ st.seen ∨ j ∈ st.seeds
  maximal : ∀ i ∈ st.chunk, ∀ j, Touches ctx.contours i j → ctx.Walk i j → j ∈ st.seen
  paths : ∀ i, i ∈ st.chunk ∨ i ∈ todo ∨ i ∈ st.next →
    ReflTransGen (ctx.Go fun a => a ∈ st.chunk ∨ a ∈ todo ∨ a ∈ st.next) seed i
  seedIn : seed ∈ st.chunk ∨ seed ∈ todo ∨ seed ∈ st.next
  distLength : st.distance.length = ctx.contours.length
  distOld : ∀ (k : Nat) chunk, chunks[k]? = some chunk → ∀ i ∈ chunk, st.distance[i]? = some ((k : Int) + 1)
  distNow : ∀ i ∈ st.chunk, st.distance[i]? = some ((chunks.length : Int) + 1)
  distNone : ∀ (i : Nat), i < ctx.contours.length → i ∉ chunks.flatten → i ∉ st.chunk → st.distance[i]? = some 0

/-- Visiting a contour keeps the invariant. -/
theorem FloodInv.visit {ctx : RouteCtx F} (hctx : CtxOk ctx) {start : Pt F} {chunks : List (List Nat)} {seed ci : Nat} {todo : List Nat}
    {st st' : FloodState} (inv : FloodInv ctx start chunks seed (ci :: todo) st)
    (h : visitContour ctx ((chunks.length : Int) + 1) st ci = .ok st') :
    FloodInv ctx start chunks seed todo st' ∧ st'.chunk.length = st.chunk.length + 1 := by
  obtain ⟨hd, hlt, nbs, new, hn, s⟩ := visitContour_ok hctx h
  obtain ⟨sd, sn, n, ck, ds⟩ := st
  obtain ⟨sd', sn', n', ck', ds'⟩ := st'
  have e1 := s.chunk
  have e2 := s.distance
  have e3 := s.next
  dsimp only at e1 e2 e3 hd
  subst e1 e2 e3
  have nd := inv.nodup
  have hfresh := s.fresh
  dsimp only at nd hfresh
  have hci : ci ∉ ck ∧ ci ∉ chunks.flatten := by
    have := nd
    simp only [List.nodup_append, List.nodup_cons, List.mem_append, List.mem_cons, List.cons_append] at this
    constructor
    · intro hh; exact this.2.1.2.2 ci hh ci (.inl rfl) rfl
    · intro hh; exact this.2.2 ci hh ci (.inr (.inl rfl)) rfl
  have hperm := btreeInsert_perm hci.1
  have hseen := inv.seen
  have hseen' := s.seen
  dsimp only at hseen hseen'
  have hmono : ∀ i, (i ∈ ck ∨ i ∈ ci :: todo ∨ i ∈ n) → (i ∈ btreeInsert ci ck ∨ i ∈ todo ∨ i ∈ n ++ new) := by
    intro i
    rw [mem_btreeInsert, List.mem_append, List.mem_cons]
    tauto
  refine ⟨⟨?_, ?_, ?_, ?_, ?_, ?_, ?_, ?_, ?_, ?_, ?_, ?_, ?_, ?_, ?_, ?_, ?_⟩, ?_⟩
  · intro i
    dsimp only
    rw [hseen', hseen, mem_btreeInsert, List.mem_append, List.mem_cons]
    tauto
  · dsimp only
    have hp : (chunks.flatten ++ (btreeInsert ci ck ++ (todo ++ (n ++ new)))).Perm ((chunks.flatten ++ (ck ++ (ci :: todo ++ n))) ++ new) := by
      rw [List.append_assoc]
      refine List.Perm.append_left _ ?_
      rw [List.append_assoc, ← List.append_assoc todo n new]
      refine (hperm.append_right _).trans ?_
      exact (List.perm_middle (a := ci) (l₁ := ck) (l₂ := todo ++ n ++ new)).symm
    rw [hp.nodup_iff, List.nodup_append]
    refine ⟨nd, s.nodup, ?_⟩
    rintro a ha b hb rfl
    apply hfresh a hb
    rw [hseen]
    simp only [List.mem_append, List.mem_cons] at ha ⊢
    tauto
  · dsimp only
    -- the new list has the right length and every member
    have hc : sn'.length = (new ++ sn).length := by rw [s.seenCount, List.length_append]
    have hnd : (new ++ sn).Nodup := by
      rw [List.nodup_append]
      refine ⟨s.nodup, inv.seenNodup, ?_⟩
      rintro a ha b hb rfl
      exact hfresh a ha hb
    have hsub : (new ++ sn) ⊆ sn' := by
      intro i hi
      rw [hseen']
      simpa using hi
    have hsp : (new ++ sn).Subperm sn' := List.subperm_of_subset hnd hsub
    exact ((hsp.perm_of_length_le (by omega)).nodup_iff).1 hnd
  · intro i hi
    rcases (hseen' i).1 hi with hi | hi
    · exact (s.newOk i hi).2.2
    · exact inv.seenLt i hi
  · intro i hi
    rcases s.seeds i hi with hi | hi
    · exact inv.seedsLt i hi
    · exact hi.2
  · exact s.sorted inv.seedsSorted
  · intro i hi
    rcases (hseen' i).1 hi with hi | hi
    · exact .step (inv.seenReach ci ((hseen ci).2 (by simp))) ((hn i).1 (s.newOk i hi).1)
    · exact inv.seenReach i hi
  · intro i hi
    rcases s.seeds i hi with hi | hi
    · exact inv.seedsReach i hi
    · exact .step (inv.seenReach ci ((hseen ci).2 (by simp))) ((hn i).1 hi.1)
  · intro i hi
    rcases inv.starts i hi with hi | hi
    · exact .inl ((hseen' i).2 (.inr hi))
    · exact .inr (s.seedsKept i hi)
  · intro i hi j hj
    have hold : i ∈ chunks.flatten ∨ i ∈ ck → j ∈ sn' ∨ j ∈ sd' := by
      intro hi
      rcases inv.closed i hi j hj with hi | hi
      · exact .inl ((hseen' j).2 (.inr hi))
      · exact .inr (s.seedsKept j hi)
    rcases hi with hi | hi
    · exact hold (.inl hi)
    · rcases (mem_btreeInsert ..).1 hi with rfl | hi
      · exact s.all j ((hn j).2 hj)
      · exact hold (.inr hi)
  · intro i hi j hj hw
    rcases (mem_btreeInsert ..).1 hi with rfl | hi
    · exact s.walk j ((hn j).2 hj) hw
    · exact (hseen' j).2 (.inr (inv.maximal i hi j hj hw))
  · intro i hi
    have lift : ∀ i, (i ∈ ck ∨ i ∈ ci :: todo ∨ i ∈ n) →
        ReflTransGen (ctx.Go fun a => a ∈ btreeInsert ci ck ∨ a ∈ todo ∨ a ∈ n ++ new) seed i := by
      intro i hi
      refine ReflTransGen.mono ?_ _ _ (inv.paths i hi)
      rintro a b ⟨h1, h2, h3⟩
      exact ⟨hmono a h1, hmono b h2, h3⟩
    dsimp only at hi ⊢
    by_cases hnew : i ∈ new
    · refine (lift ci (.inr (.inl List.mem_cons_self))).tail ⟨?_, ?_, ?_, ?_⟩
      · exact .inl ((mem_btreeInsert ..).2 (.inl rfl))
      · exact .inr (.inr (List.mem_append_right _ hnew))
      · exact (hn i).1 (s.newOk i hnew).1
      · exact (s.newOk i hnew).2.1
    · apply lift
      rw [mem_btreeInsert, List.mem_append] at hi
      rw [List.mem_cons]
      tauto
  · exact hmono seed inv.seedIn
  · dsimp only; rw [List.length_set]; exact inv.distLength
  · intro k chunk hk i hi
    have hne : ci ≠ i := by
      rintro rfl
      exact hci.2 (List.mem_flatten.2 ⟨chunk, List.mem_of_getElem? hk, hi⟩)
    dsimp only
    rw [List.getElem?_set_ne hne]
    exact inv.distOld k chunk hk i hi
  · intro i hi
    dsimp only
    by_cases he : ci = i
    · subst he
      rw [List.getElem?_set_self hd]
    · rw [List.getElem?_set_ne he]
      rcases (mem_btreeInsert ..).1 hi with rfl | hi
      · exact absurd rfl he
      · exact inv.distNow i hi
  · intro i hi h1 h2
    dsimp only at h2 ⊢
    rw [mem_btreeInsert, not_or] at h2
    rw [List.getElem?_set_ne (Ne.symm h2.1)]
    exact inv.distNone i hi h1 h2.2
  · exact hperm.length_eq

/-- Visiting a layer keeps the invariant. -/
theorem FloodInv.layer {ctx : RouteCtx F} (hctx : CtxOk ctx) {start : Pt F} {chunks : List (List Nat)} {seed : Nat} {todo : List Nat}
    {st st' : FloodState} (inv : FloodInv ctx start chunks seed todo st)
    (h : forEach (visitContour ctx ((chunks.length : Int) + 1)) todo st = .ok st') :
    FloodInv ctx start chunks seed [] st' ∧ st'.chunk.length = st.chunk.length + todo.length := by
  induction todo generalizing st with
  | nil => simp only [forEach, Res.ok.injEq] at h; subst h; exact ⟨inv, rfl⟩
  | cons ci todo ih =>
    simp only [forEach] at h
    obtain ⟨st1, h1, h2⟩ := Res.bind_eq_ok h
    obtain ⟨i1, l1⟩ := inv.visit hctx h1
    obtain ⟨i2, l2⟩ := ih i1 h2
    refine ⟨i2, ?_⟩
    rw [l2, l1, List.length_cons]; omega

theorem FloodInv.nextLayer {ctx : RouteCtx F} {start : Pt F} {chunks : List (List Nat)} {seed : Nat}
    {st : FloodState} (inv : FloodInv ctx start chunks seed [] st) : FloodInv ctx start chunks seed st.next { st with next := [] } := by
  refine ⟨?_, ?_, inv.seenNodup, inv.seenLt, inv.seedsLt, inv.seedsSorted, inv.seenReach, inv.seedsReach, inv.starts, inv.closed,
    inv.maximal, ?_, ?_, inv.distLength, inv.distOld, inv.distNow, inv.distNone⟩
  · intro i; rw [inv.seen]; simp
  · simpa using inv.nodup
  · simpa using inv.paths
  · simpa using inv.seedIn

/-- A finished chunk. -/
theorem FloodInv.chunkLoop {ctx : RouteCtx F} (hctx : CtxOk ctx) {start : Pt F} {chunks : List (List Nat)} {seed fuel : Nat}
    {st st' : FloodState} (inv : FloodInv ctx start chunks seed [] st)
    (h : chunkLoop ctx ((chunks.length : Int) + 1) fuel st = .ok st') : FloodInv ctx start chunks seed [] st' ∧ st'.next = [] := by
  induction fuel generalizing st with
  | zero => simp [Idc.chunkLoop] at h
  | succ fuel ih =>
    unfold Idc.chunkLoop at h
    split at h
    · rename_i hn
      cases h; exact ⟨inv, hn⟩
    · rename_i v vs hn
      obtain ⟨st1, h1, h2⟩ := Res.bind_eq_ok h
      rw [← hn] at h1
      exact ih (inv.nextLayer.layer hctx h1).1 h2

/-- What holds between chunks. -/
structure ChunksInv (ctx : RouteCtx F) (start : Pt F) (chunks : List (List Nat)) (st : FloodState) : Prop where
  seen : ∀ i, i ∈ st.seen ↔ i ∈ chunks.flatten
  nodup : chunks.flatten.Nodup
  seenNodup : st.seen.Nodup
  seenLt : ∀ i ∈ st.seen, i < ctx.contours.length
  seedsLt : ∀ i ∈ st.seeds, i < ctx.contours.length
  seedsSorted : st.seeds.Pairwise (· < ·)
  seenReach : ∀ i ∈ st.seen, RouteReachable start ctx.contours i
  seedsReach : ∀ i ∈ st.seeds, RouteReachable start ctx.contours i
  starts : ∀ i, AtStart start ctx.contours i → i ∈ st.seen ∨ i ∈ st.seeds
  closed : ∀ i, i ∈ chunks.flatten → ∀ j, Touches ctx.contours i j → j ∈ st.seen ∨ j ∈ st.seeds
  distLength : st.distance.length = ctx.contours.length
  distOld : ∀ (k : Nat) chunk, chunks[k]? = some chunk → ∀ i ∈ chunk, st.distance[i]? = some ((k : Int) + 1)
  distNone : ∀ (i : Nat), i < ctx.contours.length → i ∉ chunks.flatten → st.distance[i]? = some 0
  connected : ChunksConnected ctx.map ctx.refs ctx.contours chunks

/-- Taking a seed that was seen already. -/
theorem ChunksInv.skip {ctx : RouteCtx F} {start : Pt F} {chunks : List (List Nat)} {st : FloodState} {seed : Nat} {seeds : List Nat}
    (inv : ChunksInv ctx start chunks st) (hs : st.seeds = seed :: seeds) (hseen : seed ∈ st.seen) :
    ChunksInv ctx start chunks { st with seeds := seeds } := by
  have hsub : ∀ i ∈ seeds, i ∈ st.seeds := fun i hi => by rw [hs]; exact List.mem_cons_of_mem _ hi
  have hor : ∀ i, i ∈ st.seen ∨ i ∈ st.seeds → i ∈ st.seen ∨ i ∈ seeds := by
    intro i hi
    rcases hi with hi | hi
    · exact .inl hi
    · rw [hs] at hi
      rcases List.mem_cons.1 hi with rfl | hi
      · exact .inl hseen
      · exact .inr hi
  refine ⟨inv.seen, inv.nodup, inv.seenNodup, inv.seenLt, fun i hi => inv.seedsLt i (hsub i hi), ?_, inv.seenReach,
    fun i hi => inv.seedsReach i (hsub i hi), fun i hi => hor i (inv.starts i hi), fun i hi j hj => hor j (inv.closed i hi j hj),
    inv.distLength, inv.distOld, inv.distNone, inv.connected⟩
  have := inv.seedsSorted
  rw [hs] at this
  exact (List.pairwise_cons.1 this).2

/-- Beginning a chunk. -/
theorem ChunksInv.begin {ctx : RouteCtx F} {start : Pt F} {chunks : List (List Nat)} {st : FloodState} {seed : Nat} {seeds : List Nat}
    (inv : ChunksInv ctx start chunks st) (hs : st.seeds = seed :: seeds) (hseen : seed ∉ st.seen) :
    FloodInv ctx start chunks seed [] { st with seeds := seeds, seen := seed :: st.seen, chunk := [], next := [seed] } := by
  have hsub : ∀ i ∈ seeds, i ∈ st.seeds := fun i hi => by rw [hs]; exact List.mem_cons_of_mem _ hi
  have hseed : seed ∈ st.seeds := by rw [hs]; exact List.mem_cons_self
  have hor : ∀ i, i ∈ st.seen ∨ i ∈ st.seeds → i ∈ seed :: st.seen ∨ i ∈ seeds := by
    intro i hi
    rw [hs] at hi
    simp only [List.mem_cons] at hi ⊢
    tauto
  have hall : ∀ {P : Nat → Prop}, P seed → (∀ i ∈ st.seen, P i) → ∀ i ∈ seed :: st.seen, P i := by
    intro P h1 h2 i hi
    rcases List.mem_cons.1 hi with rfl | hi
    · exact h1
    · exact h2 i hi
  refine ⟨?_, ?_, ?_, hall (inv.seedsLt _ hseed) inv.seenLt, fun i hi => inv.seedsLt i (hsub i hi), ?_, hall (inv.seedsReach _ hseed) inv.seenReach,
    fun i hi => inv.seedsReach i (hsub i hi), fun i hi => hor i (inv.starts i hi), ?_, by simp, ?_, by simp,
    inv.distLength, inv.distOld, by simp, fun i hi h1 _ => inv.distNone i hi h1⟩
  · intro i
    simp only [List.mem_cons, inv.seen, List.not_mem_nil]
    tauto
  · simp only [List.nil_append]
    rw [List.nodup_append]
    refine ⟨inv.nodup, by simp, ?_⟩
    rintro a ha b hb rfl
    simp only [List.mem_singleton] at hb
    subst hb
    exact hseen ((inv.seen _).2 ha)
  · exact List.nodup_cons.2 ⟨hseen, inv.seenNodup⟩
  · have := inv.seedsSorted
    rw [hs] at this
    exact (List.pairwise_cons.1 this).2
  · intro i hi j hj
    rcases hi with hi | hi
    · exact hor j (inv.closed i hi j hj)
    · cases hi
  · intro i hi
    simp only [List.not_mem_nil, false_or, List.mem_singleton] at hi
    subst hi
    exact .refl

/-- Ending a chunk. -/
theorem FloodInv.finish {ctx : RouteCtx F} {start : Pt F} {chunks : List (List Nat)} {seed : Nat} {st : FloodState}
    (inv : FloodInv ctx start chunks seed [] st) (hn : st.next = []) (hc : ChunksConnected ctx.map ctx.refs ctx.contours chunks) :
    ChunksInv ctx start (chunks ++ [st.chunk]) st := by
  have hseen : ∀ i, i ∈ st.seen ↔ i ∈ (chunks ++ [st.chunk]).flatten := by
    intro i; rw [inv.seen, hn]; simp
  have hfl : (chunks ++ [st.chunk]).flatten = chunks.flatten ++ st.chunk := by simp
  have hidx : ∀ (k : Nat) chunk, (chunks ++ [st.chunk])[k]? = some chunk → chunks[k]? = some chunk ∨ k = chunks.length ∧ chunk = st.chunk := by
    intro k chunk hk
    by_cases hlt : k < chunks.length
    · rw [List.getElem?_append_left hlt] at hk; exact .inl hk
    · rw [List.getElem?_append_right (by omega)] at hk
      have hz : k - chunks.length = 0 := by
        by_contra hne
        rw [List.getElem?_eq_none (by simp; omega)] at hk
        cases hk
      rw [hz] at hk
      simp only [List.getElem?_cons_zero, Option.some.injEq] at hk
      exact .inr ⟨by omega, hk.symm⟩
  refine ⟨hseen, ?_, inv.seenNodup, inv.seenLt, inv.seedsLt, inv.seedsSorted, inv.seenReach, inv.seedsReach, inv.starts, ?_,
    inv.distLength, ?_, ?_, ?_, ?_⟩
  · have := inv.nodup
    rw [hn] at this
    simpa using this
  · intro i hi
    rw [hfl, List.mem_append] at hi
    exact inv.closed i hi
  · intro k chunk hk i hi
    rcases hidx k chunk hk with hk | ⟨rfl, rfl⟩
    · exact inv.distOld k chunk hk i hi
    · exact inv.distNow i hi
  · intro i hi h1
    rw [hfl, List.mem_append, not_or] at h1
    exact inv.distNone i hi h1.1 h1.2
  · intro chunk hk
    rcases List.mem_append.1 hk with hk | hk
    · exact hc.paths chunk hk
    · rw [List.mem_singleton] at hk
      subst hk
      have h1 := inv.seedIn
      have h2 := inv.paths
      rw [hn] at h1 h2
      simp only [List.not_mem_nil, or_false] at h1 h2
      refine ⟨seed, h1, fun i hi => (h2 i hi)⟩
  · intro k chunk hk i hi j hj hw
    rcases hidx k chunk hk with hk | ⟨rfl, rfl⟩
    · have := hc.maximal k chunk hk i hi j hj hw
      have hlt : k < chunks.length := (List.getElem?_eq_some_iff.1 hk).1
      rw [List.take_append_of_le_length (by omega)]
      exact this
    · rw [List.take_of_length_le (by simp)]
      exact (hseen j).1 (inv.maximal i hi j hj hw)

/-- All chunks. -/
theorem ChunksInv.floodLoop {ctx : RouteCtx F} (hctx : CtxOk ctx) {start : Pt F} {inner fuel : Nat} {chunks : List (List Nat)} {st : FloodState}
    {r : FloodState × List (List Nat)} (inv : ChunksInv ctx start chunks st)
    (h : floodLoop ctx inner fuel ((chunks.length : Int) + 1) st chunks = .ok r) : ChunksInv ctx start r.2 r.1 ∧ r.1.seeds = [] := by
  induction fuel generalizing st chunks with
  | zero => simp [Idc.floodLoop] at h
  | succ fuel ih =>
    unfold Idc.floodLoop at h
    split at h
    · rename_i hs
      cases h; exact ⟨inv, hs⟩
    · rename_i seed seeds hs
      split at h
      · rename_i hc
        exact ih (inv.skip hs (by simpa using hc)) h
      · rename_i hc
        obtain ⟨st1, h1, h2⟩ := Res.bind_eq_ok h
        obtain ⟨i1, hn⟩ := (inv.begin hs (by simpa using hc)).chunkLoop hctx h1
        have hl : (((chunks ++ [st1.chunk]).length : Nat) : Int) + 1 = (chunks.length : Int) + 1 + 1 := by simp
        exact ih (i1.finish hn inv.connected) (by rw [hl]; exact h2)

theorem foldl_btreeInsert {l acc : List Nat} (i : Nat) : i ∈ l.foldl (fun s i => btreeInsert i s) acc ↔ i ∈ l ∨ i ∈ acc := by
  induction l generalizing acc with
  | nil => simp
  | cons x l ih => rw [List.foldl_cons, ih, mem_btreeInsert, List.mem_cons]; tauto

theorem foldl_btreeInsert_sorted {l acc : List Nat} (h : acc.Pairwise (· < ·)) : (l.foldl (fun s i => btreeInsert i s) acc).Pairwise (· < ·) := by
  induction l generalizing acc with
  | nil => exact h
  | cons x l ih => exact ih (btreeInsert_sorted x h)

theorem mem_startContours {start : Pt F} {contours : List (Contour F)} (i : Nat) : i ∈ startContours start contours ↔ AtStart start contours i := by
  unfold startContours AtStart
  rw [List.mem_filter, List.mem_range]
  constructor
  · rintro ⟨h, hc⟩
    rw [List.getElem?_eq_getElem h] at hc ⊢
    simp only [Rect.contains, Bool.and_eq_true] at hc
    exact ⟨_, rfl, hc.1.1.1, hc.1.1.2, hc.1.2, hc.2⟩
  · rintro ⟨c, hc, h₁, h₂, h₃, h₄⟩
    rw [hc]
    refine ⟨(List.getElem?_eq_some_iff.1 hc).1, ?_⟩
    simp only [Rect.contains, Bool.and_eq_true]
    exact ⟨⟨⟨h₁, h₂⟩, h₃⟩, h₄⟩

theorem mapList_getElem {α β : Type} {f : α → Res β} {l : List α} {l' : List β} (h : Res.mapList f l = .ok l') :
    l'.length = l.length ∧ ∀ (i : Nat) a b, l[i]? = some a → l'[i]? = some b → f a = .ok b := by
  induction l generalizing l' with
  | nil => simp only [Res.mapList, Res.ok.injEq] at h; subst h; exact ⟨rfl, by simp⟩
  | cons x l ih =>
    simp only [Res.mapList] at h
    split at h <;> try cases h
    rename_i y h1
    split at h <;> try cases h
    rename_i ys h2
    obtain ⟨e, ih⟩ := ih h2
    refine ⟨by simp [e], ?_⟩
    intro i a b ha hb
    cases i with
    | zero => simp only [List.getElem?_cons_zero, Option.some.injEq] at ha hb; subst ha hb; exact h1
    | succ i => simp only [List.getElem?_cons_succ] at ha hb; exact ih i a b ha hb

/-- The starting state. -/
theorem ChunksInv.init (ctx : RouteCtx F) (start : Pt F) : ChunksInv ctx start []
    ⟨(startContours start ctx.contours).foldl (fun s i => btreeInsert i s) [], [], [], [], List.replicate ctx.contours.length 0⟩ := by
  have hmem : ∀ i, i ∈ (startContours start ctx.contours).foldl (fun s i => btreeInsert i s) [] ↔ AtStart start ctx.contours i := by
    intro i; rw [foldl_btreeInsert, mem_startContours]; simp
  refine ⟨by simp, by simp, by simp, by simp, ?_, foldl_btreeInsert_sorted .nil, by simp, ?_, ?_, by simp, by simp, by simp, ?_, ?_, ?_⟩
  · intro i hi; exact RouteReachable.lt ((hmem i).1 hi)
  · intro i hi; exact .start ((hmem i).1 hi)
  · intro i hi; exact .inr ((hmem i).2 hi)
  · intro i hi _; simp [hi]
  · simp
  · simp

theorem floodContours_inv {m : FullMap F} {refs : List PolygonRef} {contours : List (Contour F)} {fuel : Nat}
    {distance : List Int} {chunks : List (List Nat)} (h : floodContours m refs contours fuel = .ok (distance, chunks)) :
    ∃ (tags : List (List UInt32)) (st : FloodState), ChunksInv ⟨m, refs, contours, tags⟩ ((m.findPlayerStart).getD ⟨ofInt 0, ofInt 0⟩) chunks st ∧
      st.seeds = [] ∧ st.distance = distance := by
  unfold floodContours at h
  obtain ⟨tags, h1, h⟩ := Res.bind_eq_ok h
  obtain ⟨⟨st, cs⟩, h2, h⟩ := Res.bind_eq_ok h
  cases h
  have hctx : CtxOk (⟨m, refs, contours, tags⟩ : RouteCtx F) := by
    obtain ⟨e, hh⟩ := mapList_getElem h1
    exact ⟨e, fun i c l hc hl t => contourTags_ok (hh i c l hc hl) t⟩
  obtain ⟨inv, hs⟩ := ChunksInv.floodLoop hctx (ChunksInv.init ⟨m, refs, contours, tags⟩ _) h2
  exact ⟨tags, st, inv, hs, rfl⟩

/-- **C62.** Whenever the search for routes ends, its chunks are a partition of the areas that can be reached
from the starting point, and the distance of an area is the number of its chunk. -/
theorem C62_partition (m : FullMap F) (refs : List PolygonRef) (contours : List (Contour F)) (fuel : Nat)
    (distance : List Int) (chunks : List (List Nat)) (h : floodContours m refs contours fuel = .ok (distance, chunks)) :
    ChunksPartition ((m.findPlayerStart).getD ⟨ofInt 0, ofInt 0⟩) contours distance chunks := by
  obtain ⟨tags, st, inv, hs, rfl⟩ := floodContours_inv h
  refine ⟨inv.nodup, ?_, inv.distLength, inv.distOld, inv.distNone⟩
  intro i
  constructor
  · intro hi; exact inv.seenReach i ((inv.seen i).2 hi)
  · intro hi
    rw [← inv.seen]
    have hno : ∀ i, i ∈ st.seen ∨ i ∈ st.seeds → i ∈ st.seen := by
      intro i hi; rw [hs] at hi; simpa using hi
    induction hi with
    | start h => exact hno _ (inv.starts _ h)
    | step _ ht ih => exact hno _ (inv.closed _ ((inv.seen _).1 ih) _ ht)

/-- **C63.** Within a chunk one can walk from one of its areas to all others, and no chunk could have been larger:
whatever can be walked to from it is in it or in an earlier chunk. -/
theorem C63_connected (m : FullMap F) (refs : List PolygonRef) (contours : List (Contour F)) (fuel : Nat)
    (distance : List Int) (chunks : List (List Nat)) (h : floodContours m refs contours fuel = .ok (distance, chunks)) :
    ChunksConnected m refs contours chunks := by
  obtain ⟨tags, st, inv, hs, rfl⟩ := floodContours_inv h
  exact inv.connected

end Idc
