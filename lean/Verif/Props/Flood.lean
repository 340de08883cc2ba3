import Verif.Props.Route
/-!
# C62, C63: invariants of the flood fill
-/

namespace Idc

open FloatOps

variable {F : Type} [FloatOps F]

/-- The tags looked up in the context are those of the contours. -/
structure CtxOk (ctx : RouteCtx F) : Prop where
  length : ctx.tags.length = ctx.contours.length
  tags : ∀ (i : Nat) c l, ctx.contours[i]? = some c → ctx.tags[i]? = some l → ∀ t, t ∈ l ↔ HasTag ctx.map ctx.refs c t

/-- `Walkable` in a context. -/
abbrev RouteCtx.Walk (ctx : RouteCtx F) (i j : Nat) : Prop := Walkable ctx.map ctx.refs ctx.contours i j

/-- What looking at one neighbour does. -/
theorem visitNeighbor_ok {ctx : RouteCtx F} (hctx : CtxOk ctx) {ci : Nat} {c : Contour F} (hc : ctx.contours[ci]? = some c)
    {highest : Int32} (hf : FloorOf ctx.map ctx.refs c highest.toInt) {st st' : FloodState} {nb : Nat × Bool}
    (h : visitNeighbor ctx ci highest st nb = .ok st') :
    (st' = st ∧ (nb.2 = false ∨ nb.1 ∈ st.seen)) ∨
    (nb.2 = true ∧ nb.1 ∉ st.seen ∧ nb.1 < ctx.contours.length ∧
      (ctx.Walk ci nb.1 ∧ st' = { st with seen := nb.1 :: st.seen, next := st.next ++ [nb.1] } ∨
       ¬ ctx.Walk ci nb.1 ∧ st' = { st with seeds := btreeInsert nb.1 st.seeds })) := by
  unfold visitNeighbor at h
  split at h
  · rename_i hs
    cases h
    refine .inl ⟨rfl, ?_⟩
    simp only [Bool.or_eq_true, Bool.not_eq_true', List.contains_iff_mem] at hs
    exact hs
  · rename_i hs
    simp only [Bool.or_eq_true, Bool.not_eq_true', List.contains_iff_mem, not_or, Bool.not_eq_false] at hs
    refine .inr ⟨hs.1, hs.2, ?_⟩
    obtain ⟨tags, h1, h⟩ := Res.bind_eq_ok h
    obtain ⟨tags', h2, h⟩ := Res.bind_eq_ok h
    obtain ⟨d, h3, h⟩ := Res.bind_eq_ok h
    obtain ⟨⟨free, sectors⟩, h4, h⟩ := Res.bind_eq_ok h
    obtain ⟨k, h5, h⟩ := Res.bind_eq_ok h
    have h1 := index_eq_ok h1
    have h2 := index_eq_ok h2
    have h3 := index_eq_ok h3
    have hfree := free_ok h4
    refine ⟨(List.getElem?_eq_some_iff.1 h3).1, ?_⟩
    have htags : hashEq tags tags' = true ↔ ∀ t, HasTag ctx.map ctx.refs c t ↔ HasTag ctx.map ctx.refs d t := by
      rw [hashEq_iff]
      constructor
      · intro h t; rw [← hctx.tags ci c tags hc h1 t, ← hctx.tags nb.1 d tags' h3 h2 t]; exact h t
      · intro h t; rw [hctx.tags ci c tags hc h1 t, hctx.tags nb.1 d tags' h3 h2 t]; exact h t
    split at h
    · rename_i hok
      simp only [Bool.and_eq_true, Bool.not_eq_true', decide_eq_false_iff_not] at hok
      obtain ⟨⟨⟨a1, a2⟩, a3⟩, a4⟩ := hok
      have a1 := htags.1 a1
      simp only [Res.pure_eq, Res.ok.injEq] at h
      refine .inl ⟨⟨c, d, hc, h3, a1, ?_, _, _, hf, floorOf_of (hfree.1 a2) h5, by omega, by omega⟩, h.symm⟩
      intro hb
      have := hfree.2.2 hb
      rw [this] at a2; cases a2
    · rename_i hok
      simp only [Res.pure_eq, Res.ok.injEq] at h
      refine .inr ⟨?_, h.symm⟩
      rintro ⟨c', d', hc', hd', w1, w2, x, y, w3, w4, w5, w6⟩
      rw [hc] at hc'; cases hc'
      rw [h3] at hd'; cases hd'
      apply hok
      have hfr : free = true := by
        cases hfx : free with
        | true => rfl
        | false => exact absurd (hfree.2.1 hfx) w2
      have e1 := floorOf_unique w3 hf
      have e2 := floorOf_unique w4 (floorOf_of (hfree.1 hfr) h5)
      simp only [Bool.and_eq_true, Bool.not_eq_true', decide_eq_false_iff_not]
      exact ⟨⟨⟨htags.2 w1, hfr⟩, by omega⟩, by omega⟩

/-- What looking at neighbours one after the other does. -/
structure NbrStep (ctx : RouteCtx F) (ci : Nat) (nbs : List (Nat × Bool)) (st st' : FloodState) (new : List Nat) : Prop where
  chunk : st'.chunk = st.chunk
  distance : st'.distance = st.distance
  next : st'.next = st.next ++ new
  seen : ∀ i, i ∈ st'.seen ↔ i ∈ new ∨ i ∈ st.seen
  seenCount : st'.seen.length = new.length + st.seen.length
  nodup : new.Nodup
  fresh : ∀ i ∈ new, i ∉ st.seen
  newOk : ∀ i ∈ new, (i, true) ∈ nbs ∧ ctx.Walk ci i ∧ i < ctx.contours.length
  seeds : ∀ i ∈ st'.seeds, i ∈ st.seeds ∨ (i, true) ∈ nbs ∧ i < ctx.contours.length
  seedsKept : ∀ i ∈ st.seeds, i ∈ st'.seeds
  sorted : st.seeds.Pairwise (· < ·) → st'.seeds.Pairwise (· < ·)
  all : ∀ i, (i, true) ∈ nbs → i ∈ st'.seen ∨ i ∈ st'.seeds
  walk : ∀ i, (i, true) ∈ nbs → ctx.Walk ci i → i ∈ st'.seen

theorem visitNeighbors_ok {ctx : RouteCtx F} (hctx : CtxOk ctx) {ci : Nat} {c : Contour F} (hc : ctx.contours[ci]? = some c)
    {highest : Int32} (hf : FloorOf ctx.map ctx.refs c highest.toInt) {nbs : List (Nat × Bool)} {st st' : FloodState}
    (h : forEach (visitNeighbor ctx ci highest) nbs st = .ok st') : ∃ new, NbrStep ctx ci nbs st st' new := by
  induction nbs generalizing st with
  | nil =>
    simp only [forEach, Res.ok.injEq] at h
    subst h
    exact ⟨[], rfl, rfl, by simp, by simp, by simp, by simp, by simp, by simp, fun i h => .inl h, fun i h => h, fun h => h, by simp, by simp⟩
  | cons nb nbs ih =>
    simp only [forEach] at h
    obtain ⟨st1, h1, h2⟩ := Res.bind_eq_ok h
    obtain ⟨new, s⟩ := ih h2
    rcases visitNeighbor_ok hctx hc hf h1 with ⟨rfl, hs⟩ | ⟨hb, hns, hlt, ⟨hw, rfl⟩ | ⟨hw, rfl⟩⟩
    · refine ⟨new, s.chunk, s.distance, s.next, s.seen, s.seenCount, s.nodup, s.fresh, ?_, ?_, s.seedsKept, s.sorted, ?_, ?_⟩
      · intro i hi; obtain ⟨a, b⟩ := s.newOk i hi; exact ⟨List.mem_cons_of_mem _ a, b⟩
      · intro i hi
        rcases s.seeds i hi with a | ⟨a, b⟩
        · exact .inl a
        · exact .inr ⟨List.mem_cons_of_mem _ a, b⟩
      · intro i hi
        rcases List.mem_cons.1 hi with rfl | hi
        · rcases hs with hs | hs
          · cases hs
          · exact .inl ((s.seen _).2 (.inr hs))
        · exact s.all i hi
      · intro i hi hw
        rcases List.mem_cons.1 hi with rfl | hi
        · rcases hs with hs | hs
          · cases hs
          · exact (s.seen _).2 (.inr hs)
        · exact s.walk i hi hw
    · obtain ⟨n, b⟩ := nb
      dsimp only at hb hns hlt hw s
      subst hb
      refine ⟨n :: new, s.chunk, s.distance, ?_, ?_, ?_, ?_, ?_, ?_, ?_, s.seedsKept, s.sorted, ?_, ?_⟩
      · rw [s.next]; simp
      · intro i; rw [s.seen]; simp only [List.mem_cons]; tauto
      · rw [s.seenCount]; simp only [List.length_cons]; omega
      · refine List.nodup_cons.2 ⟨?_, s.nodup⟩
        intro hn; exact s.fresh n hn List.mem_cons_self
      · intro i hi
        rcases List.mem_cons.1 hi with rfl | hi
        · exact hns
        · intro hs; exact s.fresh i hi (List.mem_cons_of_mem _ hs)
      · intro i hi
        rcases List.mem_cons.1 hi with rfl | hi
        · exact ⟨List.mem_cons_self, hw, hlt⟩
        · obtain ⟨a, b⟩ := s.newOk i hi; exact ⟨List.mem_cons_of_mem _ a, b⟩
      · intro i hi
        rcases s.seeds i hi with a | ⟨a, b⟩
        · exact .inl a
        · exact .inr ⟨List.mem_cons_of_mem _ a, b⟩
      · intro i hi
        rcases List.mem_cons.1 hi with hi | hi
        · cases hi; exact .inl ((s.seen _).2 (.inr List.mem_cons_self))
        · exact s.all i hi
      · intro i hi hw
        rcases List.mem_cons.1 hi with hi | hi
        · cases hi; exact (s.seen _).2 (.inr List.mem_cons_self)
        · exact s.walk i hi hw
    · obtain ⟨n, b⟩ := nb
      dsimp only at hb hns hlt hw s
      subst hb
      refine ⟨new, s.chunk, s.distance, s.next, s.seen, s.seenCount, s.nodup, s.fresh, ?_, ?_, ?_, ?_, ?_, ?_⟩
      · intro i hi; obtain ⟨a, b⟩ := s.newOk i hi; exact ⟨List.mem_cons_of_mem _ a, b⟩
      · intro i hi
        rcases s.seeds i hi with a | ⟨a, b⟩
        · rcases (mem_btreeInsert ..).1 a with rfl | a
          · exact .inr ⟨List.mem_cons_self, hlt⟩
          · exact .inl a
        · exact .inr ⟨List.mem_cons_of_mem _ a, b⟩
      · intro i hi; exact s.seedsKept i ((mem_btreeInsert ..).2 (.inr hi))
      · intro hs; exact s.sorted (btreeInsert_sorted n hs)
      · intro i hi
        rcases List.mem_cons.1 hi with hi | hi
        · cases hi; exact .inr (s.seedsKept n ((mem_btreeInsert ..).2 (.inl rfl)))
        · exact s.all i hi
      · intro i hi hw'
        rcases List.mem_cons.1 hi with hi | hi
        · cases hi; exact absurd hw' hw
        · exact s.walk i hi hw'

theorem mem_zip_range {l : List Bool} {i : Nat} : (i, true) ∈ (List.range l.length).zip l ↔ l[i]? = some true := by
  rw [List.mem_iff_getElem?]
  constructor
  · rintro ⟨k, hk⟩
    rw [List.getElem?_zip_eq_some] at hk
    obtain ⟨h1, h2⟩ := hk
    rw [List.getElem?_range (by exact (List.getElem?_eq_some_iff.1 h2).1)] at h1
    cases h1; exact h2
  · intro h
    refine ⟨i, List.getElem?_zip_eq_some.2 ⟨?_, h⟩⟩
    exact List.getElem?_range (List.getElem?_eq_some_iff.1 h).1

/-- What visiting a contour does. -/
theorem visitContour_ok {ctx : RouteCtx F} (hctx : CtxOk ctx) {d : Int} {st st' : FloodState} {ci : Nat}
    (h : visitContour ctx d st ci = .ok st') : ci < st.distance.length ∧ ci < ctx.contours.length ∧ ∃ nbs new,
    (∀ j, (j, true) ∈ nbs ↔ Touches ctx.contours ci j) ∧
    NbrStep ctx ci nbs { st with chunk := btreeInsert ci st.chunk, distance := st.distance.set ci d } st' new := by
  unfold visitContour at h
  obtain ⟨_, h1, h⟩ := Res.bind_eq_ok h
  obtain ⟨_, h2, h⟩ := Res.bind_eq_ok h
  obtain ⟨c, h3, h⟩ := Res.bind_eq_ok h
  obtain ⟨sectors, h4, h⟩ := Res.bind_eq_ok h
  obtain ⟨highest, h5, h⟩ := Res.bind_eq_ok h
  obtain ⟨neighbors, h6, h⟩ := Res.bind_eq_ok h
  have h3 := index_eq_ok h3
  have h2 := index_eq_ok h2
  have hfl := floorOf_of (fun s => sectors_ok h4 s) h5
  obtain ⟨new, s⟩ := visitNeighbors_ok hctx h3 hfl h
  refine ⟨(List.getElem?_eq_some_iff.1 h2).1, (List.getElem?_eq_some_iff.1 h3).1, _, new, ?_, s⟩
  intro j
  rw [mem_zip_range, unionHoles_ok h6]
  constructor
  · intro hh; exact ⟨c, h3, hh⟩
  · rintro ⟨c', hc', hh⟩
    rw [h3] at hc'; cases hc'; exact hh

end Idc
