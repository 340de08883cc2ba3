import Verif.Spec.Level
import Verif.Props.RouteMap
/-!
# C95: new chunks begin only where they have to
-/

namespace Idc

open FloatOps

variable {F : Type} [FloatOps F]

/-- A neighbour that is put off is put off for a reason. -/
theorem visitNeighbor_why {ctx : RouteCtx F} (hctx : CtxOk ctx) {ci : Nat} {c : Contour F} (hc : ctx.contours[ci]? = some c)
    {highest : Int32} (hf : FloorOf ctx.map ctx.refs c highest.toInt) {st st' : FloodState} {nb : Nat × Bool}
    (h : visitNeighbor ctx ci highest st nb = .ok st') {s : Nat} (hs : s ∈ st'.seeds) :
    s ∈ st.seeds ∨ (s, true) = nb ∧ Separates ctx.map ctx.refs ctx.contours ci s := by
  unfold visitNeighbor at h
  split at h
  · cases h; exact .inl hs
  · rename_i hn
    simp only [Bool.or_eq_true, Bool.not_eq_true', List.contains_iff_mem, not_or, Bool.not_eq_false] at hn
    obtain ⟨tags, h1, h⟩ := Res.bind_eq_ok h
    obtain ⟨tags', h2, h⟩ := Res.bind_eq_ok h
    obtain ⟨d, h3, h⟩ := Res.bind_eq_ok h
    obtain ⟨⟨free, sectors⟩, h4, h⟩ := Res.bind_eq_ok h
    obtain ⟨k, h5, h⟩ := Res.bind_eq_ok h
    have h1 := index_eq_ok h1
    have h2 := index_eq_ok h2
    have h3 := index_eq_ok h3
    have hfree := free_ok h4
    have htags : hashEq tags tags' = true ↔ ∀ t, HasTag ctx.map ctx.refs c t ↔ HasTag ctx.map ctx.refs d t := by
      rw [hashEq_iff]
      constructor
      · intro h t; rw [← hctx.tags ci c tags hc h1 t, ← hctx.tags nb.1 d tags' h3 h2 t]; exact h t
      · intro h t; rw [hctx.tags ci c tags hc h1 t, hctx.tags nb.1 d tags' h3 h2 t]; exact h t
    split at h
    · simp only [Res.pure_eq, Res.ok.injEq] at h
      subst h
      exact .inl hs
    · rename_i hok
      simp only [Res.pure_eq, Res.ok.injEq] at h
      subst h
      rcases (mem_btreeInsert ..).1 hs with rfl | hs
      · refine .inr ⟨Prod.ext rfl hn.1.symm, c, d, hc, h3, ?_⟩
        cases hfx : free with
        | false => exact .inl (hfree.2.1 hfx)
        | true =>
          refine .inr ⟨_, _, hf, floorOf_of (hfree.1 hfx) h5, ?_⟩
          by_contra hno
          simp only [not_or, not_lt, not_not] at hno
          apply hok
          simp only [Bool.and_eq_true, Bool.not_eq_true', decide_eq_false_iff_not]
          exact ⟨⟨⟨htags.2 hno.2.2, hfx⟩, by omega⟩, by omega⟩
      · exact .inl hs

theorem visitNeighbors_why {ctx : RouteCtx F} (hctx : CtxOk ctx) {ci : Nat} {c : Contour F} (hc : ctx.contours[ci]? = some c)
    {highest : Int32} (hf : FloorOf ctx.map ctx.refs c highest.toInt) {nbs : List (Nat × Bool)} {st st' : FloodState}
    (h : forEach (visitNeighbor ctx ci highest) nbs st = .ok st') {s : Nat} (hs : s ∈ st'.seeds) :
    s ∈ st.seeds ∨ (s, true) ∈ nbs ∧ Separates ctx.map ctx.refs ctx.contours ci s := by
  induction nbs generalizing st with
  | nil => simp only [forEach, Res.ok.injEq] at h; subst h; exact .inl hs
  | cons nb nbs ih =>
    simp only [forEach] at h
    obtain ⟨st1, h1, h2⟩ := Res.bind_eq_ok h
    rcases ih h2 with k | ⟨k, k'⟩
    · rcases visitNeighbor_why hctx hc hf h1 k with k | ⟨rfl, k⟩
      · exact .inl k
      · exact .inr ⟨List.mem_cons_self, k⟩
    · exact .inr ⟨List.mem_cons_of_mem _ k, k'⟩

theorem visitContour_why {ctx : RouteCtx F} (hctx : CtxOk ctx) {d : Int} {st st' : FloodState} {ci : Nat}
    (h : visitContour ctx d st ci = .ok st') {s : Nat} (hs : s ∈ st'.seeds) : s ∈ st.seeds ∨ Touches ctx.contours ci s ∧ Separates ctx.map ctx.refs ctx.contours ci s := by
  unfold visitContour at h
  obtain ⟨_, h1, h⟩ := Res.bind_eq_ok h
  obtain ⟨_, h2, h⟩ := Res.bind_eq_ok h
  obtain ⟨c, h3, h⟩ := Res.bind_eq_ok h
  obtain ⟨sectors, h4, h⟩ := Res.bind_eq_ok h
  obtain ⟨highest, h5, h⟩ := Res.bind_eq_ok h
  obtain ⟨neighbors, h6, h⟩ := Res.bind_eq_ok h
  have h3 := index_eq_ok h3
  have hfl := floorOf_of (fun s => sectors_ok h4 s) h5
  rcases visitNeighbors_why hctx h3 hfl h hs with k | ⟨k, k'⟩
  · exact .inl k
  · rw [mem_zip_range, unionHoles_ok h6] at k
    exact .inr ⟨⟨c, h3, k⟩, k'⟩

/-- Why `s` may begin a chunk, when `prev` have been visited. -/
def Began (ctx : RouteCtx F) (start : Pt F) (prev : Nat → Prop) (s : Nat) : Prop :=
  AtStart start ctx.contours s ∨ ∃ i, prev i ∧ Touches ctx.contours i s ∧ Separates ctx.map ctx.refs ctx.contours i s

theorem Began.mono {ctx : RouteCtx F} {start : Pt F} {p q : Nat → Prop} {s : Nat} (h : Began ctx start p s) (hpq : ∀ i, p i → q i) : Began ctx start q s :=
  h.imp id fun ⟨i, h1, h2⟩ => ⟨i, hpq i h1, h2⟩

theorem layer_why {ctx : RouteCtx F} (hctx : CtxOk ctx) {start : Pt F} {d : Int} {todo : List Nat} {st st' : FloodState} {prev : Nat → Prop}
    (h : forEach (visitContour ctx d) todo st = .ok st') (hst : ∀ s ∈ st.seeds, Began ctx start (fun i => prev i ∨ i ∈ st.chunk) s) :
    ∀ s ∈ st'.seeds, Began ctx start (fun i => prev i ∨ i ∈ st'.chunk) s := by
  induction todo generalizing st with
  | nil => simp only [forEach, Res.ok.injEq] at h; subst h; exact hst
  | cons ci todo ih =>
    simp only [forEach] at h
    obtain ⟨st1, h1, h2⟩ := Res.bind_eq_ok h
    obtain ⟨_, _, nbs, new, _, ns⟩ := visitContour_ok hctx h1
    have hck : st1.chunk = btreeInsert ci st.chunk := ns.chunk
    refine ih h2 fun s hs => ?_
    rw [hck]
    rcases visitContour_why hctx h1 hs with k | k
    · exact (hst s k).mono fun i hi => hi.imp id fun hi => (mem_btreeInsert ..).2 (.inr hi)
    · exact .inr ⟨ci, .inr ((mem_btreeInsert ..).2 (.inl rfl)), k⟩

theorem chunk_why {ctx : RouteCtx F} (hctx : CtxOk ctx) {start : Pt F} {d : Int} {fuel : Nat} {st st' : FloodState} {prev : Nat → Prop}
    (h : chunkLoop ctx d fuel st = .ok st') (hst : ∀ s ∈ st.seeds, Began ctx start (fun i => prev i ∨ i ∈ st.chunk) s) :
    ∀ s ∈ st'.seeds, Began ctx start (fun i => prev i ∨ i ∈ st'.chunk) s := by
  induction fuel generalizing st with
  | zero => simp [Idc.chunkLoop] at h
  | succ fuel ih =>
    unfold Idc.chunkLoop at h
    split at h
    · cases h; exact hst
    · rename_i v vs hn
      obtain ⟨st1, h1, h2⟩ := Res.bind_eq_ok h
      exact ih h2 (layer_why hctx h1 hst)

theorem flood_why {ctx : RouteCtx F} (hctx : CtxOk ctx) {start : Pt F} {inner fuel : Nat} {chunks : List (List Nat)} {st : FloodState}
    {r : FloodState × List (List Nat)} (inv : ChunksInv ctx start chunks st) (hst : ∀ s ∈ st.seeds, Began ctx start (· ∈ chunks.flatten) s)
    (hb : ChunksBegin ctx.map ctx.refs start ctx.contours chunks)
    (h : floodLoop ctx inner fuel ((chunks.length : Int) + 1) st chunks = .ok r) : ChunksBegin ctx.map ctx.refs start ctx.contours r.2 := by
  induction fuel generalizing st chunks with
  | zero => simp [Idc.floodLoop] at h
  | succ fuel ih =>
    unfold Idc.floodLoop at h
    split at h
    · cases h; exact hb
    · rename_i seed seeds hs
      split at h
      · rename_i hc
        exact ih (inv.skip hs (by simpa using hc)) (fun s k => hst s (by rw [hs]; exact List.mem_cons_of_mem _ k)) hb h
      · rename_i hc
        obtain ⟨st1, h1, h2⟩ := Res.bind_eq_ok h
        have h1' := h1
        obtain ⟨i1, hn⟩ := (inv.begin hs (by simpa using hc)).chunkLoop hctx h1
        have hl : (((chunks ++ [st1.chunk]).length : Nat) : Int) + 1 = (chunks.length : Int) + 1 + 1 := by simp
        refine ih (i1.finish hn inv.connected) (fun s k => ?_) ?_ (by rw [hl]; exact h2)
        · have := chunk_why hctx (start := start) (prev := (· ∈ chunks.flatten)) h1' (fun s k => (hst s (by rw [hs]; exact List.mem_cons_of_mem _ k)).mono fun i hi => .inl hi) s k
          exact this.mono fun i hi => by simpa using hi
        · intro k chunk hk
          rcases Nat.lt_or_ge k chunks.length with hlt | hge
          · rw [List.getElem?_append_left hlt] at hk
            rw [List.take_append_of_le_length hlt.le]
            exact hb k chunk hk
          · obtain ⟨rfl, rfl⟩ : k = chunks.length ∧ chunk = st1.chunk := by
              rw [List.getElem?_append_right hge] at hk
              have hz : k - chunks.length = 0 := by
                by_contra hne
                rw [List.getElem?_eq_none (by simp; omega)] at hk
                cases hk
              rw [hz] at hk
              simp only [List.getElem?_cons_zero, Option.some.injEq] at hk
              exact ⟨by omega, hk.symm⟩
            have e1 := i1.seedIn
            have e2 := i1.paths
            rw [hn] at e1 e2
            simp only [List.not_mem_nil, or_false] at e1 e2
            refine ⟨seed, e1, fun i hi => e2 i hi, ?_⟩
            rw [List.take_append_of_le_length le_rfl, List.take_length]
            exact hst seed (by rw [hs]; exact List.mem_cons_self)

theorem floodContours_why {m : FullMap F} {refs : List PolygonRef} {contours : List (Contour F)} {fuel : Nat} {distance : List Int} {chunks : List (List Nat)}
    (h : floodContours m refs contours fuel = .ok (distance, chunks)) : ChunksBegin m refs ((m.findPlayerStart).getD ⟨ofInt 0, ofInt 0⟩) contours chunks := by
  unfold floodContours at h
  obtain ⟨tags, h1, h⟩ := Res.bind_eq_ok h
  obtain ⟨⟨st, cs⟩, h2, h⟩ := Res.bind_eq_ok h
  cases h
  have hctx : CtxOk (⟨m, refs, contours, tags⟩ : RouteCtx F) := by
    obtain ⟨e, hh⟩ := mapList_getElem h1
    exact ⟨e, fun i c l hc hl t => contourTags_ok (hh i c l hc hl) t⟩
  refine flood_why hctx (ChunksInv.init ⟨m, refs, contours, tags⟩ _) (fun s hs => .inl ?_) (fun k chunk hk => by simp at hk) h2
  have := (foldl_btreeInsert (l := startContours _ contours) (acc := []) s).1 hs
  rw [mem_startContours] at this
  simpa using this

/-- **C95.** In the route map a chunk begins only in an area the player starts in, or in an area next to one of an earlier chunk from which there is a reason not to walk there. -/
theorem C95_begins (lib : Lib) (fuel : Nat) (m : FullMap F) (r : Polygon F) (distance : List Int) (chunks : List (List Nat)) (h : routeMap lib fuel m = .ok (r, distance, chunks)) :
    ChunksBegin m (routeRefs m) ((m.findPlayerStart).getD ⟨ofInt 0, ofInt 0⟩) r.contours chunks :=
  floodContours_why (routeMap_ok h)

theorem FullMap.Level.separates {m : FullMap F} (hm : m.Level) {contours : List (Contour F)} {i j : Nat} : ¬ Separates m (routeRefs m) contours i j := by
  rintro ⟨c, d, _, _, ⟨p, l, _, hp, hb⟩ | ⟨h, k, h1, h2, h3⟩⟩
  · refine hb (hm.open_ l ?_)
    have := List.mem_of_getElem? hp
    simpa [routeRefs] using this
  · obtain ⟨⟨s, a, a1, a2, rfl⟩, _⟩ := h1
    obtain ⟨⟨s', b, b1, b2, rfl⟩, _⟩ := h2
    have ma := List.mem_of_getElem? a2
    have mb := List.mem_of_getElem? b2
    rcases h3 with h3 | h3 | h3
    · have := hm.floors a ma b mb; omega
    · have := hm.floors b mb a ma; omega
    · refine h3 fun t => ⟨?_, ?_⟩
      · rintro ⟨t0, t1, s2, e, e1, e2, rfl⟩
        have := hm.tags e (List.mem_of_getElem? e2) b mb
        refine ⟨t0, t1, s', b, b1, b2, ?_⟩
        tauto
      · rintro ⟨t0, t1, s2, e, e1, e2, rfl⟩
        have := hm.tags e (List.mem_of_getElem? e2) a ma
        refine ⟨t0, t1, s, a, a1, a2, ?_⟩
        tauto

/-- **C95.** In a level map every chunk has an area that the player starts in. -/
theorem C95_level (lib : Lib) (fuel : Nat) (m : FullMap F) (hm : m.Level) (r : Polygon F) (distance : List Int) (chunks : List (List Nat)) (h : routeMap lib fuel m = .ok (r, distance, chunks)) :
    ∀ chunk ∈ chunks, ∃ i ∈ chunk, AtStart ((m.findPlayerStart).getD ⟨ofInt 0, ofInt 0⟩) r.contours i := by
  intro chunk hc
  obtain ⟨k, hk⟩ := List.mem_iff_getElem?.1 hc
  obtain ⟨seed, h1, _, h2 | ⟨i, _, _, h3⟩⟩ := C95_begins lib fuel m r distance chunks h k chunk hk
  · exact ⟨seed, h1, h2⟩
  · exact absurd h3 hm.separates

/-- **C95.** In a level map in which the player starts in at most one area there is at most one chunk, and it is all that can be reached. -/
theorem C95_one_chunk (lib : Lib) (fuel : Nat) (m : FullMap F) (hm : m.Level) (r : Polygon F) (distance : List Int) (chunks : List (List Nat)) (h : routeMap lib fuel m = .ok (r, distance, chunks))
    (hone : ∀ i j, AtStart ((m.findPlayerStart).getD ⟨ofInt 0, ofInt 0⟩) r.contours i → AtStart ((m.findPlayerStart).getD ⟨ofInt 0, ofInt 0⟩) r.contours j → i = j) :
    chunks.length ≤ 1 ∧ ∀ (i : Nat) d, distance[i]? = some d → (RouteReachable ((m.findPlayerStart).getD ⟨ofInt 0, ofInt 0⟩) r.contours i → d = 1) ∧
      (¬ RouteReachable ((m.findPlayerStart).getD ⟨ofInt 0, ofInt 0⟩) r.contours i → d = 0) := by
  obtain ⟨hp, _⟩ := C62_route_map lib fuel m r distance chunks h
  have hlen : chunks.length ≤ 1 := by
    match chunks, hp, C95_level lib fuel m hm r distance chunks h with
    | [], _, _ => simp
    | [_], _, _ => simp
    | a :: b :: rest, hp, hl =>
      exfalso
      obtain ⟨i, i1, i2⟩ := hl a (by simp)
      obtain ⟨j, j1, j2⟩ := hl b (by simp)
      have := hone i j i2 j2
      subst this
      have hn := hp.once
      simp only [List.flatten_cons, List.nodup_append, List.mem_append] at hn
      exact hn.2.2 i i1 i (.inl j1) rfl
  refine ⟨hlen, fun i d hd => ⟨fun hr => ?_, fun hr => ?_⟩⟩
  · obtain ⟨chunk, hc, hi⟩ := List.mem_flatten.1 ((hp.reached i).2 hr)
    obtain ⟨k, hk⟩ := List.mem_iff_getElem?.1 hc
    have := hp.inChunk k chunk hk i hi
    have hk0 : k = 0 := by have := (List.getElem?_eq_some_iff.1 hk).1; omega
    subst hk0
    rw [hd] at this
    simpa using this
  · have hlt : i < r.contours.length := by rw [← hp.length]; exact (List.getElem?_eq_some_iff.1 hd).1
    have := hp.outside i hlt fun k => hr ((hp.reached i).1 k)
    rw [hd] at this
    simpa using this

/-- Two rooms, the second one a step of 24 units up, are a level map, and the search succeeds with one chunk; with a step of 25 units there are two. -/
theorem C95_hypotheses_met : (exRooms 0 24).Level ∧ (∃ r, routeMap listLib 400 (exRooms 0 24) = .ok (r, [1, 1, 1], [[0, 1, 2]])) ∧
    ∃ r, routeMap listLib 400 (exRooms 0 25) = .ok (r, [1, 2, 2], [[0], [1, 2]]) := by
  have map_ok : ∀ {α β : Type} {x : Res α} {f : α → β} {b : β}, x.map f = .ok b → ∃ a, x = .ok a ∧ f a = b := by
    intro α β x f b h
    cases x with
    | ok a => exact ⟨a, rfl, by simpa [Res.map] using h⟩
    | err e => simp [Res.map] at h
    | panic p => simp [Res.map] at h
    | diverge => simp [Res.map] at h
  refine ⟨⟨?_, ?_, ?_⟩, ?_, ?_⟩
  · decide
  · decide
  · decide
  · obtain ⟨⟨r, q⟩, h1, h2⟩ := map_ok C62_two_rooms.1
    rw [Prod.mk.injEq] at h2
    obtain ⟨_, rfl⟩ := h2
    exact ⟨r, h1⟩
  · obtain ⟨x, h0, h3⟩ := map_ok C62_two_rooms.2.1
    obtain ⟨⟨r, q⟩, h1, h2⟩ := map_ok h0
    subst h2
    simp only at h3
    subst h3
    exact ⟨r, h1⟩

end Idc
