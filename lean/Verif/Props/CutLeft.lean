import Verif.Props.CutStep
/-!
# A left endpoint, for C84
-/

namespace Idc

namespace Cut

open Plan

variable {G : Plan} {C : Cut G} {Heap : (EndId → EndId → Res Ordering) → List EndId → Prop} {g : Ghost} {st st' : SweepState ℝ}

/-- The segment above is examined. -/
theorem above_step {lib : Lib} (hl : lib.Lawful) (hh : HeapOk lib Heap) (h : Rel C Heap g st st') (hs : Whole C g st'.queue) {l₁ l₂ : List ℕ} {i : ℕ}
    (hact : st.active = l₁ ++ i :: l₂) (hal : ∀ a, l₂.head? = some a → Meanwhile G (g.fst i) (g.fst a))
    (hns : ∀ a, l₂.head? = some a → ¬ G.Same (g.fst i) (g.fst a)) (h1 : l₁.IsChain (Adj C g)) (h2 : l₂.IsChain (Adj C g)) :
    ∃ m p p' st2 i' st3 o g' l₂', handleIntersections st.arena (some i) l₂.head? = .ok (st.arena, m, p, p') ∧ m < 2 ∧
      splitIf lib G.n st i p = .ok (st2, i') ∧ splitIfOpt lib G.n st2 l₂.head? p' = .ok (st3, o) ∧ Rel C Heap g' st3 st' ∧ Whole C g' st'.queue ∧
      st3.active = l₁ ++ i' :: l₂' ∧ (i' :: l₂').IsChain (Adj C g') ∧ l₁.IsChain (Adj C g') ∧ (∀ v ∈ l₁, g'.fst v = g.fst v) ∧ g'.fst i' = g.fst i ∧
      (∀ v ∈ l₁, g'.lst v = g.lst v) ∧
      (∀ p q, C.Joint p q → g'.cov p = g'.cov q → g.cov p = g.cov q) ∧ st3.queue.length + 3 * unsplit G g' = st.queue.length + 3 * unsplit G g := by
  rcases l₂ with _ | ⟨a, l₂⟩
  · exact ⟨0, none, none, st, i, st, none, g, [], rfl, by norm_num, rfl, rfl, h, hs, hact, List.isChain_singleton _, h1, fun _ _ => rfl, rfl, fun _ _ => rfl, fun _ _ _ e => e, rfl⟩
  · obtain ⟨m, p, p', st1, x', st2, y', g', hH, hm2, s1, s2, hck⟩ := h.pair hl hh hs hact (hal a rfl) (hns a rfl)
    have hopt : splitIfOpt lib G.n st1 (some a) p' = .ok (st2, some y') := by
      cases p' with
      | none => cases s2; rfl
      | some pt =>
        have s2 : splitSegment lib G.n st1 a pt = .ok (st2, y') := s2
        unfold splitIfOpt unwrap
        simp only [Res.bind_ok]
        rw [s2]
        rfl
    refine ⟨m, p, p', st1, x', st2, some y', g', y' :: l₂, hH, hm2, s1, hopt, hck.rel, hck.split, hck.active, ?_, ?_, fun v hv => hck.fr v (by simp [hv]), hck.fx, fun v hv => hck.lr v (by simp [hv]), hck.joint, hck.size⟩
    · rw [List.isChain_cons_cons]
      exact ⟨hck.adj, chain_right h2 (fun v hv => hck.mr v (by simp [hv])) hck.my⟩
    · exact h1.imp_of_mem_imp fun a b ha hb hab => hab.mono (hck.mr a (by simp [ha])) (hck.mr b (by simp [hb]))

/-- The segment below is examined. -/
theorem below_step {lib : Lib} (hl : lib.Lawful) (hh : HeapOk lib Heap) (h : Rel C Heap g st st') (hs : Whole C g st'.queue) {l₁ l₂ : List ℕ} {i : ℕ}
    (hact : st.active = l₁ ++ i :: l₂) (hal : ∀ b, l₁.getLast? = some b → Meanwhile G (g.fst b) (g.fst i))
    (hns : ∀ b, l₁.getLast? = some b → ¬ G.Same (g.fst b) (g.fst i)) (h1 : l₁.IsChain (Adj C g))
    (h2 : (i :: l₂).IsChain (Adj C g)) :
    ∃ m p p' st2 o st3 i' g', handleIntersections st.arena l₁.getLast? (some i) = .ok (st.arena, m, p, p') ∧ m < 2 ∧
      splitIfOpt lib G.n st l₁.getLast? p = .ok (st2, o) ∧ splitIf lib G.n st2 i p' = .ok (st3, i') ∧ Pre C Heap g' st3 st' ∧
      (∀ p q, C.Joint p q → g'.cov p = g'.cov q → g.cov p = g.cov q) ∧ st3.queue.length + 3 * unsplit G g' = st.queue.length + 3 * unsplit G g := by
  rcases List.eq_nil_or_concat l₁ with rfl | ⟨l₁, b, rfl⟩
  · exact ⟨0, none, none, st, none, st, i, g, rfl, by norm_num, rfl, rfl, ⟨h, hs, by rw [hact]; exact h2⟩, fun _ _ _ e => e, rfl⟩
  · rw [List.concat_eq_append] at *
    have e : (l₁ ++ [b]).getLast? = some b := by simp
    rw [e] at hns hal ⊢
    obtain ⟨m, p, p', st1, x', st2, y', g', hH, hm2, s1, s2, hck⟩ := h.pair hl hh hs (l₁ := l₁) (x := b) (y := i) (l₂ := l₂) (by rw [hact]; simp) (hal b rfl) (hns b rfl)
    have hopt : splitIfOpt lib G.n st (some b) p = .ok (st1, some x') := by
      cases p with
      | none => cases s1; rfl
      | some pt =>
        have s1 : splitSegment lib G.n st b pt = .ok (st1, x') := s1
        unfold splitIfOpt unwrap
        simp only [Res.bind_ok]
        rw [s1]
        rfl
    exact ⟨m, p, p', st1, some x', st2, y', g', hH, hm2, hopt, s2, hck.pre h1 h2, hck.joint, hck.size⟩

theorem Runs.inserted {lib : Lib} (hl : lib.Lawful) {A : Arena ℝ} (h : Runs C g A) {l₁ l₂ : List ℕ} {i : ℕ} (hlt : ∀ j ∈ l₁ ++ i :: l₂, j < A.length)
    (hst : ((l₁ ++ i :: l₂).map g.fst).Pairwise (Lower G)) :
    SweepLine2.insertAndGetNeighbors lib (Arena.segCmp A) i (l₁ ++ l₂) = .ok ((l₁.getLast?, l₂.head?), l₁ ++ i :: l₂) := by
  obtain ⟨c1, c2⟩ := h.search hlt hst
  unfold SweepLine2.insertAndGetNeighbors
  rw [hl.search_missing _ _ _ _ c1 c2]
  simp only [Res.bind_ok]
  rw [if_neg (by decide), insertIdx_len, prevAt_len]
  simp only [Res.bind_ok, Res.pure_eq]
  congr 3
  rw [List.getElem?_append_right (by omega)]
  simp [List.head?_eq_getElem?]

theorem Runs.previous {lib : Lib} (hl : lib.Lawful) {A : Arena ℝ} (h : Runs C g A) {l₁ l₂ : List ℕ} {i : ℕ} (hlt : ∀ j ∈ l₁ ++ i :: l₂, j < A.length)
    (hst : ((l₁ ++ i :: l₂).map g.fst).Pairwise (Lower G)) : SweepLine2.getPrevious lib (Arena.segCmp A) i (l₁ ++ i :: l₂) = .ok l₁.getLast? := by
  obtain ⟨c1, c2⟩ := h.search hlt hst
  unfold SweepLine2.getPrevious
  rw [hl.search_found _ _ _ _ _ c1 (h.segCmp_self (hlt i (by simp))) c2]
  simp only [Res.bind_ok]
  rw [if_pos trivial, prevAt_len]

/-- The arenas are replaced. -/
theorem Rel.arena {lib : Lib} (hh : HeapOk lib Heap) (h : Rel C Heap g st st') {B B' : Arena ℝ} (hlen : B.length = st.arena.length)
    (hA : Arenas C g (fun i => (g.fst i, SegmentEnd.left) ∉ st'.queue) B B') (hI : Loose C { st' with arena := B' })
    (hpl : ∀ k ∈ G.S, (k, SegmentEnd.left) ∈ st'.queue → dat B' k = dat st'.arena k) : Rel C Heap g { st with arena := B } { st' with arena := B' } := by
  refine { inv := hI, arenas := hA, plain := ?_, heap := ?_, qlt := ?_, qnodup := h.qnodup, qleft := ?_, qright := ?_, active := h.active, alive := ?_,
           swept := h.swept, slive := ?_, first := h.first, last := h.last }
  · intro k hk hm
    obtain ⟨mode, e⟩ := h.plain k hk hm
    exact ⟨mode, (hpl k hk hm).trans e⟩
  · exact h.arenas.runs.heap hh hA.runs h.qlt (fun x hx => by rw [hlen]; exact h.qlt x hx) (fun _ _ => rfl) h.heap
  · intro x hx
    show _ < B.length
    rw [hlen]; exact h.qlt x hx
  · intro i hi
    change i < B.length at hi
    rw [hlen] at hi
    exact h.qleft i hi
  · intro i hi
    change i < B.length at hi
    rw [hlen] at hi
    exact h.qright i hi
  · intro i hi
    show i < B.length ∧ _
    rw [hlen]; exact h.alive i hi
  · intro i hi
    show i < B.length ∧ _
    rw [hlen]; exact h.slive i hi

theorem dat_update {A B : Arena ℝ} {i : ℕ} {x : Option ℕ} (hi : i < A.length) (hB : updatePolygonFacing A i x = .ok B) {k : ℕ} (hk : k ≠ i) : dat B k = dat A k := by
  unfold updatePolygonFacing at hB
  obtain ⟨s, hs, hB⟩ := Res.bind_eq_ok hB
  obtain ⟨b, _, hB⟩ := Res.bind_eq_ok hB
  obtain ⟨p, hp, hB⟩ := Res.bind_eq_ok hB
  rw [setPacket_put hi] at hB
  cases hB
  rw [dat_put hi, if_neg hk]

/-- One segment is made to end with its first piece. -/
theorem Rel.trim_first {lib : Lib} (hl : lib.Lawful) (hh : HeapOk lib Heap) (h : Rel C Heap g st st') {x : ℕ} (hx : x ∈ st.active) :
    ∃ st2 x' g', splitIf lib G.n st x (if g.fst x = g.lst x then none else some (G.rp (g.fst x))) = .ok (st2, x') ∧ Trimmed C Heap g g' st st2 st' x x' (g.fst x) :=
  h.trim hl hh hx (h.arenas.covers.run x (h.alive x hx).1).left (h.alive x hx).2

/-- Two neighbours start with pieces that coincide. -/
theorem coincide_step {lib : Lib} (hl : lib.Lawful) (hh : HeapOk lib Heap) (h : Rel C Heap g st st') (hs : Whole C g st'.queue) {la l₂ : List ℕ} {b i : ℕ}
    (hact : st.active = la ++ b :: i :: l₂) (hsame : G.Same (g.fst b) (g.fst i)) (hnc : (dat st'.arena (g.fst i)).edge_type ≠ .nonContributing)
    {A2' A3' A4' : Arena ℝ} {m₀ : ℕ} {p₀ p₀' : Option (Pt ℝ)}
    (hH : handleIntersections st'.arena (some (g.fst b)) (some (g.fst i)) = .ok (A2', m₀, p₀, p₀'))
    (hu2 : updatePolygonFacing A2' (g.fst b) (la.getLast?.map g.fst) = .ok A3') (hu3 : updatePolygonFacing A3' (g.fst i) (some (g.fst b)) = .ok A4') :
    ∃ B p p' st1 b' st2 i' g' B2 B3, handleIntersections st.arena (some b) (some i) = .ok (B, 2, p, p') ∧
      splitIf lib G.n { st with arena := B } b p = .ok (st1, b') ∧ splitIf lib G.n st1 i p' = .ok (st2, i') ∧
      SweepLine2.getPrevious lib (Arena.segCmp st2.arena) b' st2.active = .ok la.getLast? ∧ updatePolygonFacing st2.arena b' la.getLast? = .ok B2 ∧
      updatePolygonFacing B2 i' (some b') = .ok B3 ∧
      Checked C Heap g g' st { st2 with arena := B3 } { st' with arena := A4' } la b b' i i' l₂ := by
  have hb : b ∈ st.active := by rw [hact]; simp
  have hi : i ∈ st.active := by rw [hact]; simp
  obtain ⟨lb, hlb⟩ := h.alive b hb
  obtain ⟨li, hli⟩ := h.alive i hi
  have hnd : (la ++ b :: i :: l₂).Nodup := by
    rw [← hact]
    have hst := h.inv.lower
    rw [← h.active] at hst
    exact List.Nodup.of_map _ (hst.imp Lower.ne)
  rw [List.nodup_append, List.nodup_cons, List.nodup_cons] at hnd
  have hbi : b ≠ i := fun e => hnd.2.1.1 (by simp [e])
  have hbS := (h.arenas.covers.run b lb).left
  have hiS := (h.arenas.covers.run i li).left
  obtain ⟨B, hB, hlen, hA, hsol, hdat⟩ := h.arenas.coincide lb hlb (h.of_active hb).1 li hli (h.of_active hi).1 hbi hsame h.inv.solid hnc hH
  have hR1 := h.arena hh hlen hA (h.inv.put hA.has hsol) (fun k _ hq => hdat k (by rintro rfl; exact (h.of_active hb).1 hq) (by rintro rfl; exact (h.of_active hi).1 hq))
  obtain ⟨st1, b', g1, s1, t1⟩ := hR1.trim_first hl hh hb
  have hi1 : i ∈ st1.active := by
    rw [t1.active, List.mem_map]
    exact ⟨i, hi, if_neg hbi.symm⟩
  have liB : i < B.length := by rw [hlen]; exact li
  obtain ⟨st2, i', g2, s2, t2⟩ := t1.rel.trim_first hl hh hi1
  rw [t1.fr i liB hbi.symm, t1.lr i liB hbi.symm] at s2
  rw [t1.fr i liB hbi.symm] at t2
  have hb1 : b' ∈ st1.active := by
    rw [t1.active, List.mem_map]
    exact ⟨b, hb, if_pos rfl⟩
  have lb1 := (t1.rel.alive b' hb1).1
  have hb'i : b' ≠ i := by
    rcases t1.new with e | e
    · rw [e]; exact hbi
    · have : B.length ≤ b' := e
      omega
  have hold : ∀ v ∈ la ++ l₂, v < B.length ∧ v ≠ b ∧ v ≠ i := by
    intro v hv
    refine ⟨by rw [hlen]; exact (h.alive v (by rw [hact]; simp only [List.mem_append, List.mem_cons] at hv ⊢; tauto)).1, ?_, ?_⟩
    · rintro rfl
      rcases List.mem_append.1 hv with hv | hv
      · exact hnd.2.2 v hv v (by simp) rfl
      · exact hnd.2.1.1 (by simp [hv])
    · rintro rfl
      rcases List.mem_append.1 hv with hv | hv
      · exact hnd.2.2 v hv v (by simp) rfl
      · exact hnd.2.1.2.1 hv
  have hact2 : st2.active = la ++ b' :: i' :: l₂ := by
    rw [t2.active, t1.active, hact, List.map_map]
    have key : ∀ l : List ℕ, (∀ v ∈ l, v ≠ b ∧ v ≠ i) → l.map ((fun z => if z = i then i' else z) ∘ (fun z => if z = b then b' else z)) = l := by
      intro l hl
      refine (List.map_congr_left (g := id) ?_).trans (List.map_id l)
      intro v hv
      obtain ⟨h2, h3⟩ := hl v hv
      simp [h2, h3]
    rw [List.map_append, List.map_cons, List.map_cons, key la, key l₂]
    · simp [hbi.symm, hb'i]
    · exact fun v hv => (hold v (by simp [hv])).2
    · exact fun v hv => (hold v (by simp [hv])).2
  have hR2 := t2.rel
  have fb : g2.fst b' = g.fst b := by rw [t2.fr b' lb1 hb'i, t1.fx]
  have fi : g2.fst i' = g.fst i := t2.fx.trans (t1.fr i liB hbi.symm)
  have fr : ∀ v ∈ la ++ l₂, g2.fst v = g.fst v := fun v hv => by
    obtain ⟨v1, v2, v3⟩ := hold v hv
    rw [t2.fr v (lt_of_lt_of_le v1 t1.le) v3, t1.fr v v1 v2]
  have lr : ∀ v ∈ la ++ l₂, g2.lst v = g.lst v := fun v hv => by
    obtain ⟨v1, v2, v3⟩ := hold v hv
    rw [t2.lr v (lt_of_lt_of_le v1 t1.le) v3, t1.lr v v1 v2]
  have hb2 : b' ∈ st2.active := by rw [hact2]; simp
  have hi2 : i' ∈ st2.active := by rw [hact2]; simp
  obtain ⟨lb2, hlb2⟩ := hR2.alive b' hb2
  obtain ⟨li2, hli2⟩ := hR2.alive i' hi2
  have hprev := hR2.arenas.runs.previous hl (l₁ := la) (l₂ := i' :: l₂) (i := b') (fun j hj => (hR2.alive j (by rw [hact2]; exact hj)).1)
    (by rw [← hact2, hR2.active]; exact hR2.inv.lower)
  have hla : la.getLast?.map g2.fst = la.getLast?.map g.fst := by
    cases e : la.getLast? with
    | none => rfl
    | some v => simp only [Option.map_some]; rw [fr v (by simp [List.mem_of_getLast? e])]
  have hbl' : g.fst b < A2'.length := hA.has.lt hbS
  obtain ⟨B2, u2, n2, hA2⟩ := hR2.arenas.update lb2 hlb2 (x := la.getLast?) (fun j hj => by
    have hjm : j ∈ st2.active := by rw [hact2]; simp [List.mem_of_getLast? hj]
    exact ⟨(hR2.alive j hjm).1, (hR2.alive j hjm).2, (hR2.of_active hjm).1⟩) (by rw [fb, hla]; exact hu2)
  obtain ⟨sol3, has3⟩ := solid_update hsol hA.has hbS hu2
  obtain ⟨sol4, has4⟩ := solid_update sol3 has3 hiS hu3
  obtain ⟨B3, u3, n3, hA3⟩ := hA2.update (by rw [n2]; exact li2) hli2 (x := some b') (fun j hj => by
    cases hj
    exact ⟨by rw [n2]; exact lb2, hlb2, Or.inr rfl⟩) (by rw [fi, Option.map_some, fb]; exact hu3)
  have hR3 := hR2.arena hh (n3.trans n2) (hA3.mono fun j _ _ hst => Or.inl (Or.inl hst)) (hR2.inv.put has4 sol4) (fun k _ hq => by
    have hkb : k ≠ g.fst b := by rintro rfl; exact (h.of_active hb).1 hq
    have hki : k ≠ g.fst i := by rintro rfl; exact (h.of_active hi).1 hq
    rw [dat_update (has3.lt hiS) hu3 hki, dat_update hbl' hu2 hkb])
  have hc2 := hR2.arenas.covers
  refine ⟨B, _, _, st1, b', st2, i', g2, B2, B3, hB, s1, s2, by rw [hact2]; exact hprev, u2, u3, ?_⟩
  refine { rel := hR3, split := ?_, active := hact2, adj := adj_single hc2 ?_ ?_, joint := fun p q hp e => t1.joint p q hp (t2.joint p q hp e), mx := ?_, my := ?_, mr := ?_, fx := fb, fy := fi, fr := fr, lr := lr, size := ?_ }
  · exact fun p q hp e z hz hr => hs p q hp (t1.joint p q hp (t2.joint p q hp e)) z hz hr
  · rw [t2.lr b' lb1 hb'i, t1.last, fb]
  · rw [t2.last, fi]
  · exact fun z hz e => t1.mx z hz (t2.mr b' lb1 hb'i z hz e)
  · exact fun z hz e => t1.mr i liB hbi.symm z hz (t2.mx z hz e)
  · intro v hv z hz e
    obtain ⟨v1, v2, v3⟩ := hold v hv
    exact t1.mr v v1 v2 z hz (t2.mr v (lt_of_lt_of_le v1 t1.le) v3 z hz e)
  · have e1 := t1.size
    have e2 := t2.size
    dsimp only at e1 ⊢
    omega

/-- A left endpoint. -/
theorem Sim.left {lib : Lib} (hl : lib.Lawful) (hh : HeapOk lib Heap) (h : Sim C Heap g st st') {i : ℕ} (hli : Live g i) (hin : i < st.arena.length)
    {q q' : List EndId} (hp : st.queue.Perm ((i, .left) :: q)) (hq : Heap st.arena.endCmp q) (hp' : st'.queue.Perm ((g.fst i, .left) :: q'))
    (hq' : Heap st'.arena.endCmp q') (hmin : ∀ y ∈ q', G.key (g.fst i, .left) ≤ G.key y) :
    ∃ st2 st2' g', sweepLeft lib G.n { st with queue := q } i = .ok st2 ∧ sweepLeft lib G.n { st' with queue := q' } (g.fst i) = .ok st2' ∧
      st2'.queue = q' ∧ Stepped C Heap g g' st st2 st2' := by
  have hR := h.rel
  have hA := hR.arenas
  obtain ⟨l₁', l₂', A', ha', hB, hAft, hS, hrun', hI', hpl⟩ := step_left' hl hh h.inv hp' hq' hmin G.n
  have mt' := mem_tail hR.inv.qnodup hp'
  have hm := hR.active
  rw [ha'] at hm
  obtain ⟨l₁, l₂, e0, e1, e2⟩ := List.map_eq_append_iff.1 hm
  have hlt : ∀ j ∈ l₁ ++ i :: l₂, j < st.arena.length := by
    intro j hj
    by_cases e : j = i
    · rw [e]; exact hin
    · refine (hR.alive j ?_).1
      rw [e0]
      simp only [List.mem_append, List.mem_cons] at hj ⊢
      tauto
  have hl1 : ∀ j ∈ l₁, j < st.arena.length ∧ Live g j := fun j hj => hR.alive j (by rw [e0]; simp [hj])
  have hl2 : ∀ j ∈ l₂, j < st.arena.length ∧ Live g j := fun j hj => hR.alive j (by rw [e0]; simp [hj])
  have hmap : (l₁ ++ i :: l₂).map g.fst = l₁' ++ g.fst i :: l₂' := by rw [List.map_append, List.map_cons, e1, e2]
  have hstk : Plan.Stack G (G.tau (g.fst i)) ((l₁ ++ i :: l₂).map g.fst) := by rw [hmap]; exact hB.stack
  have hlen : q.length + 1 = st.queue.length := by rw [hp.length_eq]; rfl
  have hwhole : Whole C g q' := fun k m hj e j hjS he => (mt' _).2 ⟨h.split k m hj e j hjS he, fun e' => nomatch e'⟩
  have hadj := h.adj
  rw [e0, List.isChain_append] at hadj
  have hlast : l₁'.getLast? = l₁.getLast?.map g.fst := by rw [← e1, List.getLast?_map]
  have hhead : l₂'.head? = l₂.head?.map g.fst := by rw [← e2, List.head?_map]
  have hins := hA.runs.inserted hl hlt hstk.lower
  have started : ∀ j ∈ l₁ ++ l₂, (g.fst j, SegmentEnd.left) ∉ st'.queue := fun j hj => (hR.of_active (by rw [e0]; exact hj)).1
  have hstart : ∀ j < st.arena.length, Live g j → (g.fst j, SegmentEnd.left) ∉ q' → (g.fst j, SegmentEnd.left) ∉ st'.queue ∨ j = i := by
    intro j hj hlj hq
    by_cases e : j = i
    · exact Or.inr e
    · refine Or.inl fun hm => hq ((mt' _).2 ⟨hm, ?_⟩)
      rw [ne_eq, Prod.mk.injEq]
      exact fun e' => e (hlj.inj hli e'.1)
  have hup : ∀ a, l₂.head? = some a → ¬ G.Same (g.fst i) (g.fst a) := by
    intro a ha
    exact hB.up _ (by rw [hhead, ha]; rfl)
  have hupw : ∀ a, l₂.head? = some a → Meanwhile G (g.fst i) (g.fst a) := by
    intro a ha
    exact hstk.meanwhile (List.mem_map_of_mem (by simp)) (List.mem_map_of_mem (by simp [List.mem_of_head? ha]))
  rcases hS with ⟨hns, hu⟩ | ⟨k', l', A1', A2', A3', hl1', hsame, hu1, hH, hu2, hu3, hnc, hpoly, hhas1, hhas2, hhas3⟩
  · -- nothing coincides
    rw [hlast] at hu
    obtain ⟨B, hB1, hBlen, hBA⟩ := hA.update hin hli (x := l₁.getLast?) (fun j hj => by
      have hjm := List.mem_of_getLast? hj
      exact ⟨(hl1 j hjm).1, (hl1 j hjm).2, started j (by simp [hjm])⟩) hu
    have hBA := hBA.mono (started' := fun j => (g.fst j, SegmentEnd.left) ∉ q') (fun j hj hlj hs => hstart j (by rw [← hBlen]; exact hj) hlj hs)
    have hrel := hR.startLeft hh hli hin hp hp' hq e0 hmap hBlen hBA hI'.loose hpl
    obtain ⟨m, p, p', st2, i', st3, o, g', l₂'', k1, k2, k3, k4, k5, k6, k7, k8, k9, k10, k11, _, _, k12⟩ := above_step hl hh hrel hwhole rfl hupw hup hadj.1 hadj.2.1
    obtain ⟨m', r, r', st4, o', st5, i'', g'', j1, j2, j3, j4, j5, _, j6⟩ := below_step hl hh k5 k6 k7 (by
      intro b hb
      have hbm := List.mem_of_getLast? hb
      rw [k10 b hbm, k11]
      exact hstk.meanwhile (List.mem_map_of_mem (by simp [hbm])) (List.mem_map_of_mem (by simp))) (by
      intro b hb
      have hbm := List.mem_of_getLast? hb
      rw [k10 b hbm, k11]
      exact hns _ (by rw [hlast, hb]; rfl)) k9 k8
    refine ⟨st5, _, g'', ?_, hrun', rfl, j5.sim hI', ?_⟩
    · unfold sweepLeft
      dsimp only
      rw [e0, hins]
      simp only [Res.bind_ok]
      rw [hB1]
      simp only [Res.bind_ok]
      dsimp only at k1 k3
      rw [k1]
      simp only [Res.bind_ok]
      rw [k3]
      simp only [Res.bind_ok]
      rw [k4]
      simp only [Res.bind_ok]
      unfold updateAfter
      rw [if_neg (by omega)]
      simp only [Res.bind_ok]
      rw [j1]
      simp only [Res.bind_ok]
      rw [show ({ arena := st3.arena, queue := st3.queue, active := st3.active, swept := st3.swept } : SweepState ℝ) = st3 from rfl, j3]
      simp only [Res.bind_ok]
      rw [j4]
      simp only [Res.bind_ok]
      rw [if_neg (by omega)]
      rfl
    · dsimp only at k12
      omega
  · -- the segment coincides with the one below
    rw [hl1'] at e1
    obtain ⟨la, lb, rfl, f1, f2⟩ := List.map_eq_append_iff.1 e1
    obtain ⟨b, lc, rfl, f3, f4⟩ := List.map_eq_cons_iff.1 f2
    rw [List.map_eq_nil_iff] at f4
    subst f4
    subst f3
    have hbl := hl1 b (by simp)
    have hbi : b ≠ i := by
      rintro rfl
      exact (hB.last (by rw [hl1']; simp)).ne rfl
    have hne : g.fst b ≠ g.fst i := fun e => hbi (hbl.2.inj hli e)
    have hiS : g.fst i ∈ G.S := hB.mem_i
    have hlastb : (la ++ [b]).getLast? = some b := by simp
    have sb0 := started b (by simp)
    -- the first update
    obtain ⟨B1, u1, n1, hA1⟩ := hA.update hin hli (x := some b) (fun j hj => by cases hj; exact ⟨hbl.1, hbl.2, sb0⟩) hu1
    have hBA := hA1.mono (started' := fun j => (g.fst j, SegmentEnd.left) ∉ q') (fun j hj hlj hs => hstart j (by rw [← n1]; exact hj) hlj hs)
    obtain ⟨sol1, _⟩ := solid_update hR.inv.solid hR.inv.has hiS hu1
    have hrel := hR.startLeft hh hli hin hp hp' hq e0 hmap n1 hBA (hI'.loose.put hhas1 sol1) (fun j hj hjq => dat_update (hR.inv.has.lt hiS) hu1 (by
      rintro rfl
      exact ((mt' _).1 hjq).2 rfl))
    obtain ⟨m, p, p', st2, i', st3, o, g', l₂'', k1, k2, k3, k4, k5, k6, k7, k8, k9, k10, k11, _, _, k12⟩ := above_step hl hh hrel hwhole rfl hupw hup hadj.1 hadj.2.1
    have fb := k10 b (by simp)
    have hlasta : l'.getLast? = la.getLast?.map g'.fst := by
      rw [← f1, List.getLast?_map]
      cases e : la.getLast? with
      | none => rfl
      | some v => simp only [Option.map_some]; rw [k10 v (by simp [List.mem_of_getLast? e])]
    obtain ⟨B, r, r', st4, b', st5, i'', g'', B2, B3, c1, c2, c3, c4, c5, c6, c7⟩ := coincide_step hl hh k5 k6 (la := la) (l₂ := l₂'') (b := b) (i := i') (by rw [k7]; simp) (by rw [fb, k11]; exact hsame)
      (by rw [k11]; exact hnc) (by rw [fb, k11]; exact hH) (by rw [fb, ← hlasta]; exact hu2) (by rw [fb, k11]; exact hu3)
    have hopt : splitIfOpt lib G.n { st3 with arena := B } (some b) r = .ok (st4, some b') := by
      cases r with
      | none => cases c2; rfl
      | some pt =>
        have c2 : splitSegment lib G.n { st3 with arena := B } b pt = .ok (st4, b') := c2
        unfold splitIfOpt unwrap
        simp only [Res.bind_ok]
        rw [c2]
        rfl
    refine ⟨_, _, g'', ?_, hrun', rfl, (c7.pre k9 k8).sim hI', ?_⟩
    · unfold sweepLeft
      dsimp only
      rw [e0, hins]
      simp only [Res.bind_ok]
      rw [hlastb, u1]
      simp only [Res.bind_ok]
      dsimp only at k1 k3
      rw [k1]
      simp only [Res.bind_ok]
      rw [k3]
      simp only [Res.bind_ok]
      rw [k4]
      simp only [Res.bind_ok]
      unfold updateAfter
      rw [if_neg (by omega)]
      simp only [Res.bind_ok]
      rw [c1]
      simp only [Res.bind_ok]
      rw [hopt]
      simp only [Res.bind_ok]
      rw [c3]
      simp only [Res.bind_ok, if_true, unwrap]
      rw [c4]
      simp only [Res.bind_ok]
      rw [c5]
      simp only [Res.bind_ok]
      rw [c6]
      rfl
    · have := c7.size
      dsimp only at this k12 ⊢
      omega

end Cut

end Idc
