import Verif.Spec.Crossed
import Verif.Props.CutQueue
/-!
# One endpoint, for C84
-/

namespace Idc

namespace Cut

open Plan

variable {G : Plan} {C : Cut G} {Heap : (EndId → EndId → Res Ordering) → List EndId → Prop} {g : Ghost} {st st' : SweepState ℝ}

section

variable {q q' : List EndId}

/-- A segment has ended. -/
theorem Rel.endRight (h : Rel C Heap g st st') {i : ℕ} (hli : Live g i) (hsi : g.lst i = g.fst i) (hp : st.queue.Perm ((i, .right) :: q))
    (hp' : st'.queue.Perm ((g.fst i, .right) :: q')) (hq : Heap st.arena.endCmp q) {l₁ l₂ : List ℕ} (hact : st.active = l₁ ++ i :: l₂) {l' : List ℕ}
    (hl' : (l₁ ++ l₂).map g.fst = l') (hI : Loose C ⟨st'.arena, q', l', st'.swept ++ [g.fst i]⟩) :
    Rel C Heap g ⟨st.arena, q, l₁ ++ l₂, st.swept ++ [i]⟩ ⟨st'.arena, q', l', st'.swept ++ [g.fst i]⟩ := by
  have mt := mem_tail h.qnodup hp
  have mt' := mem_tail h.inv.qnodup hp'
  have hc := h.arenas.covers
  have hi : i < st.arena.length := (h.alive i (by rw [hact]; simp)).1
  have left : ∀ j, (j, SegmentEnd.left) ∈ q ↔ (j, SegmentEnd.left) ∈ st.queue := fun j => by rw [mt]; simp
  have left' : ∀ j, (j, SegmentEnd.left) ∈ q' ↔ (j, SegmentEnd.left) ∈ st'.queue := fun j => by rw [mt']; simp
  have hcov : ∀ j < st.arena.length, Live g j → g.cov (g.lst j) = j := fun j hj hl =>
    hc.cov j hj hl _ ⟨hc.run j hj, Run.refl (hc.run j hj).right⟩
  refine { inv := hI, arenas := ?_, plain := ?_, heap := hq, qlt := ?_, qnodup := ?_, qleft := ?_, qright := ?_, active := hl', alive := ?_,
           swept := ?_, slive := ?_, first := ?_, last := ?_ }
  · exact h.arenas.mono fun j _ _ hst hm => hst ((left' _).2 hm)
  · intro k hk hm
    exact h.plain k hk ((left' k).1 hm)
  · intro x hx
    exact h.qlt x ((mt x).1 hx).1
  · exact (List.nodup_cons.1 (hp.nodup_iff.1 h.qnodup)).2
  · intro j hj
    show _ ↔ Live g j ∧ _ ∈ q'
    rw [left, left']; exact h.qleft j hj
  · intro j hj hl
    show _ ∈ q ↔ _ ∈ q'
    rw [mt, mt', h.qright j hj hl]
    refine and_congr_right fun _ => not_congr ?_
    rw [Prod.mk.injEq, Prod.mk.injEq]
    refine and_congr_left fun _ => ?_
    rw [← hsi]
    constructor
    · rintro rfl; rfl
    · intro e
      rw [← hcov j hj hl, ← hcov i hi hli, e]
  · intro j hj
    refine h.alive j ?_
    rw [hact]
    simp only [List.mem_append, List.mem_cons] at hj ⊢
    tauto
  · show (st.swept ++ [i]).map g.fst = _
    rw [List.map_append, h.swept]
    rfl
  · intro j hj
    rcases List.mem_append.1 hj with hj | hj
    · exact h.slive j hj
    · rw [List.mem_singleton] at hj
      subst hj
      exact ⟨hi, hli, hsi⟩
  · intro k hk hm
    exact h.first k hk fun hm' => hm ((left' k).2 hm')
  · intro k hk hm
    by_cases e : k = g.fst i
    · rw [e, hli, hsi]
    · refine h.last k hk fun hm' => hm ((mt' _).2 ⟨hm', ?_⟩)
      rw [ne_eq, Prod.mk.injEq]
      exact fun e' => e e'.1

/-- A segment has started. -/
theorem Rel.startLeft {lib : Lib} (hh : HeapOk lib Heap) (h : Rel C Heap g st st') {i : ℕ} (hli : Live g i) (hin : i < st.arena.length)
    (hp : st.queue.Perm ((i, .left) :: q)) (hp' : st'.queue.Perm ((g.fst i, .left) :: q')) (hq : Heap st.arena.endCmp q) {l₁ l₂ : List ℕ}
    (hact : st.active = l₁ ++ l₂) {l' : List ℕ} (hl' : (l₁ ++ i :: l₂).map g.fst = l') {A A' : Arena ℝ} (hlen : A.length = st.arena.length)
    (hA : Arenas C g (fun j => (g.fst j, SegmentEnd.left) ∉ q') A A') (hI : Loose C ⟨A', q', l', st'.swept⟩)
    (hplain : ∀ j, j ∈ G.S → (j, SegmentEnd.left) ∈ q' → dat A' j = dat st'.arena j) :
    Rel C Heap g ⟨A, q, l₁ ++ i :: l₂, st.swept⟩ ⟨A', q', l', st'.swept⟩ := by
  have mt := mem_tail h.qnodup hp
  have mt' := mem_tail h.inv.qnodup hp'
  have hc := h.arenas.covers
  have right : ∀ j, (j, SegmentEnd.right) ∈ q ↔ (j, SegmentEnd.right) ∈ st.queue := fun j => by rw [mt]; simp
  have right' : ∀ j, (j, SegmentEnd.right) ∈ q' ↔ (j, SegmentEnd.right) ∈ st'.queue := fun j => by rw [mt']; simp
  refine { inv := hI, arenas := hA, plain := ?_, heap := ?_, qlt := ?_, qnodup := ?_, qleft := ?_, qright := ?_, active := hl', alive := ?_,
           swept := h.swept, slive := ?_, first := ?_, last := ?_ }
  · intro k hk hm
    obtain ⟨mode, e⟩ := h.plain k hk ((mt' _).1 hm).1
    exact ⟨mode, (hplain k hk hm).trans e⟩
  · exact h.arenas.runs.heap hh hA.runs (fun x hx => h.qlt x ((mt x).1 hx).1) (fun x hx => by rw [hlen]; exact h.qlt x ((mt x).1 hx).1) (fun _ _ => rfl) hq
  · intro x hx
    show _ < A.length
    rw [hlen]; exact h.qlt x ((mt x).1 hx).1
  · exact (List.nodup_cons.1 (hp.nodup_iff.1 h.qnodup)).2
  · intro j hj
    change j < A.length at hj
    rw [hlen] at hj
    show _ ∈ q ↔ Live g j ∧ _ ∈ q'
    rw [mt, mt', h.qleft j hj, and_assoc]
    refine and_congr_right fun hl => and_congr_right fun _ => not_congr ?_
    rw [Prod.mk.injEq, Prod.mk.injEq]
    refine and_congr_left fun _ => ?_
    constructor
    · rintro rfl; rfl
    · exact fun e => hl.inj hli e
  · intro j hj hl
    change j < A.length at hj
    rw [hlen] at hj
    show _ ∈ q ↔ _ ∈ q'
    rw [right, right']; exact h.qright j hj hl
  · intro j hj
    change j ∈ l₁ ++ i :: l₂ at hj
    show j < A.length ∧ _
    rw [hlen]
    by_cases e : j = i
    · rw [e]; exact ⟨hin, hli⟩
    · refine h.alive j ?_
      rw [hact]
      simp only [List.mem_append, List.mem_cons] at hj ⊢
      tauto
  · intro j hj
    show j < A.length ∧ _
    rw [hlen]; exact h.slive j hj
  · intro k hk hm
    by_cases e : k = g.fst i
    · rw [e, hli]
    · refine h.first k hk fun hm' => hm ((mt' _).2 ⟨hm', ?_⟩)
      rw [ne_eq, Prod.mk.injEq]
      exact fun e' => e e'.1
  · intro k hk hm
    exact h.last k hk fun hm' => hm ((right' k).2 hm')

end

/-! ### Chains of neighbours -/

theorem chain_left {g' : Ghost} {l : List ℕ} {x x' : ℕ} (h : (l ++ [x]).IsChain (Adj C g)) (hl : ∀ v ∈ l, ∀ k ∈ G.S, g'.cov k = v → g.cov k = v)
    (hx : ∀ k ∈ G.S, g'.cov k = x' → g.cov k = x) : (l ++ [x']).IsChain (Adj C g') := by
  rw [List.isChain_append] at h ⊢
  refine ⟨h.1.imp_of_mem_imp fun a b ha hb hab => hab.mono (hl a ha) (hl b hb), List.isChain_singleton _, ?_⟩
  intro a ha b hb
  simp only [List.head?_cons, Option.mem_def, Option.some.injEq] at hb
  subst hb
  exact (h.2.2 a ha x (by simp)).mono (hl a (List.mem_of_getLast? ha)) hx

theorem chain_right {g' : Ghost} {l : List ℕ} {x x' : ℕ} (h : (x :: l).IsChain (Adj C g)) (hl : ∀ v ∈ l, ∀ k ∈ G.S, g'.cov k = v → g.cov k = v)
    (hx : ∀ k ∈ G.S, g'.cov k = x' → g.cov k = x) : (x' :: l).IsChain (Adj C g') := by
  rw [List.isChain_cons] at h ⊢
  refine ⟨fun b hb => (h.1 b hb).mono hx (hl b (List.mem_of_head? hb)), h.2.imp_of_mem_imp fun a b ha hb hab => hab.mono (hl a ha) (hl b hb)⟩

/-- What one endpoint does. -/
structure Stepped (C : Cut G) (Heap : (EndId → EndId → Res Ordering) → List EndId → Prop) (g g' : Ghost) (st st2 st2' : SweepState ℝ) : Prop where
  sim : Sim C Heap g' st2 st2'
  size : st2.queue.length + 3 * unsplit G g' + 1 = st.queue.length + 3 * unsplit G g

/-- The two runs at the same time, where the other may be in a state it does not pass. -/
structure Pre (C : Cut G) (Heap : (EndId → EndId → Res Ordering) → List EndId → Prop) (g : Ghost) (st st' : SweepState ℝ) : Prop where
  rel : Rel C Heap g st st'
  split : Whole C g st'.queue
  adj : st.active.IsChain (Adj C g)

theorem Sim.pre (h : Sim C Heap g st st') : Pre C Heap g st st' := ⟨h.rel, h.split, h.adj⟩

theorem Pre.sim (h : Pre C Heap g st st') (hI : Plan.Inv G Heap st') : Sim C Heap g st st' := ⟨h.rel, hI, h.split, h.adj⟩

/-- A stale right endpoint: nothing happens. -/
theorem Pre.stale {lib : Lib} (hs : lib.SearchHonest) (h : Pre C Heap g st st') {i : ℕ} (hi : i < st.arena.length) (hli : ¬ Live g i) {q : List EndId}
    (hp : st.queue.Perm ((i, .right) :: q)) (hq : Heap st.arena.endCmp q) :
    sweepRight lib G.n { st with queue := q } i = .ok { st with queue := q } ∧ Pre C Heap g { st with queue := q } st' := by
  have hR := h.rel
  have mt := mem_tail hR.qnodup hp
  constructor
  · obtain ⟨ix, hix, hb⟩ := hs st.arena.segCmp i st.active (by
      intro y hy
      obtain ⟨hy1, hy2⟩ := hR.alive y hy
      obtain ⟨s, es, is⟩ := hR.arenas.seg y hy1
      obtain ⟨s', es', is'⟩ := hR.arenas.seg i hi
      unfold Arena.segCmp index
      rw [es, es']
      simp only [Res.bind_ok]
      refine cmp_ne_eq ?_
      rw [is.index, is'.index]
      rintro rfl
      exact hli hy2)
    have hprev : ∃ o, prevAt st.active ix = .ok o := by
      unfold prevAt
      split
      · unfold index
        rw [List.getElem?_eq_getElem (by omega)]
        exact ⟨_, rfl⟩
      · exact ⟨_, rfl⟩
    obtain ⟨o, ho⟩ := hprev
    unfold sweepRight SweepLine2.removeAndGetNeighbors
    dsimp only
    rw [hb]
    simp only [Res.bind_ok, Bool.false_eq_true, if_false]
    rw [ho]
    rfl
  · refine ⟨⟨hR.inv, hR.arenas, hR.plain, hq, fun x hx => hR.qlt x ((mt x).1 hx).1, (List.nodup_cons.1 (hp.nodup_iff.1 hR.qnodup)).2, ?_, ?_, hR.active,
      hR.alive, hR.swept, hR.slive, hR.first, hR.last⟩, h.split, h.adj⟩
    · intro j hj
      rw [← hR.qleft j hj, mt]
      simp
    · intro j hj hl
      rw [← hR.qright j hj hl, mt]
      refine ⟨fun h => h.1, fun h => ⟨h, fun e => ?_⟩⟩
      cases e
      exact hli hl

theorem Checked.pre {g' : Ghost} {st2 : SweepState ℝ} {l₁ l₂ : List ℕ} {x x' y y' : ℕ} (h : Checked C Heap g g' st st2 st' l₁ x x' y y' l₂)
    (h1 : (l₁ ++ [x]).IsChain (Adj C g)) (h2 : (y :: l₂).IsChain (Adj C g)) : Pre C Heap g' st2 st' := by
  refine ⟨h.rel, h.split, ?_⟩
  rw [h.active, List.isChain_append_cons_cons]
  exact ⟨chain_left h1 (fun v hv => h.mr v (by simp [hv])) h.mx, h.adj, chain_right h2 (fun v hv => h.mr v (by simp [hv])) h.my⟩

/-- A segment that is a single piece ends. -/
theorem Pre.right {lib : Lib} (hl : lib.Lawful) (hh : HeapOk lib Heap) (h : Pre C Heap g st st') {i : ℕ} (hli : Live g i) (hsi : g.lst i = g.fst i)
    {q q' : List EndId} (hp : st.queue.Perm ((i, .right) :: q)) (hq : Heap st.arena.endCmp q) (hp' : st'.queue.Perm ((g.fst i, .right) :: q')) {l₁' l₂' : List ℕ}
    (ha' : st'.active = l₁' ++ g.fst i :: l₂') (hns : ∀ j k, l₁'.getLast? = some j → l₂'.head? = some k → Meanwhile G j k ∧ ¬ G.Same j k)
    (honly : ∀ k m, C.Joint k m → g.cov k = g.cov m → G.rp (g.fst i) ≠ G.rp k)
    (hI' : Loose C ⟨st'.arena, q', l₁' ++ l₂', st'.swept ++ [g.fst i]⟩) :
    ∃ st2 g', sweepRight lib G.n { st with queue := q } i = .ok st2 ∧ Pre C Heap g' st2 ⟨st'.arena, q', l₁' ++ l₂', st'.swept ++ [g.fst i]⟩ ∧
      st2.queue.length + 3 * unsplit G g' + 1 = st.queue.length + 3 * unsplit G g := by
  have hR := h.rel
  have hm := hR.active
  rw [ha'] at hm
  obtain ⟨l₁, lr, e0, e1, f2⟩ := List.map_eq_append_iff.1 hm
  obtain ⟨i0, l₂, rfl, hi0, e2⟩ := List.map_eq_cons_iff.1 f2
  have hi0a := hR.alive i0 (by rw [e0]; simp)
  obtain rfl : i0 = i := hi0a.2.inj hli hi0
  have hlt : ∀ j ∈ l₁ ++ i0 :: l₂, j < st.arena.length := fun j hj => (hR.alive j (by rw [e0]; exact hj)).1
  have hmap : (l₁ ++ i0 :: l₂).map g.fst = l₁' ++ g.fst i0 :: l₂' := by rw [List.map_append, List.map_cons, e1, e2]
  obtain ⟨c1, c2⟩ := hR.arenas.runs.search (l₁ := l₁) (l₂ := l₂) (i := i0) hlt (by rw [hmap, ← ha']; exact hR.inv.lower)
  have hrem : SweepLine2.removeAndGetNeighbors lib (Arena.segCmp st.arena) i0 st.active = .ok ((true, l₁.getLast?, l₂.head?), l₁ ++ l₂) := by
    unfold SweepLine2.removeAndGetNeighbors
    rw [e0, hl.search_found _ _ _ _ _ c1 (hR.arenas.runs.segCmp_self hi0a.1) c2]
    simp only [Res.bind_ok]
    rw [if_pos trivial, eraseIdx_len, prevAt_len]
    simp only [Res.bind_ok, Res.pure_eq]
    congr 4
    rw [List.getElem?_append_right (le_refl _)]
    simp [List.head?_eq_getElem?]
  have hrel := hR.endRight hli hsi hp hp' hq e0 (l' := l₁' ++ l₂') (by rw [List.map_append, e1, e2]) hI'
  have hlen : q.length + 1 = st.queue.length := by rw [hp.length_eq]; rfl
  have hwhole : Whole C g q' := by
    have mt' := mem_tail hR.inv.qnodup hp'
    intro k m hj e j hjS he
    refine (mt' _).2 ⟨h.split k m hj e j hjS he, fun e' => ?_⟩
    cases e'
    exact honly k m hj e he
  have hadj := h.adj
  rw [e0, List.isChain_append, List.isChain_cons] at hadj
  have runeq : sweepRight lib G.n { st with queue := q } i0 = (match l₂.head?, l₁.getLast? with
      | some above, some below => do
        let (arena, _, pt1, pt2) ← handleIntersections st.arena (some below) (some above)
        let st : SweepState ℝ := ⟨arena, q, l₁ ++ l₂, st.swept ++ [i0]⟩
        let (st, _) ← splitIf lib G.n st below pt1
        let (st, _) ← splitIf lib G.n st above pt2
        pure st
      | _, _ => pure ⟨st.arena, q, l₁ ++ l₂, st.swept ++ [i0]⟩) := by
    unfold sweepRight
    dsimp only
    rw [hrem]
    simp only [Res.bind_ok, if_true]
    rfl
  rcases l₂ with _ | ⟨a, l₂⟩
  · refine ⟨⟨st.arena, q, l₁ ++ [], st.swept ++ [i0]⟩, g, by rw [runeq]; rfl, ⟨hrel, hwhole, ?_⟩, ?_⟩
    · show (l₁ ++ []).IsChain _
      rw [List.append_nil]; exact hadj.1
    · show q.length + _ + 1 = _
      omega
  · rcases List.eq_nil_or_concat l₁ with rfl | ⟨l₁, b, rfl⟩
    · refine ⟨⟨st.arena, q, [] ++ a :: l₂, st.swept ++ [i0]⟩, g, by rw [runeq]; rfl, ⟨hrel, hwhole, hadj.2.1.2⟩, ?_⟩
      show q.length + _ + 1 = _
      omega
    · rw [List.concat_eq_append] at *
      obtain ⟨hmw, hnsab⟩ := hns (g.fst b) (g.fst a) (by rw [← e1]; simp) (by rw [← e2]; simp)
      obtain ⟨m, p, p', st1, x', st2, y', g', hH, hm2, s1, s2, hck⟩ := hrel.pair hl hh hwhole (l₁ := l₁) (x := b) (y := a) (l₂ := l₂)
        (by show (l₁ ++ [b]) ++ a :: l₂ = _; simp) hmw hnsab
      refine ⟨st2, g', ?_, hck.pre hadj.1 hadj.2.1.2, ?_⟩
      · rw [runeq]
        rw [show (l₁ ++ [b]).getLast? = some b by simp]
        simp only [List.head?_cons]
        dsimp only at hH
        rw [hH]
        simp only [Res.bind_ok]
        rw [s1]
        simp only [Res.bind_ok]
        rw [s2]
        rfl
      · have := hck.size
        dsimp only at this
        omega

/-- A right endpoint. -/
theorem Sim.right {lib : Lib} (hl : lib.Lawful) (hh : HeapOk lib Heap) (h : Sim C Heap g st st') {i : ℕ} (hli : Live g i) (hsi : g.lst i = g.fst i)
    {q q' : List EndId} (hp : st.queue.Perm ((i, .right) :: q)) (hq : Heap st.arena.endCmp q) (hp' : st'.queue.Perm ((g.fst i, .right) :: q'))
    (hq' : Heap st'.arena.endCmp q') (hmin : ∀ y ∈ q', G.key (g.fst i, .right) ≤ G.key y) :
    ∃ st2 st2' g', sweepRight lib G.n { st with queue := q } i = .ok st2 ∧ sweepRight lib G.n { st' with queue := q' } (g.fst i) = .ok st2' ∧
      st2'.queue = q' ∧ Stepped C Heap g g' st st2 st2' := by
  obtain ⟨l₁', l₂', t, ha', hst, hns, hrun', hI'⟩ := step_right' hl h.inv hp' hq' hmin G.n
  obtain ⟨st2, g', h1, h2, h3⟩ := h.pre.right hl hh hli hsi hp hq hp' ha' (fun j k hj hk => ⟨hst.meanwhile (List.mem_append_left _ (List.mem_of_getLast? hj))
    (List.mem_append_right _ (List.mem_cons_of_mem _ (List.mem_of_head? hk))), hns j k hj hk⟩) (fun k m hj e he => by
    by_cases hk : g.fst i = k
    · have w := h.rel.arenas.covers.within m hj.right
      have c : g.cov k = i := hk ▸ hli
      rw [← e, c, hsi, hk] at w
      have := w.2.le
      have := hj.lt
      linarith
    · refine h.split_at (k₀ := g.fst i) (hp'.mem_iff.2 (by simp)) (fun y hy => ?_) hj he.symm (h.rel.inv.qmem (g.fst i, .right) (hp'.mem_iff.2 (by simp))) hk he e
      rw [hp'.mem_iff, List.mem_cons] at hy
      rcases hy with rfl | hy
      · exact le_rfl
      · exact hmin y hy) hI'.loose
  exact ⟨st2, _, g', h1, hrun', rfl, h2.sim hI', h3⟩

end Cut

end Idc
