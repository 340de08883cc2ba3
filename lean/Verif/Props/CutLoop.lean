import Verif.Props.CutAlong
/-!
# The whole sweep of edges that cross, for C84
-/

namespace Idc

namespace Cut

open Plan

variable {G : Plan} {C : Cut G} {Heap : (EndId → EndId → Res Ordering) → List EndId → Prop}

/-- How the two runs stand. -/
inductive Phase (C : Cut G) (Heap : (EndId → EndId → Res Ordering) → List EndId → Prop) (g : Ghost) (st st' : SweepState ℝ) : Prop where
  | sim : Sim C Heap g st st' → Phase C Heap g st st'
  | pend (k : ℕ) (a₁ a₂ sw : List ℕ) : Plan.Inv G Heap st' → st'.active = a₁ ++ a₂ → st'.swept = sw ++ [k] → Pend C Heap g st k st'.arena st'.queue a₁ a₂ sw → Phase C Heap g st st'
  | along (k m n : ℕ) (X : Arena ℝ) (l₁ l₂ sw : List ℕ) : Behind G Heap st' m n X l₁ l₂ → st'.swept = sw ++ [k] →
      Pend C Heap g st k X ((m, .left) :: st'.queue) l₁ (n :: l₂) sw → Phase C Heap g st st'
  | behind (m n : ℕ) (X : Arena ℝ) (l₁ l₂ : List ℕ) : Behind G Heap st' m n X l₁ l₂ → Pre C Heap g st ⟨X, (m, .left) :: st'.queue, l₁ ++ n :: l₂, st'.swept⟩ → Phase C Heap g st st'

variable {g : Ghost} {st st' : SweepState ℝ}

theorem Phase.rel (h : Phase C Heap g st st') : ∃ s, Rel C Heap g st s := by
  rcases h with h | ⟨_, _, _, _, _, _, _, h⟩ | ⟨_, _, _, _, _, _, _, _, _, h⟩ | ⟨_, _, _, _, _, _, h⟩
  · exact ⟨_, h.rel⟩
  · exact ⟨_, h.pre.rel⟩
  · exact ⟨_, h.pre.rel⟩
  · exact ⟨_, h.rel⟩

theorem Pend.queue_ne {k : ℕ} {X : Arena ℝ} {Q : List EndId} {a₁ a₂ sw : List ℕ} (h : Pend C Heap g st k X Q a₁ a₂ sw) : st.queue ≠ [] := by
  obtain ⟨hact, _⟩ := h.first
  obtain ⟨hlt, hlive⟩ := h.pre.rel.alive _ hact
  exact List.ne_nil_of_mem ((h.pre.rel.qright _ hlt hlive).2 (by rw [h.last]; simp))

theorem Phase.queue_nil {lib : Lib} (hh : HeapOk lib Heap) (h : Phase C Heap g st st') (hq : st.queue = []) : st'.queue = [] ∧ Rel C Heap g st st' := by
  rcases h with h | ⟨_, _, _, _, _, _, _, h⟩ | ⟨_, _, _, _, _, _, _, _, _, h⟩ | ⟨m, n, X, l₁, l₂, hb, h⟩
  · exact ⟨h.queue_nil hh hq, h.rel⟩
  · exact absurd hq h.queue_ne
  · exact absurd hq h.queue_ne
  · exfalso
    have hR := h.rel
    have hmS : m ∈ G.S := hR.inv.qmem (m, .left) (by simp)
    have hfst : g.fst (g.cov m) = m := hR.left_first (k := m) (by simp) (by
      intro y hy
      rcases List.mem_cons.1 hy with rfl | hy
      · exact le_rfl
      · exact hb.min y hy)
    have := (hR.qleft _ (hR.arenas.covers.lt m hmS)).2 ⟨hR.arenas.covers.live m hmS, by rw [hfst]; simp⟩
    rw [hq] at this
    exact absurd this List.not_mem_nil

/-- One endpoint. -/
theorem Phase.step {lib : Lib} (hl : lib.Lawful) (hs : lib.SearchHonest) (hh : HeapOk lib Heap) (h : Phase C Heap g st st') {x : EndId} {q : List EndId} (hx : x ∈ st.queue)
    (hmin : ∀ y ∈ st.queue, G.key (img g x) ≤ G.key (img g y)) (hp : st.queue.Perm (x :: q)) (hq : Heap st.arena.endCmp q) :
    ∃ st2 st2' g', sweepEnd lib G.n { st with queue := q } x.1 x.2 = .ok st2 ∧ Reaches lib G.n st' st2' ∧ Phase C Heap g' st2 st2' ∧
      st2.queue.length + 3 * unsplit G g' + 1 = st.queue.length + 3 * unsplit G g := by
  rcases h with h | ⟨k, a₁, a₂, sw, hI, ha, hsw, h⟩ | ⟨k, m, n, X, l₁, l₂, sw, hb, hsw, h⟩ | ⟨m, n, X, l₁, l₂, hb, h⟩
  · have hR := h.rel
    have hxl := hR.qlt x hx
    have hlen : q.length + 1 = st.queue.length := by rw [hp.length_eq]; rfl
    cases h.event hh hx hmin with
    | left i h1 h2 h3 =>
      obtain ⟨q', p1, p2, p3, p4⟩ := pop_first hh h.inv h2 h3
      obtain ⟨st2, st2', g', r1, r2, r3, r4⟩ := h.left hl hh h1 hxl hp hq p2 p3 p4
      exact ⟨st2, st2', g', r1, .step p1 p2 r2 r3, .sim r4.sim, r4.size⟩
    | right i h1 h2 h3 h4 =>
      obtain ⟨q', p1, p2, p3, p4⟩ := pop_first hh h.inv h3 h4
      obtain ⟨st2, st2', g', r1, r2, r3, r4⟩ := h.right hl hh h1 h2 hp hq p2 p3 p4
      exact ⟨st2, st2', g', r1, .step p1 p2 r2 r3, .sim r4.sim, r4.size⟩
    | stale i h1 =>
      obtain ⟨r1, r2⟩ := h.pre.stale hs hxl h1 hp hq
      exact ⟨_, st', g, r1, .refl _, .sim (r2.sim h.inv), by show q.length + _ + 1 = _; omega⟩
    | late i k m h1 h2 h3 h4 h5 h6 h7 =>
      rcases h7 with h7 | ⟨h7, h8⟩
      · obtain ⟨st2, g', X, Q, a₁, a₂, sw, r1, r2, r3, r4, r5⟩ := h.late_lower hl hh h1 hxl hp hq h2 h3 h5 h6 h7
        exact ⟨st2, _, g', r1, r2, .pend k a₁ a₂ sw r3 rfl rfl r4, r5⟩
      · obtain ⟨st2, g', n, X, l₁, l₂, st2', r1, r2, r3, r4, r5, r6⟩ := h.late_upper hl hh h1 hxl hp hq h2 h3 h5 h6 h7 h8
        exact ⟨st2, st2', g', r1, r2, .along k m n X l₁ l₂ _ r3 r4 r5, r6⟩
  · obtain ⟨st2, g', r1, r2 | r2, r3⟩ := h.event hs hl hh hx hmin hp hq
    · exact ⟨st2, st', g', r1, .refl _, .pend k a₁ a₂ sw hI ha hsw r2, r3⟩
    · rw [← ha, ← hsw] at r2
      exact ⟨st2, st', g', r1, .refl _, .sim (r2.sim hI), r3⟩
  · obtain ⟨st2, g', r1, r2 | r2, r3⟩ := h.event hs hl hh hx hmin hp hq
    · exact ⟨st2, st', g', r1, .refl _, .along k m n X l₁ l₂ sw hb hsw r2, r3⟩
    · rw [← hsw] at r2
      exact ⟨st2, st', g', r1, .refl _, .behind m n X l₁ l₂ hb r2, r3⟩
  · obtain ⟨st2, g', r1, r2 | r2, r3⟩ := hb.event hs hl hh h hx hmin hp hq
    · exact ⟨st2, st', g', r1, .refl _, .behind m n X l₁ l₂ hb r2, r3⟩
    · exact ⟨st2, st', g', r1, .refl _, .sim r2, r3⟩

/-- Both sweeps end, and what has been swept are the same pieces. -/
theorem sweep_phase {lib : Lib} (hl : lib.Lawful) (hs : lib.SearchHonest) (hh : HeapOk lib Heap) : ∀ (k : ℕ) {g : Ghost} {st st' : SweepState ℝ}, Phase C Heap g st st' →
    st.queue.length + 3 * unsplit G g = k → ∃ st2 st2' g', Rel C Heap g' st2 st2' ∧ st2.queue = [] ∧ st2'.queue = [] ∧
      (∀ fuel, k < fuel → sweepLoop lib G.n fuel st = .ok st2) ∧ ∀ fuel, st'.queue.length < fuel → sweepLoop lib G.n fuel st' = .ok st2' := by
  have nil : ∀ {k : ℕ} {g : Ghost} {st st' : SweepState ℝ}, Phase C Heap g st st' → st.queue = [] → ∃ st2 st2' g', Rel C Heap g' st2 st2' ∧ st2.queue = [] ∧ st2'.queue = [] ∧
      (∀ fuel, k < fuel → sweepLoop lib G.n fuel st = .ok st2) ∧ ∀ fuel, st'.queue.length < fuel → sweepLoop lib G.n fuel st' = .ok st2' := by
    intro k g st st' h hq
    obtain ⟨hq', hR⟩ := h.queue_nil hh hq
    refine ⟨st, st', g, hR, hq, hq', ?_, ?_⟩
    · intro fuel hf
      obtain ⟨f, rfl⟩ : ∃ f, fuel = f + 1 := ⟨fuel - 1, by omega⟩
      unfold sweepLoop
      rw [hq, hh.pop_nil]
      rfl
    · intro fuel hf
      obtain ⟨f, rfl⟩ : ∃ f, fuel = f + 1 := ⟨fuel - 1, by omega⟩
      unfold sweepLoop
      rw [hq', hh.pop_nil]
      rfl
  intro k
  induction k with
  | zero =>
    intro g st st' h hk
    exact nil h (List.length_eq_zero_iff.1 (by omega))
  | succ k ih =>
    intro g st st' h hk
    by_cases hq : st.queue = []
    · exact nil h hq
    · obtain ⟨s, hR⟩ := h.rel
      obtain ⟨x, q, hpop, hp, hheap, hmin⟩ := hh.pop st.arena.endCmp st.queue hq (hR.arenas.runs.total hR.qlt) hR.heap
      have hx : x ∈ st.queue := hp.mem_iff.2 (by simp)
      have hmin : ∀ y ∈ st.queue, G.key (img g x) ≤ G.key (img g y) := by
        intro y hy
        have hy' := hy
        rw [hp.mem_iff, List.mem_cons] at hy
        rcases hy with rfl | hy
        · exact le_rfl
        · have := hmin y hy
          rw [hR.arenas.runs.endCmp (hR.qlt x hx) (hR.qlt y hy')] at this
          by_contra hn
          rw [not_le] at hn
          exact this (by rw [compare_gt_iff_gt.2 hn])
      obtain ⟨st2, st2', g', r1, ⟨c, hc1, hc2⟩, r3, r4⟩ := h.step hl hs hh hx hmin hp hheap
      obtain ⟨s3, s3', g3, a1, a2, a3, a4, a5⟩ := ih r3 (by omega)
      refine ⟨s3, s3', g3, a1, a2, a3, ?_, ?_⟩
      · intro fuel hf
        obtain ⟨f, rfl⟩ : ∃ f, fuel = f + 1 := ⟨fuel - 1, by omega⟩
        unfold sweepLoop
        rw [hpop]
        simp only [Res.bind_ok]
        rw [r1]
        simp only [Res.bind_ok]
        exact a4 f (by omega)
      · intro fuel hf
        obtain ⟨f, rfl⟩ : ∃ f, fuel = f + c := ⟨fuel - c, by omega⟩
        rw [hc2]
        exact a5 f (by omega)

theorem sweep_cut {lib : Lib} (hl : lib.Lawful) (hs : lib.SearchHonest) (hh : HeapOk lib Heap) (k : ℕ) {g : Ghost} {st st' : SweepState ℝ} (h : Sim C Heap g st st')
    (hk : st.queue.length + 3 * unsplit G g = k) : ∃ st2 st2' g', Rel C Heap g' st2 st2' ∧ st2.queue = [] ∧ st2'.queue = [] ∧
      (∀ fuel, k < fuel → sweepLoop lib G.n fuel st = .ok st2) ∧ ∀ fuel, st'.queue.length < fuel → sweepLoop lib G.n fuel st' = .ok st2' :=
  sweep_phase hl hs hh k (.sim h) hk

end Cut

end Idc
