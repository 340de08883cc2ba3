import Verif.Props.CutHi
/-!
# The rest of an edge that has been split starts along another, for C84
-/

namespace Idc

namespace Cut

open Plan

variable {G : Plan} {C : Cut G} {Heap : (EndId → EndId → Res Ordering) → List EndId → Prop} {g : Ghost} {st st' : SweepState ℝ}

/-- What one run has done, while in the other a piece is still to start. -/
structure Behind (G : Plan) (Heap : (EndId → EndId → Res Ordering) → List EndId → Prop) (st' : SweepState ℝ) (m n : ℕ) (X : Arena ℝ) (l₁ l₂ : List ℕ) : Prop where
  inv : Plan.Inv G Heap st'
  active : st'.active = l₁ ++ m :: n :: l₂
  same : G.Same m n
  min : ∀ y ∈ st'.queue, G.key (m, .left) ≤ G.key y
  below : ∀ b, l₁.getLast? = some b → Meanwhile G b m ∧ ¬ G.Same b m
  arena : ∃ Y1 Y2 Y3 m₀ p₀ p₀', updatePolygonFacing X m l₁.getLast? = .ok Y1 ∧ (dat Y1 n).edge_type ≠ .nonContributing ∧
    handleIntersections Y1 (some m) (some n) = .ok (Y2, m₀, p₀, p₀') ∧ updatePolygonFacing Y2 m l₁.getLast? = .ok Y3 ∧ updatePolygonFacing Y3 n (some m) = .ok st'.arena

/-- The rest of the edge starts. -/
theorem Behind.event {lib : Lib} (hs : lib.SearchHonest) (hl : lib.Lawful) (hh : HeapOk lib Heap) {m n : ℕ} {X : Arena ℝ} {l₁' l₂' : List ℕ} (hb : Behind G Heap st' m n X l₁' l₂')
    (h : Pre C Heap g st ⟨X, (m, .left) :: st'.queue, l₁' ++ n :: l₂', st'.swept⟩) {x : EndId} {q : List EndId}
    (hx : x ∈ st.queue) (hmin : ∀ y ∈ st.queue, G.key (img g x) ≤ G.key (img g y)) (hp : st.queue.Perm (x :: q)) (hq : Heap st.arena.endCmp q) :
    ∃ st2 g', sweepEnd lib G.n { st with queue := q } x.1 x.2 = .ok st2 ∧ (Pre C Heap g' st2 ⟨X, (m, .left) :: st'.queue, l₁' ++ n :: l₂', st'.swept⟩ ∨ Sim C Heap g' st2 st') ∧
      st2.queue.length + 3 * unsplit G g' + 1 = st.queue.length + 3 * unsplit G g := by
  have hR := h.rel
  have hA := hR.arenas
  have hmS : m ∈ G.S := hR.inv.qmem (m, .left) (by simp)
  have hzmin : ∀ y ∈ (m, SegmentEnd.left) :: st'.queue, G.key (m, .left) ≤ G.key y := by
    intro y hy
    rcases List.mem_cons.1 hy with rfl | hy
    · exact le_rfl
    · exact hb.min y hy
  have hfst : g.fst (g.cov m) = m := hR.left_first (k := m) (by simp) hzmin
  have hRlt := hA.covers.lt m hmS
  have hRl := hA.covers.live m hmS
  have hx₀ : (g.cov m, SegmentEnd.left) ∈ st.queue := (hR.qleft _ hRlt).2 ⟨hRl, by rw [hfst]; simp⟩
  have hlen : q.length + 1 = st.queue.length := by rw [hp.length_eq]; rfl
  rcases hR.forced (z := (m, .left)) hzmin hx₀ hRl (by unfold img; dsimp only; rw [hfst]) hx hmin with rfl | ⟨i, rfl, hni⟩
  swap
  · obtain ⟨r1, r2⟩ := h.stale hs (hR.qlt _ hx) hni hp hq
    exact ⟨_, g, r1, Or.inl r2, by show q.length + _ + 1 = _; omega⟩
  generalize hRe : g.cov m = R at *
  obtain ⟨Y1, Y2, Y3, m₀, p₀, p₀', hu1, hnc, hH, hu2, hu3⟩ := hb.arena
  have hm := hR.active
  dsimp only at hm
  obtain ⟨l₁, lr, e0, e1, f2⟩ := List.map_eq_append_iff.1 hm
  obtain ⟨i, l₂, rfl, hi, e2⟩ := List.map_eq_cons_iff.1 f2
  have hl1 : ∀ j ∈ l₁, j < st.arena.length ∧ Live g j := fun j hj => hR.alive j (by rw [e0]; simp [hj])
  have started : ∀ j ∈ l₁, (g.fst j, SegmentEnd.left) ∉ (m, SegmentEnd.left) :: st'.queue := fun j hj => (hR.of_active (by rw [e0]; simp [hj])).1
  have hmap : (l₁ ++ R :: i :: l₂).map g.fst = l₁' ++ m :: n :: l₂' := by
    rw [List.map_append, List.map_cons, List.map_cons, e1, e2, hi, hfst]
  have hlastb : l₁'.getLast? = l₁.getLast?.map g.fst := by rw [← e1, List.getLast?_map]
  have hInvl : Loose C st' := hb.inv.loose
  have hlower : (l₁' ++ m :: n :: l₂').Pairwise (Lower G) := by rw [← hb.active]; exact hInvl.lower
  have hlti : ∀ j ∈ l₁ ++ R :: i :: l₂, j < st.arena.length := by
    intro j hj
    by_cases e : j = R
    · rw [e]; exact hRlt
    · refine (hR.alive j ?_).1
      rw [e0]
      simp only [List.mem_append, List.mem_cons] at hj ⊢
      tauto
  have hins := hA.runs.inserted hl (l₁ := l₁) (i := R) (l₂ := i :: l₂) hlti (by rw [hmap]; exact hlower)
  have hu1' := hu1
  rw [hlastb] at hu1'
  obtain ⟨B, hB1, hBlen, hBA⟩ := hA.update hRlt hRl (x := l₁.getLast?) (fun j hj => by
    have hjm := List.mem_of_getLast? hj
    exact ⟨(hl1 j hjm).1, (hl1 j hjm).2, started j hjm⟩) (by rw [hfst]; exact hu1')
  have hqn : ((m, SegmentEnd.left) :: st'.queue).Nodup := hR.inv.qnodup
  rw [List.nodup_cons] at hqn
  have hBA := hBA.mono (started' := fun j => (g.fst j, SegmentEnd.left) ∉ st'.queue) (fun j hj hlj hs => by
    by_cases e : j = R
    · exact Or.inr e
    · refine Or.inl fun hm => ?_
      rcases List.mem_cons.1 hm with e' | hm
      · exact e (hlj.inj hRl (by rw [hfst]; exact (Prod.mk.inj e').1))
      · exact hs hm)
  obtain ⟨sol1, has1⟩ := solid_update hR.inv.solid hR.inv.has hmS hu1
  have hrel := hR.startLeft hh hRl hRlt hp (q' := st'.queue) (by rw [hfst]) hq e0 hmap hBlen hBA
    (by rw [← hb.active]; exact hInvl.put has1 sol1) (fun j hj hjq => dat_update (hR.inv.has.lt hmS) hu1 (by rintro rfl; exact hqn.1 hjq))
  have hwhole : Whole C g st'.queue := fun p r hj e j hjS he => by
    have := h.split p r hj e j hjS he
    simpa using this
  have hadj := h.adj
  rw [e0, List.isChain_append] at hadj
  obtain ⟨D, r, r', st4, R', st5, i'', g'', B2, B3, c1, c2, c3, c4, c5, c6, c7⟩ := coincide_step hl hh hrel hwhole (la := l₁) (l₂ := l₂) (b := R) (i := i) rfl
    (by rw [hfst, hi]; exact hb.same) (by rw [hi]; exact hnc) (by rw [hfst, hi]; exact hH) (by rw [hfst, ← hlastb]; exact hu2) (by rw [hfst, hi]; exact hu3)
  have hopt : splitIfOpt lib G.n st4 (some i) r' = .ok (st5, some i'') := by
    cases r' with
    | none => cases c3; rfl
    | some pt =>
      have c3 : splitSegment lib G.n st4 i pt = .ok (st5, i'') := c3
      unfold splitIfOpt unwrap
      simp only [Res.bind_ok]
      rw [c3]
      rfl
  obtain ⟨m', s, s', st6, o', st7, R'', g3, j1, j2, j3, j4, j5, j6, j7⟩ := below_step hl hh c7.rel c7.split c7.active (by
      intro b hb'
      have hbm := List.mem_of_getLast? hb'
      rw [c7.fr b (by simp [hbm]), c7.fx, hfst]
      exact (hb.below _ (by rw [hlastb, hb']; rfl)).1) (by
      intro b hb'
      have hbm := List.mem_of_getLast? hb'
      rw [c7.fr b (by simp [hbm]), c7.fx, hfst]
      exact (hb.below _ (by rw [hlastb, hb']; rfl)).2)
    (hadj.1.imp_of_mem_imp fun a b ha hb hab => hab.mono (c7.mr a (by simp [ha])) (c7.mr b (by simp [hb])))
    (by
      rw [List.isChain_cons_cons]
      exact ⟨c7.adj, chain_right hadj.2.1 (fun v hv => c7.mr v (by simp [hv])) c7.my⟩)
  have j5' : Pre C Heap g3 st7 st' := by
    dsimp only at j5
    rw [← hb.active] at j5
    exact j5
  refine ⟨st7, g3, ?_, Or.inr (j5'.sim hb.inv), ?_⟩
  rotate_left
  · have := c7.size
    dsimp only at this j7
    omega
  show sweepLeft lib G.n { st with queue := q } R = _
  unfold sweepLeft
  dsimp only
  rw [e0, hins]
  simp only [Res.bind_ok]
  rw [hB1]
  simp only [Res.bind_ok]
  dsimp only at c1 c2
  rw [List.head?_cons, c1]
  simp only [Res.bind_ok]
  rw [c2]
  simp only [Res.bind_ok]
  rw [hopt]
  simp only [Res.bind_ok]
  unfold updateAfter
  rw [if_pos rfl, c5]
  simp only [Res.bind_ok, unwrap]
  rw [c6]
  simp only [Res.bind_ok, Res.pure_eq]
  rw [j1]
  simp only [Res.bind_ok]
  rw [j3]
  simp only [Res.bind_ok]
  rw [j4]
  simp only [Res.bind_ok]
  rw [if_neg (by omega)]

end Cut

end Idc
