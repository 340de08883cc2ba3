import Verif.Props.CutLate
/-!
# An edge that has just been split, for C84
-/

namespace Idc

namespace Cut

open Plan

variable {G : Plan} {C : Cut G} {Heap : (EndId → EndId → Res Ordering) → List EndId → Prop} {g : Ghost} {st st' : SweepState ℝ}

/-- The next endpoint is where a piece ends. -/
structure Pend (C : Cut G) (Heap : (EndId → EndId → Res Ordering) → List EndId → Prop) (g : Ghost) (st : SweepState ℝ) (k : ℕ) (X : Arena ℝ) (Q : List EndId)
    (a₁ a₂ sw : List ℕ) : Prop where
  pre : Pre C Heap g st ⟨X, (k, .right) :: Q, a₁ ++ k :: a₂, sw⟩
  min : ∀ y ∈ Q, G.key (k, .right) ≤ G.key y
  pair : ∀ i j, a₁.getLast? = some i → a₂.head? = some j → Meanwhile G i j ∧ ¬ G.Same i j
  last : g.lst (g.cov k) = k
  only : ∀ j ∈ G.S, G.rp j = G.rp k → j = k
  loose : Loose C ⟨X, Q, a₁ ++ a₂, sw ++ [k]⟩

variable {k : ℕ} {X : Arena ℝ} {Q : List EndId} {a₁ a₂ sw : List ℕ}

theorem Pend.first (h : Pend C Heap g st k X Q a₁ a₂ sw) : g.cov k ∈ st.active ∧ g.fst (g.cov k) = k := h.pre.rel.mem_active (by simp)

/-- What happens there. -/
theorem Pend.event {lib : Lib} (hs : lib.SearchHonest) (hl : lib.Lawful) (hh : HeapOk lib Heap) (h : Pend C Heap g st k X Q a₁ a₂ sw) {x : EndId} {q : List EndId}
    (hx : x ∈ st.queue) (hmin : ∀ y ∈ st.queue, G.key (img g x) ≤ G.key (img g y)) (hp : st.queue.Perm (x :: q)) (hq : Heap st.arena.endCmp q) :
    ∃ st2 g', sweepEnd lib G.n { st with queue := q } x.1 x.2 = .ok st2 ∧ (Pend C Heap g' st2 k X Q a₁ a₂ sw ∨ Pre C Heap g' st2 ⟨X, Q, a₁ ++ a₂, sw ++ [k]⟩) ∧
      st2.queue.length + 3 * unsplit G g' + 1 = st.queue.length + 3 * unsplit G g := by
  have hR := h.pre.rel
  obtain ⟨hact, hfst⟩ := h.first
  obtain ⟨hlt, hlive⟩ := hR.alive _ hact
  have hkS : k ∈ G.S := (hR.inv.active k).1 (by simp) |>.1
  have hx₀ : (g.cov k, SegmentEnd.right) ∈ st.queue := (hR.qright _ hlt hlive).2 (by rw [h.last]; simp)
  have hlen : q.length + 1 = st.queue.length := by rw [hp.length_eq]; rfl
  rcases hR.forced (z := (k, .right)) (by
    intro y hy
    rcases List.mem_cons.1 hy with rfl | hy
    · exact le_rfl
    · exact h.min y hy) hx₀ hlive (by unfold img; dsimp only; rw [h.last]) hx hmin with rfl | ⟨i, rfl, hni⟩
  · obtain ⟨st2, g', r1, r2, r3⟩ := h.pre.right hl hh (i := g.cov k) (q' := Q) (l₁' := a₁) (l₂' := a₂) hlive (by rw [h.last, hfst]) hp hq (by rw [hfst]) (by rw [hfst]) h.pair (by
      intro p m hj e
      rw [hfst]
      intro e'
      obtain rfl := h.only p hj.left e'.symm
      exact ne_lst hR.arenas.covers hj e h.last.symm) (by rw [hfst]; exact h.loose)
    rw [hfst] at r2
    exact ⟨st2, g', r1, Or.inr r2, r3⟩
  · obtain ⟨r1, r2⟩ := h.pre.stale hs (hR.qlt _ hx) hni hp hq
    exact ⟨_, g, r1, Or.inl ⟨r2, h.min, h.pair, h.last, h.only, h.loose⟩, by show q.length + _ + 1 = _; omega⟩

/-- An edge starts below the one that is split there. -/
theorem Sim.late_lower {lib : Lib} (hl : lib.Lawful) (hh : HeapOk lib Heap) (h : Sim C Heap g st st') {i k m : ℕ} (hli : Live g i) (hin : i < st.arena.length)
    {q : List EndId} (hp : st.queue.Perm ((i, .left) :: q)) (hq : Heap st.arena.endCmp q) (hL : Late C g st'.queue k m) (he : G.lp (g.fst i) = G.rp k)
    (hn : (g.fst i, SegmentEnd.left) ∈ st'.queue)
    (hmin : ∀ y ∈ st'.queue, y ≠ (k, .right) → y ≠ (m, .left) → G.key (g.fst i, .left) ≤ G.key y) (hlt : G.key (g.fst i, .left) < G.key (m, .left)) :
    ∃ st2 g' X Q a₁ a₂ sw, sweepLeft lib G.n { st with queue := q } i = .ok st2 ∧ Reaches lib G.n st' ⟨X, Q, a₁ ++ a₂, sw ++ [k]⟩ ∧
      Plan.Inv G Heap ⟨X, Q, a₁ ++ a₂, sw ++ [k]⟩ ∧ Pend C Heap g' st2 k X Q a₁ a₂ sw ∧ st2.queue.length + 3 * unsplit G g' + 1 = st.queue.length + 3 * unsplit G g := by
  have hR := h.rel
  have hA := hR.arenas
  have hkS := hL.joint.left
  have hmS := hL.joint.right
  have hnS : g.fst i ∈ G.S := hR.inv.qmem _ hn
  obtain ⟨q1, l₁', l₂', p1, ha', hlow1, hsd, hI1, r1⟩ := h.late_right hl hh hL
  have mt1 := mem_tail hR.inv.qnodup p1
  have hn1 : (g.fst i, SegmentEnd.left) ∈ q1 := (mt1 _).2 ⟨hn, fun e => nomatch e⟩
  obtain ⟨q2, A2, p2, hmin2, hB, hns, hu, hI2, r2, hpl⟩ := late_started hl hh hI1 hsd hn1 (by
    intro y hy
    obtain ⟨h1, h2⟩ := (mt1 y).1 hy
    by_cases e : y = (m, .left)
    · rw [e]; exact hlt.le
    · exact hmin y h1 h2 e) he
  have mt2 := mem_tail (st := ⟨st'.arena, q1, l₁' ++ l₂', st'.swept ++ [k]⟩) hI1.qnodup p2
  have hp' : st'.queue.Perm ((g.fst i, .left) :: (k, .right) :: q2) := p1.trans ((p2.cons _).trans (List.Perm.swap _ _ _))
  have hka : k ∈ st'.active := by rw [ha']; simp
  obtain ⟨_, hkl, hkr⟩ := (h.inv.active k).1 hka
  have hkr2 : (k, SegmentEnd.right) ∉ q2 := fun h' => ((mt1 _).1 ((mt2 _).1 h').1).2 rfl
  have hkl2 : (k, SegmentEnd.left) ∉ q2 := fun h' => hkl ((mt1 _).1 ((mt2 _).1 h').1).1
  have hksw : k ∉ st'.swept := fun h' => ((h.inv.swept k).1 h').2 hkr
  -- the edges
  have hm := hR.active
  rw [ha'] at hm
  obtain ⟨l₁, lr, e0, e1, f2⟩ := List.map_eq_append_iff.1 hm
  obtain ⟨i₀, l₂, rfl, hi₀, e2⟩ := List.map_eq_cons_iff.1 f2
  have hi₀a : i₀ ∈ st.active := by rw [e0]; simp
  obtain ⟨li₀, hli₀⟩ := hR.alive i₀ hi₀a
  have ck : g.cov k = i₀ := by rw [← hi₀]; exact hli₀
  have cm : g.cov m = i₀ := by rw [← hL.whole, ck]
  have hkl₀ : k ≠ g.lst i₀ := by
    have := ne_lst hA.covers hL.joint hL.whole
    rwa [ck] at this
  have hl1 : ∀ j ∈ l₁, j < st.arena.length ∧ Live g j := fun j hj => hR.alive j (by rw [e0]; simp [hj])
  have started : ∀ j ∈ l₁ ++ i₀ :: l₂, (g.fst j, SegmentEnd.left) ∉ st'.queue := fun j hj => (hR.of_active (by rw [e0]; exact hj)).1
  have hmap : (l₁ ++ i :: i₀ :: l₂).map g.fst = (l₁' ++ [g.fst i]) ++ k :: l₂' := by
    rw [List.map_append, List.map_cons, List.map_cons, e1, e2, hi₀]; simp
  have hlastb : l₁'.getLast? = l₁.getLast?.map g.fst := by rw [← e1, List.getLast?_map]
  -- the order
  have hpoly : (∀ t, G.h (g.fst i) t = G.h k t) → G.poly (g.fst i) < G.poly k := by
    intro hc
    have hs : G.Same (g.fst i) m := by
      have ht : G.a (g.fst i) = G.a m := (congrArg G.time he).trans hL.joint.time
      have h1 : ∀ t, G.h (g.fst i) t = G.h m t := fun t => (hc t).trans (C.line k hkS m hmS hL.joint.own t)
      exact Meanwhile.same ⟨G.tau m, ⟨hnS, (G.alive_tau hnS).2 ⟨ht.le, by rw [← ht]; exact G.a_lt_b hnS⟩⟩, alive_self hmS⟩ h1
    have := (key_same .left hnS hmS hs).1 hlt
    rwa [C.poly k hkS m hmS hL.joint.own]
  have hlower : ((l₁' ++ [g.fst i]) ++ k :: l₂').Pairwise (Lower G) := by
    have := pairwise_insert2 (x := g.fst i) (y := k) hB.stack.lower hlow1 ⟨hnS, hkS, Or.inr (Or.inl ⟨he, hpoly⟩)⟩
    rw [List.append_assoc]
    exact this
  have hloose0 : Loose C ⟨A2, q2, (l₁' ++ [g.fst i]) ++ l₂', st'.swept ++ [k]⟩ := by
    rw [show (l₁' ++ [g.fst i]) ++ l₂' = l₁' ++ g.fst i :: l₂' by simp]
    exact hI2.loose
  have hloose : Loose C ⟨A2, (k, .right) :: q2, (l₁' ++ [g.fst i]) ++ k :: l₂', st'.swept⟩ := hloose0.overdue hkS hkr2 hkl2 hksw hlower (by
      intro l hr
      have := hR.inv.ahead k l hr hkr
      rw [hp'.mem_iff, List.mem_cons] at this
      rcases this with e | e
      · cases e
      · exact e)
  -- the first steps
  have hlti : ∀ j ∈ l₁ ++ i :: i₀ :: l₂, j < st.arena.length := by
    intro j hj
    by_cases e : j = i
    · rw [e]; exact hin
    · refine (hR.alive j ?_).1
      rw [e0]
      simp only [List.mem_append, List.mem_cons] at hj ⊢
      tauto
  have hins := hA.runs.inserted hl (l₁ := l₁) (i := i) (l₂ := i₀ :: l₂) hlti (by rw [hmap]; exact hlower)
  have hu' := hu
  rw [hlastb] at hu'
  obtain ⟨B, hB1, hBlen, hBA⟩ := hA.update hin hli (x := l₁.getLast?) (fun j hj => by
    have hjm := List.mem_of_getLast? hj
    exact ⟨(hl1 j hjm).1, (hl1 j hjm).2, started j (by simp [hjm])⟩) hu'
  have mt' := mem_tail hR.inv.qnodup hp'
  have hBA := hBA.mono (started' := fun j => (g.fst j, SegmentEnd.left) ∉ (k, SegmentEnd.right) :: q2) (fun j hj hlj hs => by
    by_cases e : j = i
    · exact Or.inr e
    · refine Or.inl fun hm => hs ((mt' _).2 ⟨hm, ?_⟩)
      rw [ne_eq, Prod.mk.injEq]
      exact fun e' => e (hlj.inj hli e'.1))
  have hrel := hR.startLeft hh hli hin hp hp' hq e0 hmap hBlen hBA hloose (by
    intro j hj hjq
    simp only [List.mem_cons, Prod.mk.injEq, reduceCtorEq, and_false, false_or] at hjq
    exact hpl j hj hjq)
  have hwhole : Whole C g ((k, SegmentEnd.right) :: q2) := fun k m hj e j hjS he => (mt' _).2 ⟨h.split k m hj e j hjS he, fun e' => nomatch e'⟩
  -- the edge above is split
  have hBi := hrel.arenas.covers.run i (by rw [hBlen]; exact hin)
  have hBi₀ := hrel.arenas.covers.run i₀ (by rw [hBlen]; exact li₀)
  obtain ⟨s, es, is⟩ := hrel.arenas.seg i (by rw [hBlen]; exact hin)
  obtain ⟨s₀, es₀, is₀⟩ := hrel.arenas.seg i₀ (by rw [hBlen]; exact li₀)
  rw [hi₀] at hBi₀ is₀
  obtain ⟨⟨m₀, hm₀, hH⟩, _⟩ := handle_start hBi hBi₀ es es₀ is is₀ (x := k) ⟨Run.refl hkS, hBi₀⟩ hkl₀ he (by
    intro hc
    have q1 := hrel.poly (i := i) (by show i ∈ l₁ ++ i :: i₀ :: l₂; simp)
    have q2 := hrel.poly (i := i₀) (by show i₀ ∈ l₁ ++ i :: i₀ :: l₂; simp)
    dsimp only at q1 q2
    rw [q1, q2, hi₀]
    exact (hpoly hc).ne)
  have hii₀ : i ≠ i₀ := by
    rintro rfl
    exact hkl (by rw [← hi₀]; exact hn)
  obtain ⟨st2, L, g', s2, t2⟩ := hrel.trim hl hh (x := i₀) (k := k) (by show i₀ ∈ l₁ ++ i :: i₀ :: l₂; simp) hkS ck
  rw [if_neg hkl₀] at s2
  have s2' : splitIfOpt lib G.n ⟨B, q, l₁ ++ i :: i₀ :: l₂, st.swept⟩ (some i₀) (some (G.rp k)) = .ok (st2, some L) := by
    have s2 : splitSegment lib G.n ⟨B, q, l₁ ++ i :: i₀ :: l₂, st.swept⟩ i₀ (G.rp k) = .ok (st2, L) := s2
    unfold splitIfOpt unwrap
    simp only [Res.bind_ok]
    rw [s2]
    rfl
  have hnd : (l₁ ++ i₀ :: l₂).Nodup := by
    rw [← e0]
    have hst := hR.inv.lower
    rw [← hR.active] at hst
    exact List.Nodup.of_map _ (hst.imp Lower.ne)
  rw [List.nodup_append, List.nodup_cons] at hnd
  have hactive : st2.active = l₁ ++ i :: L :: l₂ := by
    rw [t2.active]
    show (l₁ ++ i :: i₀ :: l₂).map _ = _
    have key : ∀ l : List ℕ, i₀ ∉ l → l.map (fun z => if z = i₀ then L else z) = l := by
      intro l hl
      refine (List.map_congr_left (g := id) ?_).trans (List.map_id l)
      intro v hv
      have : v ≠ i₀ := fun e => hl (e ▸ hv)
      simp [this]
    rw [List.map_append, List.map_cons, List.map_cons, key l₁, key l₂, if_neg hii₀, if_pos rfl]
    · exact hnd.2.1.1
    · exact fun hv => hnd.2.2 i₀ hv i₀ (by simp) rfl
  have inB : i < B.length := by rw [hBlen]; exact hin
  have old : ∀ v ∈ l₁ ++ l₂, v < B.length ∧ v ≠ i₀ := by
    intro v hv
    refine ⟨by rw [hBlen]; exact (hR.alive v (by rw [e0]; simp only [List.mem_append, List.mem_cons] at hv ⊢; tauto)).1, ?_⟩
    rintro rfl
    rcases List.mem_append.1 hv with hv | hv
    · exact hnd.2.2 v hv v (by simp) rfl
    · exact hnd.2.1.1 hv
  have fi : g'.fst i = g.fst i := t2.fr i inB hii₀
  have fL : g'.fst L = k := t2.fx.trans hi₀
  have hc2 := t2.rel.arenas.covers
  have hadj := h.adj
  rw [e0, List.isChain_append] at hadj
  have hiact2 : i ∈ st2.active := by rw [hactive]; simp
  have hLact2 : L ∈ st2.active := by rw [hactive]; simp
  have hi2 := t2.rel.alive i hiact2
  have hL2 := t2.rel.alive L hLact2
  have hAdj : Adj C g' i L := by
    refine ⟨?_, misses_single hc2 (by rw [t2.last, fL])⟩
    intro p r hj c1 c2 j hjS hre cj
    have w := hc2.within j hjS
    rw [cj, fL, t2.last] at w
    obtain rfl : k = j := eq_of_a w.1.left w.1.right w.1.own (le_antisymm w.1.le w.2.le)
    have w2 := (hc2.within p hj.left).1.le
    rw [c1, fi] at w2
    have e3 : G.b k = G.b p := congrArg G.time hre
    have e4 : G.a (g.fst i) = G.b k := congrArg G.time he
    have := G.a_lt_b hj.left
    linarith
  obtain ⟨m', r, r', st4, o', st5, i'', g'', j1, j2, j3, j4, j5, j6, j7⟩ := below_step hl hh t2.rel
    (fun p r hj e j hjS hre => hwhole p r hj (t2.joint p r hj e) j hjS hre) hactive (by
      intro b hb
      have hbm := List.mem_of_getLast? hb
      rw [t2.fr b (old b (by simp [hbm])).1 (old b (by simp [hbm])).2, fi]
      have hbm' : g.fst b ∈ l₁' := by rw [← e1]; exact List.mem_map_of_mem hbm
      exact hB.stack.meanwhile (by simp [hbm']) (by simp)) (by
      intro b hb
      have hbm := List.mem_of_getLast? hb
      rw [t2.fr b (old b (by simp [hbm])).1 (old b (by simp [hbm])).2, fi]
      exact hns _ (by rw [hlastb, hb]; rfl))
    (hadj.1.imp_of_mem_imp fun a b ha hb hab => hab.mono (t2.mr a (old a (by simp [ha])).1 (old a (by simp [ha])).2) (t2.mr b (old b (by simp [hb])).1 (old b (by simp [hb])).2))
    (by
      rw [List.isChain_cons_cons]
      exact ⟨hAdj, chain_right hadj.2.1 (fun v hv => t2.mr v (old v (by simp [hv])).1 (old v (by simp [hv])).2) t2.mx⟩)
  refine ⟨st5, g'', A2, q2, l₁' ++ [g.fst i], l₂', st'.swept, ?_, ?_, ?_, ⟨j5, ?_, ?_, ?_, hL.only, hloose0⟩, ?_⟩
  · unfold sweepLeft
    dsimp only
    rw [e0, hins]
    simp only [Res.bind_ok]
    rw [hB1]
    simp only [Res.bind_ok]
    dsimp only at hH
    rw [List.head?_cons, hH]
    simp only [Res.bind_ok]
    unfold splitIf
    simp only [Res.bind_ok]
    rw [s2']
    simp only [Res.bind_ok]
    unfold updateAfter
    rw [if_neg hm₀]
    simp only [Res.bind_ok]
    rw [j1]
    simp only [Res.bind_ok]
    rw [show ({ arena := st2.arena, queue := st2.queue, active := st2.active, swept := st2.swept } : SweepState ℝ) = st2 from rfl, j3]
    simp only [Res.bind_ok]
    unfold splitIf at j4
    rw [j4]
    simp only [Res.bind_ok]
    rw [if_neg (by omega)]
    rfl
  · rw [show (l₁' ++ [g.fst i]) ++ l₂' = l₁' ++ g.fst i :: l₂' by simp]
    exact r1.trans r2
  · rw [show (l₁' ++ [g.fst i]) ++ l₂' = l₁' ++ g.fst i :: l₂' by simp]
    exact hI2
  · intro y hy
    exact hL.min y ((mt' y).1 (List.mem_cons_of_mem _ hy)).1
  · intro u v hu hv
    rw [List.getLast?_concat, Option.some.injEq] at hu
    subst hu
    have hvm := List.mem_of_head? hv
    exact ⟨hB.stack.meanwhile (by simp) (by simp [hvm]), hB.up v hv⟩
  · refine lst_of_split j5.rel.arenas.covers hL.joint fun e => ?_
    have e := j6 k m hL.joint e
    have c1 : g'.cov k = L := by
      have := hL2.2
      unfold Live at this
      rwa [fL] at this
    have w := (hc2.within m hmS).2.le
    rw [← e, c1, t2.last] at w
    have := hL.joint.lt
    linarith
  · have e5 := t2.size
    have hlen : q.length + 1 = st.queue.length := by rw [hp.length_eq]; rfl
    dsimp only at e5
    omega

end Cut

end Idc
