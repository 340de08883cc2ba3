import Verif.Props.CutUpper
/-!
# An edge that runs along the rest of another, for C84: the edges
-/

namespace Idc

namespace Cut

open Plan

variable {G : Plan} {C : Cut G} {Heap : (EndId → EndId → Res Ordering) → List EndId → Prop} {g : Ghost} {st st' : SweepState ℝ}

/-- An edge starts along the rest of the one that is split there. -/
theorem Sim.late_upper {lib : Lib} (hl : lib.Lawful) (hh : HeapOk lib Heap) (h : Sim C Heap g st st') {i k m : ℕ} (hli : Live g i) (hin : i < st.arena.length)
    {q : List EndId} (hp : st.queue.Perm ((i, .left) :: q)) (hq : Heap st.arena.endCmp q) (hL : Late C g st'.queue k m) (he : G.lp (g.fst i) = G.rp k)
    (hn : (g.fst i, SegmentEnd.left) ∈ st'.queue) (hmin : ∀ y ∈ st'.queue, y ≠ (k, .right) → y ≠ (m, .left) → G.key (g.fst i, .left) ≤ G.key y)
    (hsame : G.Same m (g.fst i)) (hlt : G.key (m, .left) < G.key (g.fst i, .left)) :
    ∃ st2 g' n X l₁ l₂ st2', sweepLeft lib G.n { st with queue := q } i = .ok st2 ∧ Reaches lib G.n st' st2' ∧ Behind G Heap st2' m n X l₁ l₂ ∧ st2'.swept = st'.swept ++ [k] ∧
      Pend C Heap g' st2 k X ((m, .left) :: st2'.queue) l₁ (n :: l₂) st'.swept ∧ st2.queue.length + 3 * unsplit G g' + 1 = st.queue.length + 3 * unsplit G g := by
  have hR := h.rel
  have hA := hR.arenas
  have hkS := hL.joint.left
  have hmS := hL.joint.right
  have hnS : g.fst i ∈ G.S := hR.inv.qmem _ hn
  obtain ⟨l₁', l₂', q3, A, X, hp', ha', hlow1, hreach, hX, hbeh, hup, hbel⟩ := h.late_both hl hh hL he hn hmin hsame hlt
  have hka : k ∈ st'.active := by rw [ha']; simp
  obtain ⟨_, hkl, hkr⟩ := (h.inv.active k).1 hka
  have hksw : k ∉ st'.swept := fun h' => ((h.inv.swept k).1 h').2 hkr
  have hkm : k ≠ m := by rintro rfl; exact lt_irrefl _ hL.joint.lt
  have mt' := mem_tail hR.inv.qnodup hp'
  have hqn := hp'.nodup_iff.1 hR.inv.qnodup
  rw [List.nodup_cons, List.nodup_cons, List.nodup_cons] at hqn
  have hkl2 : (k, SegmentEnd.left) ∉ (m, SegmentEnd.left) :: q3 := fun h' => hkl ((mt' _).1 (List.mem_cons_of_mem _ h')).1
  obtain ⟨solX, hasX⟩ := solid_update hR.inv.solid hR.inv.has hnS hX
  have hlow3 : (l₁' ++ m :: g.fst i :: l₂').Pairwise (Lower G) := (hbeh.inv.loose (C := C)).lower
  have hpoly : G.poly k < G.poly (g.fst i) := by
    rw [C.poly k hkS m hmS hL.joint.own]
    exact (key_same .left hmS hnS hsame).1 hlt
  have hcol : ∀ t, G.h k t = G.h (g.fst i) t := fun t => (C.line k hkS m hmS hL.joint.own t).trans (hsame.h t)
  have hlower : (l₁' ++ k :: g.fst i :: l₂').Pairwise (Lower G) := pairwise_insert2 hlow1 (hlow3.sublist ((List.sublist_cons_self m _).append_left l₁'))
    ⟨hkS, hnS, Or.inr (Or.inr ⟨he, hcol, hpoly⟩)⟩
  have hloose0 : Loose C ⟨X, (m, .left) :: q3, l₁' ++ g.fst i :: l₂', st'.swept ++ [k]⟩ := (hbeh.inv.loose (C := C)).unstart hasX solX
  have hloose : Loose C ⟨X, (k, .right) :: (m, .left) :: q3, l₁' ++ k :: g.fst i :: l₂', st'.swept⟩ := hloose0.overdue hkS hqn.2.1 hkl2 hksw hlower (by
    intro l hr
    have := hR.inv.ahead k l hr hkr
    rw [hp'.mem_iff, List.mem_cons] at this
    rcases this with e | e
    · cases e
    · exact e)
  -- the edges
  have hm := hR.active
  rw [ha'] at hm
  obtain ⟨l₁, lr, e0, e1, f2⟩ := List.map_eq_append_iff.1 hm
  obtain ⟨i₀, l₂, rfl, hi₀, e2⟩ := List.map_eq_cons_iff.1 f2
  have hi₀a : i₀ ∈ st.active := by rw [e0]; simp
  obtain ⟨li₀, hli₀⟩ := hR.alive i₀ hi₀a
  have ck : g.cov k = i₀ := by rw [← hi₀]; exact hli₀
  have hkl₀ : k ≠ g.lst i₀ := by
    have := ne_lst hA.covers hL.joint hL.whole
    rwa [ck] at this
  have hii₀ : i ≠ i₀ := by
    rintro rfl
    exact hkl (by rw [← hi₀]; exact hn)
  have e0' : st.active = (l₁ ++ [i₀]) ++ l₂ := by rw [e0]; simp
  have hmap : ((l₁ ++ [i₀]) ++ i :: l₂).map g.fst = l₁' ++ k :: g.fst i :: l₂' := by
    rw [List.map_append, List.map_append, e1, List.map_cons (a := i), e2]; simp [hi₀]
  have hhead : l₂'.head? = l₂.head?.map g.fst := by rw [← e2, List.head?_map]
  have hlastb : l₁'.getLast? = l₁.getLast?.map g.fst := by rw [← e1, List.getLast?_map]
  have hlti : ∀ j ∈ (l₁ ++ [i₀]) ++ i :: l₂, j < st.arena.length := by
    intro j hj
    by_cases e : j = i
    · rw [e]; exact hin
    · refine (hR.alive j ?_).1
      rw [e0']
      simp only [List.mem_append, List.mem_cons] at hj ⊢
      tauto
  have hins := hA.runs.inserted hl (l₁ := l₁ ++ [i₀]) (i := i) (l₂ := l₂) hlti (by rw [hmap]; exact hlower)
  obtain ⟨B, hB1, hBlen, hBA⟩ := hA.update hin hli (x := some i₀) (fun j hj => by
    cases hj
    exact ⟨li₀, hli₀, (hR.of_active hi₀a).1⟩) (by rw [Option.map_some, hi₀]; exact hX)
  have hBA := hBA.mono (started' := fun j => (g.fst j, SegmentEnd.left) ∉ (k, SegmentEnd.right) :: (m, SegmentEnd.left) :: q3) (fun j hj hlj hs => by
    by_cases e : j = i
    · exact Or.inr e
    · refine Or.inl fun hm => hs ((mt' _).2 ⟨hm, ?_⟩)
      rw [ne_eq, Prod.mk.injEq]
      exact fun e' => e (hlj.inj hli e'.1))
  have hrel := hR.startLeft hh hli hin hp hp' hq e0' hmap hBlen hBA hloose (by
    intro j hj hjq
    refine dat_update (hR.inv.has.lt hnS) hX ?_
    rintro rfl
    exact hqn.1 hjq)
  have hwhole : Whole C g ((k, SegmentEnd.right) :: (m, SegmentEnd.left) :: q3) := fun k m hj e j hjS he => (mt' _).2 ⟨h.split k m hj e j hjS he, fun e' => nomatch e'⟩
  have hadj := h.adj
  rw [e0', List.isChain_append] at hadj
  obtain ⟨m₁, p, p', st2, i', st3, o, g', l₂'', k1, k2, k3, k4, k5, k6, k7, k8, k9, k10, k11, k12, k13, k14⟩ := above_step hl hh hrel hwhole rfl
    (fun a ha => (hup _ (by rw [hhead, ha]; rfl)).1) (fun a ha => (hup _ (by rw [hhead, ha]; rfl)).2) hadj.1 hadj.2.1
  -- the edge below is split
  have hact3 : st3.active = l₁ ++ i₀ :: i' :: l₂'' := by rw [k7]; simp
  have hi3 : i' ∈ st3.active := by rw [hact3]; simp
  have hi₀3 : i₀ ∈ st3.active := by rw [hact3]; simp
  obtain ⟨li', hli'⟩ := k5.alive i' hi3
  obtain ⟨li₀3, hli₀3⟩ := k5.alive i₀ hi₀3
  have f0 : g'.fst i₀ = k := (k10 i₀ (by simp)).trans hi₀
  have hkl₀' : k ≠ g'.lst i₀ := by rw [k12 i₀ (by simp)]; exact hkl₀
  have hc3 := k5.arenas.covers
  have hrun := hc3.run i' li'
  have hrun₀ := hc3.run i₀ li₀3
  obtain ⟨s, es, is⟩ := k5.arenas.seg i' li'
  obtain ⟨s₀, es₀, is₀⟩ := k5.arenas.seg i₀ li₀3
  rw [k11] at hrun is
  rw [f0] at hrun₀ is₀
  obtain ⟨_, hH⟩ := handle_start hrun hrun₀ es es₀ is is₀ (x := k) ⟨Run.refl hkS, hrun₀⟩ hkl₀' he (by
    intro _
    rw [k5.poly hi3, k5.poly hi₀3, f0, k11]
    exact hpoly.ne')
  have hH := hH fun t => (hcol t).symm
  have ck3 : g'.cov k = i₀ := by
    have := hli₀3
    unfold Live at this
    rwa [f0] at this
  obtain ⟨st4, L, g2, s2, t2⟩ := k5.trim hl hh hi₀3 hkS ck3
  rw [if_neg hkl₀'] at s2
  have s2' : splitIfOpt lib G.n st3 (some i₀) (some (G.rp k)) = .ok (st4, some L) := by
    have s2 : splitSegment lib G.n st3 i₀ (G.rp k) = .ok (st4, L) := s2
    unfold splitIfOpt unwrap
    simp only [Res.bind_ok]
    rw [s2]
    rfl
  have hnd : (l₁ ++ i₀ :: i' :: l₂'').Nodup := by
    rw [← hact3]
    have hst := k5.inv.lower
    rw [← k5.active] at hst
    exact List.Nodup.of_map _ (hst.imp Lower.ne)
  rw [List.nodup_append, List.nodup_cons, List.nodup_cons] at hnd
  have hi'i₀ : i' ≠ i₀ := fun e => hnd.2.1.1 (by simp [e])
  have hactive : st4.active = l₁ ++ L :: i' :: l₂'' := by
    rw [t2.active, hact3]
    have key : ∀ l : List ℕ, i₀ ∉ l → l.map (fun z => if z = i₀ then L else z) = l := by
      intro l hl
      refine (List.map_congr_left (g := id) ?_).trans (List.map_id l)
      intro v hv
      have : v ≠ i₀ := fun e => hl (e ▸ hv)
      simp [this]
    rw [List.map_append, List.map_cons, List.map_cons, key l₁, key l₂'', if_neg hi'i₀, if_pos rfl]
    · exact fun hv => hnd.2.1.1 (by simp [hv])
    · exact fun hv => hnd.2.2 i₀ hv i₀ (by simp) rfl
  have old : ∀ v ∈ l₁ ++ i' :: l₂'', v < st3.arena.length ∧ v ≠ i₀ := by
    intro v hv
    refine ⟨(k5.alive v (by rw [hact3]; simp only [List.mem_append, List.mem_cons] at hv ⊢; tauto)).1, ?_⟩
    rintro rfl
    rcases List.mem_append.1 hv with hv | hv
    · exact hnd.2.2 v hv v (by simp) rfl
    · exact hnd.2.1.1 hv
  have fi : g2.fst i' = g.fst i := (t2.fr i' li' hi'i₀).trans k11
  have fL : g2.fst L = k := t2.fx.trans f0
  have hc4 := t2.rel.arenas.covers
  have hLact : L ∈ st4.active := by rw [hactive]; simp
  have hL4 := t2.rel.alive L hLact
  have hAdj : Adj C g2 L i' := by
    refine ⟨misses_single hc4 (by rw [t2.last, fL]), ?_⟩
    intro p r hj c1 c2 j hjS hre cj
    have w := hc4.within j hjS
    rw [cj, fL, t2.last] at w
    obtain rfl : k = j := eq_of_a w.1.left w.1.right w.1.own (le_antisymm w.1.le w.2.le)
    have w2 := (hc4.within p hj.left).1.le
    rw [c1, fi] at w2
    have e3 : G.b k = G.b p := congrArg G.time hre
    have e4 : G.a (g.fst i) = G.b k := congrArg G.time he
    have := G.a_lt_b hj.left
    linarith
  have k9' := k9
  refine ⟨st4, g2, g.fst i, X, l₁', l₂', ⟨A, q3, l₁' ++ m :: g.fst i :: l₂', st'.swept ++ [k]⟩, ?_, hreach, hbeh, rfl, ⟨⟨t2.rel, ?_, ?_⟩, ?_, ?_, ?_, hL.only, hloose0⟩, ?_⟩
  · unfold sweepLeft
    dsimp only
    rw [e0', hins]
    simp only [Res.bind_ok]
    rw [List.getLast?_concat, hB1]
    simp only [Res.bind_ok]
    dsimp only at k1 k3
    rw [k1]
    simp only [Res.bind_ok]
    rw [k3]
    simp only [Res.bind_ok]
    rw [k4]
    simp only [Res.bind_ok]
    unfold updateAfter
    rw [if_neg (by omega)]
    simp only [Res.bind_ok]
    rw [hH]
    simp only [Res.bind_ok]
    rw [show ({ arena := st3.arena, queue := st3.queue, active := st3.active, swept := st3.swept } : SweepState ℝ) = st3 from rfl, s2']
    simp only [Res.bind_ok]
    unfold splitIf
    simp only [Res.bind_ok]
    rw [if_neg (by omega)]
    rfl
  · exact fun p r hj e j hjS hre => k6 p r hj (t2.joint p r hj e) j hjS hre
  · rw [hactive]
    have c1 : (l₁ ++ [L]).IsChain (Adj C g2) := chain_left k9 (fun v hv => t2.mr v (old v (by simp [hv])).1 (old v (by simp [hv])).2) t2.mx
    have c2 : (i' :: l₂'').IsChain (Adj C g2) := k8.imp_of_mem_imp fun a b ha hb hab =>
      hab.mono (t2.mr a (old a (List.mem_append_right _ ha)).1 (old a (List.mem_append_right _ ha)).2) (t2.mr b (old b (List.mem_append_right _ hb)).1 (old b (List.mem_append_right _ hb)).2)
    rw [show l₁ ++ L :: i' :: l₂'' = (l₁ ++ [L]) ++ i' :: l₂'' by simp, List.isChain_append]
    refine ⟨c1, c2, ?_⟩
    intro a ha b hb
    rw [List.getLast?_concat, Option.mem_some_iff] at ha
    rw [List.head?_cons, Option.mem_some_iff] at hb
    subst ha
    subst hb
    exact hAdj
  · intro y hy
    exact hL.min y ((mt' y).1 (List.mem_cons_of_mem _ hy)).1
  · intro u v hu hv
    rw [List.head?_cons, Option.some.injEq] at hv
    subst hv
    exact hbel u hu
  · have c1 : g2.cov k = L := by
      have := hL4.2
      unfold Live at this
      rwa [fL] at this
    rw [c1, t2.last]
  · have e5 := t2.size
    have hlen : q.length + 1 = st.queue.length := by rw [hp.length_eq]; rfl
    dsimp only at k14
    omega

end Cut

end Idc
