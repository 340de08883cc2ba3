import Verif.Props.CutPair
import Mathlib.Data.List.Chain
/-!
# The queues of the two runs, for C84
-/

namespace Idc

namespace Cut

open Plan

variable {G : Plan} {C : Cut G} {Heap : (EndId → EndId → Res Ordering) → List EndId → Prop} {g : Ghost} {st st' : SweepState ℝ}

/-- The two runs at the same time, between two endpoints. -/
structure Sim (C : Cut G) (Heap : (EndId → EndId → Res Ordering) → List EndId → Prop) (g : Ghost) (st st' : SweepState ℝ) : Prop where
  rel : Rel C Heap g st st'
  inv : Plan.Inv G Heap st'
  split : Whole C g st'.queue
  adj : st.active.IsChain (Adj C g)

theorem Rel.mem_active (h : Rel C Heap g st st') {k : ℕ} (hk : k ∈ st'.active) : g.cov k ∈ st.active ∧ g.fst (g.cov k) = k := by
  rw [← h.active, List.mem_map] at hk
  obtain ⟨i, hi, rfl⟩ := hk
  have : g.cov (g.fst i) = i := (h.alive i hi).2
  rw [this]
  exact ⟨hi, rfl⟩

/-- The next left end of a piece is the left end of a segment. -/
theorem Rel.left_first (h : Rel C Heap g st st') {k : ℕ} (hq : (k, SegmentEnd.left) ∈ st'.queue) (hmin : ∀ y ∈ st'.queue, G.key (k, .left) ≤ G.key y) :
    g.fst (g.cov k) = k := by
  have hk : k ∈ G.S := h.inv.qmem _ hq
  have hc := h.arenas.covers
  have hw := hc.within k hk
  by_contra hne
  obtain ⟨p, hj, r⟩ := exists_prev hw.1 hne
  have hpk : C.Run p k := ⟨hj.left, hj.right, hj.own, hj.lt.le⟩
  have cp : g.cov p = g.cov k := hc.cov _ (hc.lt k hk) (hc.live k hk) p ⟨r, hpk.trans hw.2⟩
  have hkey : G.key (p, .right) < G.key (k, .left) := key_right_left hj.meet
  have hpq : (p, SegmentEnd.right) ∉ st'.queue := fun hp => absurd hkey (not_lt.2 (hmin _ hp))
  have hl := h.last p hj.left hpq
  rw [cp] at hl
  have h1 := hw.2.le
  rw [hl] at h1
  have := hj.lt
  linarith

/-- When the next end is a right end, all edges that come to this point from the left have been split there if there is more than one. -/
theorem Sim.split_at (h : Sim C Heap g st st') {k₀ : ℕ} (hq : (k₀, SegmentEnd.right) ∈ st'.queue) (hmin : ∀ y ∈ st'.queue, G.key (k₀, .right) ≤ G.key y)
    {k m : ℕ} (hj : C.Joint k m) (hr : G.rp k = G.rp k₀) {j : ℕ} (hjS : j ∈ G.S) (hkj : j ≠ k) (he : G.rp j = G.rp k) : g.cov k ≠ g.cov m := by
  intro cm
  have hR := h.rel
  have hk₀ : k₀ ∈ G.S := hR.inv.qmem _ hq
  have hk := hj.left
  have hc := hR.arenas.covers
  have hw := h.split k m hj cm
  have hact : ∀ v ∈ G.S, G.rp v = G.rp k → v ∈ st'.active := by
    intro v hv e
    refine (hR.inv.active v).2 ⟨hv, fun hp => ?_, hw v hv e⟩
    have := time_le_of_key (x := (k₀, .right)) (y := (v, .left)) hk₀ hv (hmin _ hp)
    have this : G.b k₀ ≤ G.a v := this
    have e' : G.b v = G.b k₀ := congrArg G.time (e.trans hr)
    have := G.a_lt_b hv
    linarith
  have ka := hact k hk rfl
  have ja := hact j hjS he
  obtain ⟨t, hst⟩ := h.inv.stack
  have hb0 : G.b k = G.b k₀ := congrArg G.time hr
  have hbj : G.b j = G.b k := congrArg G.time he
  -- what is between two of them also comes to the point
  have hbetween : ∀ v ∈ st'.active, ∀ p q, (p = k ∧ q = j ∨ p = j ∧ q = k) → G.Low t p v → G.Low t v q → G.rp v = G.rp k := by
    intro v hv p q hpq l1 l2
    obtain ⟨hvS, _, hvr⟩ := (hR.inv.active v).1 hv
    have va := hst.alive v hv
    have hT : G.b k ≤ G.b v := by
      rw [hb0]
      exact time_le_of_key (x := (k₀, .right)) (y := (v, .right)) hk₀ hvS (hmin _ hvr)
    have kal := hst.alive k ka
    have jal := hst.alive j ja
    have ord : ∀ {x y : ℕ}, x ∈ st'.active → y ∈ st'.active → G.b k ≤ G.b x → G.b k ≤ G.b y → G.Low t x y → G.h x (G.b k) ≤ G.h y (G.b k) := by
      intro x y hx hy bx by' hl
      have xa := hst.alive x hx
      have ya := hst.alive y hy
      rcases hl with hl | ⟨hl, _⟩
      · have := kal.2.2
        exact G.order_const xa.1 ya.1 xa.2.1.le xa.2.2.le ya.2.1.le ya.2.2.le (by linarith [xa.2.1]) bx (by linarith [ya.2.1]) by' hl
      · exact ((G.same_of_h xa.1 ya.1 xa.2.1 xa.2.2 ya.2.1.le ya.2.2.le hl).h _).le
    have hkj' : G.h k (G.b k) = G.h j (G.b k) := by
      rw [G.h_right hk, ← hbj, G.h_right hjS, he]
    have hv1 : G.h k (G.b k) = G.h v (G.b k) := by
      rcases hpq with ⟨rfl, rfl⟩ | ⟨rfl, rfl⟩
      · have h1 := ord ka hv le_rfl hT l1
        have h2 := ord hv ja hT hbj.symm.le l2
        linarith
      · have h1 := ord ja hv hbj.symm.le hT l1
        have h2 := ord hv ka hT le_rfl l2
        linarith
    by_cases hs : G.Same k v
    · exact hs.2.symm
    · have := (G.meet hk hvS hs (G.a_lt_b hk).le le_rfl (by linarith [va.2.1, kal.2.2]) hT hv1).2
      rcases this with e | e
      · linarith [va.2.1, kal.2.2]
      · exact (G.time_inj (x := (k, .right)) (y := (v, .right)) hk hvS e).symm
  -- so the next one does
  have pick : ∀ p q u v w, (p = k ∧ q = j ∨ p = j ∧ q = k) → st'.active = u ++ p :: (v ++ q :: w) → ∃ x y u w, (x = k ∧ G.rp y = G.rp k ∨ y = k ∧ G.rp x = G.rp k) ∧ st'.active = u ++ x :: y :: w := by
    intro p q u v w hpq e
    have hs := hst.sorted
    rw [e, List.pairwise_append, List.pairwise_cons] at hs
    rcases hpq with ⟨rfl, rfl⟩ | ⟨rfl, rfl⟩
    · rcases v with _ | ⟨x, v⟩
      · exact ⟨p, q, u, w, Or.inl ⟨rfl, he⟩, e⟩
      · refine ⟨p, x, u, v ++ q :: w, Or.inl ⟨rfl, hbetween x (by rw [e]; simp) p q (Or.inl ⟨rfl, rfl⟩) (hs.2.1.1 x (by simp)) ?_⟩, by rw [e]; simp⟩
        rw [List.cons_append, List.pairwise_cons] at hs
        exact hs.2.1.2.1 q (by simp)
    · rcases List.eq_nil_or_concat v with rfl | ⟨v, x, rfl⟩
      · exact ⟨p, q, u, w, Or.inr ⟨rfl, he⟩, e⟩
      · refine ⟨x, q, u ++ p :: v, w, Or.inr ⟨rfl, hbetween x (by rw [e]; simp) p q (Or.inr ⟨rfl, rfl⟩) (hs.2.1.1 x (by simp)) ?_⟩, by rw [e]; simp⟩
        have := hs.2.1.2
        rw [List.concat_eq_append, List.append_assoc, List.pairwise_append] at this
        exact (List.pairwise_cons.1 this.2.1).1 q (by simp)
  have hpair : ∃ x y u w, (x = k ∧ G.rp y = G.rp k ∨ y = k ∧ G.rp x = G.rp k) ∧ st'.active = u ++ x :: y :: w := by
    obtain ⟨u, w, e⟩ := List.append_of_mem ka
    rw [e, List.mem_append, List.mem_cons] at ja
    rcases ja with ja | ja | ja
    · obtain ⟨u1, u2, rfl⟩ := List.append_of_mem ja
      exact pick j k u1 u2 w (Or.inr ⟨rfl, rfl⟩) (by rw [e]; simp)
    · exact absurd ja hkj
    · obtain ⟨w1, w2, rfl⟩ := List.append_of_mem ja
      exact pick k j u w1 w2 (Or.inl ⟨rfl, rfl⟩) e
  obtain ⟨p, q, u, w, hpq, e⟩ := hpair
  have hp : p ∈ G.S := ((hR.inv.active p).1 (by rw [e]; simp)).1
  have hq' : q ∈ G.S := ((hR.inv.active q).1 (by rw [e]; simp)).1
  rw [← hR.active] at e
  obtain ⟨u', w', e1, _, e2⟩ := List.map_eq_append_iff.1 e
  obtain ⟨x, w1, rfl, hx, e2⟩ := List.map_eq_cons_iff.1 e2
  obtain ⟨y, w2, rfl, hy, e2⟩ := List.map_eq_cons_iff.1 e2
  have hxa : x ∈ st.active := by rw [e1]; simp
  have hya : y ∈ st.active := by rw [e1]; simp
  have cx : g.cov p = x := by rw [← hx]; exact (hR.alive x hxa).2
  have cy : g.cov q = y := by rw [← hy]; exact (hR.alive y hya).2
  have hadj := (List.isChain_append_cons_cons.1 (e1 ▸ h.adj)).2.1
  rcases hpq with ⟨rfl, er⟩ | ⟨rfl, er⟩
  · exact hadj.1 p m hj cx (cm.symm.trans cx) q hq' er cy
  · exact hadj.2 q m hj cy (cm.symm.trans cy) p hp er cx

/-- The next end is that of a piece of an edge that has not been split there: nothing else comes to this point from the left. -/
structure Late (C : Cut G) (g : Ghost) (q : List EndId) (k m : ℕ) : Prop where
  joint : C.Joint k m
  whole : g.cov k = g.cov m
  only : ∀ j ∈ G.S, G.rp j = G.rp k → j = k
  mem : (k, SegmentEnd.right) ∈ q
  min : ∀ y ∈ q, G.key (k, .right) ≤ G.key y

/-- The next right end of a piece is the right end of a segment that consists of this piece, or it is late. -/
theorem Sim.right_single (h : Sim C Heap g st st') {k : ℕ} (hq : (k, SegmentEnd.right) ∈ st'.queue) (hmin : ∀ y ∈ st'.queue, G.key (k, .right) ≤ G.key y) :
    g.fst (g.cov k) = k ∧ (g.lst (g.cov k) = k ∨ ∃ m, Late C g st'.queue k m) := by
  have hR := h.rel
  have hk : k ∈ G.S := hR.inv.qmem _ hq
  have hc := hR.arenas.covers
  have hkl : (k, SegmentEnd.left) ∉ st'.queue := fun hp => absurd (left_lt_right hk) (not_lt.2 (hmin _ hp))
  have hf := hR.first k hk hkl
  refine ⟨hf, ?_⟩
  rw [or_iff_not_imp_left]
  intro hne
  have hw := hc.within k hk
  obtain ⟨m, hj, r⟩ := exists_next hw.2 (Ne.symm hne)
  have hkm : C.Run k m := ⟨hj.left, hj.right, hj.own, hj.lt.le⟩
  have cm : g.cov m = g.cov k := hc.cov _ (hc.lt k hk) (hc.live k hk) m ⟨hw.1.trans hkm, r⟩
  refine ⟨m, hj, cm.symm, fun j hjS he => ?_, hq, hmin⟩
  by_contra hjk
  exact h.split_at hq hmin hj rfl hjS hjk he cm.symm

/-- A piece that starts at such a point, and is not the next of the edge, is the first of a segment that has not started. -/
theorem Sim.late_left (h : Sim C Heap g st st') {k m n : ℕ} (hL : Late C g st'.queue k m) (hn : n ∈ G.S) (hnm : n ≠ m) (he : G.lp n = G.rp k) :
    (n, SegmentEnd.left) ∈ st'.queue ∧ g.fst (g.cov n) = n ∧ (g.cov n, SegmentEnd.left) ∈ st.queue := by
  have hR := h.rel
  have hc := hR.arenas.covers
  have h1 : (n, SegmentEnd.left) ∈ st'.queue := by
    by_contra hq
    have := h.inv.qup (n, .left) hn hq _ hL.mem
    exact absurd (key_right_left he.symm) (not_lt.2 this.le)
  have h2 : g.fst (g.cov n) = n := by
    by_contra hne
    obtain ⟨p, hj, r⟩ := exists_prev (hc.within n hn).1 hne
    have e := hL.only p hj.left (hj.meet.trans he)
    subst e
    exact hnm (hj.unique_right hL.joint)
  exact ⟨h1, h2, (hR.qleft _ (hc.lt n hn)).2 ⟨hc.live n hn, by rw [h2]; exact h1⟩⟩

theorem Sim.late_start (h : Sim C Heap g st st') {k m : ℕ} (hL : Late C g st'.queue k m) :
    ∃ n ∈ G.S, n ≠ m ∧ G.lp n = G.lp m ∧ (G.key (n, .left) < G.key (m, .left) ∨ G.Same m n) ∧ g.fst (g.cov n) = n ∧ (g.cov n, SegmentEnd.left) ∈ st.queue := by
  rcases hL.joint.arrive with ⟨j, hj, hne, he⟩ | ⟨n, hn, hnm, he, hk⟩
  · exact absurd (hL.only j hj he) hne
  · obtain ⟨_, h2, h3⟩ := h.late_left hL hn hnm (he.trans hL.joint.meet.symm)
    exact ⟨n, hn, hnm, he, hk, h2, h3⟩

/-- What the first of the endpoints in the queue may be. -/
inductive Event (C : Cut G) (g : Ghost) (st st' : SweepState ℝ) : EndId → Prop where
  | left (i : ℕ) : Live g i → (g.fst i, SegmentEnd.left) ∈ st'.queue → (∀ y ∈ st'.queue, G.key (g.fst i, .left) ≤ G.key y) → Event C g st st' (i, .left)
  | right (i : ℕ) : Live g i → g.lst i = g.fst i → (g.fst i, SegmentEnd.right) ∈ st'.queue → (∀ y ∈ st'.queue, G.key (g.fst i, .right) ≤ G.key y) →
      Event C g st st' (i, .right)
  | stale (i : ℕ) : ¬ Live g i → Event C g st st' (i, .right)
  | late (i k m : ℕ) : Live g i → Late C g st'.queue k m → G.lp (g.fst i) = G.rp k → g.fst i ≠ m → (g.fst i, SegmentEnd.left) ∈ st'.queue →
      (∀ y ∈ st'.queue, y ≠ (k, .right) → y ≠ (m, .left) → G.key (g.fst i, .left) ≤ G.key y) →
      (G.key (g.fst i, .left) < G.key (m, .left) ∨ G.Same m (g.fst i) ∧ G.key (m, .left) < G.key (g.fst i, .left)) → Event C g st st' (i, .left)

theorem Sim.exists_live {lib : Lib} (hh : HeapOk lib Heap) (h : Sim C Heap g st st') (hne : st'.queue ≠ []) :
    ∃ z ∈ st'.queue, (∀ y ∈ st'.queue, G.key z ≤ G.key y) ∧ ((∃ x ∈ st.queue, img g x = z) ∨ ∃ k m, z = (k, .right) ∧ Late C g st'.queue k m) := by
  have hR := h.rel
  have hc := hR.arenas.covers
  obtain ⟨z, q', _, hp, _, hmin⟩ := pop_plan hh hR.inv.has hR.inv.qmem hne h.inv.heap
  have hz : z ∈ st'.queue := hp.mem_iff.2 (by simp)
  have hmin : ∀ y ∈ st'.queue, G.key z ≤ G.key y := by
    intro y hy
    rw [hp.mem_iff, List.mem_cons] at hy
    rcases hy with rfl | hy
    · exact le_rfl
    · exact hmin y hy
  refine ⟨z, hz, hmin, ?_⟩
  obtain ⟨k, e⟩ := z
  have hk : k ∈ G.S := hR.inv.qmem _ hz
  cases e
  · left
    have hf := hR.left_first hz hmin
    refine ⟨(g.cov k, .left), (hR.qleft _ (hc.lt k hk)).2 ⟨hc.live k hk, by rw [hf]; exact hz⟩, ?_⟩
    show (g.fst (g.cov k), SegmentEnd.left) = _
    rw [hf]
  · obtain ⟨hf, hl | ⟨m, hL⟩⟩ := h.right_single hz hmin
    · left
      refine ⟨(g.cov k, .right), (hR.qright _ (hc.lt k hk) (hc.live k hk)).2 (by rw [hl]; exact hz), ?_⟩
      show (g.lst (g.cov k), SegmentEnd.right) = _
      rw [hl]
    · exact Or.inr ⟨k, m, rfl, hL⟩

theorem Sim.queue_nil {lib : Lib} (hh : HeapOk lib Heap) (h : Sim C Heap g st st') (hq : st.queue = []) : st'.queue = [] := by
  by_contra hne
  obtain ⟨_, _, _, ⟨x, hx, _⟩ | ⟨k, m, _, hL⟩⟩ := h.exists_live hh hne
  · rw [hq] at hx
    cases hx
  · obtain ⟨_, _, _, _, _, _, hx⟩ := h.late_start hL
    rw [hq] at hx
    cases hx

theorem same_of_key {m i n : ℕ} (hm : m ∈ G.S) (hi : i ∈ G.S) (hn : n ∈ G.S) (h : G.lp m = G.lp i) (hs : G.Same m n)
    (h1 : G.key (m, .left) ≤ G.key (i, .left)) (h2 : G.key (i, .left) ≤ G.key (n, .left)) : G.Same m i := by
  have hanti : G.crs (i, .left) (n, .left) = - G.crs (m, .left) (i, .left) := by
    have e1 := hs.1
    have e2 := hs.2
    simp only [Plan.crs, Plan.pt, opp] at *
    rw [← e1, ← e2, h]
    ring
  by_cases hmi : m = i
  · rw [hmi]; exact ⟨rfl, rfl⟩
  by_cases hin : i = n
  · rw [hin]; exact hs
  have h1' := lt_of_le_of_ne h1 fun e => hmi (congrArg Prod.fst (key_inj (x := (m, .left)) (y := (i, .left)) hm hi e))
  have h2' := lt_of_le_of_ne h2 fun e => hin (congrArg Prod.fst (key_inj (x := (i, .left)) (y := (n, .left)) hi hn e))
  rw [Plan.key_iff (e := .left) hm hi h] at h1'
  rw [Plan.key_iff (e := .left) hi hn (h.symm.trans hs.1), hanti] at h2'
  refine same_of_crs (e := .left) hm hi h ?_
  rcases h1' with a | a <;> rcases h2' with b | b <;> linarith [a, b]

theorem Sim.event {lib : Lib} (hh : HeapOk lib Heap) (h : Sim C Heap g st st') {x : EndId} (hx : x ∈ st.queue)
    (hmin : ∀ y ∈ st.queue, G.key (img g x) ≤ G.key (img g y)) : Event C g st st' x := by
  have hR := h.rel
  have hc := hR.arenas.covers
  have hxl := hR.qlt x hx
  have key : img g x ∈ st'.queue → (∀ y ∈ st'.queue, G.key (img g x) ≤ G.key y) ∨ ∃ k m, Late C g st'.queue k m := by
    intro hm
    obtain ⟨z, hz, hzm, ⟨x', hx', e⟩ | ⟨k, m, e, hL⟩⟩ := h.exists_live hh (List.ne_nil_of_mem hm)
    · left
      intro y hy
      refine (hmin x' hx').trans ?_
      rw [e]; exact hzm y hy
    · exact Or.inr ⟨k, m, hL⟩
  -- the first endpoint is at the point
  have hpt : ∀ {k m : ℕ}, Late C g st'.queue k m → img g x ∈ st'.queue → G.pt (img g x) = G.rp k := by
    intro k m hL hm
    obtain ⟨n, hn, hnm, he, _, h2, h3⟩ := h.late_start hL
    have h1 := hmin _ h3
    change G.key (img g x) ≤ G.key (g.fst (g.cov n), .left) at h1
    rw [h2] at h1
    have hS := hR.inv.qmem _ hm
    have t1 := time_le_of_key (x := img g x) (y := (n, .left)) hS hn h1
    have t2 := time_le_of_key (x := (k, .right)) (y := img g x) hL.joint.left hS (hL.min _ hm)
    refine G.time_inj (x := img g x) (y := (k, .right)) hS hL.joint.left (le_antisymm (t1.trans (le_of_eq ?_)) t2)
    exact congrArg G.time (he.trans hL.joint.meet.symm)
  obtain ⟨i, e⟩ := x
  cases e
  · obtain ⟨h1, h2⟩ := (hR.qleft i hxl).1 hx
    rcases key h2 with h3 | ⟨k, m, hL⟩
    · exact .left i h1 h2 h3
    · have he : G.lp (g.fst i) = G.rp k := hpt hL h2
      have hiS := (hc.run i hxl).left
      have him : g.fst i ≠ m := by
        intro e
        have e1 : g.cov m = i := by rw [← e]; exact h1
        have w := hc.within k hL.joint.left
        rw [hL.whole, e1, e] at w
        have := w.1.le
        have := hL.joint.lt
        linarith
      refine .late i k m h1 hL he him h2 ?_ ?_
      · intro y hy y1 y2
        obtain ⟨v, e⟩ := y
        have hv : v ∈ G.S := hR.inv.qmem _ hy
        by_contra hlt
        rw [not_le] at hlt
        have t1 := time_le_of_key (x := (v, e)) (y := (g.fst i, .left)) hv hiS hlt.le
        have t2 := time_le_of_key (x := (k, .right)) (y := (v, e)) hL.joint.left hv (hL.min _ hy)
        have t3 : G.time (G.pt (g.fst i, .left)) = G.time (G.pt (k, .right)) := congrArg G.time he
        have hp : G.pt (v, e) = G.rp k := G.time_inj (x := (v, e)) (y := (k, .right)) hv hL.joint.left (le_antisymm (t1.trans t3.le) t2)
        cases e
        · have hvm : v ≠ m := fun e => y2 (by rw [e])
          obtain ⟨_, q2, q3⟩ := h.late_left hL hv hvm hp
          have := hmin _ q3
          change G.key (g.fst i, .left) ≤ G.key (g.fst (g.cov v), .left) at this
          rw [q2] at this
          exact absurd hlt (not_lt.2 this)
        · exact y1 (by rw [hL.only v hv hp])
      · obtain ⟨n, hn, hnm, hnp, hnk, q2, q3⟩ := h.late_start hL
        have hle := hmin _ q3
        change G.key (g.fst i, .left) ≤ G.key (g.fst (g.cov n), .left) at hle
        rw [q2] at hle
        rcases lt_trichotomy (G.key (g.fst i, .left)) (G.key (m, .left)) with hlt | heq | hgt
        · exact Or.inl hlt
        · have := key_inj (x := (g.fst i, .left)) (y := (m, .left)) hiS hL.joint.right heq
          exact absurd (congrArg Prod.fst this) him
        · right
          refine ⟨?_, hgt⟩
          have hs : G.Same m n := hnk.resolve_left fun hlt => by
            exact absurd (lt_of_lt_of_le hgt hle) (not_lt.2 hlt.le)
          exact same_of_key hL.joint.right hiS hn (hL.joint.meet.symm.trans he.symm) hs hgt.le hle
  · by_cases hl : Live g i
    · have h2 := (hR.qright i hxl hl).1 hx
      have hrun := hc.run i hxl
      have hcov : g.cov (g.lst i) = i := hc.cov i hxl hl _ ⟨hrun, Run.refl hrun.right⟩
      have notlate : ∀ {k m : ℕ}, Late C g st'.queue k m → g.lst i ≠ k := by
        intro k m hL e
        rw [e] at hcov
        have w := hc.within m hL.joint.right
        rw [← hL.whole, hcov, e] at w
        have := w.2.le
        have := hL.joint.lt
        linarith
      have h3 : ∀ y ∈ st'.queue, G.key (g.lst i, .right) ≤ G.key y := by
        rcases key h2 with h3 | ⟨k, m, hL⟩
        · exact h3
        · exact absurd (hL.only (g.lst i) hrun.right (hpt hL h2)) (notlate hL)
      obtain ⟨e1, e2⟩ := h.right_single h2 h3
      rw [hcov] at e1
      refine .right i hl e1.symm ?_ ?_
      · rw [e1]; exact h2
      · rw [e1]; exact h3
    · exact .stale i hl

end Cut

end Idc
