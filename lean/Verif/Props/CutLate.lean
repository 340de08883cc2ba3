import Verif.Props.CutLeft
/-!
# Edges that are split only when another starts there, for C84
-/

namespace Idc

namespace Cut

open Plan

variable {G : Plan} {C : Cut G} {Heap : (EndId → EndId → Res Ordering) → List EndId → Prop} {g : Ghost} {st st' : SweepState ℝ}

/-- The order on the sweep line does not change. -/
theorem low_le {x y : ℕ} {t s : ℝ} (hx : G.Alive t x) (hy : G.Alive t y) (h : G.Low t x y) (x1 : G.a x ≤ s) (x2 : s ≤ G.b x) (y1 : G.a y ≤ s) (y2 : s ≤ G.b y) :
    G.h x s ≤ G.h y s := by
  rcases h with h | ⟨h, _⟩
  · exact G.order_const hx.1 hy.1 hx.2.1.le hx.2.2.le hy.2.1.le hy.2.2.le x1 x2 y1 y2 h
  · exact ((G.same_of_h hx.1 hy.1 hx.2.1 hx.2.2 hy.2.1.le hy.2.2.le h).h _).le

/-- The other edges pass the point of a late split on one side. -/
theorem Late.sides {k m : ℕ} (hI : Plan.Inv G Heap st') (hL : Late C g st'.queue k m) {l₁ l₂ : List ℕ} (ha : st'.active = l₁ ++ k :: l₂) {t : ℝ}
    (hst : Plan.Stack G t (l₁ ++ k :: l₂)) : (∀ v ∈ l₁, G.h v (G.b k) < (G.rp k).y) ∧ ∀ v ∈ l₂, (G.rp k).y < G.h v (G.b k) := by
  have hk := hL.joint.left
  have ka := hst.alive k (by simp)
  have hnd := hst.nodup
  rw [List.nodup_append, List.nodup_cons] at hnd
  have hs := hst.sorted
  rw [List.pairwise_append, List.pairwise_cons] at hs
  have hne : ∀ v ∈ l₁ ++ k :: l₂, v ≠ k → G.a v ≤ G.b k ∧ G.b k ≤ G.b v ∧ G.h v (G.b k) ≠ (G.rp k).y := by
    intro v hv hvk
    have va := hst.alive v hv
    obtain ⟨_, _, hq⟩ := (hI.active v).1 (by rw [ha]; exact hv)
    have hb : G.b k ≤ G.b v := time_le_of_key (x := (k, .right)) (y := (v, .right)) hk va.1 (hL.min _ hq)
    have h1 := va.2.1
    have h2 := ka.2.2
    refine ⟨by linarith, hb, fun e => ?_⟩
    have hns : ¬ G.Same v k := fun hs => hvk (hL.only v va.1 hs.2)
    rcases (G.meet va.1 hk hns (t := G.b k) (by linarith) hb (G.a_lt_b hk).le le_rfl (by rw [e, G.h_right hk])).1 with e | e
    · linarith
    · exact hvk (hL.only v va.1 (G.time_inj (x := (v, .right)) (y := (k, .right)) va.1 hk e.symm))
  have hkk := G.h_right hk
  constructor
  · intro v hv
    have hvk : v ≠ k := fun e => hnd.2.2 v hv k (by simp) e
    obtain ⟨h1, h2, h3⟩ := hne v (by simp [hv]) hvk
    refine lt_of_le_of_ne ?_ h3
    rw [← hkk]
    exact low_le (hst.alive v (by simp [hv])) ka (hs.2.2 v hv k (by simp)) h1 h2 (G.a_lt_b hk).le le_rfl
  · intro v hv
    have hvk : v ≠ k := fun e => hnd.2.1.1 (e ▸ hv)
    obtain ⟨h1, h2, h3⟩ := hne v (by simp [hv]) hvk
    refine lt_of_le_of_ne ?_ h3.symm
    rw [← hkk]
    exact low_le ka (hst.alive v (by simp [hv])) (hs.2.1.1 v hv) (G.a_lt_b hk).le le_rfl h1 h2

theorem split_unique {α : Type} {P : α → Prop} {l₁ l₂ l₁' l₂' : List α} (h : l₁ ++ l₂ = l₁' ++ l₂') (h1 : ∀ v ∈ l₁, P v) (h2 : ∀ v ∈ l₂, ¬ P v)
    (h1' : ∀ v ∈ l₁', P v) (h2' : ∀ v ∈ l₂', ¬ P v) : l₁ = l₁' ∧ l₂ = l₂' := by
  classical
  have e : l₁ = l₁' := by
    have keep : ∀ {l l' : List α}, (∀ v ∈ l, P v) → (∀ v ∈ l', ¬ P v) → (l ++ l').filter (fun v => decide (P v)) = l := by
      intro l l' h h'
      rw [List.filter_append, List.filter_eq_self.2 (by simpa using h), List.filter_eq_nil_iff.2 (by simpa using h'), List.append_nil]
    rw [← keep h1 h2, h, keep h1' h2']
  subst e
  exact ⟨rfl, List.append_cancel_left h⟩

theorem low_of_lt {v n : ℕ} (hv : G.Alive (G.tau n) v) (hn : n ∈ G.S) (h : G.h v (G.a n) < (G.lp n).y) : G.Low (G.tau n) v n := by
  have na := alive_self hn
  have ht := (G.alive_tau hv.1).1 hv.2
  refine (hv.low_or na ?_).resolve_right fun hl => ?_
  · rintro rfl
    rw [G.h_left] at h
    exact lt_irrefl _ h
  · have := low_le na hv hl le_rfl (G.a_lt_b hn).le ht.1 ht.2.le
    rw [G.h_left] at this
    linarith

theorem low_of_gt {v n : ℕ} (hv : G.Alive (G.tau n) v) (hn : n ∈ G.S) (h : (G.lp n).y < G.h v (G.a n)) : G.Low (G.tau n) n v := by
  have na := alive_self hn
  have ht := (G.alive_tau hv.1).1 hv.2
  refine (hv.low_or na ?_).resolve_left fun hl => ?_
  · rintro rfl
    rw [G.h_left] at h
    exact lt_irrefl _ h
  · have := low_le hv na hl ht.1 ht.2.le le_rfl (G.a_lt_b hn).le
    rw [G.h_left] at this
    linarith

theorem low_asymm {t : ℝ} {i j : ℕ} (h : G.Low t i j) : ¬ G.Low t j i := fun h' => Low.irrefl (h.trans h')

/-- Where an edge is placed that starts there. -/
theorem placed {A : Arena ℝ} {n : ℕ} {l₁ l₂ k₁ k₂ : List ℕ} (hB : Before G A n k₁ k₂) (he : l₁ ++ l₂ = k₁ ++ k₂)
    (h1 : ∀ v ∈ l₁, G.Low (G.tau n) v n) (h2 : ∀ v ∈ l₂, G.Low (G.tau n) n v) : k₁ = l₁ ∧ k₂ = l₂ := by
  have hs := hB.stack.sorted
  rw [List.pairwise_append, List.pairwise_cons] at hs
  obtain ⟨e1, e2⟩ := split_unique (P := fun v => G.Low (G.tau n) v n) he h1 (fun v hv => low_asymm (h2 v hv)) (fun v hv => hs.2.2 v hv n (by simp))
    (fun v hv => low_asymm (hs.2.1.1 v hv))
  exact ⟨e1.symm, e2.symm⟩

/-! ### The run on the pieces goes ahead -/

/-- After some endpoints the run is in the second state. -/
def Reaches (lib : Lib) (n : ℕ) (st st2 : SweepState ℝ) : Prop :=
  ∃ c, st2.queue.length + c = st.queue.length ∧ ∀ fuel, sweepLoop lib n (fuel + c) st = sweepLoop lib n fuel st2

theorem Reaches.refl {lib : Lib} {n : ℕ} (st : SweepState ℝ) : Reaches lib n st st := ⟨0, rfl, fun _ => rfl⟩

theorem Reaches.trans {lib : Lib} {n : ℕ} {st st2 st3 : SweepState ℝ} (h : Reaches lib n st st2) (h' : Reaches lib n st2 st3) : Reaches lib n st st3 := by
  obtain ⟨c, h1, h2⟩ := h
  obtain ⟨d, h3, h4⟩ := h'
  exact ⟨d + c, by omega, fun fuel => by rw [← add_assoc, h2, h4]⟩

theorem Reaches.step {lib : Lib} {n : ℕ} {st st2 : SweepState ℝ} {x : EndId} {q : List EndId} (hpop : lib.heapPop st.arena.endCmp st.queue = .ok (some (x, q)))
    (hp : st.queue.Perm (x :: q)) (hrun : sweepEnd lib n { st with queue := q } x.1 x.2 = .ok st2) (hq : st2.queue = q) : Reaches lib n st st2 := by
  refine ⟨1, by rw [hq, hp.length_eq]; rfl, fun fuel => ?_⟩
  conv => lhs; unfold sweepLoop
  rw [hpop]
  simp only [Res.bind_ok]
  rw [hrun]
  rfl

/-- The next endpoint of the run on the pieces. -/
theorem pop_first {lib : Lib} (hh : HeapOk lib Heap) (hI : Plan.Inv G Heap st') {z : EndId} (hz : z ∈ st'.queue) (hzm : ∀ y ∈ st'.queue, G.key z ≤ G.key y) :
    ∃ q', lib.heapPop st'.arena.endCmp st'.queue = .ok (some (z, q')) ∧ st'.queue.Perm (z :: q') ∧ Heap st'.arena.endCmp q' ∧ ∀ y ∈ q', G.key z ≤ G.key y := by
  obtain ⟨z', q', p1, p2, p3, p4⟩ := pop_plan hh hI.has hI.qmem (List.ne_nil_of_mem hz) hI.heap
  have hz' : z' ∈ st'.queue := p2.mem_iff.2 (by simp)
  have : z' = z := by
    refine key_inj (hI.qmem _ hz') (hI.qmem _ hz) (le_antisymm ?_ (hzm z' hz'))
    rw [p2.mem_iff, List.mem_cons] at hz
    rcases hz with rfl | hz
    · exact le_rfl
    · exact p4 z hz
  subst this
  exact ⟨q', p1, p2, p3, p4⟩

/-- The next endpoint is known. -/
theorem Rel.forced (h : Rel C Heap g st st') {z x₀ x : EndId} (hz : ∀ y ∈ st'.queue, G.key z ≤ G.key y) (hx₀ : x₀ ∈ st.queue) (hl₀ : Live g x₀.1) (he : img g x₀ = z) (hx : x ∈ st.queue)
    (hmin : ∀ y ∈ st.queue, G.key (img g x) ≤ G.key (img g y)) : x = x₀ ∨ ∃ i, x = (i, .right) ∧ ¬ Live g i := by
  have hc := h.arenas.covers
  have hxl := h.qlt x hx
  have hxl₀ := h.qlt x₀ hx₀
  by_cases hl : Live g x.1
  · left
    have hm : img g x ∈ st'.queue := by
      obtain ⟨i, e⟩ := x
      cases e
      · exact ((h.qleft i hxl).1 hx).2
      · exact (h.qright i hxl hl).1 hx
    have hk : img g x = img g x₀ := key_inj (h.arenas.runs.img_mem hxl) (h.arenas.runs.img_mem hxl₀) (le_antisymm (hmin _ hx₀) (by rw [he]; exact hz _ hm))
    obtain ⟨i, e⟩ := x
    obtain ⟨i₀, e₀⟩ := x₀
    have cov : ∀ {j : ℕ}, j < st.arena.length → Live g j → g.cov (g.lst j) = j := fun hj hlj => hc.cov _ hj hlj _ ⟨hc.run _ hj, Run.refl (hc.run _ hj).right⟩
    cases e <;> cases e₀ <;> simp only [img, Prod.mk.injEq, reduceCtorEq, and_false, and_true] at hk
    · obtain rfl : i = i₀ := hl.inj hl₀ hk
      rfl
    · obtain rfl : i = i₀ := (cov hxl hl).symm.trans ((congrArg g.cov hk).trans (cov hxl₀ hl₀))
      rfl
  · right
    obtain ⟨i, e⟩ := x
    cases e
    · exact absurd ((h.qleft i hxl).1 hx).1 hl
    · exact ⟨i, rfl, hl⟩

/-! ### States the run on the pieces does not pass -/

theorem pairwise_insert2 {α : Type} {R : α → α → Prop} {l₁ l₂ : List α} {x y : α} (h1 : (l₁ ++ x :: l₂).Pairwise R) (h2 : (l₁ ++ y :: l₂).Pairwise R) (h : R x y) :
    (l₁ ++ x :: y :: l₂).Pairwise R := by
  rw [List.pairwise_append, List.pairwise_cons] at h1 h2
  rw [List.pairwise_append, List.pairwise_cons, List.pairwise_cons]
  refine ⟨h1.1, ⟨?_, h2.2.1.1, h1.2.1.2⟩, ?_⟩
  · intro v hv
    rcases List.mem_cons.1 hv with rfl | hv
    · exact h
    · exact h1.2.1.1 v hv
  · intro a ha v hv
    simp only [List.mem_cons] at hv
    rcases hv with rfl | rfl | hv
    · exact h1.2.2 a ha v (by simp)
    · exact h2.2.2 a ha v (by simp)
    · exact h1.2.2 a ha v (by simp [hv])

/-- A piece ends later than it does. -/
theorem Loose.overdue {A : Arena ℝ} {q : List EndId} {l₁ l₂ sw : List ℕ} {k : ℕ} (h : Loose C ⟨A, q, l₁ ++ l₂, sw ++ [k]⟩) (hk : k ∈ G.S) (hr : (k, SegmentEnd.right) ∉ q)
    (hlq : (k, SegmentEnd.left) ∉ q) (hsw : k ∉ sw) (hlow : (l₁ ++ k :: l₂).Pairwise (Lower G)) (hah : ∀ l, C.Run k l → (l, SegmentEnd.right) ∈ (k, SegmentEnd.right) :: q) :
    Loose C ⟨A, (k, .right) :: q, l₁ ++ k :: l₂, sw⟩ where
  has := h.has
  qmem x hx := by
    rcases List.mem_cons.1 hx with rfl | hx
    · exact hk
    · exact h.qmem x hx
  qnodup := List.nodup_cons.2 ⟨hr, h.qnodup⟩
  active i := by
    have := h.active i
    simp only [List.mem_append, List.mem_cons, Prod.mk.injEq, reduceCtorEq, and_false, and_true, false_or] at this ⊢
    by_cases e : i = k
    · subst e
      simp [hk, hlq]
    · simp only [e, false_or]
      exact this
  swept i := by
    have := h.swept i
    simp only [List.mem_append, List.mem_cons, Prod.mk.injEq, and_true, List.not_mem_nil, or_false, not_or] at this ⊢
    by_cases e : i = k
    · subst e
      simp [hsw]
    · simp only [e, not_false_eq_true, true_and]
      rw [← this]
      simp [e]
  lower := hlow
  solid := h.solid
  ahead k' l hr' hm := by
    rcases List.mem_cons.1 hm with e | hm
    · cases e
      exact hah l hr'
    · exact List.mem_cons_of_mem _ (h.ahead k' l hr' hm)

/-- A piece starts later than it does. -/
theorem Loose.unstart {A X : Arena ℝ} {q : List EndId} {l₁ l₂ sw : List ℕ} {m : ℕ} (h : Loose C ⟨A, q, l₁ ++ m :: l₂, sw⟩) (hX : G.Has X)
    (hsol : ∀ j ∈ G.S, Solid G (dat X j) j) : Loose C ⟨X, (m, .left) :: q, l₁ ++ l₂, sw⟩ := by
  have hm := (h.active m).1 (by simp)
  have hnd : (l₁ ++ m :: l₂).Nodup := h.lower.imp Lower.ne
  rw [List.nodup_append, List.nodup_cons] at hnd
  have hne : m ∉ l₁ ++ l₂ := by
    rw [List.mem_append, not_or]
    exact ⟨fun h' => hnd.2.2 m h' m (by simp) rfl, hnd.2.1.1⟩
  refine { has := hX, qmem := ?_, qnodup := List.nodup_cons.2 ⟨hm.2.1, h.qnodup⟩, active := ?_, swept := ?_, lower := ?_, solid := hsol, ahead := ?_ }
  · intro x hx
    rcases List.mem_cons.1 hx with rfl | hx
    · exact hm.1
    · exact h.qmem x hx
  · intro i
    have := h.active i
    by_cases e : i = m
    · subst e
      simp [hne]
    · simp only [List.mem_append, List.mem_cons, Prod.mk.injEq, reduceCtorEq, and_false, and_true, false_or, e] at this ⊢
      exact this
  · intro i
    have := h.swept i
    simp only [List.mem_cons, Prod.mk.injEq, reduceCtorEq, and_false, false_or] at this ⊢
    exact this
  · exact h.lower.sublist ((List.sublist_cons_self m l₂).append_left l₁)
  · intro k l hr hmem
    simp only [List.mem_cons, Prod.mk.injEq, reduceCtorEq, and_false, false_or] at hmem ⊢
    exact h.ahead k l hr hmem

/-- The polygon of a segment that has been started. -/
theorem Rel.poly (h : Rel C Heap g st st') {i : ℕ} (hi : i ∈ st.active) : (dat st.arena i).polygon_index = G.poly (g.fst i) := by
  obtain ⟨h1, h2⟩ := h.alive i hi
  have hs := (h.arenas.sim i h1 h2 (h.of_active hi).1).eq
  have := h.inv.solid _ (h.arenas.covers.run i h1).left
  have e := congrArg SegmentPacket.polygon_index hs
  exact e.trans this.polyi

/-- A piece that is the last of its segment. -/
theorem lst_of_split {len : ℕ} (hc : Covers C g len) {k m : ℕ} (hj : C.Joint k m) (hne : g.cov k ≠ g.cov m) : g.lst (g.cov k) = k := by
  by_contra hn
  have w := hc.within k hj.left
  obtain ⟨m', h1, h2⟩ := exists_next w.2 (Ne.symm hn)
  obtain rfl := hj.unique_right h1
  exact hne (hc.cov _ (hc.lt k hj.left) (hc.live k hj.left) m ⟨w.1.trans ⟨hj.left, hj.right, hj.own, hj.lt.le⟩, h2⟩).symm

/-- A piece of a segment that goes on is not the last. -/
theorem ne_lst {len : ℕ} (hc : Covers C g len) {k m : ℕ} (hj : C.Joint k m) (he : g.cov k = g.cov m) : k ≠ g.lst (g.cov k) := by
  intro e
  have w := (hc.within m hj.right).2
  rw [← he, ← e] at w
  have := w.le
  have := hj.lt
  linarith

/-- Where the edges are as they pass a point. -/
structure Sides (G : Plan) (k : ℕ) (l₁ l₂ : List ℕ) : Prop where
  below : ∀ v ∈ l₁, G.h v (G.b k) < (G.rp k).y
  above : ∀ v ∈ l₂, (G.rp k).y < G.h v (G.b k)

/-- The run on the pieces takes the piece out that should be split. -/
theorem Sim.late_right {lib : Lib} (hl : lib.Lawful) (hh : HeapOk lib Heap) (h : Sim C Heap g st st') {k m : ℕ} (hL : Late C g st'.queue k m) :
    ∃ q' l₁ l₂, st'.queue.Perm ((k, .right) :: q') ∧ st'.active = l₁ ++ k :: l₂ ∧ (l₁ ++ k :: l₂).Pairwise (Lower G) ∧ Sides G k l₁ l₂ ∧
      Plan.Inv G Heap ⟨st'.arena, q', l₁ ++ l₂, st'.swept ++ [k]⟩ ∧ Reaches lib G.n st' ⟨st'.arena, q', l₁ ++ l₂, st'.swept ++ [k]⟩ := by
  obtain ⟨q', p1, p2, p3, p4⟩ := pop_first hh h.inv hL.mem hL.min
  obtain ⟨l₁, l₂, t, ha, hst, _, hrun, hI⟩ := step_right' hl h.inv p2 p3 p4 G.n
  have hs := hL.sides h.inv ha hst
  exact ⟨q', l₁, l₂, p2, ha, hst.lower, ⟨hs.1, hs.2⟩, hI, .step p1 p2 hrun rfl⟩

/-- The run on the pieces starts one at that point. -/
theorem late_started {lib : Lib} (hl : lib.Lawful) (hh : HeapOk lib Heap) {A : Arena ℝ} {q : List EndId} {l₁ l₂ sw : List ℕ} {k x : ℕ}
    (hI : Plan.Inv G Heap ⟨A, q, l₁ ++ l₂, sw⟩) (hS : Sides G k l₁ l₂) (hq : (x, SegmentEnd.left) ∈ q) (hmin : ∀ y ∈ q, G.key (x, .left) ≤ G.key y) (he : G.lp x = G.rp k) :
    ∃ q' A', q.Perm ((x, .left) :: q') ∧ (∀ y ∈ q', G.key (x, .left) ≤ G.key y) ∧ Before G A x l₁ l₂ ∧ (∀ b, l₁.getLast? = some b → ¬ G.Same b x) ∧
      updatePolygonFacing A x l₁.getLast? = .ok A' ∧ Plan.Inv G Heap ⟨A', q', l₁ ++ x :: l₂, sw⟩ ∧ Reaches lib G.n ⟨A, q, l₁ ++ l₂, sw⟩ ⟨A', q', l₁ ++ x :: l₂, sw⟩ ∧
      ∀ j ∈ G.S, (j, SegmentEnd.left) ∈ q' → dat A' j = dat A j := by
  obtain ⟨q', p1, p2, p3, p4⟩ := pop_first hh hI hq hmin
  obtain ⟨k₁, k₂, A', ha, hB, _, hSt, hrun, hI', hpl⟩ := step_left' hl hh hI p2 p3 p4 G.n
  have hx : x ∈ G.S := hI.qmem _ hq
  have ht : G.a x = G.b k := congrArg G.time he
  have hal : ∀ v ∈ l₁ ++ l₂, G.Alive (G.tau x) v := by
    intro v hv
    rw [show l₁ ++ l₂ = k₁ ++ k₂ from ha] at hv
    refine hB.stack.alive v ?_
    simp only [List.mem_append, List.mem_cons] at hv ⊢
    tauto
  obtain ⟨rfl, rfl⟩ := placed hB ha (fun v hv => low_of_lt (hal v (by simp [hv])) hx (by rw [ht, he]; exact hS.below v hv))
    (fun v hv => low_of_gt (hal v (by simp [hv])) hx (by rw [ht, he]; exact hS.above v hv))
  have hns : ∀ b, k₁.getLast? = some b → ¬ G.Same b x := by
    intro b hb hs
    have := hS.below b (List.mem_of_getLast? hb)
    rw [hs.h, ← ht, G.h_left, he] at this
    exact lt_irrefl _ this
  rcases hSt with ⟨_, hu⟩ | ⟨k', l', _, _, _, e, hs, _⟩
  · exact ⟨q', A', p2, p4, hB, hns, hu, hI', .step p1 p2 hrun rfl, hpl⟩
  · exact absurd hs (hns k' (by rw [e]; simp))

end Cut

end Idc
