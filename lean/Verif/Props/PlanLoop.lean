import Verif.Props.PlanLeft
import Verif.Props.TidyStep
/-!
# The sweep, for C81
-/

namespace Idc

namespace Plan

variable {G : Plan}

/-- Popping from a queue of endpoints. -/
theorem pop_plan {lib : Lib} {Heap} (hh : HeapOk lib Heap) {arena : Arena ℝ} (ha : G.Has arena) {q : List EndId} (hq : ∀ x ∈ q, x.1 ∈ G.S) (hne : q ≠ [])
    (hheap : Heap arena.endCmp q) : ∃ x q', lib.heapPop arena.endCmp q = .ok (some (x, q')) ∧ q.Perm (x :: q') ∧ Heap arena.endCmp q' ∧
      ∀ y ∈ q', G.key x ≤ G.key y := by
  obtain ⟨x, q', h1, h2, h3, h4⟩ := hh.pop arena.endCmp q hne (endCmp_total ha hq) hheap
  refine ⟨x, q', h1, h2, h3, fun y hy => ?_⟩
  have hx : x.1 ∈ G.S := hq x (h2.mem_iff.2 (by simp))
  have hy' : y.1 ∈ G.S := hq y (h2.mem_iff.2 (by simp [hy]))
  have := h4 y hy
  rw [endCmp_key ha hx hy'] at this
  by_contra hn
  rw [not_le] at hn
  exact this (by rw [compare_gt_iff_gt.2 hn])

theorem heap_transfer {lib : Lib} {Heap} (hh : HeapOk lib Heap) {arena arena' : Arena ℝ} (ha : G.Has arena) (ha' : G.Has arena') {q : List EndId}
    (hq : ∀ x ∈ q, x.1 ∈ G.S) (hheap : Heap arena.endCmp q) : Heap arena'.endCmp q :=
  hh.congr _ _ q (fun a h b h' => by rw [endCmp_key ha (hq a h) (hq b h'), endCmp_key ha' (hq a h) (hq b h')]) hheap

/-- The state of the sweep: what has happened is what comes before the queue. -/
structure Inv (G : Plan) (Heap : (EndId → EndId → Res Ordering) → List EndId → Prop) (st : SweepState ℝ) : Prop where
  has : G.Has st.arena
  heap : Heap st.arena.endCmp st.queue
  qmem : ∀ x ∈ st.queue, x.1 ∈ G.S
  qnodup : st.queue.Nodup
  qup : ∀ x : EndId, x.1 ∈ G.S → x ∉ st.queue → ∀ y ∈ st.queue, G.key x < G.key y
  active : ∀ i, i ∈ st.active ↔ i ∈ G.S ∧ (i, SegmentEnd.left) ∉ st.queue ∧ (i, SegmentEnd.right) ∈ st.queue
  stack : ∃ t, Stack G t st.active
  swept : ∀ i, i ∈ st.swept ↔ i ∈ G.S ∧ (i, SegmentEnd.right) ∉ st.queue
  snodup : st.swept.Nodup
  kept : ∀ j ∈ G.S, Kept G (dat st.arena j) j
  fresh : ∀ j ∈ G.S, (j, SegmentEnd.left) ∈ st.queue → Fresh G (dat st.arena j)
  good : ∀ j ∈ G.S, (j, SegmentEnd.left) ∉ st.queue → Good G (dat st.arena j) j
  inn : ∀ j ∈ G.S, (j, SegmentEnd.left) ∉ st.queue → (∀ j' ∈ G.S, G.Same j j' → G.poly j < G.poly j' → (j', SegmentEnd.left) ∈ st.queue) → In G (dat st.arena j) j
  out : ∀ j ∈ G.S, (j, SegmentEnd.left) ∉ st.queue → (∃ j' ∈ G.S, G.Same j j' ∧ G.poly j < G.poly j' ∧ (j', SegmentEnd.left) ∉ st.queue) → Out (dat st.arena j)

theorem left_lt_right {i : ℕ} (hi : i ∈ G.S) : G.key (i, .left) < G.key (i, .right) := key_lt_of_leftOf (G.wf i hi)

/-- The place of a segment on the sweep line. -/
theorem Stack.place {t : ℝ} {i : ℕ} (hi : G.Alive t i) : ∀ {l : List ℕ}, Stack G t l → i ∉ l → ∃ l₁ l₂, l = l₁ ++ l₂ ∧ Stack G t (l₁ ++ i :: l₂)
  | [], _, _ => ⟨[], [], rfl, by intro j hj; simp at hj; subst hj; exact hi, by simp⟩
  | k :: l, h, hn => by
    have hk := h.alive k (by simp)
    have hsub := h.sub (List.sublist_cons_self k l)
    rcases hk.low_or hi (by rintro rfl; simp at hn) with h1 | h1
    · obtain ⟨l₁, l₂, rfl, hs⟩ := Stack.place hi hsub (by simp at hn; tauto)
      refine ⟨k :: l₁, l₂, rfl, ?_, ?_⟩
      · intro j hj
        rcases List.mem_cons.1 hj with rfl | hj
        · exact hk
        · exact hs.alive j hj
      · rw [List.cons_append, List.pairwise_cons]
        refine ⟨?_, hs.sorted⟩
        intro j hj
        rw [List.mem_append, List.mem_cons] at hj
        have hp := (List.pairwise_cons.1 h.sorted).1
        rcases hj with hj | rfl | hj
        · exact hp j (by simp [hj])
        · exact h1
        · exact hp j (by simp [hj])
    · refine ⟨[], k :: l, rfl, ?_, ?_⟩
      · intro j hj
        rcases List.mem_cons.1 hj with rfl | hj
        · exact hi
        · exact h.alive j hj
      · rw [List.nil_append, List.pairwise_cons]
        refine ⟨?_, h.sorted⟩
        intro j hj
        rcases List.mem_cons.1 hj with rfl | hj
        · exact h1
        · exact h1.trans ((List.pairwise_cons.1 h.sorted).1 j hj)

section step

variable {Heap : (EndId → EndId → Res Ordering) → List EndId → Prop} {st : SweepState ℝ} {q' : List EndId}

theorem mem_tail {x : EndId} (hnd : st.queue.Nodup) (hp : st.queue.Perm (x :: q')) (y : EndId) : y ∈ q' ↔ y ∈ st.queue ∧ y ≠ x := by
  have := hp.nodup_iff.1 hnd
  rw [List.nodup_cons] at this
  rw [hp.mem_iff, List.mem_cons]
  constructor
  · intro h; exact ⟨Or.inr h, fun e => this.1 (e ▸ h)⟩
  · rintro ⟨h | h, hn⟩
    · exact absurd h hn
    · exact h

/-- A right endpoint. -/
theorem step_right' {lib : Lib} (hl : lib.Lawful) (hI : Inv G Heap st) {i : ℕ} (hp : st.queue.Perm ((i, .right) :: q'))
    (hh' : Heap st.arena.endCmp q') (hmin : ∀ y ∈ q', G.key (i, .right) ≤ G.key y) (np : ℕ) :
    ∃ l₁ l₂ t, st.active = l₁ ++ i :: l₂ ∧ Stack G t (l₁ ++ i :: l₂) ∧ (∀ j k, l₁.getLast? = some j → l₂.head? = some k → ¬ G.Same j k) ∧
      sweepRight lib np { st with queue := q' } i = .ok ⟨st.arena, q', l₁ ++ l₂, st.swept ++ [i]⟩ ∧ Inv G Heap ⟨st.arena, q', l₁ ++ l₂, st.swept ++ [i]⟩ := by
  have mt := mem_tail hI.qnodup hp
  have hxq : (i, SegmentEnd.right) ∈ st.queue := hp.mem_iff.2 (by simp)
  have hi := hI.qmem _ hxq
  simp only at hi
  have hlq : (i, SegmentEnd.left) ∉ st.queue := by
    intro h
    have h2 := hmin (i, .left) ((mt _).2 ⟨h, by simp⟩)
    exact absurd (left_lt_right hi) (not_lt.2 h2)
  have hia : i ∈ st.active := (hI.active i).2 ⟨hi, hlq, hxq⟩
  obtain ⟨l₁, l₂, hact⟩ := List.append_of_mem hia
  obtain ⟨t, hst⟩ := hI.stack
  rw [hact] at hst
  have hns : ∀ j k, l₁.getLast? = some j → l₂.head? = some k → ¬ G.Same j k := by
    intro j k hj hk hs
    have hjm : j ∈ l₁ := List.mem_of_getLast? hj
    have hkm : k ∈ l₂ := List.mem_of_head? hk
    have hsp := List.pairwise_append.1 hst.sorted
    have h1 := hsp.2.2 j hjm i (by simp)
    have h2 := (List.pairwise_cons.1 hsp.2.1).1 k hkm
    have hja := hst.alive j (by simp [hjm])
    have hia := hst.alive i (by simp)
    have he : G.h j t = G.h i t := by
      have := hs.h t
      rcases h1 with h1 | h1 <;> rcases h2 with h2 | h2
      · linarith
      · linarith [h2.1]
      · exact h1.1
      · exact h1.1
    have hpl : G.poly j < G.poly i := by
      rcases h1 with h1 | h1
      · linarith
      · exact h1.2
    have hsm := G.same_of_h hja.1 hi hja.2.1 hja.2.2 hia.2.1.le hia.2.2.le he
    have hlt := (key_same .right hja.1 hi hsm).2 hpl
    have hjq := ((hI.active j).1 (by rw [hact]; simp [hjm])).2.2
    have hle := hmin (j, .right) ((mt _).2 ⟨hjq, by
      intro e; cases e; exact lt_irrefl _ hpl⟩)
    exact absurd hlt (not_lt.2 hle)
  have hnd : (l₁ ++ i :: l₂).Nodup := hst.nodup
  have hmem : ∀ j, j ∈ l₁ ++ l₂ ↔ j ∈ st.active ∧ j ≠ i := by
    intro j
    rw [hact]
    rw [List.nodup_append, List.nodup_cons] at hnd
    simp only [List.mem_append, List.mem_cons]
    constructor
    · rintro (h | h)
      · exact ⟨Or.inl h, fun e => hnd.2.2 j h i (by simp) e⟩
      · exact ⟨Or.inr (Or.inr h), fun e => hnd.2.1.1 (e ▸ h)⟩
    · tauto
  refine ⟨l₁, l₂, t, hact, hst, hns, sweepRight_plan (st := { st with queue := q' }) hl hI.has hact hst hns np, ?_⟩
  have hleft : ∀ j, (j, SegmentEnd.left) ∈ q' ↔ (j, SegmentEnd.left) ∈ st.queue := fun j => by rw [mt]; simp
  refine { has := hI.has, heap := hh', qmem := fun x hx => hI.qmem x ((mt x).1 hx).1, qnodup := ?_, qup := ?_, active := ?_, stack := ?_, swept := ?_,
           snodup := ?_, kept := hI.kept, fresh := ?_, good := ?_, inn := ?_, out := ?_ }
  · exact (List.nodup_cons.1 (hp.nodup_iff.1 hI.qnodup)).2
  · intro x hx hxq' y hy
    by_cases hxe : x = (i, .right)
    · subst hxe
      refine lt_of_le_of_ne (hmin y hy) fun e => ?_
      have := key_inj hx (hI.qmem y ((mt y).1 hy).1) e
      exact ((mt y).1 hy).2 this.symm
    · exact hI.qup x hx (fun h => hxq' ((mt x).2 ⟨h, hxe⟩)) y ((mt y).1 hy).1
  · intro j
    rw [hmem, hI.active]
    dsimp only
    rw [mt, mt]
    simp only [ne_eq, Prod.mk.injEq]
    have : ¬ (SegmentEnd.left = SegmentEnd.right) := by decide
    tauto
  · refine ⟨t, hst.sub ?_⟩
    exact List.Sublist.append_left (List.sublist_cons_self i l₂) l₁
  · intro j
    dsimp only
    rw [List.mem_append, List.mem_singleton, hI.swept, mt]
    constructor
    · rintro (h | rfl)
      · exact ⟨h.1, fun e => h.2 e.1⟩
      · exact ⟨hi, fun e => e.2 rfl⟩
    · rintro ⟨h1, h2⟩
      by_cases e : j = i
      · exact Or.inr e
      · left
        refine ⟨h1, fun h => h2 ⟨h, ?_⟩⟩
        intro e'; cases e'; exact e rfl
  · rw [List.nodup_append]
    refine ⟨hI.snodup, by simp, ?_⟩
    intro a ha b hb e
    simp only [List.mem_singleton] at hb
    subst hb; subst e
    exact ((hI.swept a).1 ha).2 hxq
  · intro j hj h; exact hI.fresh j hj ((hleft j).1 h)
  · intro j hj h; exact hI.good j hj (fun h' => h ((hleft j).2 h'))
  · intro j hj h h2
    exact hI.inn j hj (fun h' => h ((hleft j).2 h')) fun j' hj' hs hp => (hleft j').1 (h2 j' hj' hs hp)
  · rintro j hj h ⟨j', hj', hs, hp, hq⟩
    exact hI.out j hj (fun h' => h ((hleft j).2 h')) ⟨j', hj', hs, hp, fun h' => hq ((hleft j').2 h')⟩

theorem step_right {lib : Lib} (hl : lib.Lawful) (hI : Inv G Heap st) {i : ℕ} (hp : st.queue.Perm ((i, .right) :: q'))
    (hh' : Heap st.arena.endCmp q') (hmin : ∀ y ∈ q', G.key (i, .right) ≤ G.key y) (np : ℕ) :
    ∃ st', sweepRight lib np { st with queue := q' } i = .ok st' ∧ Inv G Heap st' ∧ st'.queue = q' ∧ st'.arena.length = st.arena.length := by
  obtain ⟨l₁, l₂, t, _, _, _, h1, h2⟩ := step_right' hl hI hp hh' hmin np
  exact ⟨_, h1, h2, rfl, rfl⟩

/-- A left endpoint. -/
theorem step_left' {lib : Lib} (hl : lib.Lawful) (hh : HeapOk lib Heap) (hI : Inv G Heap st) {i : ℕ} (hp : st.queue.Perm ((i, .left) :: q'))
    (hh' : Heap st.arena.endCmp q') (hmin : ∀ y ∈ q', G.key (i, .left) ≤ G.key y) (np : ℕ) :
    ∃ l₁ l₂ arena', st.active = l₁ ++ l₂ ∧ Before G st.arena i l₁ l₂ ∧ After G st.arena arena' i ∧ Steps G st.arena i l₁ arena' ∧
      sweepLeft lib np { st with queue := q' } i = .ok ⟨arena', q', l₁ ++ i :: l₂, st.swept⟩ ∧ Inv G Heap ⟨arena', q', l₁ ++ i :: l₂, st.swept⟩ ∧
      (∀ j, j ∈ G.S → (j, .left) ∈ q' → dat arena' j = dat st.arena j) := by
  have mt := mem_tail hI.qnodup hp
  have hxq : (i, SegmentEnd.left) ∈ st.queue := hp.mem_iff.2 (by simp)
  have hi := hI.qmem _ hxq
  simp only at hi
  have hmin' : ∀ y ∈ st.queue, G.key (i, .left) ≤ G.key y := by
    intro y hy
    by_cases e : y = (i, .left)
    · rw [e]
    · exact hmin y ((mt y).2 ⟨hy, e⟩)
  have hrq : (i, SegmentEnd.right) ∈ st.queue := by
    by_contra hn
    exact absurd (hI.qup (i, .right) hi hn _ hxq) (not_lt.2 (left_lt_right hi).le)
  -- what passes just after i starts has started, and has not ended
  have hrest : ∀ j, G.Alive (G.tau i) j → (j, SegmentEnd.right) ∈ st.queue := by
    intro j hj
    by_contra hn
    have := time_le_of_key (x := (j, .right)) (y := (i, .left)) hj.1 hi (hI.qup (j, .right) hj.1 hn _ hxq).le
    have h2 := ((G.alive_tau hj.1).1 hj.2).2
    have this : G.b j ≤ G.a i := this
    linarith
  have hkey : ∀ j, G.Alive (G.tau i) j → G.Low (G.tau i) j i → G.key (j, .left) < G.key (i, .left) := by
    intro j hj hlow
    rcases lt_or_eq_of_le ((G.alive_tau hj.1).1 hj.2).1 with h | h
    · exact key_lt_of_time (x := (j, .left)) (y := (i, .left)) hj.1 hi h
    · have hpt : G.lp j = G.lp i := G.time_inj (x := (j, .left)) (y := (i, .left)) hj.1 hi h
      rcases hlow with hlow | ⟨hlow, hpl⟩
      · exact (key_iff (e := .left) hj.1 hi hpt).2 (Or.inl ((crs_left hj.1 hi hpt hj.2.1).2 hlow))
      · have hs := G.same_of_h hj.1 hi hj.2.1 hj.2.2 (alive_self hi).2.1.le (alive_self hi).2.2.le hlow
        exact (key_same .left hj.1 hi hs).2 hpl
  have hproc : ∀ j, G.Alive (G.tau i) j → G.Low (G.tau i) j i → (j, SegmentEnd.left) ∉ st.queue := by
    intro j hj hlow h
    exact absurd (hkey j hj hlow) (not_lt.2 (hmin' _ h))
  have halive : ∀ j ∈ st.active, G.Alive (G.tau i) j := by
    intro j hj
    obtain ⟨hjS, h1, h2⟩ := (hI.active j).1 hj
    refine ⟨hjS, (G.alive_tau hjS).2 ⟨?_, ?_⟩⟩
    · exact time_le_of_key (x := (j, .left)) (y := (i, .left)) hjS hi (hI.qup (j, .left) hjS h1 _ hxq).le
    · have h3 := time_le_of_key (x := (i, .left)) (y := (j, .right)) hi hjS (hmin' _ h2)
      refine lt_of_le_of_ne h3 fun e => ?_
      have hpt : G.pt (j, .right) = G.pt (i, .left) := (G.time_inj (x := (i, .left)) (y := (j, .right)) hi hjS e).symm
      exact absurd (key_right_left hpt) (not_lt.2 (hmin' _ h2))
  obtain ⟨t, hst⟩ := hI.stack
  have hst := hst.transfer halive
  have hia : i ∉ st.active := fun h => ((hI.active i).1 h).2.1 hxq
  obtain ⟨l₁, l₂, hact, hst'⟩ := hst.place (alive_self hi) hia
  have hsp := List.pairwise_append.1 hst'.sorted
  have hcomp : ∀ j, G.Alive (G.tau i) j → G.Low (G.tau i) j i → j ∈ l₁ := by
    intro j hj hlow
    have hja : j ∈ st.active := (hI.active j).2 ⟨hj.1, hproc j hj hlow, hrest j hj⟩
    rw [hact, List.mem_append] at hja
    rcases hja with h | h
    · exact h
    · exact absurd (hlow.trans ((List.pairwise_cons.1 hsp.2.1).1 j h)) Low.irrefl
  have hl1 : ∀ j ∈ l₁, j ∈ st.active := fun j hj => by rw [hact]; simp [hj]
  have hB : Before G st.arena i l₁ l₂ := by
    refine ⟨hI.has, hst', hcomp, hI.kept, hI.fresh i hi hxq, ?_, ?_, ?_, ?_⟩
    · intro j hj
      obtain ⟨a, b, _⟩ := (hI.active j).1 (hl1 j hj)
      exact hI.good j a b
    · intro j hj hmax
      obtain ⟨a, b, _⟩ := (hI.active j).1 (hl1 j hj)
      refine hI.inn j a b fun j' hj' hs hpl => ?_
      by_contra hn
      have hja := halive j (hl1 j hj)
      have hja' := hja.same hj' hs.symm
      have hlow : G.Low (G.tau i) j' i := by
        rcases hsp.2.2 j hj i (by simp) with h | ⟨h, _⟩
        · exact Or.inl (by rw [← hs.h]; exact h)
        · have hsi := G.same_of_h a hi hja.2.1 hja.2.2 (alive_self hi).2.1.le (alive_self hi).2.2.le h
          exact Or.inr ⟨by rw [← hs.h]; exact h, (key_same .left hj' hi (hs.symm.trans hsi)).1 (hI.qup _ hj' hn _ hxq)⟩
      exact absurd (hmax j' (hcomp j' hja' hlow) hs) (not_le.2 hpl)
    · rintro j hj ⟨j', hj', hs, hpl⟩
      obtain ⟨a, b, _⟩ := (hI.active j).1 (hl1 j hj)
      obtain ⟨a', b', _⟩ := (hI.active j').1 (hl1 j' hj')
      exact hI.out j a b ⟨j', a', hs, hpl, b'⟩
    · intro k hk hs
      have hkm : k ∈ l₂ := List.mem_of_head? hk
      obtain ⟨a, b, _⟩ := (hI.active k).1 (by rw [hact]; simp [hkm])
      have h1 := (key_same .left a hi hs.symm).1 (hI.qup _ a b _ hxq)
      have h2 := (List.pairwise_cons.1 hsp.2.1).1 k hkm
      exact Low.irrefl (h2.trans (Or.inr ⟨hs.symm.h _, h1⟩))
  obtain ⟨arena', hrun, hA, hS⟩ := sweepLeft_plan hl (st := { st with queue := q' }) hB hact np
  have hright : ∀ j, (j, SegmentEnd.right) ∈ q' ↔ (j, SegmentEnd.right) ∈ st.queue := fun j => by rw [mt]; simp
  have hleft : ∀ j, (j, SegmentEnd.left) ∈ q' ↔ (j, SegmentEnd.left) ∈ st.queue ∧ j ≠ i := fun j => by rw [mt]; simp
  have hall : ∀ j ∈ G.S, j ≠ i → (∃ _ : G.Under i j ∧ G.Same j i, Good G (dat arena' j) j ∧ Kept G (dat arena' j) j ∧ Out (dat arena' j)) ∨
      (¬ (G.Under i j ∧ G.Same j i) ∧ dat arena' j = dat st.arena j) := by
    intro j hj hji
    by_cases hc : G.Under i j ∧ G.Same j i
    · exact Or.inl ⟨hc, hA.under j hc.1 hc.2⟩
    · exact Or.inr ⟨hc, hA.rest j hji hc⟩
  refine ⟨l₁, l₂, arena', hact, hB, hA, hS, hrun, ?_, ?_⟩
  rotate_left
  · intro j hj hq
    obtain ⟨hq, e⟩ := (hleft j).1 hq
    rcases hall j hj e with ⟨⟨h1, h2⟩, _⟩ | ⟨_, h⟩
    · exact absurd hq (hproc j h1.alive h1.low)
    · exact h
  refine { has := hA.has, heap := heap_transfer hh hI.has hA.has (fun x hx => hI.qmem x ((mt x).1 hx).1) hh',
           qmem := fun x hx => hI.qmem x ((mt x).1 hx).1, qnodup := ?_, qup := ?_, active := ?_, stack := ⟨_, hst'⟩, swept := ?_,
           snodup := hI.snodup, kept := ?_, fresh := ?_, good := ?_, inn := ?_, out := ?_ }
  · exact (List.nodup_cons.1 (hp.nodup_iff.1 hI.qnodup)).2
  · intro x hx hxq' y hy
    by_cases hxe : x = (i, .left)
    · subst hxe
      refine lt_of_le_of_ne (hmin y hy) fun e => ?_
      have := key_inj hx (hI.qmem y ((mt y).1 hy).1) e
      exact ((mt y).1 hy).2 this.symm
    · exact hI.qup x hx (fun h => hxq' ((mt x).2 ⟨h, hxe⟩)) y ((mt y).1 hy).1
  · intro j
    dsimp only
    rw [hleft, hright, List.mem_append, List.mem_cons]
    have h0 := hI.active j
    rw [hact, List.mem_append] at h0
    by_cases e : j = i
    · subst e
      simp [hi, hrq]
    · constructor
      · intro h
        have := h0.1 (by tauto)
        tauto
      · intro h
        have := h0.2 (by tauto)
        tauto
  · intro j
    dsimp only
    rw [hright]; exact hI.swept j
  · intro j hj
    by_cases e : j = i
    · subst e; exact hA.kept
    · rcases hall j hj e with ⟨_, h⟩ | ⟨_, h⟩
      · exact h.2.1
      · show Kept G (dat arena' j) j
        rw [h]; exact hI.kept j hj
  · intro j hj hq
    obtain ⟨hq, e⟩ := (hleft j).1 hq
    rcases hall j hj e with ⟨⟨h1, h2⟩, _⟩ | ⟨_, h⟩
    · exact absurd hq (hproc j h1.alive h1.low)
    · show Fresh G (dat arena' j)
      rw [h]; exact hI.fresh j hj hq
  · intro j hj hq
    by_cases e : j = i
    · subst e; exact hA.good
    · have hq : (j, SegmentEnd.left) ∉ st.queue := fun h => hq ((hleft j).2 ⟨h, e⟩)
      rcases hall j hj e with ⟨_, h⟩ | ⟨_, h⟩
      · exact h.1
      · show Good G (dat arena' j) j
        rw [h]; exact hI.good j hj hq
  · intro j hj hq hmax
    by_cases e : j = i
    · subst e; exact hA.inn
    · have hq : (j, SegmentEnd.left) ∉ st.queue := fun h => hq ((hleft j).2 ⟨h, e⟩)
      rcases hall j hj e with ⟨⟨h1, h2⟩, _⟩ | ⟨_, h⟩
      · exact absurd rfl ((hleft i).1 (hmax i hi h2 (h1.poly_lt h2))).2
      · show In G (dat arena' j) j
        rw [h]
        exact hI.inn j hj hq fun j' hj' hs hpl => ((hleft j').1 (hmax j' hj' hs hpl)).1
  · rintro j hj hq ⟨j', hj', hs, hpl, hq'⟩
    by_cases e : j = i
    · subst e
      exfalso
      have hne : j' ≠ j := by rintro rfl; exact lt_irrefl _ hpl
      have hq' : (j', SegmentEnd.left) ∉ st.queue := fun h => hq' ((hleft j').2 ⟨h, hne⟩)
      have h1 := hI.qup _ hj' hq' _ hxq
      exact lt_asymm h1 ((key_same .left hj hj' hs).2 hpl)
    · have hq0 : (j, SegmentEnd.left) ∉ st.queue := fun h => hq ((hleft j).2 ⟨h, e⟩)
      rcases hall j hj e with ⟨_, h⟩ | ⟨hnu, h⟩
      · exact h.2.2
      · show Out (dat arena' j)
        rw [h]
        by_cases e' : j' = i
        · subst e'
          have hja := (alive_self hi).same hj hs
          have hjl : G.Low (G.tau j') j j' := Or.inr ⟨hs.h _, hpl⟩
          rcases G.exists_under j' with ⟨k, hk⟩ | hno
          · have hjk : j ≠ k := by rintro rfl; exact hnu ⟨hk, hs⟩
            have hlow : G.Low (G.tau j') j k := (hja.low_or hk.alive hjk).resolve_right (hk.max j hja hjl)
            have heq : G.h j (G.tau j') = G.h k (G.tau j') := by
              have := hs.h (G.tau j')
              rcases hlow with h1 | h1
              · rcases hk.low with h2 | h2
                · linarith
                · linarith [h2.1]
              · exact h1.1
            have hsk := G.same_of_h hj hk.alive.1 hja.2.1 hja.2.2 hk.alive.2.1.le hk.alive.2.2.le heq
            have hplk : G.poly j < G.poly k := by
              rcases hlow with h1 | h1
              · linarith
              · exact h1.2
            exact hI.out j hj hq0 ⟨k, hk.alive.1, hsk, hplk, hproc k hk.alive hk.low⟩
          · exact absurd hjl (hno j hja)
        · exact hI.out j hj hq0 ⟨j', hj', hs, hpl, fun h => hq' ((hleft j').2 ⟨h, e'⟩)⟩

theorem step_left {lib : Lib} (hl : lib.Lawful) (hh : HeapOk lib Heap) (hI : Inv G Heap st) {i : ℕ} (hp : st.queue.Perm ((i, .left) :: q'))
    (hh' : Heap st.arena.endCmp q') (hmin : ∀ y ∈ q', G.key (i, .left) ≤ G.key y) (np : ℕ) :
    ∃ st', sweepLeft lib np { st with queue := q' } i = .ok st' ∧ Inv G Heap st' ∧ st'.queue = q' ∧ st'.arena.length = st.arena.length := by
  obtain ⟨l₁, l₂, arena', _, _, hA, _, h1, h2, _⟩ := step_left' hl hh hI hp hh' hmin np
  exact ⟨_, h1, h2, rfl, hA.length⟩

end step

/-- The whole sweep: it ends, and all segments have their flags. -/
theorem sweep_plan {lib : Lib} (hl : lib.Lawful) {Heap} (hh : HeapOk lib Heap) (np : ℕ) : ∀ (k : ℕ) {st : SweepState ℝ}, Inv G Heap st → st.queue.length = k →
    ∃ st', Inv G Heap st' ∧ st'.queue = [] ∧ st'.arena.length = st.arena.length ∧ ∀ fuel, k < fuel → sweepLoop lib np fuel st = .ok st'
  | 0, st, hI, hk => by
    have hq := List.length_eq_zero_iff.1 hk
    refine ⟨st, hI, hq, rfl, ?_⟩
    intro fuel hf
    obtain ⟨f, rfl⟩ : ∃ f, fuel = f + 1 := ⟨fuel - 1, by omega⟩
    unfold sweepLoop
    rw [hq, hh.pop_nil]
    rfl
  | k + 1, st, hI, hk => by
    obtain ⟨⟨i, e⟩, q', h1, h2, h3, h4⟩ := pop_plan hh hI.has hI.qmem (by intro h; rw [h] at hk; simp at hk) hI.heap
    have hstep : ∃ st', sweepEnd lib np { st with queue := q' } i e = .ok st' ∧ Inv G Heap st' ∧ st'.queue = q' ∧ st'.arena.length = st.arena.length := by
      cases e
      · exact step_left hl hh hI h2 h3 h4 np
      · exact step_right hl hI h2 h3 h4 np
    obtain ⟨st1, r1, hI1, q1, len1⟩ := hstep
    obtain ⟨st', hI', hq', len', hr'⟩ := sweep_plan hl hh np k hI1 (by
      rw [q1]
      have := h2.length_eq
      simp only [List.length_cons] at this
      omega)
    refine ⟨st', hI', hq', len'.trans len1, ?_⟩
    intro fuel hf
    obtain ⟨f, rfl⟩ : ∃ f, fuel = f + 1 := ⟨fuel - 1, by omega⟩
    unfold sweepLoop
    rw [h1]
    simp only [Res.bind_ok]
    rw [r1]
    simp only [Res.bind_ok]
    exact hr' f (by omega)

end Plan

end Idc
