import Verif.Props.TidyCorner
/-!
# One corner of the sweep over a net, for C76
-/

namespace Idc

open Net

variable {G : Net}

/-! ### The heap -/

/-- What the heap of endpoints does. -/
structure HeapOk (lib : Lib) (Heap : (EndId → EndId → Res Ordering) → List EndId → Prop) : Prop where
  nil : ∀ cmp, Heap cmp []
  congr : ∀ (cmp cmp' : EndId → EndId → Res Ordering) (l : List EndId), (∀ a ∈ l, ∀ b ∈ l, cmp a b = cmp' a b) → Heap cmp l → Heap cmp' l
  push : ∀ (cmp : EndId → EndId → Res Ordering) (x : EndId) (l : List EndId), TotalPreorderOn (· ∈ x :: l) cmp → Heap cmp l →
    ∃ l', lib.heapPush cmp x l = .ok l' ∧ l'.Perm (x :: l) ∧ Heap cmp l'
  pop_nil : ∀ cmp : EndId → EndId → Res Ordering, lib.heapPop cmp [] = .ok none
  pop : ∀ (cmp : EndId → EndId → Res Ordering) (l : List EndId), l ≠ [] → TotalPreorderOn (· ∈ l) cmp → Heap cmp l →
    ∃ x l', lib.heapPop cmp l = .ok (some (x, l')) ∧ l.Perm (x :: l') ∧ Heap cmp l' ∧ ∀ y ∈ l', cmp x y ≠ .ok .gt

theorem Lib.Lawful.heapOk {lib : Lib} (h : lib.Lawful) : ∃ Heap, HeapOk lib Heap := by
  obtain ⟨Heap, h1, h2, h3, h4, h5⟩ := h.heap
  exact ⟨fun c l => Heap c l, fun c => h1 c, fun c c' l => h2 c c' l, fun c x l => h3 c x l, fun c => h4 c, fun c l => h5 c l⟩

/-- Popping from a queue of endpoints of the net. -/
theorem HeapOk.pop_net {lib : Lib} {Heap} (hh : HeapOk lib Heap) {arena : Arena ℝ} (ha : G.Has arena) {q : List EndId} (hq : ∀ x ∈ q, x.1 < G.N) (hne : q ≠ [])
    (hheap : Heap arena.endCmp q) : ∃ x q', lib.heapPop arena.endCmp q = .ok (some (x, q')) ∧ q.Perm (x :: q') ∧ Heap arena.endCmp q' ∧
      ∀ y ∈ q', G.key x ≤ G.key y := by
  obtain ⟨x, q', h1, h2, h3, h4⟩ := hh.pop arena.endCmp q hne (endCmp_total ha hq) hheap
  refine ⟨x, q', h1, h2, h3, fun y hy => ?_⟩
  have hx : x.1 < G.N := hq x (h2.mem_iff.2 (by simp))
  have hy' : y.1 < G.N := hq y (h2.mem_iff.2 (by simp [hy]))
  have := h4 y hy
  rw [endCmp_key ha hx hy'] at this
  by_contra hn
  rw [not_le] at hn
  exact this (by rw [compare_gt_iff_gt.2 hn])

theorem HeapOk.transfer {lib : Lib} {Heap} (hh : HeapOk lib Heap) {arena arena' : Arena ℝ} (ha : G.Has arena) (ha' : G.Has arena') {q : List EndId}
    (hq : ∀ x ∈ q, x.1 < G.N) (hheap : Heap arena.endCmp q) : Heap arena'.endCmp q :=
  hh.congr _ _ q (fun a h b h' => by rw [endCmp_key ha (hq a h) (hq b h'), endCmp_key ha' (hq a h) (hq b h')]) hheap

/-! ### The stack at a corner -/

/-- The segments on the sweep line just before a corner: below it, ending there, above it. -/
structure AtCorner (G : Net) (t T t' : ℝ) (y : ℝ) (l₁ m l₂ : List Nat) : Prop where
  stack : Stack G t (l₁ ++ m ++ l₂)
  low : ∀ k ∈ l₁, G.h k T < y ∧ t' < G.b k
  high : ∀ k ∈ l₂, y < G.h k T ∧ t' < G.b k
  mid : ∀ k, k ∈ m ↔ k < G.N ∧ G.b k = T

theorem Inv.atCorner {Heap : (EndId → EndId → Res Ordering) → List EndId → Prop} {t t' : ℝ} {st : SweepState ℝ} (h : Inv G Heap t st) {x : EndId} (hx : x.1 < G.N)
    (htT : t < G.time (G.pt x)) (hmin : ∀ z : EndId, z.1 < G.N → t < G.time (G.pt z) → G.time (G.pt x) ≤ G.time (G.pt z))
    (hgap : ∀ z : EndId, z.1 < G.N → G.time (G.pt x) < G.time (G.pt z) → t' < G.time (G.pt z)) :
    ∃ l₁ m l₂, st.active = l₁ ++ m ++ l₂ ∧ AtCorner G t (G.time (G.pt x)) t' (G.pt x).y l₁ m l₂ := by
  set T := G.time (G.pt x) with hT
  have hb : ∀ k ∈ st.active, T ≤ G.b k := fun k hk => hmin (k, .right) (h.stack.alive k hk).1 (h.stack.alive k hk).2.2
  have hle : st.active.Pairwise fun i j => G.h i T ≤ G.h j T := by
    have := h.stack.sorted
    refine List.Pairwise.imp_of_mem ?_ this
    intro i j hi hj hlt
    obtain ⟨i0, i1, i2⟩ := h.stack.alive i hi
    obtain ⟨j0, j1, j2⟩ := h.stack.alive j hj
    have hne : i ≠ j := by rintro rfl; exact lt_irrefl _ hlt
    exact G.order_const i0 j0 hne i1.le i2.le j1.le j2.le (by linarith) (hb i hi) (by linarith) (hb j hj) hlt
  obtain ⟨l₁, m, l₂, e, h1, h2, h3⟩ := classify (fun i => G.h i T) (G.pt x).y st.active hle
  have hend : ∀ k < G.N, G.b k = T → G.rp k = G.pt x := fun k hk hb => G.time_inj (x := (k, .right)) (y := x) hk hx hb
  have hendy : ∀ k < G.N, G.b k = T → G.h k T = (G.pt x).y := by
    intro k hk hbk
    rw [← hend k hk hbk, ← hbk]
    exact G.h_right hk
  refine ⟨l₁, m, l₂, e, e ▸ h.stack, ?_, ?_, ?_⟩
  · intro k hk
    have hka : k ∈ st.active := by rw [e]; simp [hk]
    have hkN := (h.stack.alive k hka).1
    refine ⟨h1 k hk, hgap (k, .right) hkN (lt_of_le_of_ne (hb k hka) ?_)⟩
    intro he
    have := hendy k hkN he.symm
    have := h1 k hk
    linarith
  · intro k hk
    have hka : k ∈ st.active := by rw [e]; simp [hk]
    have hkN := (h.stack.alive k hka).1
    refine ⟨h3 k hk, hgap (k, .right) hkN (lt_of_le_of_ne (hb k hka) ?_)⟩
    intro he
    have := hendy k hkN he.symm
    have := h3 k hk
    linarith
  · intro k
    constructor
    · intro hk
      have hka : k ∈ st.active := by rw [e]; simp [hk]
      obtain ⟨k0, k1, k2⟩ := h.stack.alive k hka
      refine ⟨k0, ?_⟩
      by_cases hkx : k = x.1
      · obtain ⟨i, s⟩ := x
        subst hkx
        cases s
        · have : t < G.a k := htT
          linarith
        · rfl
      · -- the corner is on k
        have hxs : OnSegment (G.lp x.1, G.rp x.1) (G.pt x) := by
          obtain ⟨i, s⟩ := x
          cases s
          · exact onSegment_left (G.lp i, G.rp i)
          · exact onSegment_right (G.lp i, G.rp i)
        have hks := G.at_on k0 (t := T) (by linarith) (hb k hka)
        have hat : G.at_ k T = G.pt x := by
          have hy := h2 k hk
          refine pt_ext ?_ hy
          show T - G.eps * G.h k T = _
          have hy : G.h k T = (G.pt x).y := hy
          rw [hy, hT]
          unfold Net.time shearX
          ring
        rw [hat] at hks
        have := (G.apart k k0 x.1 hx hkx (G.pt x) ⟨hks, hxs⟩).1
        rcases this with e | e
        · have e : G.pt x = G.lp k := e
          have : T = G.a k := by rw [hT, e]; rfl
          linarith
        · have e : G.pt x = G.rp k := e
          show G.b k = T
          rw [hT, e]; rfl
    · rintro ⟨k0, k1⟩
      have hka : k ∈ st.active := by
        refine h.active_mem k k0 ?_ (by linarith)
        have hlt := G.a_lt_b k0
        by_contra hn
        rw [not_lt] at hn
        rcases lt_or_eq_of_le hn with hn | hn
        · have := hmin (k, .left) k0 hn
          have : T ≤ G.a k := this
          linarith
        · exact h.notime (k, .left) k0 hn.symm
      rw [e, List.mem_append, List.mem_append] at hka
      have := hendy k k0 k1
      rcases hka with (hk | hk) | hk
      · have := h1 k hk; linarith
      · exact hk
      · have := h3 k hk; linarith

/-- The stack after the corner: what ended is replaced with what starts. -/
theorem AtCorner.after {t T t' y : ℝ} {l₁ m l₂ : List Nat} (h : AtCorner G t T t' y l₁ m l₂) (htT : t < T) (hTt : T < t') {r : List Nat}
    (hr : ∀ k ∈ r, k < G.N ∧ G.a k = T ∧ (G.lp k).y = y ∧ t' < G.b k) (hsort : r.Pairwise fun i j => G.h i t' < G.h j t') : Stack G t' (l₁ ++ r ++ l₂) := by
  have a1 : ∀ k ∈ l₁, k < G.N ∧ G.a k < t ∧ t' < G.b k := fun k hk =>
    ⟨(h.stack.alive k (by simp [hk])).1, (h.stack.alive k (by simp [hk])).2.1, (h.low k hk).2⟩
  have a2 : ∀ k ∈ l₂, k < G.N ∧ G.a k < t ∧ t' < G.b k := fun k hk =>
    ⟨(h.stack.alive k (by simp [hk])).1, (h.stack.alive k (by simp [hk])).2.1, (h.high k hk).2⟩
  have lift : ∀ i j, i < G.N ∧ G.a i < t ∧ t' < G.b i → j < G.N ∧ G.a j < t ∧ t' < G.b j → G.h i t < G.h j t → G.h i t' < G.h j t' := by
    rintro i j ⟨i0, i1, i2⟩ ⟨j0, j1, j2⟩ hlt
    have hne : i ≠ j := by rintro rfl; exact lt_irrefl _ hlt
    exact order_lift i0 j0 hne (by linarith) (by linarith) (by linarith) (by linarith) (by linarith) i2 (by linarith) j2 hlt
  have hh : ∀ k ∈ r, G.h k T = y := fun k hk => by
    obtain ⟨_, k1, k2, _⟩ := hr k hk
    rw [← k1, G.h_left, k2]
  have hs := List.pairwise_append.1 h.stack.sorted
  have hs1 := List.pairwise_append.1 hs.1
  constructor
  · intro k hk
    rw [List.mem_append, List.mem_append] at hk
    rcases hk with (hk | hk) | hk
    · obtain ⟨k0, k1, k2⟩ := a1 k hk
      exact ⟨k0, by linarith, k2⟩
    · obtain ⟨k0, k1, _, k2⟩ := hr k hk
      exact ⟨k0, by linarith, k2⟩
    · obtain ⟨k0, k1, k2⟩ := a2 k hk
      exact ⟨k0, by linarith, k2⟩
  · rw [List.pairwise_append, List.pairwise_append]
    refine ⟨⟨?_, hsort, ?_⟩, ?_, ?_⟩
    · exact List.Pairwise.imp_of_mem (fun {i j} hi hj hlt => lift i j (a1 i hi) (a1 j hj) hlt) hs1.1
    · intro i hi j hj
      obtain ⟨i0, i1, i2⟩ := a1 i hi
      obtain ⟨j0, j1, j2, j3⟩ := hr j hj
      have hlt : G.h i T < G.h j T := by rw [hh j hj]; exact (h.low i hi).1
      have hne : i ≠ j := by rintro rfl; exact lt_irrefl _ hlt
      exact order_lift i0 j0 hne (by linarith) (by linarith) (by linarith) (by linarith) (by linarith) i2 (by linarith) j3 hlt
    · exact List.Pairwise.imp_of_mem (fun {i j} hi hj hlt => lift i j (a2 i hi) (a2 j hj) hlt) hs.2.1
    · intro i hi j hj
      rw [List.mem_append] at hi
      rcases hi with hi | hi
      · exact lift i j (a1 i hi) (a2 j hj) (hs.2.2 i (by simp [hi]) j hj)
      · obtain ⟨j0, j1, j2⟩ := a2 j hj
        obtain ⟨i0, i1, i2, i3⟩ := hr i hi
        have hlt : G.h i T < G.h j T := by rw [hh i hi]; exact (h.high j hj).1
        have hne : i ≠ j := by rintro rfl; exact lt_irrefl _ hlt
        exact order_lift i0 j0 hne (by linarith) (by linarith) (by linarith) (by linarith) (by linarith) i3 (by linarith) j2 hlt

end Idc
