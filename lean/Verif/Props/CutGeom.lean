import Verif.Props.PlanLoop
/-!
# Edges cut into pieces where they meet others, for C84

The pieces are the segments of a plan.  Some of them, end to end, make up one edge; where two pieces of an edge meet, another
edge comes from the left, or one starts that is not above.
-/

namespace Idc

/-- The pieces of a plan make up edges. -/
structure Cut (G : Plan) where
  own : ℕ → ℕ
  line : ∀ i ∈ G.S, ∀ j ∈ G.S, own i = own j → ∀ t, G.h i t = G.h j t
  poly : ∀ i ∈ G.S, ∀ j ∈ G.S, own i = own j → G.poly i = G.poly j
  next : ∀ i ∈ G.S, ∀ j ∈ G.S, own i = own j → G.a i < G.a j → ∃ m ∈ G.S, own m = own i ∧ G.lp m = G.rp i
  prev : ∀ i ∈ G.S, ∀ j ∈ G.S, own i = own j → G.a i < G.a j → ∃ m ∈ G.S, own m = own j ∧ G.rp m = G.lp j
  arrive : ∀ i ∈ G.S, ∀ m ∈ G.S, own i = own m → G.rp i = G.lp m → (∃ j ∈ G.S, j ≠ i ∧ G.rp j = G.rp i) ∨
    ∃ n ∈ G.S, n ≠ m ∧ G.lp n = G.lp m ∧ (G.key (n, .left) < G.key (m, .left) ∨ G.Same m n)
  alone : ∀ i ∈ G.S, ∀ m ∈ G.S, own i = own m → G.rp i = G.lp m → ∀ i' ∈ G.S, ∀ m' ∈ G.S, own i' = own m' → G.rp i' = G.lp m' → G.rp i = G.rp i' →
    (∀ t, G.h i t = G.h i' t) → i = i'

namespace Cut

variable {G : Plan} (C : Cut G)

/-- The second piece continues the first, or is further along, or is the same. -/
structure Run (k l : ℕ) : Prop where
  left : k ∈ G.S
  right : l ∈ G.S
  own : C.own k = C.own l
  le : G.a k ≤ G.a l

/-- Two pieces of an edge that meet. -/
structure Joint (k m : ℕ) : Prop where
  left : k ∈ G.S
  right : m ∈ G.S
  own : C.own k = C.own m
  meet : G.rp k = G.lp m

variable {C}

theorem b_at {k l : ℕ} (hk : k ∈ G.S) (hl : l ∈ G.S) (h : C.own k = C.own l) : G.rp l = G.at_ k (G.b l) := by
  refine G.pt_eq_of (G.time_at _ _).symm ?_
  show _ = G.h k (G.b l)
  rw [C.line k hk l hl h, G.h_right hl]

theorem a_at {k l : ℕ} (hk : k ∈ G.S) (hl : l ∈ G.S) (h : C.own k = C.own l) : G.lp l = G.at_ k (G.a l) := by
  refine G.pt_eq_of (G.time_at _ _).symm ?_
  show _ = G.h k (G.a l)
  rw [C.line k hk l hl h, G.h_left]

/-- Pieces of one edge do not overlap. -/
theorem disjoint {i j : ℕ} (hi : i ∈ G.S) (hj : j ∈ G.S) (h : C.own i = C.own j) (hij : i ≠ j) : G.b i ≤ G.a j ∨ G.b j ≤ G.a i := by
  by_contra hn
  push Not at hn
  have h1 := G.a_lt_b hi
  have h2 := G.a_lt_b hj
  have l1 := le_max_left (G.a i) (G.a j)
  have l2 := le_max_right (G.a i) (G.a j)
  have l3 := min_le_left (G.b i) (G.b j)
  have l4 := min_le_right (G.b i) (G.b j)
  have l5 : Max.max (G.a i) (G.a j) < Min.min (G.b i) (G.b j) := max_lt (lt_min h1 hn.2) (lt_min hn.1 h2)
  have hs := G.same_of_h hi hj (t := (Max.max (G.a i) (G.a j) + Min.min (G.b i) (G.b j)) / 2) (by linarith) (by linarith) (by linarith) (by linarith)
    (C.line i hi j hj h _)
  exact G.poly_ne hi hj hij hs (C.poly i hi j hj h)

theorem eq_of_a {i j : ℕ} (hi : i ∈ G.S) (hj : j ∈ G.S) (h : C.own i = C.own j) (ha : G.a i = G.a j) : i = j := by
  by_contra hn
  have h1 := G.a_lt_b hi
  have h2 := G.a_lt_b hj
  rcases disjoint hi hj h hn with h | h <;> linarith

theorem eq_of_b {i j : ℕ} (hi : i ∈ G.S) (hj : j ∈ G.S) (h : C.own i = C.own j) (ha : G.b i = G.b j) : i = j := by
  by_contra hn
  have h1 := G.a_lt_b hi
  have h2 := G.a_lt_b hj
  rcases disjoint hi hj h hn with h | h <;> linarith

theorem b_le_a {i j : ℕ} (hi : i ∈ G.S) (hj : j ∈ G.S) (h : C.own i = C.own j) (ha : G.a i < G.a j) : G.b i ≤ G.a j := by
  have h2 := G.a_lt_b hj
  rcases disjoint hi hj h (by rintro rfl; exact lt_irrefl _ ha) with h | h
  · exact h
  · linarith

theorem b_le_b {i j : ℕ} (hi : i ∈ G.S) (hj : j ∈ G.S) (h : C.own i = C.own j) (ha : G.a i ≤ G.a j) : G.b i ≤ G.b j := by
  rcases lt_or_eq_of_le ha with ha | ha
  · exact (b_le_a hi hj h ha).trans (G.a_lt_b hj).le
  · rw [eq_of_a hi hj h ha]

theorem Run.b_le {k l : ℕ} (h : C.Run k l) : G.b k ≤ G.b l := b_le_b h.left h.right h.own h.le

theorem Run.lt {k l : ℕ} (h : C.Run k l) : G.a k < G.b l := lt_of_lt_of_le (G.a_lt_b h.left) h.b_le

theorem Run.refl {k : ℕ} (h : k ∈ G.S) : C.Run k k := ⟨h, h, rfl, le_rfl⟩

theorem Joint.time {k m : ℕ} (h : C.Joint k m) : G.b k = G.a m := congrArg G.time h.meet

theorem Joint.lt {k m : ℕ} (h : C.Joint k m) : G.a k < G.a m := by rw [← h.time]; exact G.a_lt_b h.left

theorem Joint.unique_left {k k' m : ℕ} (h : C.Joint k m) (h' : C.Joint k' m) : k = k' :=
  eq_of_b h.left h'.left (h.own.trans h'.own.symm) (by rw [h.time, h'.time])

theorem Joint.unique_right {k m m' : ℕ} (h : C.Joint k m) (h' : C.Joint k m') : m = m' :=
  eq_of_a h.right h'.right (h.own.symm.trans h'.own) (by rw [← h.time, ← h'.time])

/-- Nothing of the edge is between. -/
theorem Joint.le_or {k m j : ℕ} (h : C.Joint k m) (hj : j ∈ G.S) (ho : C.own j = C.own k) : G.a j ≤ G.a k ∨ G.a m ≤ G.a j := by
  by_contra hn
  push Not at hn
  have := b_le_a h.left hj ho.symm hn.1
  rw [h.time] at this
  linarith

theorem exists_next {k l : ℕ} (h : C.Run k l) (hne : k ≠ l) : ∃ m, C.Joint k m ∧ C.Run m l := by
  have hlt : G.a k < G.a l := lt_of_le_of_ne h.le fun e => hne (eq_of_a h.left h.right h.own e)
  obtain ⟨m, hm, ho, he⟩ := C.next k h.left l h.right h.own hlt
  have hj : C.Joint k m := ⟨h.left, hm, ho.symm, he.symm⟩
  exact ⟨m, hj, hm, h.right, ho.trans h.own, by rw [← hj.time]; exact b_le_a h.left h.right h.own hlt⟩

theorem exists_prev {k l : ℕ} (h : C.Run k l) (hne : k ≠ l) : ∃ m, C.Joint m l ∧ C.Run k m := by
  have hlt : G.a k < G.a l := lt_of_le_of_ne h.le fun e => hne (eq_of_a h.left h.right h.own e)
  obtain ⟨m, hm, ho, he⟩ := C.prev k h.left l h.right h.own hlt
  have hj : C.Joint m l := ⟨hm, h.right, ho, he⟩
  refine ⟨m, hj, h.left, hm, h.own.trans ho.symm, ?_⟩
  rcases hj.le_or h.left (h.own.trans ho.symm) with h1 | h1
  · exact h1
  · linarith

/-- What happens where two pieces of an edge meet: another edge comes from the left, or starts there and is not above. -/
theorem Joint.arrive {k m : ℕ} (h : C.Joint k m) : (∃ j ∈ G.S, j ≠ k ∧ G.rp j = G.rp k) ∨
    ∃ n ∈ G.S, n ≠ m ∧ G.lp n = G.lp m ∧ (G.key (n, .left) < G.key (m, .left) ∨ G.Same m n) := C.arrive k h.left m h.right h.own h.meet

/-- Of edges along one line, only one goes on at a point. -/
theorem Joint.alone {k m k' m' : ℕ} (h : C.Joint k m) (h' : C.Joint k' m') (he : G.rp k = G.rp k') (hh : ∀ t, G.h k t = G.h k' t) : k = k' :=
  C.alone k h.left m h.right h.own h.meet k' h'.left m' h'.right h'.own h'.meet he hh

theorem Joint.not_same {k m k' m' : ℕ} (h : C.Joint k m) (h' : C.Joint k' m') (hne : k ≠ k') : ¬ G.Same k k' := fun hs => hne (h.alone h' hs.2 hs.h)

theorem Joint.not_same' {k m k' m' : ℕ} (h : C.Joint k m) (h' : C.Joint k' m') (hne : m ≠ m') : ¬ G.Same m m' := fun hs => by
  have e : k = k' := by
    refine h.alone h' (h.meet.trans (hs.1.trans h'.meet.symm)) fun t => ?_
    rw [C.line k h.left m h.right h.own, C.line k' h'.left m' h'.right h'.own, hs.h]
  subst e
  exact hne (h.unique_right h')

/-- At each time a run passes the sweep line with one of its pieces. -/
theorem Run.piece {k l : ℕ} (h : C.Run k l) {t : ℝ} (h1 : G.a k ≤ t) (h2 : t ≤ G.b l) : ∃ m, C.Run k m ∧ C.Run m l ∧ G.a m ≤ t ∧ t ≤ G.b m := by
  classical
  have hne : (G.S.filter fun m => C.Run k m ∧ C.Run m l ∧ G.a m ≤ t).Nonempty := ⟨k, Finset.mem_filter.2 ⟨h.left, Run.refl h.left, h, h1⟩⟩
  obtain ⟨m, hm, hmax⟩ := Finset.exists_max_image _ G.a hne
  obtain ⟨hmS, r1, r2, hmt⟩ := Finset.mem_filter.1 hm
  refine ⟨m, r1, r2, hmt, ?_⟩
  by_contra hn
  rw [not_le] at hn
  have hml : m ≠ l := by rintro rfl; linarith
  obtain ⟨m', hj, r⟩ := exists_next r2 hml
  have := hmax m' (Finset.mem_filter.2 ⟨hj.right, ⟨r1.left, hj.right, r1.own.trans hj.own, r1.le.trans hj.lt.le⟩, r, by rw [← hj.time]; exact hn.le⟩)
  exact absurd hj.lt (not_lt.2 this)

/-! ### Points of a run -/

theorem Run.on {k l : ℕ} (h : C.Run k l) {q : Pt ℝ} (hq : OnSegment (G.lp k, G.rp l) q) :
    G.a k ≤ G.time q ∧ G.time q ≤ G.b l ∧ q.y = G.h k (G.time q) := by
  obtain ⟨u, u0, u1, hx, hy⟩ := hq
  dsimp only at hx hy
  have hlt := h.lt
  have ht : G.time q = G.a k + u * (G.b l - G.a k) := by
    unfold Plan.a Plan.b Plan.time shearX
    rw [hx, hy]; ring
  refine ⟨?_, ?_, ?_⟩
  · rw [ht]; nlinarith
  · rw [ht]; nlinarith
  · obtain ⟨m, c, hm⟩ := G.h_linear k
    have e1 : (G.lp k).y = m * G.a k + c := by rw [← hm, G.h_left]
    have e2 : (G.rp l).y = m * G.b l + c := by rw [← hm, C.line k h.left l h.right h.own, G.h_right h.right]
    rw [hy, e1, e2, hm, ht]
    ring

theorem on_of {k l : ℕ} (h : C.Run k l) {q : Pt ℝ} (h1 : G.a k ≤ G.time q) (h2 : G.time q ≤ G.b l) (h3 : q.y = G.h k (G.time q)) :
    OnSegment (G.lp k, G.rp l) q := by
  have hlt := h.lt
  have hd : G.b l - G.a k ≠ 0 := by linarith
  obtain ⟨m, c, hm⟩ := G.h_linear k
  have e1 : (G.lp k).y = m * G.a k + c := by rw [← hm, G.h_left]
  have e2 : (G.rp l).y = m * G.b l + c := by rw [← hm, C.line k h.left l h.right h.own, G.h_right h.right]
  have x1 : (G.lp k).x = G.a k - G.eps * (G.lp k).y := by unfold Plan.a Plan.time shearX; ring
  have x2 : (G.rp l).x = G.b l - G.eps * (G.rp l).y := by unfold Plan.b Plan.time shearX; ring
  have x3 : q.x = G.time q - G.eps * q.y := by unfold Plan.time shearX; ring
  refine ⟨(G.time q - G.a k) / (G.b l - G.a k), div_nonneg (by linarith) (by linarith), (div_le_one (by linarith)).2 (by linarith), ?_, ?_⟩
  · dsimp only
    rw [x1, x2, x3, h3, hm, e1, e2]
    field_simp
    ring
  · dsimp only
    rw [h3, hm, e1, e2]
    field_simp
    ring

/-- The direction of a run is that of its first piece. -/
theorem Run.dir {k l : ℕ} (h : C.Run k l) : ∃ r : ℝ, 0 < r ∧ (G.rp l).x - (G.lp k).x = r * ((G.rp k).x - (G.lp k).x) ∧
    (G.rp l).y - (G.lp k).y = r * ((G.rp k).y - (G.lp k).y) := by
  have hlt := h.lt
  have h0 := G.a_lt_b h.left
  have hd : G.b k - G.a k ≠ 0 := by linarith
  obtain ⟨m, c, hm⟩ := G.h_linear k
  have e1 : (G.lp k).y = m * G.a k + c := by rw [← hm, G.h_left]
  have e2 : (G.rp l).y = m * G.b l + c := by rw [← hm, C.line k h.left l h.right h.own, G.h_right h.right]
  have e3 : (G.rp k).y = m * G.b k + c := by rw [← hm, G.h_right h.left]
  have x1 : (G.lp k).x = G.a k - G.eps * (G.lp k).y := by unfold Plan.a Plan.time shearX; ring
  have x2 : (G.rp l).x = G.b l - G.eps * (G.rp l).y := by unfold Plan.b Plan.time shearX; ring
  have x3 : (G.rp k).x = G.b k - G.eps * (G.rp k).y := by unfold Plan.b Plan.time shearX; ring
  refine ⟨(G.b l - G.a k) / (G.b k - G.a k), div_pos (by linarith) (by linarith), ?_, ?_⟩
  · rw [x1, x2, x3, e1, e2, e3]
    field_simp
    ring
  · rw [e1, e2, e3]
    field_simp
    ring

/-- Likewise of its last. -/
theorem Run.dir' {k l : ℕ} (h : C.Run k l) : ∃ r : ℝ, 0 < r ∧ (G.rp l).x - (G.lp k).x = r * ((G.rp l).x - (G.lp l).x) ∧
    (G.rp l).y - (G.lp k).y = r * ((G.rp l).y - (G.lp l).y) := by
  have hlt := h.lt
  have h0 := G.a_lt_b h.right
  have hd : G.b l - G.a l ≠ 0 := by linarith
  obtain ⟨m, c, hm⟩ := G.h_linear l
  have e1 : (G.lp k).y = m * G.a k + c := by rw [← hm, ← C.line k h.left l h.right h.own, G.h_left]
  have e2 : (G.rp l).y = m * G.b l + c := by rw [← hm, G.h_right h.right]
  have e3 : (G.lp l).y = m * G.a l + c := by rw [← hm, G.h_left]
  have x1 : (G.lp k).x = G.a k - G.eps * (G.lp k).y := by unfold Plan.a Plan.time shearX; ring
  have x2 : (G.rp l).x = G.b l - G.eps * (G.rp l).y := by unfold Plan.b Plan.time shearX; ring
  have x3 : (G.lp l).x = G.a l - G.eps * (G.lp l).y := by unfold Plan.a Plan.time shearX; ring
  refine ⟨(G.b l - G.a k) / (G.b l - G.a l), div_pos (by linarith) (by linarith), ?_, ?_⟩
  · rw [x1, x2, x3, e1, e2, e3]
    field_simp
    ring
  · rw [e1, e2, e3]
    field_simp
    ring

theorem Run.leftOf {k l : ℕ} (h : C.Run k l) : LeftOf (G.lp k) (G.rp l) := by
  obtain ⟨r, hr, hx, hy⟩ := h.dir
  rcases G.wf k h.left with h1 | ⟨h1, h2⟩
  · left
    have : 0 < r * ((G.rp k).x - (G.lp k).x) := mul_pos hr (by linarith)
    linarith
  · right
    have : 0 < r * ((G.rp k).y - (G.lp k).y) := mul_pos hr (by linarith)
    rw [h1, sub_self, mul_zero] at hx
    constructor <;> linarith

end Cut

end Idc
