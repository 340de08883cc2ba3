import Verif.Props.TidySweep
/-!
# The sweep over a net, corner by corner, for C76
-/

namespace Idc

open Net

variable {G : Net}

/-- The flags of the side of a segment that an endpoint stands for. -/
def sideFlags (arena : Arena ℝ) (x : EndId) : List Bool := (dat arena x.1).faces x.2

/-- What holds of the packets at time `t`. -/
structure Packets (G : Net) (t : ℝ) (arena : Arena ℝ) : Prop where
  kept : ∀ i < G.N, Kept G (dat arena i) i
  fresh : ∀ i < G.N, t < G.a i → Fresh' G (dat arena i)
  started : ∀ i < G.N, G.a i < t → Started G (dat arena i) i
  corner : ∀ x : EndId, x.1 < G.N → G.time (G.pt x) < t → sideFlags arena (G.mate x) = sideFlags arena (opp x)
  below : ∀ i < G.N, G.a i < t → ∀ k, (dat arena i).below_in_result = some k → k < G.N ∧
    (dat arena k).left_faces_polygons = (dat arena i).right_faces_polygons ∧ G.key (k, .left) < G.key (i, .left)
  base : ∀ i < G.N, G.a i < t → (G.mate (i, .left)).2 = .left → G.key (i, .left) < G.key (G.mate (i, .left)) →
    ∃ l : List Nat, l.Nodup ∧ (∀ k, k ∈ l ↔ k < G.N ∧ G.a k < G.a i ∧ G.a i < G.b k ∧ G.h k (G.a i) < (G.lp i).y) ∧
      (dat arena i).right_faces_polygons = above G l (noFlags G) ∧ (dat arena i).below_in_result = l.getLast? ∧
      l.Pairwise fun k k' => G.h k (G.a i) < G.h k' (G.a i)

/-- What holds between two corners. -/
structure Inv (G : Net) (Heap : (EndId → EndId → Res Ordering) → List EndId → Prop) (t : ℝ) (st : SweepState ℝ) : Prop where
  has : G.Has st.arena
  queue_mem : ∀ x, x ∈ st.queue ↔ x.1 < G.N ∧ t < G.time (G.pt x)
  queue_nodup : st.queue.Nodup
  heap : Heap st.arena.endCmp st.queue
  notime : ∀ x : EndId, x.1 < G.N → G.time (G.pt x) ≠ t
  stack : Stack G t st.active
  active_mem : ∀ i < G.N, G.a i < t → t < G.b i → i ∈ st.active
  swept_nodup : st.swept.Nodup
  swept_mem : ∀ i, i ∈ st.swept ↔ i < G.N ∧ G.b i < t
  faces : FacesOk G st.arena (noFlags G) st.active
  packets : Packets G t st.arena

/-! ### Lists -/

theorem exists_gap {α : Type} (f : α → ℝ) (T : ℝ) : ∀ l : List α, ∃ t, T < t ∧ ∀ z ∈ l, T < f z → t < f z
  | [] => ⟨T + 1, by linarith, by simp⟩
  | z :: l => by
    obtain ⟨t, h1, h2⟩ := exists_gap f T l
    by_cases hz : T < f z
    · refine ⟨Min.min t ((T + f z) / 2), lt_min h1 (by linarith), ?_⟩
      intro w hw hT
      rcases List.mem_cons.1 hw with rfl | hw
      · have := min_le_right t ((T + f w) / 2); linarith
      · have := min_le_left t ((T + f z) / 2); have := h2 w hw hT; linarith
    · refine ⟨t, h1, ?_⟩
      intro w hw hT
      rcases List.mem_cons.1 hw with rfl | hw
      · exact absurd hT hz
      · exact h2 w hw hT

theorem classify (f : Nat → ℝ) (c : ℝ) : ∀ l : List Nat, l.Pairwise (fun i j => f i ≤ f j) →
    ∃ l₁ m l₂, l = l₁ ++ m ++ l₂ ∧ (∀ i ∈ l₁, f i < c) ∧ (∀ i ∈ m, f i = c) ∧ (∀ i ∈ l₂, c < f i)
  | [], _ => ⟨[], [], [], rfl, by simp, by simp, by simp⟩
  | i :: l, h => by
    rw [List.pairwise_cons] at h
    obtain ⟨l₁, m, l₂, rfl, h1, h2, h3⟩ := classify f c l h.2
    rcases lt_trichotomy (f i) c with hi | hi | hi
    · exact ⟨i :: l₁, m, l₂, rfl, by simpa [hi] using h1, h2, h3⟩
    · have e1 : l₁ = [] := by
        cases l₁ with
        | nil => rfl
        | cons j l₁ =>
          have := h.1 j (by simp)
          have := h1 j (by simp)
          linarith
      subst e1
      exact ⟨[], i :: m, l₂, rfl, by simp, by simpa [hi] using h2, h3⟩
    · have e1 : l₁ = [] := by
        cases l₁ with
        | nil => rfl
        | cons j l₁ =>
          have := h.1 j (by simp)
          have := h1 j (by simp)
          linarith
      have e2 : m = [] := by
        cases m with
        | nil => rfl
        | cons j m =>
          have := h.1 j (by simp)
          have := h2 j (by simp)
          linarith
      subst e1 e2
      exact ⟨[], [], i :: l₂, rfl, by simp, by simp, by simpa [hi] using h3⟩

theorem sorted_unique (f : Nat → ℝ) : ∀ (l l' : List Nat), l.Pairwise (fun i j => f i < f j) → l'.Pairwise (fun i j => f i < f j) →
    (∀ i, i ∈ l ↔ i ∈ l') → l = l'
  | [], [], _, _, _ => rfl
  | [], j :: l', _, _, h => absurd ((h j).2 (by simp)) (by simp)
  | i :: l, [], _, _, h => absurd ((h i).1 (by simp)) (by simp)
  | i :: l, j :: l', hs, hs', h => by
    rw [List.pairwise_cons] at hs hs'
    have hij : i = j := by
      rcases List.mem_cons.1 ((h i).1 (by simp)) with e | e
      · exact e
      · rcases List.mem_cons.1 ((h j).2 (by simp)) with e' | e'
        · exact e'.symm
        · have := hs.1 j e'
          have := hs'.1 i e
          linarith
    subst hij
    congr 1
    refine sorted_unique f l l' hs.2 hs'.2 fun k => ?_
    have hk := h k
    simp only [List.mem_cons] at hk
    constructor
    · intro hm
      rcases hk.1 (Or.inr hm) with e | e
      · have := hs.1 k hm; rw [e] at this; exact absurd this (lt_irrefl _)
      · exact e
    · intro hm
      rcases hk.2 (Or.inr hm) with e | e
      · have := hs'.1 k hm; rw [e] at this; exact absurd this (lt_irrefl _)
      · exact e

/-! ### From one time to a later one -/

/-- The order of two segments does not change between two times when both are on the sweep line. -/
theorem order_lift {i j : Nat} (hi : i < G.N) (hj : j < G.N) (hij : i ≠ j) {t u : ℝ} (i1 : G.a i ≤ t) (i2 : t ≤ G.b i) (j1 : G.a j ≤ t) (j2 : t ≤ G.b j)
    (i3 : G.a i < u) (i4 : u < G.b i) (j3 : G.a j < u) (j4 : u < G.b j) (h : G.h i t < G.h j t) : G.h i u < G.h j u := by
  refine lt_of_le_of_ne (G.order_const hi hj hij i1 i2 j1 j2 i3.le i4.le j3.le j4.le h) ?_
  intro e
  rcases (G.meet hi hj hij i3.le i4.le j3.le j4.le e).1 with h | h <;> linarith

/-- A vertical segment is never just below where another one starts. -/
theorem not_vertical {k i : Nat} (hk : k < G.N) (hi : i < G.N) (hki : k ≠ i) {u : ℝ} (h1 : G.a k ≤ G.a i) (h2 : G.a i < G.b k) (hu : G.a i < u) (hu' : u < G.b k)
    (hu2 : u < G.b i) (hlt : G.h k u < G.h i u) : (G.lp k).x ≠ (G.rp k).x := by
  intro hv
  have hε := G.eps_pos
  -- on a vertical segment the height is determined by the time
  have hy : (G.lp k).y < (G.rp k).y := by
    rcases G.wf k hk with h | h
    · linarith
    · exact h.2
  have hxk : ∀ z, G.eps * G.h k z = z - (G.lp k).x := by
    intro z
    have hd : G.b k - G.a k = G.eps * ((G.rp k).y - (G.lp k).y) := by
      unfold Net.b Net.a Net.time shearX; rw [hv]; ring
    have h0 : G.eps * ((G.rp k).y - (G.lp k).y) ≠ 0 := (mul_pos hε (by linarith)).ne'
    show G.eps * ((G.lp k).y + (z - G.a k) * (((G.rp k).y - (G.lp k).y) / (G.b k - G.a k))) = _
    rw [hd]
    have hy' : (G.rp k).y - (G.lp k).y ≠ 0 := by linarith
    have ea : G.a k = (G.lp k).x + G.eps * (G.lp k).y := rfl
    rw [ea]
    field_simp
    ring
  have hle : G.h k (G.a i) ≤ (G.lp i).y := by
    rw [← G.h_left i]
    exact G.order_const hk hi hki (h1.trans hu.le) hu'.le hu.le hu2.le h1 h2.le le_rfl (G.a_lt_b hi).le hlt
  have e1 := hxk (G.a i)
  have ea : G.a i = (G.lp i).x + G.eps * (G.lp i).y := rfl
  -- so k is not to the left
  have hx : (G.lp i).x ≤ (G.lp k).x := by
    have := mul_le_mul_of_nonneg_left hle hε.le
    linarith
  rcases lt_or_eq_of_le h1 with h1 | h1
  · -- k starts before
    have hl := (G.leftOf_iff (x := (k, .left)) (y := (i, .left)) hk hi).2 h1
    rcases hl with hl | ⟨hl, hl2⟩
    · have hl : (G.lp k).x < (G.lp i).x := hl
      linarith
    · have hl : (G.lp k).x = (G.lp i).x := hl
      -- then k passes through the start of i
      have : G.h k (G.a i) = G.h i (G.a i) := by
        rw [G.h_left i]
        have : G.eps * G.h k (G.a i) = G.eps * (G.lp i).y := by linarith
        exact mul_left_cancel₀ hε.ne' this
      rcases (G.meet hk hi hki h1.le h2.le le_rfl (G.a_lt_b hi).le this).1 with h | h <;> linarith
  · -- both start at one corner
    have hp : G.lp k = G.lp i := G.time_inj (x := (k, .left)) (y := (i, .left)) hk hi h1
    have hi' := G.a_lt_b hi
    obtain ⟨m, hm⟩ := h_from_left (G := G) hp
    have hm0 : m < 0 := by
      have := hm u
      by_contra hn
      rw [not_lt] at hn
      have := mul_nonneg hn (show 0 ≤ u - G.a k by linarith)
      linarith
    have hb := hm (G.b i)
    have hlt2 : G.h k (G.b i) < (G.rp i).y := by
      rw [← G.h_right hi]
      have : m * (G.b i - G.a k) < 0 := mul_neg_of_neg_of_pos hm0 (by linarith)
      linarith
    have e2 := hxk (G.b i)
    have eb : G.b i = (G.rp i).x + G.eps * (G.rp i).y := rfl
    have := mul_lt_mul_of_pos_left hlt2 hε
    have hx2 : (G.rp i).x < (G.lp k).x := by linarith
    rw [hp] at hx2
    rcases G.wf i hi with h | h
    · linarith
    · linarith [h.1]

/-- The invariant after a corner. -/
theorem Inv.next {Heap : (EndId → EndId → Res Ordering) → List EndId → Prop} {t t' T : ℝ} {st st' : SweepState ℝ} (h : Inv G Heap t st) {x : EndId} (hx : x.1 < G.N)
    (hT : T = G.time (G.pt x)) (htT : t < T) (hTt : T < t') (hmin : ∀ z : EndId, z.1 < G.N → t < G.time (G.pt z) → T ≤ G.time (G.pt z))
    (hgap : ∀ z : EndId, z.1 < G.N → T < G.time (G.pt z) → t' < G.time (G.pt z))
    (has : G.Has st'.arena) (hq : st.queue.Perm (x :: G.mate x :: st'.queue)) (hheap : Heap st'.arena.endCmp st'.queue)
    (hstack : Stack G t' st'.active) (hact : ∀ i < G.N, G.a i < t' → t' < G.b i → i ∈ st'.active)
    (hswept : ∃ r : List Nat, st'.swept = st.swept ++ r ∧ r.Nodup ∧ ∀ i, i ∈ r ↔ i < G.N ∧ G.b i = T)
    (hfaces : FacesOk G st'.arena (noFlags G) st'.active)
    (hA : ∀ k < G.N, G.a k ≠ T → dat st'.arena k = dat st.arena k)
    (hC : ∀ k < G.N, Kept G (dat st'.arena k) k)
    (hD : ∀ k < G.N, G.a k = T → Started G (dat st'.arena k) k)
    (hF : sideFlags st'.arena (G.mate x) = sideFlags st'.arena (opp x) ∧ sideFlags st'.arena x = sideFlags st'.arena (opp (G.mate x)))
    (hG : ∀ i < G.N, G.a i = T → ∀ k, (dat st'.arena i).below_in_result = some k → k < G.N ∧
      (dat st'.arena k).left_faces_polygons = (dat st'.arena i).right_faces_polygons ∧ G.key (k, .left) < G.key (i, .left))
    (hH : ∀ i < G.N, G.a i = T → (G.mate (i, .left)).2 = .left → G.key (i, .left) < G.key (G.mate (i, .left)) →
      ∃ l : List Nat, l.Nodup ∧ (∀ k, k ∈ l ↔ k < G.N ∧ G.a k < G.a i ∧ G.a i < G.b k ∧ G.h k (G.a i) < (G.lp i).y) ∧
        (dat st'.arena i).right_faces_polygons = above G l (noFlags G) ∧ (dat st'.arena i).below_in_result = l.getLast? ∧
        l.Pairwise fun k k' => G.h k (G.a i) < G.h k' (G.a i)) : Inv G Heap t' st' := by
  have split : ∀ z : EndId, z.1 < G.N → G.time (G.pt z) < t' → G.time (G.pt z) < t ∨ G.time (G.pt z) = T := by
    intro z hz hlt
    rcases lt_trichotomy (G.time (G.pt z)) t with k | k | k
    · exact Or.inl k
    · exact absurd k (h.notime z hz)
    · right
      refine le_antisymm ?_ (hmin z hz k)
      by_contra hn
      rw [not_le] at hn
      have := hgap z hz hn
      linarith
  have spa : ∀ i < G.N, G.a i < t' → G.a i < t ∨ G.a i = T := fun i hi => split (i, .left) hi
  have old : ∀ i < G.N, G.a i < t → dat st'.arena i = dat st.arena i := fun i hi hlt => hA i hi (by linarith)
  constructor
  · exact has
  · intro z
    have hmz : z ∈ st.queue ↔ z = x ∨ z = G.mate x ∨ z ∈ st'.queue := by rw [hq.mem_iff]; simp
    have hnd := hq.nodup_iff.1 h.queue_nodup
    simp only [List.nodup_cons, List.mem_cons, not_or] at hnd
    constructor
    · intro hz
      have hz0 := (h.queue_mem z).1 (hmz.2 (Or.inr (Or.inr hz)))
      refine ⟨hz0.1, hgap z hz0.1 (lt_of_le_of_ne (hmin z hz0.1 hz0.2) ?_)⟩
      intro e
      have : G.pt z = G.pt x := G.time_inj hz0.1 hx (by rw [← e, hT])
      rcases G.at_corner hx hz0.1 this with e | e
      · exact hnd.1.2 (e ▸ hz)
      · exact hnd.2.1 (e ▸ hz)
    · rintro ⟨hz1, hz2⟩
      have hzq := (h.queue_mem z).2 ⟨hz1, by linarith⟩
      rcases hmz.1 hzq with e | e | e
      · rw [e, ← hT] at hz2; linarith
      · rw [e, G.mate_pt hx, ← hT] at hz2; linarith
      · exact e
  · have hnd := hq.nodup_iff.1 h.queue_nodup
    simp only [List.nodup_cons] at hnd
    exact hnd.2.2
  · exact hheap
  · intro z hz e
    rcases lt_or_ge T (G.time (G.pt z)) with k | k
    · have := hgap z hz k; linarith
    · linarith
  · exact hstack
  · exact hact
  · obtain ⟨r, hr, hrn, hrm⟩ := hswept
    rw [hr, List.nodup_append]
    refine ⟨h.swept_nodup, hrn, ?_⟩
    intro a ha b hb e
    subst e
    have h1 := ((h.swept_mem a).1 ha).2
    have h2 := ((hrm a).1 hb).2
    linarith
  · obtain ⟨r, hr, hrn, hrm⟩ := hswept
    intro i
    rw [hr, List.mem_append, h.swept_mem, hrm]
    constructor
    · rintro (⟨h1, h2⟩ | ⟨h1, h2⟩)
      · exact ⟨h1, by linarith⟩
      · exact ⟨h1, by linarith⟩
    · rintro ⟨h1, h2⟩
      rcases split (i, .right) h1 h2 with k | k
      · exact Or.inl ⟨h1, k⟩
      · exact Or.inr ⟨h1, k⟩
  · exact hfaces
  · have hp := h.packets
    constructor
    · exact hC
    · intro i hi hlt
      rw [hA i hi (by linarith)]
      exact hp.fresh i hi (by linarith)
    · intro i hi hlt
      rcases spa i hi hlt with k | k
      · rw [old i hi k]; exact hp.started i hi k
      · exact hD i hi k
    · intro z hz hlt
      rcases split z hz hlt with k | k
      · have e1 : G.time (G.pt (G.mate z)) < t := by rw [G.mate_pt hz]; exact k
        have startBefore : ∀ w : EndId, w.1 < G.N → G.time (G.pt w) < t → G.a w.1 < t := by
          rintro ⟨i, e⟩ hw hlt
          cases e
          · exact hlt
          · have := G.a_lt_b hw
            have hlt : G.b i < t := hlt
            show G.a i < t
            linarith
        unfold sideFlags
        rw [old _ (G.mate_lt hz) (startBefore _ (G.mate_lt hz) e1), opp_fst, old _ hz (startBefore _ hz k)]
        exact hp.corner z hz k
      · have : G.pt z = G.pt x := G.time_inj hz hx (by rw [k, hT])
        rcases G.at_corner hx hz this with e | e
        · rw [e]; exact hF.1
        · rw [e, G.mate_mate hx]; exact hF.2
    · intro i hi hlt k hk
      rcases spa i hi hlt with c | c
      · rw [old i hi c] at hk ⊢
        obtain ⟨k1, k2, k3⟩ := hp.below i hi c k hk
        refine ⟨k1, ?_, k3⟩
        have : G.a k < t := by
          by_contra hn
          rw [not_lt] at hn
          have := key_lt_of_time (G := G) (x := (i, .left)) (y := (k, .left)) hi k1 (lt_of_lt_of_le c hn)
          exact lt_asymm this k3
        rw [old k k1 this]
        exact k2
      · exact hG i hi c k hk
    · intro i hi hlt hm hkey
      rcases spa i hi hlt with c | c
      · rw [old i hi c]
        exact hp.base i hi c hm hkey
      · exact hH i hi c hm hkey

end Idc
