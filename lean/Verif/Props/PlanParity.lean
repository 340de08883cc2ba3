import Verif.Props.PlanCmp
/-!
# How many segments of each polygon are below a segment, for C81
-/

namespace Idc

namespace Plan

variable (G : Plan)

/-- How many segments of polygon `m` are below height `y` at time `t`: even or odd. -/
noncomputable def par (m : ℕ) (t y : ℝ) : ZMod 2 := ∑ k ∈ G.S with G.poly k = m, ind (G.a k < t ∧ t < G.b k ∧ G.h k t < y)

/-- How many segments of polygon `m` coincide with segment `i`, up to its polygon. -/
noncomputable def grp (i m : ℕ) : ZMod 2 := ∑ k ∈ G.S with G.poly k = m, ind (G.Same k i ∧ G.poly k ≤ G.poly i)

/-- How many segments of polygon `m` are below segment `i`. -/
noncomputable def lo (i m : ℕ) : ZMod 2 := G.par m (G.tau i) (G.h i (G.tau i))

/-- Those, and the ones that coincide with it, up to its polygon. -/
noncomputable def hi (i m : ℕ) : ZMod 2 := G.lo i m + G.grp i m

/-- One flag for each polygon. -/
noncomputable def flag (f : ℕ → ZMod 2) : List Bool := (List.range G.n).map fun m => decide (f m = 1)

variable {G}

theorem flag_length (f : ℕ → ZMod 2) : (G.flag f).length = G.n := by simp [flag]

theorem flag_get (f : ℕ → ZMod 2) (m : ℕ) : (G.flag f)[m]? = if m < G.n then some (decide (f m = 1)) else none := by
  unfold flag
  rw [List.getElem?_map]
  split
  · rename_i h; rw [List.getElem?_range h]; rfl
  · rename_i h; rw [List.getElem?_eq_none (by simpa using h)]; rfl

theorem flag_getD (f : ℕ → ZMod 2) {m : ℕ} (h : m < G.n) : (G.flag f).getD m false = decide (f m = 1) := by
  rw [List.getD_eq_getElem?_getD, flag_get, if_pos h]; rfl

theorem flag_inj {f g : ℕ → ZMod 2} : G.flag f = G.flag g ↔ ∀ m < G.n, f m = g m := by
  constructor
  · intro h m hm
    have := flag_getD f hm
    rw [h, flag_getD g hm, decide_eq_decide] at this
    revert this
    generalize f m = a
    generalize g m = b
    revert a b
    decide
  · intro h
    unfold flag
    refine List.map_congr_left fun m hm => ?_
    rw [h m (List.mem_range.1 hm)]

theorem flag_toggle (f : ℕ → ZMod 2) {p : ℕ} (h : p < G.n) : toggle (G.flag f) p = G.flag fun m => f m + if m = p then 1 else 0 := by
  unfold toggle
  rw [flag_getD f h]
  apply List.ext_getElem?
  intro m
  rw [List.getElem?_set, flag_length, flag_get, flag_get]
  by_cases hm : p = m
  · subst hm
    rw [if_pos rfl, if_pos h, if_pos h, if_pos rfl]
    congr 1
    generalize f p = a
    revert a
    decide
  · have : ¬ m = p := fun e => hm e.symm
    simp [hm, this]

theorem flag_zero : G.flag (fun _ => 0) = List.replicate G.n false := by
  unfold flag
  rw [show (fun _ : ℕ => decide ((0 : ZMod 2) = 1)) = fun _ => false from funext fun _ => by decide, List.map_const', List.length_range]

/-! ### What is below a segment is the same everywhere -/

theorem par_lt {k : ℕ} (hk : k ∈ G.S) (m : ℕ) {s t : ℝ} (hs : G.Quiet s) (ht : G.Quiet t) (hst : s < t) (h1 : G.a k < s) (h2 : t < G.b k) :
    G.par m s (G.h k s) = G.par m t (G.h k t) := by
  classical
  have he := G.even m fun p => ind (s < G.time p ∧ G.time p < t ∧ p.y < G.h k (G.time p))
  have key : ∀ j ∈ G.S.filter (fun j => G.poly j = m), ind (G.a j < s ∧ s < G.b j ∧ G.h j s < G.h k s) + ind (G.a j < t ∧ t < G.b j ∧ G.h j t < G.h k t) =
      ind (s < G.time (G.lp j) ∧ G.time (G.lp j) < t ∧ (G.lp j).y < G.h k (G.time (G.lp j))) +
      ind (s < G.time (G.rp j) ∧ G.time (G.rp j) < t ∧ (G.rp j).y < G.h k (G.time (G.rp j))) := by
    intro j hj
    have hj := (Finset.mem_filter.1 hj).1
    by_cases hjk : G.Same j k
    · have ea : G.time (G.lp j) = G.a k := hjk.a
      have eb : G.time (G.rp j) = G.b k := hjk.b
      rw [ind_false (by rw [hjk.h]; rintro ⟨_, _, h⟩; exact lt_irrefl _ h), ind_false (by rw [hjk.h]; rintro ⟨_, _, h⟩; exact lt_irrefl _ h),
        ind_false (by rw [ea]; rintro ⟨h, _⟩; linarith), ind_false (by rw [eb]; rintro ⟨_, h, _⟩; linarith)]
    · obtain ⟨m1, c1, e1⟩ := G.h_linear j
      obtain ⟨m2, c2, e2⟩ := G.h_linear k
      have := parity_core (f := fun u => G.h j u - G.h k u) (m := m1 - m2) (c := c1 - c2) (fun u => by rw [e1, e2]; ring) (G.a_lt_b hj) hst
        (hs j hj).1 (ht j hj).1 (hs j hj).2 (ht j hj).2 (by
          intro u p q r w
          rw [sub_ne_zero]
          intro e
          rcases (G.meet hj hk hjk r w (by linarith) (by linarith) e).2 with e | e <;> linarith)
      simp only [sub_neg] at this
      rw [this, G.h_left, G.h_right hj]
      rfl
  have hsum := Finset.sum_congr rfl key
  rw [he, Finset.sum_add_distrib] at hsum
  exact CharTwo.add_eq_zero.1 hsum

theorem par_const {k : ℕ} (hk : k ∈ G.S) (m : ℕ) {s t : ℝ} (hs : G.Quiet s) (ht : G.Quiet t) (s1 : G.a k < s) (s2 : s < G.b k) (t1 : G.a k < t)
    (t2 : t < G.b k) : G.par m s (G.h k s) = G.par m t (G.h k t) := by
  rcases lt_trichotomy s t with h | h | h
  · exact par_lt hk m hs ht h s1 t2
  · rw [h]
  · exact (par_lt hk m ht hs h t1 s2).symm

/-- The flags may be read off at any time. -/
theorem lo_eq {k : ℕ} (hk : k ∈ G.S) (m : ℕ) {t : ℝ} (ht : G.Quiet t) (t1 : G.a k < t) (t2 : t < G.b k) : G.par m t (G.h k t) = G.lo k m :=
  par_const hk m ht (G.tau_quiet k) t1 t2 (G.a_lt_tau k) (G.tau_lt_b hk)

theorem Same.tau {i j : ℕ} (h : G.Same i j) : G.tau i = G.tau j := by
  unfold Plan.tau
  simp only [h.a]

theorem Same.lo {i j : ℕ} (h : G.Same i j) (m : ℕ) : G.lo i m = G.lo j m := by
  unfold Plan.lo
  rw [h.tau, h.h]

/-! ### The segment below -/

theorem alive_self {i : ℕ} (hi : i ∈ G.S) : G.Alive (G.tau i) i := ⟨hi, G.a_lt_tau i, G.tau_lt_b hi⟩

theorem Alive.same {t : ℝ} {i j : ℕ} (h : G.Alive t i) (hj : j ∈ G.S) (hs : G.Same j i) : G.Alive t j := ⟨hj, by rw [hs.a]; exact h.2.1, by rw [hs.b]; exact h.2.2⟩

/-- The highest segment on the sweep line below `i`, just after `i` starts. -/
structure Under (G : Plan) (i k : ℕ) : Prop where
  alive : G.Alive (G.tau i) k
  low : G.Low (G.tau i) k i
  max : ∀ j, G.Alive (G.tau i) j → G.Low (G.tau i) j i → ¬ G.Low (G.tau i) k j

/-- Only the segment's own polygon counts if nothing coincides below. -/
theorem grp_alone {i : ℕ} (hi : i ∈ G.S) (h : ∀ j ∈ G.S, G.Same j i → G.poly i ≤ G.poly j) (m : ℕ) : G.grp i m = if m = G.poly i then 1 else 0 := by
  classical
  unfold grp
  have key : ∀ k ∈ G.S.filter (fun k => G.poly k = m), ind (G.Same k i ∧ G.poly k ≤ G.poly i) = if k = i then 1 else 0 := by
    intro k hk
    have hk := (Finset.mem_filter.1 hk).1
    split
    · rename_i e; subst e; exact ind_true ⟨Same.refl G k, le_rfl⟩
    · rename_i e
      refine ind_false ?_
      rintro ⟨h1, h2⟩
      exact G.poly_ne hk hi e h1 (le_antisymm h2 (h k hk h1))
  rw [Finset.sum_congr rfl key, Finset.sum_ite_eq']
  simp only [Finset.mem_filter, hi, true_and]
  by_cases e : G.poly i = m
  · rw [if_pos e, if_pos e.symm]
  · rw [if_neg e, if_neg (Ne.symm e)]

theorem Under.grp_same {i k : ℕ} (hi : i ∈ G.S) (h : G.Under i k) (hs : G.Same k i) (m : ℕ) :
    G.grp i m = G.grp k m + if m = G.poly i then 1 else 0 := by
  classical
  unfold grp
  have hk := h.alive.1
  have hp : G.poly k < G.poly i := by
    rcases h.low with h1 | h1
    · rw [hs.h] at h1; exact absurd h1 (lt_irrefl _)
    · exact h1.2
  have key : ∀ j ∈ G.S.filter (fun k => G.poly k = m), ind (G.Same j i ∧ G.poly j ≤ G.poly i) = ind (G.Same j k ∧ G.poly j ≤ G.poly k) + if j = i then 1 else 0 := by
    intro j hj
    have hj := (Finset.mem_filter.1 hj).1
    split
    · rename_i e; subst e; rw [ind_true ⟨Same.refl G j, le_rfl⟩, ind_false, zero_add]
      rintro ⟨_, h2⟩
      omega
    · rename_i e
      rw [add_zero]
      apply ind_congr
      constructor
      · rintro ⟨h1, h2⟩
        refine ⟨h1.trans hs.symm, ?_⟩
        by_contra hn
        have hl := lt_of_le_of_ne h2 (G.poly_ne hj hi e h1)
        exact h.max j ((alive_self hi).same hj h1) (Or.inr ⟨h1.h _, hl⟩) (Or.inr ⟨(hs.trans h1.symm).h _, not_le.1 hn⟩)
      · rintro ⟨h1, h2⟩
        exact ⟨h1.trans hs, by omega⟩
  rw [Finset.sum_congr rfl key, Finset.sum_add_distrib, Finset.sum_ite_eq']
  congr 1
  simp only [Finset.mem_filter, hi, true_and]
  by_cases e : G.poly i = m
  · rw [if_pos e, if_pos e.symm]
  · rw [if_neg e, if_neg (Ne.symm e)]

theorem Under.lt {i k : ℕ} (hi : i ∈ G.S) (h : G.Under i k) (hs : ¬ G.Same k i) : G.h k (G.tau i) < G.h i (G.tau i) := by
  rcases h.low with h1 | h1
  · exact h1
  · exact absurd (G.same_of_h h.alive.1 hi h.alive.2.1 h.alive.2.2 (alive_self hi).2.1.le (alive_self hi).2.2.le h1.1) hs

theorem Under.top {i k : ℕ} (hi : i ∈ G.S) (h : G.Under i k) (hs : ¬ G.Same k i) {j : ℕ} (hj : j ∈ G.S) (hjk : G.Same j k) : G.poly j ≤ G.poly k := by
  by_contra hn
  have hl := h.lt hi hs
  refine h.max j (h.alive.same hj hjk) (Or.inl ?_) (Or.inr ⟨hjk.symm.h _, not_le.1 hn⟩)
  rw [hjk.h]; exact hl

/-- Between a segment and the next one below nothing changes. -/
theorem Under.lo_eq {i k : ℕ} (hi : i ∈ G.S) (h : G.Under i k) (hs : ¬ G.Same k i) (m : ℕ) : G.lo i m = G.hi k m := by
  have hk := h.alive.1
  have hl := h.lt hi hs
  unfold Plan.hi
  rw [← Plan.lo_eq hk m (G.tau_quiet i) h.alive.2.1 h.alive.2.2]
  unfold Plan.lo par grp
  rw [← Finset.sum_add_distrib]
  refine Finset.sum_congr rfl fun j hj => ?_
  have hj := (Finset.mem_filter.1 hj).1
  by_cases hal : G.a j < G.tau i ∧ G.tau i < G.b j
  · by_cases hsm : G.Same j k
    · rw [ind_true ⟨hal.1, hal.2, by rw [hsm.h]; exact hl⟩, ind_false (by rw [hsm.h]; rintro ⟨_, _, h⟩; exact lt_irrefl _ h), zero_add,
        ind_true ⟨hsm, h.top hi hs hj hsm⟩]
    · rw [ind_false (P := G.Same j k ∧ _) (fun h => hsm h.1), add_zero]
      apply ind_congr
      refine ⟨fun ⟨_, _, h1⟩ => ⟨hal.1, hal.2, ?_⟩, fun ⟨_, _, h1⟩ => ⟨hal.1, hal.2, h1.trans hl⟩⟩
      rcases lt_trichotomy (G.h j (G.tau i)) (G.h k (G.tau i)) with h2 | h2 | h2
      · exact h2
      · exact absurd (G.same_of_h hj hk hal.1 hal.2 h.alive.2.1.le h.alive.2.2.le h2) hsm
      · exact absurd (Or.inl h2) (h.max j ⟨hj, hal⟩ (Or.inl h1))
  · rw [ind_false (fun h => hal ⟨h.1, h.2.1⟩), ind_false (fun h => hal ⟨h.1, h.2.1⟩), ind_false, add_zero]
    rintro ⟨h1, _⟩
    exact hal (h.alive.same hj h1).2

/-- Nothing is below the lowest segment. -/
theorem lo_none {i : ℕ} (h : ∀ j, G.Alive (G.tau i) j → ¬ G.Low (G.tau i) j i) (m : ℕ) : G.lo i m = 0 := by
  unfold lo par
  refine Finset.sum_eq_zero fun j hj => ind_false ?_
  rintro ⟨h1, h2, h3⟩
  exact h j ⟨(Finset.mem_filter.1 hj).1, h1, h2⟩ (Or.inl h3)

/-- The highest segment strictly below. -/
structure Under' (G : Plan) (i k : ℕ) : Prop where
  alive : G.Alive (G.tau i) k
  low : G.h k (G.tau i) < G.h i (G.tau i)
  max : ∀ j, G.Alive (G.tau i) j → G.h j (G.tau i) < G.h i (G.tau i) → ¬ G.Low (G.tau i) k j

theorem Under'.unique {i k k' : ℕ} (h : G.Under' i k) (h' : G.Under' i k') : k = k' := by
  by_contra hn
  rcases h.alive.low_or h'.alive hn with h1 | h1
  · exact h.max _ h'.alive h'.low h1
  · exact h'.max _ h.alive h.low h1

open Classical in
/-- The segment below. -/
noncomputable def B (G : Plan) (i : ℕ) : Option ℕ := if h : ∃ k, G.Under' i k then some (Classical.choose h) else none

theorem B_some {i k : ℕ} : G.B i = some k ↔ G.Under' i k := by
  unfold B
  split
  · rename_i h
    constructor
    · intro e
      cases e
      exact Classical.choose_spec h
    · intro h'
      rw [(Classical.choose_spec h).unique h']
  · rename_i h
    exact ⟨fun e => (by cases e), fun h' => absurd ⟨k, h'⟩ h⟩

theorem B_none {i : ℕ} (h : ∀ j, G.Alive (G.tau i) j → ¬ G.h j (G.tau i) < G.h i (G.tau i)) : G.B i = none := by
  rcases e : G.B i with _ | k
  · rfl
  · have := B_some.1 e
    exact absurd this.low (h k this.alive)

theorem Same.B {i j : ℕ} (h : G.Same i j) : G.B i = G.B j := by
  have : ∀ k, G.Under' i k ↔ G.Under' j k := by
    intro k
    constructor
    · intro hk
      exact ⟨h.tau ▸ hk.alive, by have := hk.low; rwa [h.tau, h.h] at this, by have := hk.max; rwa [h.tau, h.h] at this⟩
    · intro hk
      exact ⟨h.tau ▸ hk.alive, by have := hk.low; rwa [← h.tau, ← h.h] at this, by have := hk.max; rwa [← h.tau, ← h.h] at this⟩
  rcases e : G.B j with _ | k
  · rcases e' : G.B i with _ | k
    · rfl
    · rw [B_some.2 ((this k).1 (B_some.1 e'))] at e; cases e
  · exact B_some.2 ((this k).2 (B_some.1 e))

theorem Under.B {i k : ℕ} (hi : i ∈ G.S) (h : G.Under i k) (hs : ¬ G.Same k i) : G.B i = some k :=
  B_some.2 ⟨h.alive, h.lt hi hs, fun j h1 h2 => h.max j h1 (Or.inl h2)⟩

/-- There is a segment below, unless there is none. -/
theorem exists_under (G : Plan) (i : ℕ) : (∃ k, G.Under i k) ∨ ∀ j, G.Alive (G.tau i) j → ¬ G.Low (G.tau i) j i := by
  classical
  by_cases hne : (G.S.filter fun j => G.Alive (G.tau i) j ∧ G.Low (G.tau i) j i).Nonempty
  · left
    let f : ℕ → ℝ ×ₗ ℕ := fun j => toLex (G.h j (G.tau i), G.poly j)
    obtain ⟨k, hk, hm⟩ := Finset.exists_max_image _ f hne
    obtain ⟨h1, h2, h3⟩ := Finset.mem_filter.1 hk
    refine ⟨k, h2, h3, fun j a l hkj => ?_⟩
    have := hm j (Finset.mem_filter.2 ⟨a.1, a, l⟩)
    rw [Prod.Lex.toLex_le_toLex] at this
    dsimp only at this
    rcases hkj with hkj | hkj <;> rcases this with h | h
    · exact lt_asymm h hkj
    · rw [h.1] at hkj; exact lt_irrefl _ hkj
    · rw [hkj.1] at h; exact lt_irrefl _ h
    · exact absurd h.2 (not_le.2 hkj.2)
  · right
    intro j a l
    exact hne ⟨j, Finset.mem_filter.2 ⟨a.1, a, l⟩⟩

end Plan

end Idc
