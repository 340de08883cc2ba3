import Verif.Props.PlanHoles
/-!
# What is beside edges and around points, for C88
-/

namespace Idc

namespace Plan

open Net

variable {G : Plan}

/-- Of three edges that start at one corner, one comes to the second before the third, or the other way around. -/
theorem ccw_not {w z y : EndId} (h : G.Ccw w z y) (h' : G.Ccw z w y) : False := by
  have e : ∀ a b : EndId, G.crs a b = - G.crs b a := by
    intro a b
    rw [crs_edge, crs_edge]
    unfold cross2
    ring
  unfold Ccw at h h'
  have e1 := e w z
  have e2 := e z y
  have e3 := e y w
  rcases h with h | h | h <;> rcases h' with h' | h' | h' <;> linarith [h.1, h.2, h'.1, h'.2]

/-- The next edge is the first clockwise. -/
theorem next_of_turns {x z : EndId} (hx : G.Top x.1) (hz : z ∈ G.corner (G.pt (opp x))) (hne : z ≠ opp x)
    (h : ∀ w ∈ G.corner (G.pt (opp x)), w ≠ z → w ≠ opp x → G.Ccw w z (opp x)) : G.next x = z := by
  by_contra hn
  obtain ⟨h1, h2⟩ := next_spec hx
  have h3 := h _ h1 hn (next_ne_opp hx)
  have h4 := cyc_ccw hz h1 (opp_corner hx) h2 (Ne.symm hn) hne
  exact ccw_not h3 h4

/-- Polygon flags of neighbours at some time. -/
theorem lo_of_below {t : ℝ} (ht : G.Quiet t) {i k : ℕ} (hi : G.Alive t i) (hk : G.Alive t k) (hT : G.Top k) (hlt : G.h k t < G.h i t)
    (hb : ∀ j, G.Alive t j → G.h j t < G.h i t → G.h j t ≤ G.h k t) (m : ℕ) : G.lo i m = G.hi k m := by
  unfold Plan.hi
  rw [← Plan.lo_eq hi.1 m ht hi.2.1 hi.2.2, ← Plan.lo_eq hk.1 m ht hk.2.1 hk.2.2]
  unfold par grp
  rw [← Finset.sum_add_distrib]
  refine Finset.sum_congr rfl fun j hj => ?_
  have hj := (Finset.mem_filter.1 hj).1
  by_cases hal : G.a j < t ∧ t < G.b j
  · by_cases hsm : G.Same j k
    · rw [ind_true ⟨hal.1, hal.2, by rw [hsm.h]; exact hlt⟩, ind_false (by rw [hsm.h]; rintro ⟨_, _, h⟩; exact lt_irrefl _ h), zero_add,
        ind_true ⟨hsm, hT.2 j hj hsm.symm⟩]
    · rw [ind_false (P := G.Same j k ∧ _) (fun h => hsm h.1), add_zero]
      apply ind_congr
      refine ⟨fun ⟨_, _, h1⟩ => ⟨hal.1, hal.2, ?_⟩, fun ⟨_, _, h1⟩ => ⟨hal.1, hal.2, h1.trans hlt⟩⟩
      rcases (hb j ⟨hj, hal⟩ h1).lt_or_eq with h2 | h2
      · exact h2
      · exact absurd (G.same_of_h hj hk.1 hal.1 hal.2 hk.2.1.le hk.2.2.le h2) hsm
  · rw [ind_false (fun h => hal ⟨h.1, h.2.1⟩), ind_false (fun h => hal ⟨h.1, h.2.1⟩), ind_false, add_zero]
    rintro ⟨h1, _⟩
    exact hal (hk.same hj h1).2

/-- The highest of the segments that reach over a time below some height. -/
theorem exists_highest (t y : ℝ) : (∀ j, G.Alive t j → ¬ G.h j t < y) ∨
    ∃ k, G.Alive t k ∧ G.Top k ∧ G.h k t < y ∧ ∀ j, G.Alive t j → G.h j t < y → G.h j t ≤ G.h k t := by
  classical
  by_cases hn : (G.S.filter fun j => G.Alive t j ∧ G.h j t < y).Nonempty
  · right
    obtain ⟨k, hk, hm⟩ := Finset.exists_max_image _ (fun j => G.h j t) hn
    obtain ⟨h1, h2, h3⟩ := Finset.mem_filter.1 hk
    obtain ⟨j, hj, hs, _⟩ := exists_top h1
    refine ⟨j, h2.same hj.1 hs.symm, hj, by rw [← hs.h]; exact h3, fun l hl hy => ?_⟩
    rw [← hs.h]
    exact hm l (Finset.mem_filter.2 ⟨hl.1, hl, hy⟩)
  · left
    intro j hj hy
    exact hn ⟨j, Finset.mem_filter.2 ⟨hj.1, hj, hy⟩⟩

theorem par_none {t y : ℝ} (h : ∀ j, G.Alive t j → ¬ G.h j t < y) (m : ℕ) : G.par m t y = 0 := by
  unfold par
  refine Finset.sum_eq_zero fun j hj => ind_false ?_
  rintro ⟨h1, h2, h3⟩
  exact h j ⟨(Finset.mem_filter.1 hj).1, h1, h2⟩ h3

/-- What is around a point above a segment. -/
theorem par_highest {t y : ℝ} (ht : G.Quiet t) {k : ℕ} (hk : G.Alive t k) (hT : G.Top k) (hlt : G.h k t < y)
    (hb : ∀ j, G.Alive t j → G.h j t < y → G.h j t ≤ G.h k t) (m : ℕ) : G.par m t y = G.hi k m := by
  unfold Plan.hi
  rw [← Plan.lo_eq hk.1 m ht hk.2.1 hk.2.2]
  unfold par grp
  rw [← Finset.sum_add_distrib]
  refine Finset.sum_congr rfl fun j hj => ?_
  have hj := (Finset.mem_filter.1 hj).1
  by_cases hal : G.a j < t ∧ t < G.b j
  · by_cases hsm : G.Same j k
    · rw [ind_true ⟨hal.1, hal.2, by rw [hsm.h]; exact hlt⟩, ind_false (by rw [hsm.h]; rintro ⟨_, _, h⟩; exact lt_irrefl _ h), zero_add,
        ind_true ⟨hsm, hT.2 j hj hsm.symm⟩]
    · rw [ind_false (P := G.Same j k ∧ _) (fun h => hsm h.1), add_zero]
      apply ind_congr
      refine ⟨fun ⟨_, _, h1⟩ => ⟨hal.1, hal.2, ?_⟩, fun ⟨_, _, h1⟩ => ⟨hal.1, hal.2, h1.trans hlt⟩⟩
      rcases (hb j ⟨hj, hal⟩ h1).lt_or_eq with h2 | h2
      · exact h2
      · exact absurd (G.same_of_h hj hk.1 hal.1 hal.2 hk.2.1.le hk.2.2.le h2) hsm
  · rw [ind_false (fun h => hal ⟨h.1, h.2.1⟩), ind_false (fun h => hal ⟨h.1, h.2.1⟩), ind_false, add_zero]
    rintro ⟨h1, _⟩
    exact hal (hk.same hj h1).2

/-- A point on no segment can be seen at a time without corners. -/
theorem under_par {t y : ℝ} (hy : ∀ k ∈ G.S, G.a k ≤ t → t < G.b k → G.h k t ≠ y) : ∃ t', G.Quiet t' ∧ ∀ m, G.under m t y = G.par m t' y := by
  classical
  obtain ⟨t₁, h3, h4⟩ := G.exists_after t
  -- close enough that no segment passes the height
  have hc : ∀ T : Finset ℕ, (∀ k ∈ T, G.a k ≤ t → t < G.b k → G.h k t ≠ y) → ∃ s, t < s ∧ ∀ u, t ≤ u → u ≤ s → ∀ k ∈ T, G.a k ≤ t → t < G.b k → (G.h k t < y ↔ G.h k u < y) := by
    intro T
    induction T using Finset.induction_on with
    | empty => exact fun _ => ⟨t + 1, by linarith, by simp⟩
    | insert k T _ ih =>
      intro hT
      obtain ⟨s, hs, h⟩ := ih fun k hk => hT k (Finset.mem_insert_of_mem hk)
      by_cases hk : G.a k ≤ t ∧ t < G.b k
      · have hne := hT k (Finset.mem_insert_self k T) hk.1 hk.2
        obtain ⟨μ, c, hl⟩ := G.h_linear k
        have hpos : 0 < |G.h k t - y| := abs_pos.2 (sub_ne_zero.2 hne)
        have hμ : 0 < |μ| + 1 := by positivity
        refine ⟨Min.min s (t + |G.h k t - y| / (2 * (|μ| + 1))), lt_min hs (by have := div_pos hpos (by positivity : (0 : ℝ) < 2 * (|μ| + 1)); linarith), ?_⟩
        intro u hu1 hu2 j hj hj1 hj2
        rcases Finset.mem_insert.1 hj with rfl | hj
        · have hu : u - t ≤ |G.h j t - y| / (2 * (|μ| + 1)) := by have := hu2.trans (min_le_right _ _); linarith
          have hd : |G.h j u - G.h j t| < |G.h j t - y| := by
            rw [hl u, hl t, show μ * u + c - (μ * t + c) = μ * (u - t) by ring, abs_mul, abs_of_nonneg (by linarith : 0 ≤ u - t), ← hl t]
            calc |μ| * (u - t) ≤ (|μ| + 1) * (u - t) := by nlinarith
              _ ≤ (|μ| + 1) * (|G.h j t - y| / (2 * (|μ| + 1))) := by gcongr
              _ = |G.h j t - y| / 2 := by field_simp
              _ < |G.h j t - y| := by linarith
          rcases lt_or_gt_of_ne hne with h1 | h1
          · rw [abs_of_neg (by linarith : G.h j t - y < 0)] at hd
            exact ⟨fun _ => by linarith [(abs_lt.1 hd).2], fun _ => h1⟩
          · rw [abs_of_pos (by linarith : 0 < G.h j t - y)] at hd
            exact ⟨fun h => by linarith, fun h => by linarith [(abs_lt.1 hd).1]⟩
        · exact h u hu1 (hu2.trans (min_le_left _ _)) j hj hj1 hj2
      · refine ⟨s, hs, ?_⟩
        intro u hu1 hu2 j hj hj1 hj2
        rcases Finset.mem_insert.1 hj with rfl | hj
        · exact absurd ⟨hj1, hj2⟩ hk
        · exact h u hu1 hu2 j hj hj1 hj2
  obtain ⟨s, hs, h⟩ := hc G.S hy
  set t' := Min.min s t₁ with ht'
  have h1 : t < t' := lt_min hs h3
  have h4' : ∀ i ∈ G.S, (t < G.a i → t' < G.a i) ∧ (t < G.b i → t' < G.b i) := fun i hi =>
    ⟨fun g => lt_of_le_of_lt (min_le_right _ _) ((h4 i hi).1 g), fun g => lt_of_le_of_lt (min_le_right _ _) ((h4 i hi).2 g)⟩
  have hq : G.Quiet t' := fun k hk => ⟨fun e => by have := (h4' k hk).1 (by linarith); linarith, fun e => by have := (h4' k hk).2 (by linarith); linarith⟩
  refine ⟨t', hq, fun m => ?_⟩
  unfold under par
  refine Finset.sum_congr rfl fun k hk => ind_congr ?_
  have hk := (Finset.mem_filter.1 hk).1
  constructor
  · rintro ⟨k1, k2, k3⟩
    exact ⟨by linarith, (h4' k hk).2 k2, (h t' h1.le (min_le_left _ _) k hk k1 k2).1 k3⟩
  · rintro ⟨k1, k2, k3⟩
    have k4 : G.a k ≤ t := by
      by_contra hn
      have := (h4' k hk).1 (not_le.1 hn)
      linarith
    exact ⟨k4, by linarith, (h t' h1.le (min_le_left _ _) k hk k4 (by linarith)).2 k3⟩

/-- How often a polygon goes along an edge. -/
theorem grp_eq {i : ℕ} (hi : G.Top i) (m : ℕ) : G.grp i m = ∑ k ∈ G.S with G.poly k = m, ind (G.Same k i) := by
  unfold grp
  refine Finset.sum_congr rfl fun k hk => ind_congr ?_
  exact ⟨fun h => h.1, fun h => ⟨h, hi.2 k (Finset.mem_filter.1 hk).1 h.symm⟩⟩

end Plan

end Idc
