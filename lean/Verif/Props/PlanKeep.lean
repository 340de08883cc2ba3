import Verif.Props.PlanRot
/-!
# Leaving out the edges of some polygons, for C81 and C85
-/

namespace Idc

namespace Plan

open Net

variable {G : Plan}

open Classical in
/-- The segments of the other polygons. -/
noncomputable def keep (G : Plan) : Plan where
  S := G.S.filter fun i => ¬ G.rem (G.poly i)
  lp := G.lp
  rp := G.rp
  poly := G.poly
  n := G.n
  rem := G.rem
  eps := G.eps
  wf i hi := G.wf i (Finset.mem_filter.1 hi).1
  sep := G.sep.mono (fun _ ⟨i, hi, h⟩ => ⟨i, (Finset.mem_filter.1 hi).1, h⟩) fun _ ⟨i, hi, h⟩ => ⟨i, (Finset.mem_filter.1 hi).1, h⟩
  poly_lt i hi := G.poly_lt i (Finset.mem_filter.1 hi).1
  eps_lt i hi j hj := G.eps_lt i (Finset.mem_filter.1 hi).1 j (Finset.mem_filter.1 hj).1
  apart i hi j hj := G.apart i (Finset.mem_filter.1 hi).1 j (Finset.mem_filter.1 hj).1
  angles i hi j hj := G.angles i (Finset.mem_filter.1 hi).1 j (Finset.mem_filter.1 hj).1
  distances i hi j hj := G.distances i (Finset.mem_filter.1 hi).1 j (Finset.mem_filter.1 hj).1
  even m W := by
    rw [Finset.filter_filter]
    by_cases hm : G.rem m
    · rw [Finset.filter_false_of_mem, Finset.sum_empty]
      rintro i _ ⟨h1, h2⟩
      exact h1 (h2 ▸ hm)
    · rw [← G.even m W]
      refine Finset.sum_congr (Finset.filter_congr fun i _ => ?_) fun _ _ => rfl
      exact ⟨fun h => h.2, fun h => ⟨h ▸ hm, h⟩⟩

theorem mem_keep {i : ℕ} : i ∈ G.keep.S ↔ i ∈ G.S ∧ ¬ G.rem (G.poly i) := by
  classical
  exact Finset.mem_filter

theorem keep_pt (x : EndId) : G.keep.pt x = G.pt x := rfl
theorem keep_key (x : EndId) : G.keep.key x = G.key x := rfl

/-- Nothing left out. -/
theorem keep_eq (h : ∀ i ∈ G.S, ¬ G.rem (G.poly i)) : G.keep = G := by
  classical
  have hS : G.keep.S = G.S := Finset.filter_true_of_mem h
  cases G
  unfold keep at hS ⊢
  dsimp only at hS ⊢
  congr

/-- An edge that is left out hides no other. -/
def Clear (G : Plan) : Prop := ∀ i j, G.Top i → G.rem (G.poly i) → j ∈ G.S → G.Same i j → G.rem (G.poly j)

theorem keep_top (hC : G.Clear) {i : ℕ} : G.keep.Top i ↔ G.Top i ∧ ¬ G.rem (G.poly i) := by
  constructor
  · rintro ⟨h1, h2⟩
    obtain ⟨hi, hr⟩ := mem_keep.1 h1
    refine ⟨?_, hr⟩
    obtain ⟨j, hj, hs, hle⟩ := exists_top hi
    have hjr : ¬ G.rem (G.poly j) := fun h => hr (hC j i hj h hi hs.symm)
    have := h2 j (mem_keep.2 ⟨hj.1, hjr⟩) hs
    refine ⟨hi, fun k hk hk' => ?_⟩
    exact (hj.2 k hk (hs.symm.trans hk')).trans this
  · rintro ⟨h1, h2⟩
    exact ⟨mem_keep.2 ⟨h1.1, h2⟩, fun j hj => h1.2 j (mem_keep.1 hj).1⟩

theorem keep_corner (hC : G.Clear) {p : Pt ℝ} {z : EndId} : z ∈ G.keep.corner p ↔ z ∈ G.corner p ∧ ¬ G.rem (G.poly z.1) := by
  rw [mem_corner, mem_corner, keep_top hC, keep_pt]
  tauto

/-- The flags on both sides of an edge that is left out agree, as far as `W` is concerned. -/
def Blind (G : Plan) (W : List Bool → Prop) : Prop := ∀ i, G.Top i → G.rem (G.poly i) → (W (G.flag (G.lo i)) ↔ W (G.flag (G.hi i)))

theorem Blind.opp {W : List Bool → Prop} (h : G.Blind W) {z : EndId} (hz : G.Top z.1) (hr : G.rem (G.poly z.1)) :
    W (G.flag (G.F (opp z))) ↔ W (G.flag (G.F z)) := by
  obtain ⟨i, e⟩ := z
  cases e
  · exact h i hz hr
  · exact (h i hz hr).symm

/-- Around a corner, between edges that are kept, `W` does not change. -/
theorem keep_cyc (hC : G.Clear) {W : List Bool → Prop} (hB : G.Blind W) {p : Pt ℝ} {z : EndId} (hz : z ∈ G.keep.corner p) (n : ℕ) : ∀ {y : EndId}, y ∈ G.corner p →
    CycPred (G.keep.corner p) G.key z y → ((G.corner p).filter fun w => G.key w < G.key y).card + (if G.key z < G.key y then 0 else (G.corner p).card) ≤ n →
    (W (G.flag (G.F z)) ↔ W (G.flag (G.F (opp y)))) := by
  classical
  induction n with
  | zero =>
    intro y hy hc hn
    exfalso
    have hz' := ((keep_corner hC).1 hz).1
    have h1 : 0 < (G.corner p).card := Finset.card_pos.2 ⟨z, hz'⟩
    by_cases hlt : G.key z < G.key y
    · have : 0 < ((G.corner p).filter fun w => G.key w < G.key y).card := Finset.card_pos.2 ⟨z, Finset.mem_filter.2 ⟨hz', hlt⟩⟩
      omega
    · rw [if_neg hlt] at hn
      omega
  | succ n ih =>
    intro y hy hc hn
    have hz' := ((keep_corner hC).1 hz).1
    have hsub : ∀ w ∈ G.keep.corner p, w ∈ G.corner p := fun w hw => ((keep_corner hC).1 hw).1
    obtain ⟨u, hu, hcu⟩ := exists_cycPred (G.corner p) G.key hy
    have hFu : G.flag (G.F u) = G.flag (G.F (opp y)) := by
      congr 1
      funext m
      exact F_cyc hu hy hcu m
    by_cases hur : G.rem (G.poly u.1)
    swap
    · -- it is the one
      have huk : u ∈ G.keep.corner p := (keep_corner hC).2 ⟨hu, hur⟩
      have : u = z := by
        refine CycPred.unique (T := G.keep.corner p) (k := G.key) (y := y) (fun a ha b hb => corner_inj a (hsub a ha) b (hsub b hb)) huk hz ?_ hc
        rcases hcu with ⟨h1, h2⟩ | ⟨h1, h2⟩
        · exact Or.inl ⟨h1, fun w hw => h2 w (hsub w hw)⟩
        · exact Or.inr ⟨fun w hw => h1 w (hsub w hw), fun w hw => h2 w (hsub w hw)⟩
      rw [← this, hFu]
    · have hne : u ≠ z := fun e => ((keep_corner hC).1 hz).2 (e ▸ hur)
      rw [← hFu, ← hB.opp (mem_corner.1 hu).1 hur]
      have hkey : G.key u ≠ G.key z := fun e => hne (corner_inj u hu z hz' e)
      have hcase : CycPred (G.keep.corner p) G.key z u ∧ ((G.corner p).filter fun w => G.key w < G.key u).card + (if G.key z < G.key u then 0 else (G.corner p).card) ≤ n := by
        have hcard : G.key u < G.key y → ((G.corner p).filter fun w => G.key w < G.key u).card < ((G.corner p).filter fun w => G.key w < G.key y).card := by
          intro hlt
          apply Finset.card_lt_card
          rw [Finset.ssubset_iff_of_subset]
          · exact ⟨u, Finset.mem_filter.2 ⟨hu, hlt⟩, fun h => lt_irrefl _ (Finset.mem_filter.1 h).2⟩
          · intro w hw
            obtain ⟨h1, h2⟩ := Finset.mem_filter.1 hw
            exact Finset.mem_filter.2 ⟨h1, h2.trans hlt⟩
        rcases hc with ⟨c1, c2⟩ | ⟨c1, c2⟩
        · rcases hcu with ⟨u1, u2⟩ | ⟨u1, u2⟩
          · have hzu : G.key z < G.key u := lt_of_le_of_ne (u2 z hz' c1) (Ne.symm hkey)
            refine ⟨Or.inl ⟨hzu, fun w hw hlt => c2 w hw (hlt.trans u1)⟩, ?_⟩
            have := hcard u1
            rw [if_pos hzu]
            rw [if_pos c1] at hn
            omega
          · exact absurd c1 (not_lt.2 (u1 z hz'))
        · have hzy : ¬ G.key z < G.key y := not_lt.2 (c1 z hz)
          rw [if_neg hzy] at hn
          rcases hcu with ⟨u1, u2⟩ | ⟨u1, u2⟩
          · have hzu : ¬ G.key z < G.key u := fun h => hzy (h.trans u1)
            refine ⟨Or.inr ⟨fun w hw => u1.le.trans (c1 w hw), c2⟩, ?_⟩
            have := hcard u1
            rw [if_neg hzu]
            omega
          · have hzu : G.key z < G.key u := lt_of_le_of_ne (u2 z hz') (Ne.symm hkey)
            refine ⟨Or.inl ⟨hzu, fun w hw _ => c2 w hw⟩, ?_⟩
            rw [if_pos hzu]
            have : ((G.corner p).filter fun w => G.key w < G.key u).card < (G.corner p).card := by
              apply Finset.card_lt_card
              rw [Finset.ssubset_iff_of_subset (Finset.filter_subset _ _)]
              exact ⟨u, hu, fun h => lt_irrefl _ (Finset.mem_filter.1 h).2⟩
            omega
      exact ih hu hcase.1 hcase.2

/-- Along a walk of kept edges, `W` does not change. -/
theorem keep_next (hC : G.Clear) {W : List Bool → Prop} (hB : G.Blind W) {x : EndId} (hx : G.keep.Top x.1) :
    W (G.flag (G.F (G.keep.next x))) ↔ W (G.flag (G.F x)) := by
  obtain ⟨h1, h2⟩ := next_spec hx
  have := keep_cyc hC hB h1 _ (opp_corner ((keep_top hC).1 hx).1) h2 (le_refl _)
  rwa [opp_opp] at this

end Plan

end Idc
