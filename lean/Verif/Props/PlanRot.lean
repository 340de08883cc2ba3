import Verif.Props.PlanParity
/-!
# The turn at a corner, for C81
-/

namespace Idc

open Net

/-! ### The one before, around a circle -/

section
variable {α β : Type} [LinearOrder β]

/-- `z` comes right before `y` among `T`, around a circle. -/
def CycPred (T : Finset α) (k : α → β) (z y : α) : Prop :=
  (k z < k y ∧ ∀ w ∈ T, k w < k y → k w ≤ k z) ∨ ((∀ w ∈ T, k y ≤ k w) ∧ ∀ w ∈ T, k w ≤ k z)

theorem exists_cycPred (T : Finset α) (k : α → β) {y : α} (hy : y ∈ T) : ∃ z ∈ T, CycPred T k z y := by
  by_cases h : (T.filter fun w => k w < k y).Nonempty
  · obtain ⟨z, hz, hm⟩ := Finset.exists_max_image _ k h
    obtain ⟨hz1, hz2⟩ := Finset.mem_filter.1 hz
    exact ⟨z, hz1, Or.inl ⟨hz2, fun w hw hlt => hm w (Finset.mem_filter.2 ⟨hw, hlt⟩)⟩⟩
  · obtain ⟨z, hz, hm⟩ := Finset.exists_max_image T k ⟨y, hy⟩
    refine ⟨z, hz, Or.inr ⟨fun w hw => ?_, hm⟩⟩
    by_contra hn
    exact h ⟨w, Finset.mem_filter.2 ⟨hw, not_le.1 hn⟩⟩

theorem CycPred.inj {T : Finset α} {k : α → β} (hk : ∀ x ∈ T, ∀ y ∈ T, k x = k y → x = y) {z y y' : α} (hy : y ∈ T) (hy' : y' ∈ T)
    (h : CycPred T k z y) (h' : CycPred T k z y') : y = y' := by
  apply hk y hy y' hy'
  rcases h with ⟨h1, h2⟩ | ⟨h1, h2⟩ <;> rcases h' with ⟨h1', h2'⟩ | ⟨h1', h2'⟩
  · rcases lt_trichotomy (k y) (k y') with h | h | h
    · exact absurd (h2' y hy h) (not_le.2 h1)
    · exact h
    · exact absurd (h2 y' hy' h) (not_le.2 h1')
  · exact absurd h1 (not_lt.2 (h2' y hy))
  · exact absurd h1' (not_lt.2 (h2 y' hy'))
  · exact le_antisymm (h1 y' hy') (h1' y hy)

theorem CycPred.unique {T : Finset α} {k : α → β} (hk : ∀ x ∈ T, ∀ y ∈ T, k x = k y → x = y) {z z' y : α} (hz : z ∈ T) (hz' : z' ∈ T)
    (h : CycPred T k z y) (h' : CycPred T k z' y) : z = z' := by
  apply hk z hz z' hz'
  rcases h with ⟨h1, h2⟩ | ⟨h1, h2⟩ <;> rcases h' with ⟨h1', h2'⟩ | ⟨h1', h2'⟩
  · exact le_antisymm (h2' z hz h1) (h2 z' hz' h1')
  · exact absurd h1 (not_lt.2 (h1' z hz))
  · exact absurd h1' (not_lt.2 (h1 z' hz'))
  · exact le_antisymm (h2' z hz) (h2 z' hz')

/-- Around the circle: another one, then `z`, then `y`. -/
theorem CycPred.order {T : Finset α} {k : α → β} (hk : ∀ x ∈ T, ∀ y ∈ T, k x = k y → x = y) {w z y : α} (hw : w ∈ T) (hz : z ∈ T) (hy : y ∈ T)
    (h : CycPred T k z y) (hwz : w ≠ z) (hwy : w ≠ y) : (k w < k z ∧ k z < k y) ∨ (k z < k y ∧ k y < k w) ∨ (k y < k w ∧ k w < k z) := by
  rcases h with ⟨h1, h2⟩ | ⟨h1, h2⟩
  · rcases lt_trichotomy (k w) (k y) with h | h | h
    · exact Or.inl ⟨lt_of_le_of_ne (h2 w hw h) fun e => hwz (hk w hw z hz e), h1⟩
    · exact absurd (hk w hw y hy h) hwy
    · exact Or.inr (Or.inl ⟨h1, h⟩)
  · exact Or.inr (Or.inr ⟨lt_of_le_of_ne (h1 w hw) fun e => hwy (hk w hw y hy e.symm), lt_of_le_of_ne (h2 w hw) fun e => hwz (hk w hw z hz e)⟩)

end

namespace Plan

variable (G : Plan)

/-- The segment that stands for all that coincide with it. -/
def Top (i : ℕ) : Prop := i ∈ G.S ∧ ∀ j ∈ G.S, G.Same i j → G.poly j ≤ G.poly i

open Classical in
/-- The ends at a point that stand for all that coincide. -/
noncomputable def corner (p : Pt ℝ) : Finset EndId := (G.S ×ˢ {SegmentEnd.left, SegmentEnd.right}).filter fun z => G.Top z.1 ∧ G.pt z = p

variable {G}

theorem mem_corner {p : Pt ℝ} {z : EndId} : z ∈ G.corner p ↔ G.Top z.1 ∧ G.pt z = p := by
  classical
  unfold corner
  simp only [Finset.mem_filter, Finset.mem_product]
  constructor
  · exact fun h => h.2
  · intro h
    refine ⟨⟨h.1.1, ?_⟩, h⟩
    cases z.2 <;> simp

theorem Top.unique {i j : ℕ} (hi : G.Top i) (hj : G.Top j) (h : G.Same i j) : i = j := by
  by_contra hn
  exact G.poly_ne hi.1 hj.1 hn h (le_antisymm (hj.2 i hi.1 h.symm) (hi.2 j hj.1 h))

/-- Every segment has one that stands for it. -/
theorem exists_top {i : ℕ} (hi : i ∈ G.S) : ∃ j, G.Top j ∧ G.Same i j ∧ G.poly i ≤ G.poly j := by
  classical
  obtain ⟨j, hj, hm⟩ := Finset.exists_max_image (G.S.filter fun j => G.Same i j) G.poly ⟨i, Finset.mem_filter.2 ⟨hi, Same.refl G i⟩⟩
  obtain ⟨h1, h2⟩ := Finset.mem_filter.1 hj
  exact ⟨j, ⟨h1, fun k hk hs => hm k (Finset.mem_filter.2 ⟨hk, h2.trans hs⟩)⟩, h2, hm i (Finset.mem_filter.2 ⟨hi, Same.refl G i⟩)⟩

theorem corner_inj {p : Pt ℝ} : ∀ x ∈ G.corner p, ∀ y ∈ G.corner p, G.key x = G.key y → x = y :=
  fun _ hx _ hy h => key_inj (mem_corner.1 hx).1.1 (mem_corner.1 hy).1.1 h

/-- Counterclockwise. -/
def Ccw (G : Plan) (w z y : EndId) : Prop :=
  (0 < G.crs w z ∧ 0 < G.crs z y) ∨ (0 < G.crs z y ∧ 0 < G.crs y w) ∨ (0 < G.crs y w ∧ 0 < G.crs w z)

theorem Ccw.rotate {w z y : EndId} (h : G.Ccw w z y) : G.Ccw z y w := by
  rcases h with h | h | h
  · exact Or.inr (Or.inr ⟨h.1, h.2⟩)
  · exact Or.inl h
  · exact Or.inr (Or.inl h)

theorem crs_of_key {i j : ℕ} {e : SegmentEnd} (hi : G.Top i) (hj : G.Top j) (h : G.pt (i, e) = G.pt (j, e)) (hk : G.key (i, e) < G.key (j, e)) :
    0 < G.crs (i, e) (j, e) := by
  rcases (key_iff hi.1 hj.1 h).1 hk with h1 | h1
  · exact h1
  · have := hi.unique hj (same_of_crs hi.1 hj.1 h h1.1)
    rw [this] at hk
    exact absurd hk (lt_irrefl _)

/-- The order of the ends at a corner is counterclockwise. -/
theorem ccw_of_key {p : Pt ℝ} {w z y : EndId} (hw : w ∈ G.corner p) (hz : z ∈ G.corner p) (hy : y ∈ G.corner p) (h1 : G.key w < G.key z) (h2 : G.key z < G.key y) :
    G.Ccw w z y := by
  obtain ⟨tw, pw⟩ := mem_corner.1 hw
  obtain ⟨tz, pz⟩ := mem_corner.1 hz
  obtain ⟨ty, py⟩ := mem_corner.1 hy
  have h3 := G.crs_three w z y
  obtain ⟨i, e⟩ := w
  obtain ⟨j, e'⟩ := z
  obtain ⟨k, e''⟩ := y
  have hi := G.a_lt_b tw.1
  have hj := G.a_lt_b tz.1
  have hk := G.a_lt_b ty.1
  dsimp only at hi hj hk tw tz ty
  cases e <;> cases e' <;> cases e''
  · exact Or.inl ⟨crs_of_key tw tz (pw.trans pz.symm) h1, crs_of_key tz ty (pz.trans py.symm) h2⟩
  · exact absurd h2 (lt_asymm (key_right_left (py.trans pz.symm)))
  · exact absurd h1 (lt_asymm (key_right_left (pz.trans pw.symm)))
  · exact absurd h1 (lt_asymm (key_right_left (pz.trans pw.symm)))
  · have h4 := crs_of_key tz ty (pz.trans py.symm) h2
    rw [dt_left, dt_left, dt_right] at h3
    by_cases h5 : 0 < G.crs (i, .right) (j, .left)
    · exact Or.inl ⟨h5, h4⟩
    · refine Or.inr (Or.inl ⟨h4, ?_⟩)
      by_contra h6
      nlinarith [mul_pos h4 (sub_pos.2 hi), mul_nonneg (sub_nonneg.2 hk.le) (neg_nonneg.2 (not_lt.1 h5)), mul_nonneg (sub_nonneg.2 hj.le) (neg_nonneg.2 (not_lt.1 h6))]
  · exact absurd h2 (lt_asymm (key_right_left (py.trans pz.symm)))
  · have h4 := crs_of_key tw tz (pw.trans pz.symm) h1
    rw [dt_left, dt_right, dt_right] at h3
    by_cases h5 : 0 < G.crs (j, .right) (k, .left)
    · exact Or.inl ⟨h4, h5⟩
    · refine Or.inr (Or.inr ⟨?_, h4⟩)
      by_contra h6
      nlinarith [mul_pos h4 (sub_pos.2 hk), mul_nonneg (sub_nonneg.2 hi.le) (neg_nonneg.2 (not_lt.1 h5)), mul_nonneg (sub_nonneg.2 hj.le) (neg_nonneg.2 (not_lt.1 h6))]
  · exact Or.inl ⟨crs_of_key tw tz (pw.trans pz.symm) h1, crs_of_key tz ty (pz.trans py.symm) h2⟩

theorem cyc_ccw {p : Pt ℝ} {w z y : EndId} (hw : w ∈ G.corner p) (hz : z ∈ G.corner p) (hy : y ∈ G.corner p) (h : CycPred (G.corner p) G.key z y)
    (hwz : w ≠ z) (hwy : w ≠ y) : G.Ccw w z y := by
  rcases h.order corner_inj hw hz hy hwz hwy with h | h | h
  · exact ccw_of_key hw hz hy h.1 h.2
  · exact (ccw_of_key hz hy hw h.1 h.2).rotate.rotate
  · exact (ccw_of_key hy hw hz h.1 h.2).rotate

/-! ### The next endpoint of a walk -/

theorem opp_corner {x : EndId} (h : G.Top x.1) : opp x ∈ G.corner (G.pt (opp x)) := mem_corner.2 ⟨h, rfl⟩

open Classical in
/-- Where the walk goes: right before where it came from, around the corner. -/
noncomputable def next (G : Plan) (x : EndId) : EndId :=
  if h : G.Top x.1 then Classical.choose (exists_cycPred (G.corner (G.pt (opp x))) G.key (opp_corner h)) else x

theorem next_spec {x : EndId} (h : G.Top x.1) : G.next x ∈ G.corner (G.pt (opp x)) ∧ CycPred (G.corner (G.pt (opp x))) G.key (G.next x) (opp x) := by
  unfold next
  rw [dif_pos h]
  exact Classical.choose_spec (exists_cycPred (G.corner (G.pt (opp x))) G.key (opp_corner h))

theorem next_top {x : EndId} (h : G.Top x.1) : G.Top (G.next x).1 := (mem_corner.1 (next_spec h).1).1
theorem next_pt {x : EndId} (h : G.Top x.1) : G.pt (G.next x) = G.pt (opp x) := (mem_corner.1 (next_spec h).1).2

theorem next_inj {x y : EndId} (hx : G.Top x.1) (hy : G.Top y.1) (h : G.next x = G.next y) : x = y := by
  obtain ⟨x1, x2⟩ := next_spec hx
  obtain ⟨y1, y2⟩ := next_spec hy
  have hp : G.pt (opp x) = G.pt (opp y) := by rw [← next_pt hx, ← next_pt hy, h]
  rw [← hp, ← h] at y1 y2
  have : opp x = opp y := x2.inj corner_inj (opp_corner hx) (hp ▸ opp_corner hy) y2
  rw [← opp_opp x, this, opp_opp]

/-! ### What a walk has on its left -/

variable (G) in
/-- The polygons to the left, leaving from an endpoint. -/
noncomputable def F (z : EndId) (m : ℕ) : ZMod 2 := match z.2 with
  | .left => G.hi z.1 m
  | .right => G.lo z.1 m

theorem F_opp (z : EndId) (m : ℕ) : G.F z m + G.F (opp z) m = G.grp z.1 m := by
  obtain ⟨i, e⟩ := z
  have := two_eq (G.lo i m)
  cases e <;> simp only [F, opp, SegmentEnd.other, Plan.hi]
  · linear_combination this
  · linear_combination this

variable (G) in
/-- How many ends of polygon `m` at `p`: even or odd. -/
noncomputable def cnt (p : Pt ℝ) (m : ℕ) (P : EndId → Prop) : ZMod 2 :=
  ∑ k ∈ G.S with G.poly k = m, (ind (G.lp k = p ∧ P (k, .left)) + ind (G.rp k = p ∧ P (k, .right)))

variable (G) in
/-- What is straight above the corner. -/
noncomputable def base (p : Pt ℝ) (m : ℕ) : ZMod 2 :=
  ∑ k ∈ G.S with G.poly k = m, (ind (G.a k < G.time p ∧ G.time p < G.b k ∧ G.h k (G.time p) < p.y) + ind (G.rp k = p))

theorem cnt_congr {p : Pt ℝ} {m : ℕ} {P Q : EndId → Prop} (h : ∀ w : EndId, w.1 ∈ G.S → G.poly w.1 = m → G.pt w = p → (P w ↔ Q w)) : G.cnt p m P = G.cnt p m Q := by
  unfold cnt
  refine Finset.sum_congr rfl fun k hk => ?_
  obtain ⟨h1, h2⟩ := Finset.mem_filter.1 hk
  congr 1
  · exact ind_congr ⟨fun ⟨a, b⟩ => ⟨a, (h (k, .left) h1 h2 a).1 b⟩, fun ⟨a, b⟩ => ⟨a, (h (k, .left) h1 h2 a).2 b⟩⟩
  · exact ind_congr ⟨fun ⟨a, b⟩ => ⟨a, (h (k, .right) h1 h2 a).1 b⟩, fun ⟨a, b⟩ => ⟨a, (h (k, .right) h1 h2 a).2 b⟩⟩

theorem ind_or {P Q : Prop} (h : ¬ (P ∧ Q)) : ind (P ∨ Q) = ind P + ind Q := by
  by_cases hp : P
  · have : ¬ Q := fun hq => h ⟨hp, hq⟩
    rw [ind_true (Or.inl hp), ind_true hp, ind_false this, add_zero]
  · by_cases hq : Q
    · rw [ind_true (Or.inr hq), ind_false hp, ind_true hq, zero_add]
    · rw [ind_false (by rintro (h | h) <;> contradiction), ind_false hp, ind_false hq, zero_add]

theorem cnt_add {p : Pt ℝ} {m : ℕ} {P Q : EndId → Prop} (h : ∀ w : EndId, w.1 ∈ G.S → G.pt w = p → ¬ (P w ∧ Q w)) :
    G.cnt p m (fun w => P w ∨ Q w) = G.cnt p m P + G.cnt p m Q := by
  unfold cnt
  rw [← Finset.sum_add_distrib]
  refine Finset.sum_congr rfl fun k hk => ?_
  obtain ⟨h1, h2⟩ := Finset.mem_filter.1 hk
  rw [show ∀ a b c d : ZMod 2, a + b + (c + d) = a + c + (b + d) from fun a b c d => by ring]
  congr 1
  · by_cases hp : G.lp k = p
    · rw [ind_congr (Q := P (k, .left) ∨ Q (k, .left)) (by simp [hp]), ind_congr (P := _ ∧ P _) (Q := P (k, .left)) (by simp [hp]),
        ind_congr (P := _ ∧ Q _) (Q := Q (k, .left)) (by simp [hp])]
      exact ind_or (h (k, .left) h1 hp)
    · rw [ind_false (fun x => hp x.1), ind_false (fun x => hp x.1), ind_false (fun x => hp x.1), add_zero]
  · by_cases hp : G.rp k = p
    · rw [ind_congr (Q := P (k, .right) ∨ Q (k, .right)) (by simp [hp]), ind_congr (P := _ ∧ P _) (Q := P (k, .right)) (by simp [hp]),
        ind_congr (P := _ ∧ Q _) (Q := Q (k, .right)) (by simp [hp])]
      exact ind_or (h (k, .right) h1 hp)
    · rw [ind_false (fun x => hp x.1), ind_false (fun x => hp x.1), ind_false (fun x => hp x.1), add_zero]

/-- Ends of a polygon at a corner come in pairs. -/
theorem cnt_all (p : Pt ℝ) (m : ℕ) : G.cnt p m (fun _ => True) = 0 := by
  have := G.even m fun q => ind (q = p)
  unfold cnt
  simpa only [and_true] using this

theorem cnt_none {p : Pt ℝ} {m : ℕ} {P : EndId → Prop} (h : ∀ w : EndId, w.1 ∈ G.S → G.pt w = p → ¬ P w) : G.cnt p m P = 0 := by
  unfold cnt
  refine Finset.sum_eq_zero fun k hk => ?_
  obtain ⟨h1, h2⟩ := Finset.mem_filter.1 hk
  rw [ind_false (fun x => h (k, .left) h1 x.1 x.2), ind_false (fun x => h (k, .right) h1 x.1 x.2), add_zero]

/-- The area to the left of an edge that leaves a corner: what is above the corner, and all edges up to this one. -/
theorem F_eq {z : EndId} (hz : G.Top z.1) (m : ℕ) : G.F z m = G.base (G.pt z) m + G.cnt (G.pt z) m (fun w => G.key w ≤ G.key z) := by
  obtain ⟨i, e⟩ := z
  have hi : i ∈ G.S := hz.1
  have hab := G.a_lt_b hi
  unfold base cnt
  rw [← Finset.sum_add_distrib]
  cases e
  · -- leaving to the right
    show G.hi i m = _
    have hT : G.time (G.pt (i, .left)) = G.a i := rfl
    have hpp : G.pt (i, .left) = G.lp i := rfl
    have h0 := G.a_lt_tau i
    have h0b := G.tau_lt_b hi
    unfold Plan.hi Plan.lo par grp
    rw [← Finset.sum_add_distrib]
    refine Finset.sum_congr rfl fun k hk => ?_
    have hk : k ∈ G.S := (Finset.mem_filter.1 hk).1
    have hkb := G.a_lt_b hk
    rw [hT, hpp]
    have hal := G.alive_tau (i := i) hk
    by_cases hR : G.rp k = G.lp i
    · have e : G.b k = G.a i := by unfold Plan.b Plan.a; rw [hR]
      have hns : ¬ G.Same k i := fun hs => by have := hs.b; linarith
      have hL : G.lp k ≠ G.lp i := fun h => by have : G.a k = G.a i := by unfold Plan.a; rw [h]
                                               linarith
      rw [ind_false (fun x => by have := (hal.1 ⟨x.1, x.2.1⟩).2; linarith), ind_false (fun x => hns x.1), ind_false (fun x => by linarith [x.2.1]),
        ind_true hR, ind_false (fun x => hL x.1), ind_true ⟨hR, (key_right_left (i := k) (j := i) hR).le⟩, zero_add, zero_add]
      exact (two_eq 1).symm
    · rw [ind_false hR, ind_false (P := G.rp k = G.lp i ∧ _) (fun x => hR x.1), add_zero, add_zero]
      by_cases hL : G.lp k = G.lp i
      · have e : G.a k = G.a i := by unfold Plan.a; rw [hL]
        rw [ind_false (P := G.a k < G.a i ∧ _) (fun x => by linarith [x.1]), zero_add]
        have ha := hal.2 ⟨e.le, by linarith⟩
        have hkey := key_iff (e := .left) hk hi hL
        have hcr := crs_left hk hi hL ha.1
        by_cases hs : G.Same k i
        · rw [ind_false (P := _ ∧ _ ∧ _) (fun x => by rw [hs.h] at x; exact lt_irrefl _ x.2.2), zero_add]
          have hle : G.key (k, .left) ≤ G.key (i, .left) := by
            rcases eq_or_ne k i with e | hne
            · rw [e]
            · exact ((key_same .left hk hi hs).2 (lt_of_le_of_ne (hz.2 k hk hs.symm) (G.poly_ne hk hi hne hs))).le
          rw [ind_true ⟨hs, hz.2 k hk hs.symm⟩, ind_true ⟨hL, hle⟩]
        · rw [ind_false (P := G.Same k i ∧ _) (fun x => hs x.1), add_zero]
          apply ind_congr
          have hne : k ≠ i := fun e => hs (e ▸ Same.refl G k)
          have hnc : ¬ G.crs (k, .left) (i, .left) = 0 := fun h => hs (same_of_crs (e := .left) hk hi hL h)
          constructor
          · intro x
            exact ⟨hL, (hkey.2 (Or.inl (hcr.2 x.2.2))).le⟩
          · intro x
            refine ⟨ha.1, ha.2, hcr.1 ?_⟩
            rcases hkey.1 (lt_of_le_of_ne x.2 (fun e => hne (congrArg Prod.fst (key_inj (x := (k, .left)) (y := (i, .left)) hk hi e)))) with h | h
            · exact h
            · exact absurd h.1 hnc
      · have hns : ¬ G.Same k i := fun hs => hL hs.1
        rw [ind_false (P := G.Same k i ∧ _) (fun x => hns x.1), ind_false (P := G.lp k = _ ∧ _) (fun x => hL x.1), add_zero, add_zero]
        apply ind_congr
        have hna : G.a k ≠ G.a i := fun e => hL (G.time_inj (x := (k, .left)) (y := (i, .left)) hk hi e)
        constructor
        · rintro ⟨h1, h2, h3⟩
          obtain ⟨h4, h5⟩ := hal.1 ⟨h1, h2⟩
          have h4 := lt_of_le_of_ne h4 hna
          refine ⟨h4, h5, ?_⟩
          rw [← G.h_left i]
          refine lt_of_le_of_ne (G.order_const hk hi h1.le h2.le h0.le h0b.le h4.le h5.le le_rfl hab.le h3) ?_
          intro e
          rw [G.h_left] at e
          exact G.h_ne hk (x := (i, .left)) hi h4 h5 e
        · rintro ⟨h4, h5, h3⟩
          obtain ⟨h1, h2⟩ := hal.2 ⟨h4.le, h5⟩
          rw [← G.h_left i] at h3
          exact ⟨h1, h2, G.order_lift hk hi h4.le h5.le le_rfl hab.le h1 h2 h0 h0b h3⟩
  · -- leaving to the left
    show G.lo i m = _
    have hT : G.time (G.pt (i, .right)) = G.b i := rfl
    have hpp : G.pt (i, .right) = G.rp i := rfl
    obtain ⟨t, h0b, ht⟩ := G.exists_before (G.b i)
    have h0 := (ht i hi).1 hab
    have hq : G.Quiet t := by
      intro j hj
      constructor
      · intro e
        have := (ht j hj).1 (by linarith); linarith
      · intro e
        have := (ht j hj).2 (by linarith); linarith
    rw [← lo_eq hi m hq h0 h0b]
    unfold par
    refine Finset.sum_congr rfl fun k hk => ?_
    have hk : k ∈ G.S := (Finset.mem_filter.1 hk).1
    have hkb := G.a_lt_b hk
    rw [hT, hpp]
    have hal : (G.a k < t ∧ t < G.b k) ↔ (G.a k < G.b i ∧ G.b i ≤ G.b k) := by
      constructor
      · rintro ⟨h1, h2⟩
        refine ⟨by linarith, ?_⟩
        by_contra hn
        have := (ht k hk).2 (not_le.1 hn); linarith
      · rintro ⟨h1, h2⟩
        exact ⟨(ht k hk).1 h1, by linarith⟩
    by_cases hL : G.lp k = G.rp i
    · have e : G.a k = G.b i := by unfold Plan.b Plan.a; rw [hL]
      have hR : G.rp k ≠ G.rp i := fun h => by have : G.b k = G.b i := by unfold Plan.b; rw [h]
                                               linarith
      rw [ind_false (fun x => by linarith [x.1]), ind_false (fun x => by linarith [x.1]),
        ind_false hR, ind_false (P := G.rp k = _ ∧ _) (fun x => hR x.1), ind_false (fun x => absurd x.2 (not_le.2 (key_right_left (i := i) (j := k) hL.symm)))]
      simp
    · rw [ind_false (P := G.lp k = G.rp i ∧ _) (fun x => hL x.1), zero_add]
      by_cases hR : G.rp k = G.rp i
      · have e : G.b k = G.b i := by unfold Plan.b; rw [hR]
        rw [ind_false (P := G.a k < G.b i ∧ _) (fun x => by linarith [x.2.1]), zero_add, ind_true hR]
        have ha := hal.2 ⟨by linarith, e.ge⟩
        have hkey := key_iff (e := .right) hk hi hR
        have hcr := crs_right hk hi hR ha.2
        by_cases hs : G.Same k i
        · have hle : G.key (k, .right) ≤ G.key (i, .right) := by
            rcases eq_or_ne k i with e | hne
            · rw [e]
            · exact ((key_same .right hk hi hs).2 (lt_of_le_of_ne (hz.2 k hk hs.symm) (G.poly_ne hk hi hne hs))).le
          rw [ind_false (P := _ ∧ _ ∧ _) (fun x => by rw [hs.h] at x; exact lt_irrefl _ x.2.2), ind_true ⟨hR, hle⟩]
          exact (two_eq 1).symm
        · have hne : k ≠ i := fun e => hs (e ▸ Same.refl G k)
          have hnc : ¬ G.crs (k, .right) (i, .right) = 0 := fun h => hs (same_of_crs (e := .right) hk hi hR h)
          have hle : G.key (k, .right) ≤ G.key (i, .right) ↔ G.h i t < G.h k t := by
            rw [← hcr]
            constructor
            · intro x
              rcases hkey.1 (lt_of_le_of_ne x (fun e => hne (congrArg Prod.fst (key_inj (x := (k, .right)) (y := (i, .right)) hk hi e)))) with h | h
              · exact h
              · exact absurd h.1 hnc
            · intro x
              exact (hkey.2 (Or.inl x)).le
          by_cases hlt : G.h i t < G.h k t
          · rw [ind_false (fun x => lt_asymm hlt x.2.2), ind_true ⟨hR, hle.2 hlt⟩]
            exact (two_eq 1).symm
          · have hlt' := lt_of_le_of_ne (not_lt.1 hlt) fun e => hs (G.same_of_h hk hi ha.1 ha.2 h0.le h0b.le e)
            rw [ind_true ⟨ha.1, ha.2, hlt'⟩, ind_false (fun x => hlt (hle.1 x.2)), add_zero]
      · rw [ind_false hR, ind_false (P := G.rp k = _ ∧ _) (fun x => hR x.1), add_zero, add_zero]
        apply ind_congr
        have hnb : G.b k ≠ G.b i := fun e => hR (G.time_inj (x := (k, .right)) (y := (i, .right)) hk hi e)
        constructor
        · rintro ⟨h1, h2, h3⟩
          obtain ⟨h4, h5⟩ := hal.1 ⟨h1, h2⟩
          have h5 := lt_of_le_of_ne h5 hnb.symm
          refine ⟨h4, h5, ?_⟩
          rw [← G.h_right hi]
          refine lt_of_le_of_ne (G.order_const hk hi h1.le h2.le h0.le h0b.le h4.le h5.le hab.le le_rfl h3) ?_
          intro e
          rw [G.h_right hi] at e
          exact G.h_ne hk (x := (i, .right)) hi h4 h5 e
        · rintro ⟨h4, h5, h3⟩
          obtain ⟨h1, h2⟩ := hal.2 ⟨h4, h5.le⟩
          rw [← G.h_right hi] at h3
          exact ⟨h1, h2, G.order_lift hk hi h4.le h5.le hab.le le_rfl h1 h2 h0 h0b h3⟩

/-- The ends that coincide. -/
theorem cnt_same {z : EndId} (hz : G.Top z.1) (m : ℕ) : G.cnt (G.pt z) m (fun w => w.2 = z.2 ∧ G.Same w.1 z.1) = G.grp z.1 m := by
  obtain ⟨i, e⟩ := z
  unfold cnt grp
  refine Finset.sum_congr rfl fun k hk => ?_
  have hk : k ∈ G.S := (Finset.mem_filter.1 hk).1
  cases e
  · rw [ind_false (P := _ ∧ SegmentEnd.right = _ ∧ _) (fun x => by simp at x), add_zero]
    exact ind_congr ⟨fun x => ⟨x.2.2, hz.2 k hk x.2.2.symm⟩, fun x => ⟨x.1.1, rfl, x.1⟩⟩
  · rw [ind_false (P := _ ∧ SegmentEnd.left = _ ∧ _) (fun x => by simp at x), zero_add]
    exact ind_congr ⟨fun x => ⟨x.2.2, hz.2 k hk x.2.2.symm⟩, fun x => ⟨x.1.2, rfl, x.1⟩⟩

/-- The area to the right of an edge that leaves a corner. -/
theorem F_opp_eq {z : EndId} (hz : G.Top z.1) (m : ℕ) :
    G.F (opp z) m = G.base (G.pt z) m + G.cnt (G.pt z) m (fun w => G.key w < G.key z ∧ ¬ (w.2 = z.2 ∧ G.Same w.1 z.1)) := by
  have h1 := F_opp (G := G) z m
  have h2 := F_eq hz m
  have h3 : G.cnt (G.pt z) m (fun w => G.key w ≤ G.key z) =
      G.cnt (G.pt z) m (fun w => G.key w < G.key z ∧ ¬ (w.2 = z.2 ∧ G.Same w.1 z.1)) + G.cnt (G.pt z) m (fun w => w.2 = z.2 ∧ G.Same w.1 z.1) := by
    rw [← cnt_add (fun w _ _ h => h.1.2 h.2)]
    refine cnt_congr fun w hw _ hpw => ?_
    constructor
    · intro hle
      by_cases hs : w.2 = z.2 ∧ G.Same w.1 z.1
      · exact Or.inr hs
      · refine Or.inl ⟨lt_of_le_of_ne hle fun e => hs ?_, hs⟩
        rw [key_inj hw hz.1 e]
        exact ⟨rfl, Same.refl G _⟩
    · rintro (h | ⟨h, hs⟩)
      · exact h.1.le
      · obtain ⟨k, e⟩ := w
        obtain ⟨i, e'⟩ := z
        dsimp only at h hs hw
        subst h
        rcases eq_or_ne k i with e | hne
        · rw [e]
        · exact ((key_same e hw hz.1 hs).2 (lt_of_le_of_ne (hz.2 k hw hs.symm) (G.poly_ne hw hz.1 hne hs))).le
  rw [cnt_same hz] at h3
  rw [h3] at h2
  have h5 := two_eq (G.base (G.pt z) m + G.cnt (G.pt z) m (fun w => G.key w < G.key z ∧ ¬ (w.2 = z.2 ∧ G.Same w.1 z.1)))
  linear_combination h1 - h2 - h5

/-- Coinciding ends compare alike. -/
theorem key_of_same {w w' y : EndId} (hw : w.1 ∈ G.S) (hw' : w'.1 ∈ G.S) (hy : y.1 ∈ G.S) (hp : G.pt w = G.pt y) (h2 : w.2 = w'.2) (hs : G.Same w.1 w'.1)
    (hn : ¬ (w.2 = y.2 ∧ G.Same w.1 y.1)) (h : G.key w < G.key y) : G.key w' < G.key y := by
  obtain ⟨k, e⟩ := w
  obtain ⟨k', e'⟩ := w'
  obtain ⟨i, e''⟩ := y
  dsimp only at *
  subst h2
  have hp' : G.pt (k', e) = G.pt (i, e'') := by rw [← pt_same e hs]; exact hp
  by_cases he : e = e''
  · subst he
    have hns : ¬ G.Same k i := fun h => hn ⟨rfl, h⟩
    rw [key_iff hw hy hp] at h
    rw [key_iff hw' hy hp']
    rcases h with h | h
    · left
      have : G.crs (k', e) (i, e) = G.crs (k, e) (i, e) := by
        unfold crs
        cases e <;> simp only [opp, SegmentEnd.other, pt, hs.1, hs.2]
      rw [this]; exact h
    · exact absurd (same_of_crs hw hy hp h.1) hns
  · cases e <;> cases e''
    · exact absurd rfl he
    · exact absurd h (lt_asymm (key_right_left hp.symm))
    · exact key_right_left hp'
    · exact absurd rfl he

/-- Between an edge and the next one clockwise nothing changes. -/
theorem F_cyc {p : Pt ℝ} {z y : EndId} (hz : z ∈ G.corner p) (hy : y ∈ G.corner p) (h : CycPred (G.corner p) G.key z y) (m : ℕ) : G.F z m = G.F (opp y) m := by
  obtain ⟨tz, pz⟩ := mem_corner.1 hz
  obtain ⟨ty, py⟩ := mem_corner.1 hy
  rw [F_eq tz, F_opp_eq ty, pz, py]
  congr 1
  -- the one that stands for an end
  have rep : ∀ w : EndId, w.1 ∈ G.S → G.pt w = p → ∃ w' ∈ G.corner p, w.2 = w'.2 ∧ G.Same w.1 w'.1 ∧ G.key w ≤ G.key w' := by
    intro w hw hpw
    obtain ⟨j, h1, h2, h3⟩ := exists_top hw
    obtain ⟨k, e⟩ := w
    refine ⟨(j, e), mem_corner.2 ⟨h1, ?_⟩, rfl, h2, ?_⟩
    · rw [← hpw]; exact (pt_same e h2).symm
    · rcases eq_or_ne k j with e | hne
      · rw [e]
      · exact ((key_same e hw h1.1 h2).2 (lt_of_le_of_ne h3 (G.poly_ne hw h1.1 hne h2))).le
  rcases h with ⟨h1, h2⟩ | ⟨h1, h2⟩
  · refine cnt_congr fun w hw _ hpw => ?_
    constructor
    · intro hle
      refine ⟨lt_of_le_of_lt hle h1, ?_⟩
      rintro ⟨e, hs⟩
      -- `z` would be between two that coincide
      rcases lt_or_eq_of_le hle with hlt | heq
      · by_cases hzw : w.2 = z.2 ∧ G.Same w.1 z.1
        · have : z = y := Prod.ext (tz.unique ty (hzw.2.symm.trans hs)) (hzw.1.symm.trans e)
          rw [this] at h1; exact lt_irrefl _ h1
        · exact lt_asymm h1 (key_of_same hw ty.1 tz.1 (hpw.trans pz.symm) e hs hzw hlt)
      · have hwz := key_inj hw tz.1 heq
        rw [hwz] at hs e
        have : z = y := Prod.ext (tz.unique ty hs) e
        rw [this] at h1; exact lt_irrefl _ h1
    · rintro ⟨hlt, hn⟩
      obtain ⟨w', hw', e, hs, hle⟩ := rep w hw hpw
      exact hle.trans (h2 w' hw' (key_of_same hw (mem_corner.1 hw').1.1 ty.1 (hpw.trans py.symm) e hs hn hlt))
  · have e1 : G.cnt p m (fun w => G.key w ≤ G.key z) = G.cnt p m (fun _ => True) := by
      refine cnt_congr fun w hw _ hpw => ⟨fun _ => trivial, fun _ => ?_⟩
      obtain ⟨w', hw', e, hs, hle⟩ := rep w hw hpw
      exact hle.trans (h2 w' hw')
    rw [e1, cnt_all, cnt_none]
    rintro w hw hpw ⟨hlt, hn⟩
    obtain ⟨w', hw', e, hs, hle⟩ := rep w hw hpw
    exact absurd (key_of_same hw (mem_corner.1 hw').1.1 ty.1 (hpw.trans py.symm) e hs hn hlt) (not_lt.2 (h1 w' hw'))

/-- A walk has the same area on its left all the way. -/
theorem F_next {x : EndId} (h : G.Top x.1) (m : ℕ) : G.F (G.next x) m = G.F x m := by
  have := F_cyc (next_spec h).1 (opp_corner h) (next_spec h).2 m
  rw [opp_opp] at this
  exact this

theorem grp_top {i : ℕ} (h : G.Top i) : G.grp i (G.poly i) = 1 := by
  classical
  unfold grp
  rw [Finset.sum_eq_single i]
  · exact ind_true ⟨Same.refl G i, le_rfl⟩
  · intro k hk hne
    obtain ⟨h1, h2⟩ := Finset.mem_filter.1 hk
    exact ind_false fun x => G.poly_ne h1 h.1 hne x.1 h2
  · intro hn
    exact (hn (Finset.mem_filter.2 ⟨h.1, rfl⟩)).elim

/-- An edge has different areas on its two sides. -/
theorem F_ne {x : EndId} (h : G.Top x.1) : G.F (opp x) (G.poly x.1) ≠ G.F x (G.poly x.1) := by
  intro e
  have := F_opp (G := G) x (G.poly x.1)
  rw [grp_top h, e, two_eq] at this
  exact absurd this (by decide)

theorem next_ne_opp {x : EndId} (h : G.Top x.1) : G.next x ≠ opp x := by
  intro e
  have := F_next h (G.poly x.1)
  rw [e] at this
  exact F_ne h this

end Plan

end Idc
