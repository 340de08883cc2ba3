import Verif.Props.PlanOrbit
import Verif.Props.LoopArea
/-!
# The area inside a walk, for C81
-/

namespace Idc

open Net Function

namespace Plan

/-! ### Segments with the inside on one side -/

section
variable {A : Plan}

theorem one_same (hp : ∀ i ∈ A.S, A.poly i = 0) {i j : ℕ} (hi : i ∈ A.S) (hj : j ∈ A.S) (h : A.Same i j) : i = j := by
  by_contra hn
  exact A.poly_ne hi hj hn h (by rw [hp i hi, hp j hj])

theorem one_top (hp : ∀ i ∈ A.S, A.poly i = 0) {i : ℕ} (hi : i ∈ A.S) : A.Top i := ⟨hi, fun j hj _ => by rw [hp i hi, hp j hj]⟩

open Classical in
variable (A) in
/-- The times of the corners. -/
noncomputable def times : List ℝ := (A.S.image A.a ∪ A.S.image A.b).sort (· ≤ ·)

theorem times_sorted : A.times.Pairwise (· < ·) := by
  unfold times
  exact Finset.sortedLT_sort _ |>.pairwise

theorem a_mem {i : ℕ} (hi : i ∈ A.S) : A.a i ∈ A.times := by
  classical
  unfold times
  rw [Finset.mem_sort]
  exact Finset.mem_union_left _ (Finset.mem_image_of_mem _ hi)

theorem b_mem {i : ℕ} (hi : i ∈ A.S) : A.b i ∈ A.times := by
  classical
  unfold times
  rw [Finset.mem_sort]
  exact Finset.mem_union_right _ (Finset.mem_image_of_mem _ hi)

variable (A) in
/-- The strips between the times of the corners. -/
noncomputable def strips : List (ℝ × ℝ) := A.times.zip A.times.tail

theorem strip_mid {s : ℝ × ℝ} (hs : s ∈ A.strips) : s.1 < s.2 ∧ A.Quiet ((s.1 + s.2) / 2) ∧
    ∀ i ∈ A.S, (A.a i ≤ s.1 ∧ s.2 ≤ A.b i) ↔ (A.a i < (s.1 + s.2) / 2 ∧ (s.1 + s.2) / 2 < A.b i) := by
  obtain ⟨h1, -, h3⟩ := strip_mem times_sorted (u := s.1) (v := s.2) hs
  refine ⟨h1, ?_, ?_⟩
  · intro i hi
    constructor
    · intro e
      rcases h3 _ (a_mem hi) with h | h <;> linarith
    · intro e
      rcases h3 _ (b_mem hi) with h | h <;> linarith
  · intro i hi
    constructor
    · rintro ⟨a, b⟩; constructor <;> linarith
    · rintro ⟨a, b⟩
      constructor
      · rcases h3 _ (a_mem hi) with h | h
        · exact h
        · linarith
      · rcases h3 _ (b_mem hi) with h | h
        · linarith
        · exact h

/-- The sign of an edge: minus for one to the right. -/
noncomputable def sgn (e : SegmentEnd) : ℝ := if e = .left then -1 else 1

open Classical in
variable (A) in
/-- What a strip contributes. -/
noncomputable def stripSum (dir : ℕ → SegmentEnd) (t : ℝ) : ℝ := ∑ i ∈ A.S with A.a i < t ∧ t < A.b i, sgn (dir i) * A.h i t

variable (A) in
/-- Twice the area. -/
noncomputable def area2 (dir : ℕ → SegmentEnd) : ℝ := ∑ i ∈ A.S, sgn (dir i) * ((A.b i - A.a i) * ((A.lp i).y + (A.rp i).y))

theorem sum_list_comm' {ι α : Type} (S : Finset ι) (l : List α) (f : ι → α → ℝ) : ∑ k ∈ S, (l.map (f k)).sum = (l.map fun s => ∑ k ∈ S, f k s).sum := by
  induction l with
  | nil => simp
  | cons a l ih => simp only [List.map_cons, List.sum_cons, Finset.sum_add_distrib, ih]

theorem area_strips (dir : ℕ → SegmentEnd) : A.area2 dir = (A.strips.map fun s => 2 * (s.2 - s.1) * A.stripSum dir ((s.1 + s.2) / 2)).sum := by
  classical
  have hk : ∀ i ∈ A.S, sgn (dir i) * ((A.b i - A.a i) * ((A.lp i).y + (A.rp i).y)) =
      (A.strips.map fun s => if A.a i ≤ s.1 ∧ s.2 ≤ A.b i then sgn (dir i) * (2 * (s.2 - s.1) * A.h i ((s.1 + s.2) / 2)) else 0).sum := by
    intro i hi
    obtain ⟨m, c, hh⟩ := A.h_linear i
    have h1 : (A.lp i).y = m * A.a i + c := by rw [← hh]; exact (A.h_left i).symm
    have h2 : (A.rp i).y = m * A.b i + c := by rw [← hh]; exact (A.h_right hi).symm
    have hs := strip_sum (fun u => sgn (dir i) * (m * u ^ 2 + 2 * c * u)) times_sorted (a_mem hi) (b_mem hi) (A.a_lt_b hi).le
    have e : (A.strips.map fun s => if A.a i ≤ s.1 ∧ s.2 ≤ A.b i then sgn (dir i) * (2 * (s.2 - s.1) * A.h i ((s.1 + s.2) / 2)) else 0) =
        (A.strips.map fun s => if A.a i ≤ s.1 ∧ s.2 ≤ A.b i then (fun u => sgn (dir i) * (m * u ^ 2 + 2 * c * u)) s.2 - (fun u => sgn (dir i) * (m * u ^ 2 + 2 * c * u)) s.1 else 0) := by
      apply List.map_congr_left
      intro s _
      refine if_congr Iff.rfl ?_ rfl
      rw [hh]
      ring
    rw [e]
    unfold strips
    rw [hs, h1, h2]
    ring
  unfold area2
  rw [Finset.sum_congr rfl hk, sum_list_comm']
  congr 1
  apply List.map_congr_left
  intro s hs
  obtain ⟨_, _, h3⟩ := strip_mid hs
  unfold stripSum
  rw [Finset.mul_sum, Finset.sum_filter]
  refine Finset.sum_congr rfl fun i hi => ?_
  rw [if_congr (h3 i hi) rfl rfl]
  split
  · ring
  · rfl

theorem even_active (hp : ∀ i ∈ A.S, A.poly i = 0) {t : ℝ} (ht : A.Quiet t) [DecidablePred fun i => A.a i < t ∧ t < A.b i] :
    Even (A.S.filter fun i => A.a i < t ∧ t < A.b i).card := by
  rw [← ZMod.natCast_eq_zero_iff_even, Finset.natCast_card_filter]
  have he := A.even 0 fun p => ind (A.time p < t)
  rw [Finset.filter_true_of_mem hp] at he
  refine Eq.trans (Finset.sum_congr rfl fun k hk => ?_) he
  have h := A.a_lt_b hk
  show _ = ind (A.a k < t) + ind (A.b k < t)
  rcases lt_or_gt_of_ne (ht k hk).1 with a | a <;> rcases lt_or_gt_of_ne (ht k hk).2 with b | b
  · rw [if_neg (by rintro ⟨_, h⟩; linarith), ind_true a, ind_true b]; exact (two_eq 1).symm
  · rw [if_pos ⟨a, b⟩, ind_true a, ind_false (by linarith), add_zero]
  · linarith
  · rw [if_neg (by rintro ⟨h, _⟩; linarith), ind_false (by linarith), ind_false (by linarith), add_zero]

open Classical in
theorem par_card (hp : ∀ i ∈ A.S, A.poly i = 0) (t y : ℝ) :
    A.par 0 t y = (((A.S.filter fun l => A.a l < t ∧ t < A.b l).filter fun l => A.h l t < y).card : ZMod 2) := by
  unfold par
  rw [Finset.filter_true_of_mem hp, Finset.filter_filter, Finset.natCast_card_filter]
  refine Finset.sum_congr rfl fun l _ => ?_
  by_cases h : A.a l < t ∧ t < A.b l ∧ A.h l t < y
  · rw [ind_true h, if_pos ⟨⟨h.1, h.2.1⟩, h.2.2⟩]
  · rw [ind_false h, if_neg fun h' => h ⟨h'.1.1, h'.1.2, h'.2⟩]

/-- The contribution of a strip. -/
theorem stripSum_sign (hp : ∀ i ∈ A.S, A.poly i = 0) {dir : ℕ → SegmentEnd} {f : ZMod 2} (hF : ∀ i ∈ A.S, A.F (i, dir i) 0 = f) {t : ℝ} (ht : A.Quiet t) :
    0 ≤ (if f = 1 then 1 else -1) * A.stripSum dir t ∧ ((∃ i ∈ A.S, A.a i < t ∧ t < A.b i) → 0 < (if f = 1 then 1 else -1) * A.stripSum dir t) := by
  classical
  set S := A.S.filter fun i => A.a i < t ∧ t < A.b i with hS
  have hmem : ∀ k, k ∈ S ↔ k ∈ A.S ∧ A.a k < t ∧ t < A.b k := fun k => by rw [hS, Finset.mem_filter]
  have hsum : (if f = 1 then (1 : ℝ) else -1) * A.stripSum dir t =
      ∑ k ∈ S, (if Even (S.filter fun j => A.h j t < A.h k t).card then - A.h k t else A.h k t) := by
    unfold stripSum
    rw [Finset.mul_sum]
    refine Finset.sum_congr rfl fun k hk => ?_
    obtain ⟨h0, a, b⟩ := (hmem k).1 hk
    have e := hF k h0
    have hlo := lo_eq h0 0 ht a b
    rw [par_card hp, ← hS] at hlo
    have hg : A.grp k 0 = 1 := by
      have := grp_top (one_top hp h0)
      rwa [hp k h0] at this
    by_cases hev : Even (S.filter fun j => A.h j t < A.h k t).card
    · rw [if_pos hev]
      rw [(ZMod.natCast_eq_zero_iff_even).2 hev] at hlo
      rcases hd : dir k with _ | _ <;> rw [hd] at e
      · have e : A.lo k 0 + A.grp k 0 = f := e
        rw [← hlo, hg, zero_add] at e
        rw [if_pos e.symm]
        simp [sgn]
      · have e : A.lo k 0 = f := e
        rw [← hlo] at e
        rw [if_neg (by rw [← e]; decide)]
        simp [sgn]
    · rw [if_neg hev]
      rw [(ZMod.natCast_eq_one_iff_odd).2 (Nat.not_even_iff_odd.1 hev)] at hlo
      rcases hd : dir k with _ | _ <;> rw [hd] at e
      · have e : A.lo k 0 + A.grp k 0 = f := e
        rw [← hlo, hg, two_eq] at e
        rw [if_neg (by rw [← e]; decide)]
        simp [sgn]
      · have e : A.lo k 0 = f := e
        rw [← hlo] at e
        rw [if_pos e.symm]
        simp [sgn]
  have hinj : ∀ i ∈ S, ∀ j ∈ S, A.h i t = A.h j t → i = j := by
    intro i hi j hj e
    obtain ⟨h0, a, b⟩ := (hmem i).1 hi
    obtain ⟨h0', c, d⟩ := (hmem j).1 hj
    exact one_same hp h0 h0' (A.same_of_h h0 h0' a b c.le d.le e)
  obtain ⟨h1, h2⟩ := alternating (fun k => A.h k t) S.card S rfl hinj (even_active hp ht)
  rw [hsum]
  exact ⟨h1, fun ⟨k, hk⟩ => h2 ⟨k, (hmem k).2 hk⟩⟩

/-- The sign of the area is that of the side where the inside is. -/
theorem area_sign (hp : ∀ i ∈ A.S, A.poly i = 0) (hne : A.S.Nonempty) {dir : ℕ → SegmentEnd} {f : ZMod 2} (hF : ∀ i ∈ A.S, A.F (i, dir i) 0 = f) :
    0 < (if f = 1 then 1 else -1) * A.area2 dir := by
  classical
  rw [area_strips, ← List.sum_map_mul_left]
  have hnn : ∀ s ∈ A.strips, 0 ≤ (if f = 1 then (1 : ℝ) else -1) * (2 * (s.2 - s.1) * A.stripSum dir ((s.1 + s.2) / 2)) := by
    intro s hs
    obtain ⟨h1, h2, _⟩ := strip_mid hs
    have := (stripSum_sign hp hF h2).1
    have h3 : 0 ≤ 2 * (s.2 - s.1) := by linarith
    have := mul_nonneg h3 this
    linarith
  obtain ⟨k, hk0⟩ := hne
  have hex : ∃ s ∈ A.strips, A.a k ≤ s.1 ∧ s.2 ≤ A.b k := by
    by_contra hno
    push Not at hno
    have hs := strip_sum (fun u => u) times_sorted (a_mem hk0) (b_mem hk0) (A.a_lt_b hk0).le
    have hz : ((A.times.zip A.times.tail).map fun s => if A.a k ≤ s.1 ∧ s.2 ≤ A.b k then s.2 - s.1 else 0).sum = 0 := by
      apply List.sum_eq_zero
      intro z hz
      obtain ⟨s, hs, rfl⟩ := List.mem_map.1 hz
      rw [if_neg (by rintro ⟨a, b⟩; exact absurd b (not_le.2 (hno s hs a)))]
    have := A.a_lt_b hk0
    rw [hz] at hs
    linarith
  obtain ⟨s, hs, hk⟩ := hex
  obtain ⟨h1, h2, h3⟩ := strip_mid hs
  have hpos := (stripSum_sign hp hF h2).2 ⟨k, hk0, (h3 k hk0).1 hk⟩
  have hp : 0 < (if f = 1 then (1 : ℝ) else -1) * (2 * (s.2 - s.1) * A.stripSum dir ((s.1 + s.2) / 2)) := by
    have h4 : 0 < 2 * (s.2 - s.1) := by linarith
    have := mul_pos h4 hpos
    linarith
  refine lt_of_lt_of_le hp (List.single_le_sum ?_ _ (List.mem_map_of_mem hs))
  intro z hz
  obtain ⟨s', hs', rfl⟩ := List.mem_map.1 hz
  exact hnn s' hs'

end

/-! ### The segments of a walk -/

section
variable {G : Plan} {x : EndId}

theorem arc_seg_inj (h : G.Top x.1) {j k : ℕ} (hj : j < G.len x) (hk : k < G.len x) (e : (G.next^[j] x).1 = (G.next^[k] x).1) : j = k := by
  apply iter_inj_lt h hj hk
  refine Prod.ext e ?_
  by_contra hne
  apply iter_ne_opp h j k
  refine Prod.ext e ?_
  revert hne
  unfold opp
  dsimp only
  cases (G.next^[j] x).2 <;> cases (G.next^[k] x).2 <;> simp [SegmentEnd.other]

theorem telescope {α : Type} (g : ℕ → ZMod 2) : ∀ n : ℕ, ∑ k ∈ Finset.range n, (g k + g (k + 1)) = g 0 + g n
  | 0 => by simp [two_eq]
  | n + 1 => by
    rw [Finset.sum_range_succ, telescope (α := α) g n]
    linear_combination two_eq (g n)

open Classical in
/-- A walk by itself. -/
noncomputable def sub (h : G.Top x.1) : Plan where
  S := (Finset.range (G.len x)).image fun k => (G.next^[k] x).1
  lp := G.lp
  rp := G.rp
  poly := fun _ => 0
  n := 1
  rem := fun _ => False
  eps := G.eps
  wf i hi := by
    obtain ⟨k, _, rfl⟩ := Finset.mem_image.1 hi
    exact G.wf _ (iter_top h k).1
  sep := G.sep.mono (by
    rintro q ⟨i, hi, hq⟩
    obtain ⟨k, _, rfl⟩ := Finset.mem_image.1 hi
    exact ⟨_, (iter_top h k).1, hq⟩) (by
    rintro e ⟨i, hi, rfl⟩
    obtain ⟨k, _, rfl⟩ := Finset.mem_image.1 hi
    exact ⟨_, (iter_top h k).1, rfl⟩)
  poly_lt _ _ := by omega
  eps_lt i hi j hj := by
    obtain ⟨k, _, rfl⟩ := Finset.mem_image.1 hi
    obtain ⟨k', _, rfl⟩ := Finset.mem_image.1 hj
    exact G.eps_lt _ (iter_top h k).1 _ (iter_top h k').1
  apart i hi j hj hij := by
    obtain ⟨k, _, rfl⟩ := Finset.mem_image.1 hi
    obtain ⟨k', _, rfl⟩ := Finset.mem_image.1 hj
    right
    exact fun q hq => G.apart' (iter_top h k).1 (iter_top h k').1 (fun hs => hij ((iter_top h k).unique (iter_top h k') hs)) hq
  angles i hi j hj := by
    obtain ⟨k, _, rfl⟩ := Finset.mem_image.1 hi
    obtain ⟨k', _, rfl⟩ := Finset.mem_image.1 hj
    exact G.angles _ (iter_top h k).1 _ (iter_top h k').1
  distances i hi j hj := by
    obtain ⟨k, _, rfl⟩ := Finset.mem_image.1 hi
    obtain ⟨k', _, rfl⟩ := Finset.mem_image.1 hj
    exact G.distances _ (iter_top h k).1 _ (iter_top h k').1
  even m W := by
    by_cases hm : 0 = m
    · rw [Finset.filter_true_of_mem (fun _ _ => hm), Finset.sum_image]
      · have : ∀ k ∈ Finset.range (G.len x), W (G.lp (G.next^[k] x).1) + W (G.rp (G.next^[k] x).1) = W (G.pt (G.next^[k] x)) + W (G.pt (G.next^[k + 1] x)) := by
          intro k _
          rw [iter_pt h]
          rcases hk : G.next^[k] x with ⟨i, e⟩
          cases e
          · rfl
          · exact add_comm _ _
        rw [Finset.sum_congr rfl this, telescope (α := Unit) (fun k => W (G.pt (G.next^[k] x))), (len_spec h).2.1]
        exact two_eq _
      · intro j hj k hk e
        exact arc_seg_inj h (Finset.mem_range.1 hj) (Finset.mem_range.1 hk) e
    · rw [Finset.filter_false_of_mem (fun _ _ => hm), Finset.sum_empty]

theorem mem_sub (h : G.Top x.1) {i : ℕ} : i ∈ (sub h).S ↔ ∃ z ∈ G.arc x, z.1 = i := by
  classical
  constructor
  · intro hi
    obtain ⟨k, hk, rfl⟩ := Finset.mem_image.1 hi
    exact ⟨_, mem_arc.2 ⟨k, Finset.mem_range.1 hk, rfl⟩, rfl⟩
  · rintro ⟨z, hz, rfl⟩
    obtain ⟨k, hk, rfl⟩ := mem_arc.1 hz
    exact Finset.mem_image.2 ⟨k, Finset.mem_range.2 hk, rfl⟩

theorem sub_top (h : G.Top x.1) {i : ℕ} (hi : i ∈ (sub h).S) : G.Top i := by
  obtain ⟨z, hz, rfl⟩ := (mem_sub h).1 hi
  exact arc_top h hz

theorem sub_pt (h : G.Top x.1) (z : EndId) : (sub h).pt z = G.pt z := rfl

/-- The order at a corner is the same. -/
theorem sub_key (h : G.Top x.1) {w z : EndId} (hw : w.1 ∈ (sub h).S) (hz : z.1 ∈ (sub h).S) (hp : G.pt w = G.pt z) :
    (sub h).key w < (sub h).key z ↔ G.key w < G.key z := by
  have tw := sub_top h hw
  have tz := sub_top h hz
  obtain ⟨i, e⟩ := w
  obtain ⟨j, e'⟩ := z
  dsimp only at *
  by_cases he : e = e'
  · subst he
    rw [key_iff (G := sub h) hw hz hp, key_iff (G := G) tw.1 tz.1 hp]
    have hc : (sub h).crs (i, e) (j, e) = G.crs (i, e) (j, e) := rfl
    rw [hc]
    have h0 : (sub h).poly i < (sub h).poly j ↔ False := by
      show 0 < 0 ↔ False
      simp
    rw [h0]
    constructor
    · rintro (h1 | h1)
      · exact Or.inl h1
      · exact h1.2.elim
    · rintro (h1 | h1)
      · exact Or.inl h1
      · exfalso
        have := tw.unique tz (same_of_crs tw.1 tz.1 hp h1.1)
        rw [this] at h1
        exact lt_irrefl _ h1.2
  · cases e <;> cases e'
    · exact absurd rfl he
    · have h1 := key_right_left (G := G) (i := j) (j := i) hp.symm
      have h2 := key_right_left (G := sub h) (i := j) (j := i) hp.symm
      exact ⟨fun h => absurd h (lt_asymm h2), fun h => absurd h (lt_asymm h1)⟩
    · exact ⟨fun _ => key_right_left (G := G) hp, fun _ => key_right_left (G := sub h) hp⟩
    · exact absurd rfl he

theorem sub_corner (h : G.Top x.1) {p : Pt ℝ} {z : EndId} : z ∈ (sub h).corner p ↔ z.1 ∈ (sub h).S ∧ G.pt z = p := by
  rw [mem_corner]
  exact and_congr_left fun _ => ⟨fun h => h.1, fun hz => one_top (A := sub h) (fun _ _ => rfl) hz⟩

/-- By itself, a walk has the same area on its left all the way. -/
theorem sub_F (h : G.Top x.1) {z : EndId} (hz : z ∈ G.arc x) : (sub h).F z 0 = (sub h).F x 0 := by
  have hseg : ∀ k < G.len x, (G.next^[k] x).1 ∈ (sub h).S := fun k hk => (mem_sub h).2 ⟨_, mem_arc.2 ⟨k, hk, rfl⟩, rfl⟩
  have key : ∀ k < G.len x, (sub h).F (G.next^[k] x) 0 = (sub h).F x 0 := by
    intro k
    induction k with
    | zero => intro _; rfl
    | succ k ih =>
      intro hk
      have hk' : k < G.len x := by omega
      have hT := iter_top h k
      have hp : G.pt (G.next^[k + 1] x) = G.pt (opp (G.next^[k] x)) := iter_pt h k
      rw [← ih hk']
      have h1 : G.next^[k + 1] x ∈ (sub h).corner (G.pt (opp (G.next^[k] x))) := (sub_corner h).2 ⟨hseg _ hk, hp⟩
      have h2 : opp (G.next^[k] x) ∈ (sub h).corner (G.pt (opp (G.next^[k] x))) := (sub_corner h).2 ⟨hseg k hk', rfl⟩
      have hc : CycPred ((sub h).corner (G.pt (opp (G.next^[k] x)))) (sub h).key (G.next^[k + 1] x) (opp (G.next^[k] x)) := by
        have hs := (next_spec hT).2
        rw [← iterate_succ_apply' G.next] at hs
        have hmem : ∀ w ∈ (sub h).corner (G.pt (opp (G.next^[k] x))), w ∈ G.corner (G.pt (opp (G.next^[k] x))) ∧ w.1 ∈ (sub h).S ∧ G.pt w = G.pt (opp (G.next^[k] x)) := by
          intro w hw
          obtain ⟨w1, w2⟩ := (sub_corner h).1 hw
          exact ⟨mem_corner.2 ⟨sub_top h w1, w2⟩, w1, w2⟩
        rcases hs with ⟨a1, a2⟩ | ⟨a1, a2⟩
        · left
          refine ⟨(sub_key h (z := opp (G.next^[k] x)) (hseg _ hk) (hseg k hk') hp).2 a1, fun w hw hlt => ?_⟩
          obtain ⟨w0, w1, w2⟩ := hmem w hw
          rw [← not_lt, sub_key h (hseg _ hk) w1 (hp.trans w2.symm), not_lt]
          exact a2 w w0 ((sub_key h (z := opp (G.next^[k] x)) w1 (hseg k hk') w2).1 hlt)
        · right
          refine ⟨fun w hw => ?_, fun w hw => ?_⟩
          · obtain ⟨w0, w1, w2⟩ := hmem w hw
            rw [← not_lt, sub_key h (z := opp (G.next^[k] x)) w1 (hseg k hk') w2, not_lt]
            exact a1 w w0
          · obtain ⟨w0, w1, w2⟩ := hmem w hw
            rw [← not_lt, sub_key h (hseg _ hk) w1 (hp.trans w2.symm), not_lt]
            exact a2 w w0
      have := F_cyc h1 h2 hc 0
      rwa [opp_opp] at this
  obtain ⟨k, hk, rfl⟩ := mem_arc.1 hz
  exact key k hk

/-! ### The turn at the leftmost corner -/

/-- The side the walk leaves a segment from. -/
noncomputable def side (G : Plan) (x : EndId) (i : ℕ) : SegmentEnd := by
  classical exact if (i, SegmentEnd.left) ∈ G.arc x then .left else .right

theorem side_mem (h : G.Top x.1) {i : ℕ} (hi : i ∈ (sub h).S) : (i, side G x i) ∈ G.arc x := by
  classical
  obtain ⟨⟨j, e⟩, hz, rfl⟩ := (mem_sub h).1 hi
  unfold side
  split
  · rename_i hl; exact hl
  · rename_i hl
    cases e
    · exact absurd hz hl
    · exact hz

theorem side_eq (h : G.Top x.1) {z : EndId} (hz : z ∈ G.arc x) : side G x z.1 = z.2 := by
  classical
  obtain ⟨i, e⟩ := z
  unfold side
  cases e
  · rw [if_pos hz]
  · rw [if_neg]
    intro hl
    exact arc_opp h hl hz rfl

/-- Nothing is below the lower one of the two edges at the leftmost corner. -/
theorem sub_lo (h : G.Start x) {i j : ℕ} (hi : i ∈ (sub h.1).S) (hj : j ∈ (sub h.1).S) (pi : G.lp i = G.pt x) (pj : G.lp j = G.pt x)
    (hij : ∀ z : EndId, z.1 ∈ (sub h.1).S → G.pt z = G.pt x → z = (i, .left) ∨ z = (j, .left)) (hk : G.key (i, .left) < G.key (j, .left)) : (sub h.1).lo i 0 = 0 := by
  have hka := (sub_key h.1 (w := (i, .left)) (z := (j, .left)) hi hj (pi.trans pj.symm)).2 hk
  apply lo_none
  rintro k ⟨k1, k2, k3⟩ hlow
  have hal := (((sub h.1).alive_tau (i := i) k1).1 ⟨k2, k3⟩).1
  -- it starts at the corner
  obtain ⟨z, hz, hzk⟩ := (mem_sub h.1).1 k1
  have hge : G.time (G.pt x) ≤ G.a k := by
    obtain ⟨n, hn, hn'⟩ := mem_arc.1 hz
    subst hzk
    obtain ⟨k, e⟩ := z
    cases e
    · have := h.2 n
      rw [hn'] at this
      exact this
    · have := h.2 (n + 1)
      rw [iter_pt h.1, hn'] at this
      exact this
  have hai : (sub h.1).a i = G.time (G.pt x) := by
    show G.time (G.lp i) = _
    rw [pi]
  rw [hai] at hal
  have hak : G.time (G.pt (k, .left)) = G.time (G.pt x) := le_antisymm hal hge
  have hpk := G.time_inj (x := (k, .left)) (sub_top h.1 k1).1 h.1.1 hak
  have hlow' : (sub h.1).h k ((sub h.1).tau i) < (sub h.1).h i ((sub h.1).tau i) := by
    rcases hlow with hl | hl
    · exact hl
    · exact absurd hl.2 (lt_irrefl _)
  rcases hij (k, .left) k1 hpk with e | e
  · cases e
    exact lt_irrefl _ hlow'
  · cases e
    have h1 := (crs_left (G := sub h.1) hi k1 (pi.trans pj.symm) (u := (sub h.1).tau i) ((sub h.1).a_lt_tau i))
    have h2 := (key_iff (G := sub h.1) (e := .left) hi k1 (pi.trans pj.symm)).1 hka
    rcases h2 with h2 | h2
    · exact lt_asymm hlow' (h1.1 h2)
    · exact absurd h2.2 (lt_irrefl _)

/-- The ends of a walk at its leftmost corner. -/
theorem sub_ends (h : G.Start x) {z : EndId} (hz : z.1 ∈ (sub h.1).S) (hp : G.pt z = G.pt x) : z = x ∨ z = opp (G.last x) := by
  obtain ⟨w, hw, hwz⟩ := (mem_sub h.1).1 hz
  by_cases he : w = z
  · left
    subst he
    exact arc_pt h.1 hw hp
  · right
    have hwo : w = opp z := by
      obtain ⟨i, e⟩ := w
      obtain ⟨j, e'⟩ := z
      dsimp only at hwz
      subst hwz
      cases e <;> cases e' <;> first | exact absurd rfl he | rfl
    obtain ⟨k, hk, hk'⟩ := mem_arc.1 hw
    have hnp : G.pt (G.next^[k + 1] x) = G.pt x := by rw [iter_pt h.1, hk', hwo, opp_opp, hp]
    have hkl : k + 1 = G.len x := by
      rcases lt_or_ge (k + 1) (G.len x) with h1 | h1
      · exact absurd hnp ((len_spec h.1).2.2 _ (by omega) h1)
      · omega
    have : G.last x = opp z := by
      unfold last
      rw [← hkl, Nat.add_sub_cancel, hk', hwo]
    rw [this, opp_opp]

/-- Twice the area inside a walk. -/
theorem walk_area (h : G.Start x) :
    (G.key x < G.key (opp (G.last x)) → 0 < (sub h.1).area2 (side G x)) ∧ (G.key (opp (G.last x)) < G.key x → (sub h.1).area2 (side G x) < 0) := by
  have hx := self_mem_arc h.1
  have hl := last_mem h.1
  have hxl := h.left
  have hlr := h.last_right
  have hlp := last_pt h.1
  have hxs : x.1 ∈ (sub h.1).S := (mem_sub h.1).2 ⟨x, hx, rfl⟩
  have hls : (G.last x).1 ∈ (sub h.1).S := (mem_sub h.1).2 ⟨_, hl, rfl⟩
  have hF : ∀ i ∈ (sub h.1).S, (sub h.1).F (i, side G x i) 0 = (sub h.1).F x 0 := fun i hi => sub_F h.1 (side_mem h.1 hi)
  have hsign := area_sign (A := sub h.1) (fun _ _ => rfl) ⟨_, hxs⟩ hF
  have hends : ∀ z : EndId, z.1 ∈ (sub h.1).S → G.pt z = G.pt x → z = x ∨ z = opp (G.last x) := fun z hz hp => sub_ends h hz hp
  have hlast := sub_F h.1 hl
  rcases hlz : G.last x with ⟨j, e⟩
  rw [hlz] at hlr hlp hls hends hlast
  dsimp only at hlr
  subst hlr
  obtain ⟨i, e⟩ := x
  dsimp only at hxl
  subst hxl
  constructor
  · intro hk
    have h0 : (sub h.1).lo i 0 = 0 := sub_lo h hxs hls rfl hlp hends hk
    have hg : (sub h.1).grp i 0 = 1 := grp_top (one_top (A := sub h.1) (fun _ _ => rfl) hxs)
    have : (sub h.1).F (i, .left) 0 = 1 := by
      show (sub h.1).lo i 0 + (sub h.1).grp i 0 = 1
      rw [h0, hg, zero_add]
    rw [if_pos this, one_mul] at hsign
    exact hsign
  · intro hk
    have h0 : (sub h.1).lo j 0 = 0 := sub_lo h hls hxs hlp rfl (fun z hz hp => (hends z hz hp).symm) hk
    have : (sub h.1).F (i, .left) 0 = 0 := by
      rw [← hlast]
      exact h0
    rw [if_neg (by rw [this]; decide)] at hsign
    linarith

end

end Plan

end Idc
