import Verif.Props.LoopParity
import Mathlib.Algebra.BigOperators.Ring.Finset
import Mathlib.Data.Finset.Sort
import Mathlib.Data.Finset.Max
import Mathlib.Algebra.Order.BigOperators.Group.List
import Mathlib.Order.Interval.Set.Infinite
/-!
# The area of a closed chain of segments (for C77)
-/

namespace Idc

/-! ### Sums over strips -/

theorem strip_mem {W : List ℝ} (hW : W.Pairwise (· < ·)) {u v : ℝ} (h : (u, v) ∈ W.zip W.tail) : u < v ∧ u ∈ W ∧ ∀ w ∈ W, w ≤ u ∨ v ≤ w := by
  induction W with
  | nil => cases h
  | cons a W ih =>
    cases W with
    | nil => cases h
    | cons b W =>
      rw [List.pairwise_cons] at hW
      have hb := List.pairwise_cons.1 hW.2
      rcases List.mem_cons.1 h with e | e
      · cases e
        refine ⟨hW.1 _ (by simp), by simp, ?_⟩
        intro w hw
        rcases List.mem_cons.1 hw with rfl | hw
        · exact Or.inl le_rfl
        · rcases List.mem_cons.1 hw with rfl | hw
          · exact Or.inr le_rfl
          · exact Or.inr (hb.1 w hw).le
      · obtain ⟨h1, h2, h3⟩ := ih hW.2 e
        refine ⟨h1, List.mem_cons_of_mem _ h2, ?_⟩
        intro w hw
        rcases List.mem_cons.1 hw with rfl | hw
        · exact Or.inl (hW.1 u h2).le
        · exact h3 w hw

open Classical in
theorem strip_sum (f : ℝ → ℝ) {W : List ℝ} (hW : W.Pairwise (· < ·)) {α β : ℝ} (hα : α ∈ W) (hβ : β ∈ W) (h : α ≤ β) :
    ((W.zip W.tail).map fun s => if α ≤ s.1 ∧ s.2 ≤ β then f s.2 - f s.1 else 0).sum = f β - f α := by
  induction W generalizing α with
  | nil => cases hα
  | cons a W ih =>
    cases W with
    | nil =>
      simp only [List.mem_singleton] at hα hβ
      subst hα hβ
      simp
    | cons b W =>
      rw [List.pairwise_cons] at hW
      have hb := List.pairwise_cons.1 hW.2
      have hab : a < b := hW.1 b (by simp)
      show ((((a, b) :: (b :: W).zip W).map _).sum) = _
      rw [List.map_cons, List.sum_cons]
      have hrest : (((b :: W).zip W).map fun s => if α ≤ s.1 ∧ s.2 ≤ β then f s.2 - f s.1 else 0) =
          (((b :: W).zip (b :: W).tail).map fun s => if α ≤ s.1 ∧ s.2 ≤ β then f s.2 - f s.1 else 0) := rfl
      rw [hrest]
      have hge : ∀ w ∈ b :: W, b ≤ w := by
        intro w hw
        rcases List.mem_cons.1 hw with rfl | hw
        · exact le_rfl
        · exact (hb.1 w hw).le
      rcases List.mem_cons.1 hβ with rfl | hβ'
      · have hαβ : α = β := by
          rcases List.mem_cons.1 hα with e | hα
          · exact e
          · have := hge α hα; linarith
        subst hαβ
        rw [sub_self, if_neg (by rintro ⟨_, h⟩; dsimp only at h; linarith), zero_add]
        apply List.sum_eq_zero
        intro z hz
        obtain ⟨s, hs, rfl⟩ := List.mem_map.1 hz
        obtain ⟨h1, h2, -⟩ := strip_mem hW.2 (u := s.1) (v := s.2) hs
        have := hge s.1 h2
        rw [if_neg (by rintro ⟨_, h⟩; linarith)]
      · rcases List.mem_cons.1 hα with rfl | hα
        · have e : (((b :: W).zip (b :: W).tail).map fun s => if α ≤ s.1 ∧ s.2 ≤ β then f s.2 - f s.1 else 0) =
              (((b :: W).zip (b :: W).tail).map fun s => if b ≤ s.1 ∧ s.2 ≤ β then f s.2 - f s.1 else 0) := by
            apply List.map_congr_left
            intro s hs
            obtain ⟨h1, h2, -⟩ := strip_mem hW.2 (u := s.1) (v := s.2) hs
            have := hge s.1 h2
            simp only [this, hab.le.trans this, true_and]
          rw [e, ih hW.2 (by simp) hβ' (hge β hβ'), if_pos ⟨le_rfl, hge β hβ'⟩]
          ring
        · have := hge α hα
          rw [if_neg (by rintro ⟨h, _⟩; dsimp only at h; linarith), zero_add]
          exact ih hW.2 hα hβ' h

theorem sum_list_comm {ι α : Type} [Fintype ι] (l : List α) (f : ι → α → ℝ) : ∑ k, (l.map (f k)).sum = (l.map fun s => ∑ k, f k s).sum := by
  induction l with
  | nil => simp
  | cons a l ih => simp only [List.map_cons, List.sum_cons, Finset.sum_add_distrib, ih]

/-! ### Alternating sums -/

open Classical in
/-- Minus the lowest, plus the next, and so on. -/
theorem alternating {ι : Type} (g : ι → ℝ) : ∀ (n : Nat) (S : Finset ι), S.card = n → (∀ i ∈ S, ∀ j ∈ S, g i = g j → i = j) → Even n →
    0 ≤ ∑ i ∈ S, (if Even (S.filter fun j => g j < g i).card then - g i else g i) ∧
    (S.Nonempty → 0 < ∑ i ∈ S, (if Even (S.filter fun j => g j < g i).card then - g i else g i)) := by
  intro n
  induction n using Nat.strong_induction_on with
  | _ n ih =>
    intro S hS hinj hev
    rcases S.eq_empty_or_nonempty with rfl | hne
    · simp
    suffices h : 0 < ∑ i ∈ S, (if Even (S.filter fun j => g j < g i).card then - g i else g i) from ⟨h.le, fun _ => h⟩
    obtain ⟨a, ha, hamax⟩ := S.exists_max_image g hne
    have hcard1 : (S.erase a).card = n - 1 := by rw [Finset.card_erase_of_mem ha, hS]
    have hnpos : 0 < n := by rw [← hS]; exact Finset.card_pos.2 hne
    have hn2 : 2 ≤ n := by
      rcases hev with ⟨m, hm⟩; omega
    have hne1 : (S.erase a).Nonempty := Finset.card_pos.1 (by omega)
    obtain ⟨b, hb, hbmax⟩ := (S.erase a).exists_max_image g hne1
    have hbS := Finset.mem_of_mem_erase hb
    have hba : b ≠ a := Finset.ne_of_mem_erase hb
    have hlt : ∀ j ∈ S, j ≠ a → g j < g a := fun j hj hja => lt_of_le_of_ne (hamax j hj) fun e => hja (hinj j hj a ha e)
    have hltb : ∀ j ∈ S, j ≠ a → j ≠ b → g j < g b := fun j hj hja hjb =>
      lt_of_le_of_ne (hbmax j (Finset.mem_erase.2 ⟨hja, hj⟩)) fun e => hjb (hinj j hj b hbS e)
    set S2 := (S.erase a).erase b with hS2
    have hcard2 : S2.card = n - 2 := by rw [hS2, Finset.card_erase_of_mem hb, hcard1]; omega
    have hmem2 : ∀ j, j ∈ S2 ↔ j ≠ b ∧ j ≠ a ∧ j ∈ S := fun j => by rw [hS2, Finset.mem_erase, Finset.mem_erase]
    have fa : (S.filter fun j => g j < g a) = S.erase a := by
      ext j
      rw [Finset.mem_filter, Finset.mem_erase]
      exact ⟨fun h => ⟨fun e => by rw [e] at h; exact lt_irrefl _ h.2, h.1⟩, fun h => ⟨h.2, hlt j h.2 h.1⟩⟩
    have fb : (S.filter fun j => g j < g b) = S2 := by
      ext j
      rw [Finset.mem_filter, hmem2]
      refine ⟨fun h => ⟨fun e => by rw [e] at h; exact lt_irrefl _ h.2, fun e => ?_, h.1⟩, fun h => ⟨h.2.2, hltb j h.2.2 h.2.1 h.1⟩⟩
      rw [e] at h
      have := hlt b hbS hba
      linarith [h.2]
    have fr : ∀ i ∈ S2, (S.filter fun j => g j < g i) = S2.filter fun j => g j < g i := by
      intro i hi
      obtain ⟨i1, i2, i3⟩ := (hmem2 i).1 hi
      ext j
      rw [Finset.mem_filter, Finset.mem_filter, hmem2]
      refine ⟨fun h => ⟨⟨fun e => ?_, fun e => ?_, h.1⟩, h.2⟩, fun h => ⟨h.1.2.2, h.2⟩⟩
      · rw [e] at h; linarith [h.2, hltb i i3 i2 i1]
      · rw [e] at h; linarith [h.2, hlt i i3 i2]
    have e1 : ∑ i ∈ S, (if Even (S.filter fun j => g j < g i).card then - g i else g i) = g a + (- g b +
        ∑ i ∈ S2, (if Even (S2.filter fun j => g j < g i).card then - g i else g i)) := by
      rw [← Finset.add_sum_erase S _ ha, ← Finset.add_sum_erase (S.erase a) _ hb, fa, fb, hcard1, hcard2]
      rw [if_neg (by rw [Nat.not_even_iff_odd]; obtain ⟨m, hm⟩ := hev; exact ⟨m - 1, by omega⟩),
        if_pos (by obtain ⟨m, hm⟩ := hev; exact ⟨m - 1, by omega⟩)]
      congr 2
      exact Finset.sum_congr rfl fun i hi => by rw [fr i hi]
    rw [e1]
    have h2 := (ih (n - 2) (by omega) S2 hcard2 (fun i hi j hj => hinj i ((hmem2 i).1 hi).2.2 j ((hmem2 j).1 hj).2.2)
      (by obtain ⟨m, hm⟩ := hev; exact ⟨m - 1, by omega⟩)).1
    have := hlt b hbS hba
    linarith

namespace Loop

variable {ι : Type} (L : Loop ι) [Fintype ι]

/-- Does the segment go to the right? -/
noncomputable def R (k : ι) : ZMod 2 := ind (L.x k < L.x (L.nx k))

omit [Fintype ι] in
/-- Two segments with a common corner have different slopes if they leave it to the same side. -/
theorem slope_ne (m : ι) (hside : L.x (L.nx m) < L.x m ∧ L.x (L.nx m) < L.x (L.nx (L.nx m)) ∨ L.x m < L.x (L.nx m) ∧ L.x (L.nx (L.nx m)) < L.x (L.nx m)) :
    L.slope m ≠ L.slope (L.nx m) := by
  intro e
  have hne : m ≠ L.nx m := (L.nx_ne m).symm
  have heq : ∀ u, L.h m u = L.h (L.nx m) u := by
    intro u
    rw [L.h_at (j := L.nx m) (Or.inr rfl), L.h_at (j := L.nx m) (k := L.nx m) (Or.inl rfl), e]
  have hfin : ∀ u, u ≠ L.x (L.nx m) → L.lo m ≤ u → u ≤ L.hi m → L.lo (L.nx m) ≤ u → u ≤ L.hi (L.nx m) → False := by
    intro u hu a b c d
    obtain ⟨j, hj, hj1, hj2⟩ := L.apart m (L.nx m) hne u a b c d (heq u)
    rcases hj2 with rfl | rfl
    · exact hu hj.symm
    · rcases hj1 with h | h
      · exact L.nx_nx m h
      · exact L.nx_ne _ h
  rcases hside with ⟨a, b⟩ | ⟨a, b⟩
  · rcases L.lo_hi m with ⟨p, _, _⟩ | ⟨p, q, r⟩
    · linarith
    rcases L.lo_hi (L.nx m) with ⟨p', q', r'⟩ | ⟨p', _, _⟩
    · refine hfin (min (L.x m) (L.x (L.nx (L.nx m)))) (ne_of_gt (lt_min a b)) ?_ ?_ ?_ ?_
      · rw [q]; exact (lt_min a b).le
      · rw [r]; exact min_le_left _ _
      · rw [q']; exact (lt_min a b).le
      · rw [r']; exact min_le_right _ _
    · linarith
  · rcases L.lo_hi m with ⟨p, q, r⟩ | ⟨p, _, _⟩
    · rcases L.lo_hi (L.nx m) with ⟨p', _, _⟩ | ⟨p', q', r'⟩
      · linarith
      · refine hfin (max (L.x m) (L.x (L.nx (L.nx m)))) (ne_of_lt (max_lt a b)) ?_ ?_ ?_ ?_
        · rw [q]; exact le_max_left _ _
        · rw [r]; exact (max_lt a b).le
        · rw [q']; exact le_max_right _ _
        · rw [r']; exact (max_lt a b).le
    · linarith

/-- From one segment to the next the number of segments below changes between even and odd exactly if the direction does. -/
theorem step (m : ι) {t t' : ℝ} (ht : ∀ i, L.x i ≠ t) (h1 : L.lo m < t) (h2 : t < L.hi m) (ht' : ∀ i, L.x i ≠ t') (h1' : L.lo (L.nx m) < t')
    (h2' : t' < L.hi (L.nx m)) : L.R m + L.B m t = L.R (L.nx m) + L.B (L.nx m) t' := by
  have hne := L.nx_ne m
  rw [L.B_eq (k := m) (m := L.nx m) (j := L.nx m) (Or.inr rfl) (Or.inl rfl) hne ht h1 h2,
    L.B_eq (k := L.nx m) (m := m) (j := L.nx m) (Or.inl rfl) (Or.inr rfl) hne.symm ht' h1' h2']
  have key : L.R m + ind (L.Lower m (L.nx m) (L.nx m)) = L.R (L.nx m) + ind (L.Lower (L.nx m) m (L.nx m)) := by
    unfold R Lower
    rcases L.lo_hi m with ⟨p, q, r⟩ | ⟨p, q, r⟩ <;> rcases L.lo_hi (L.nx m) with ⟨p', q', r'⟩ | ⟨p', q', r'⟩
    · rw [ind_true p, ind_true p', ind_false, ind_false]
      · rintro (⟨h, _⟩ | ⟨_, h, _⟩)
        · rw [q] at h; linarith
        · rw [r'] at h; linarith
      · rintro (⟨_, h, _⟩ | ⟨h, _, _⟩)
        · rw [q] at h; linarith
        · rw [r'] at h; linarith
    · have hs := L.slope_ne m (Or.inr ⟨p, p'⟩)
      rw [ind_true p, ind_false (P := L.x (L.nx m) < L.x (L.nx (L.nx m))) (by linarith), zero_add]
      rcases lt_or_gt_of_ne hs with hs | hs
      · rw [ind_true (P := _ ∨ _) (Or.inr ⟨r', r, hs⟩), ind_false]
        · exact two_eq 1
        · rintro (⟨h, _⟩ | ⟨_, _, h⟩)
          · rw [q] at h; linarith
          · linarith
      · rw [ind_false, ind_true, add_zero]
        · exact Or.inr ⟨r, r', hs⟩
        · rintro (⟨_, h, _⟩ | ⟨_, _, h⟩)
          · rw [q] at h; linarith
          · linarith
    · have hs := L.slope_ne m (Or.inl ⟨p, p'⟩)
      rw [ind_false (P := L.x m < L.x (L.nx m)) (by linarith), ind_true p', zero_add]
      rcases lt_or_gt_of_ne hs with hs | hs
      · rw [ind_false, ind_true]
        · exact (two_eq 1).symm
        · exact Or.inl ⟨q, q', hs⟩
        · rintro (⟨_, _, h⟩ | ⟨h, _⟩)
          · linarith
          · rw [r'] at h; linarith
      · rw [ind_true (P := _ ∨ _) (Or.inl ⟨q', q, hs⟩), ind_false, add_zero]
        rintro (⟨_, _, h⟩ | ⟨_, h, _⟩)
        · linarith
        · rw [r'] at h; linarith
    · rw [ind_false (P := L.x m < L.x (L.nx m)) (by linarith), ind_false (P := L.x (L.nx m) < L.x (L.nx (L.nx m))) (by linarith), ind_false, ind_false]
      · rintro (⟨_, h, _⟩ | ⟨h, _, _⟩)
        · rw [q'] at h; linarith
        · rw [r] at h; linarith
      · rintro (⟨h, _⟩ | ⟨_, h, _⟩)
        · rw [q'] at h; linarith
        · rw [r] at h; linarith
  linear_combination key

/-- There is a time inside every segment when no corner is on the sweep line. -/
theorem exists_time (k : ι) : ∃ t, (∀ i, L.x i ≠ t) ∧ L.lo k < t ∧ t < L.hi k := by
  classical
  obtain ⟨t, ht, hn⟩ := (Set.Ioo_infinite (L.lo_lt_hi k)).exists_notMem_finset (Finset.univ.image L.x)
  exact ⟨t, fun i e => hn (Finset.mem_image.2 ⟨i, Finset.mem_univ _, e⟩), ht.1, ht.2⟩

/-- One closed chain: the sum of both is the same everywhere. -/
theorem constant (hc : ∀ i j, ∃ n : ℕ, (L.nx ^ n) i = j) (k₀ : ι) {t₀ : ℝ} (h₀ : ∀ i, L.x i ≠ t₀) (h1 : L.lo k₀ < t₀) (h2 : t₀ < L.hi k₀)
    (k : ι) {t : ℝ} (ht : ∀ i, L.x i ≠ t) (h1' : L.lo k < t) (h2' : t < L.hi k) : L.R k + L.B k t = L.R k₀ + L.B k₀ t₀ := by
  -- a different time on the same segment
  have hsame : ∀ m {s s' : ℝ}, (∀ i, L.x i ≠ s) → L.lo m < s → s < L.hi m → (∀ i, L.x i ≠ s') → L.lo m < s' → s' < L.hi m →
      L.R m + L.B m s = L.R m + L.B m s' := by
    intro m s s' a b c a' b' c'
    obtain ⟨w, x1, x2, x3⟩ := L.exists_time (L.nx m)
    rw [L.step m a b c x1 x2 x3, L.step m a' b' c' x1 x2 x3]
  have hall : ∀ n : ℕ, ∀ s, (∀ i, L.x i ≠ s) → L.lo ((L.nx ^ n) k₀) < s → s < L.hi ((L.nx ^ n) k₀) →
      L.R ((L.nx ^ n) k₀) + L.B ((L.nx ^ n) k₀) s = L.R k₀ + L.B k₀ t₀ := by
    intro n
    induction n with
    | zero => intro s a b c; exact hsame k₀ a b c h₀ h1 h2
    | succ n ih =>
      intro s a b c
      obtain ⟨w, x1, x2, x3⟩ := L.exists_time ((L.nx ^ n) k₀)
      rw [← ih w x1 x2 x3]
      rw [pow_succ', Equiv.Perm.mul_apply] at b c ⊢
      exact (L.step _ x1 x2 x3 a b c).symm
  obtain ⟨n, rfl⟩ := hc k₀ k
  exact hall n t ht h1' h2'

/-- Twice the area. -/
noncomputable def area2 : ℝ := ∑ k, (L.x k * L.y (L.nx k) - L.y k * L.x (L.nx k))

/-- 1 for a segment that goes to the right, -1 for one that goes to the left. -/
noncomputable def dir (k : ι) : ℝ := if L.x k < L.x (L.nx k) then 1 else -1

theorem area2_eq : L.area2 = ∑ k, -((L.x (L.nx k) - L.x k) * (L.y k + L.y (L.nx k))) := by
  have h : ∑ k, (L.x (L.nx k) * L.y (L.nx k)) = ∑ k, L.x k * L.y k := Equiv.sum_comp L.nx fun k => L.x k * L.y k
  have : L.area2 - ∑ k, -((L.x (L.nx k) - L.x k) * (L.y k + L.y (L.nx k))) = ∑ k, (L.x (L.nx k) * L.y (L.nx k)) - ∑ k, L.x k * L.y k := by
    unfold area2
    rw [← Finset.sum_sub_distrib, ← Finset.sum_sub_distrib]
    exact Finset.sum_congr rfl fun k _ => by ring
  rw [h, sub_self] at this
  linarith

open Classical in
/-- The times of the corners. -/
noncomputable def times : List ℝ := (Finset.univ.image L.x).sort (· ≤ ·)

theorem times_sorted : L.times.Pairwise (· < ·) := by
  unfold times
  exact Finset.sortedLT_sort _ |>.pairwise

theorem mem_times (i : ι) : L.x i ∈ L.times := by
  classical
  unfold times
  rw [Finset.mem_sort]
  exact Finset.mem_image.2 ⟨i, Finset.mem_univ _, rfl⟩

theorem times_mem {w : ℝ} (h : w ∈ L.times) : ∃ i, L.x i = w := by
  classical
  unfold times at h
  rw [Finset.mem_sort] at h
  obtain ⟨i, _, e⟩ := Finset.mem_image.1 h
  exact ⟨i, e⟩

theorem lo_mem (k : ι) : L.lo k ∈ L.times ∧ L.hi k ∈ L.times := by
  rcases L.lo_hi k with ⟨_, b, c⟩ | ⟨_, b, c⟩ <;> rw [b, c] <;> exact ⟨L.mem_times _, L.mem_times _⟩

/-- The strips between the times of the corners. -/
noncomputable def strips : List (ℝ × ℝ) := L.times.zip L.times.tail

open Classical in
/-- What a strip contributes. -/
noncomputable def stripSum (t : ℝ) : ℝ := ∑ k, if L.lo k < t ∧ t < L.hi k then -(L.dir k * L.h k t) else 0

theorem strip_mid {s : ℝ × ℝ} (hs : s ∈ L.strips) : s.1 < s.2 ∧ (∀ i, L.x i ≠ (s.1 + s.2) / 2) ∧
    ∀ k, (L.lo k ≤ s.1 ∧ s.2 ≤ L.hi k) ↔ (L.lo k < (s.1 + s.2) / 2 ∧ (s.1 + s.2) / 2 < L.hi k) := by
  obtain ⟨h1, -, h3⟩ := strip_mem L.times_sorted (u := s.1) (v := s.2) hs
  refine ⟨h1, ?_, ?_⟩
  · intro i e
    rcases h3 _ (L.mem_times i) with h | h <;> linarith
  · intro k
    constructor
    · rintro ⟨a, b⟩; constructor <;> linarith
    · rintro ⟨a, b⟩
      constructor
      · rcases h3 _ (L.lo_mem k).1 with h | h
        · exact h
        · linarith
      · rcases h3 _ (L.lo_mem k).2 with h | h
        · linarith
        · exact h

theorem area_strips : L.area2 = (L.strips.map fun s => 2 * (s.2 - s.1) * L.stripSum ((s.1 + s.2) / 2)).sum := by
  classical
  rw [L.area2_eq]
  have hk : ∀ k, -((L.x (L.nx k) - L.x k) * (L.y k + L.y (L.nx k))) =
      (L.strips.map fun s => if L.lo k ≤ s.1 ∧ s.2 ≤ L.hi k then -(L.dir k * (2 * (s.2 - s.1) * L.h k ((s.1 + s.2) / 2))) else 0).sum := by
    intro k
    set m := L.slope k
    set c := L.y k - L.x k * L.slope k
    have hh : ∀ u, L.h k u = m * u + c := L.h_affine k
    have h1 : L.y k = m * L.x k + c := by rw [← hh]; exact (L.h_end (Or.inl rfl)).symm
    have h2 : L.y (L.nx k) = m * L.x (L.nx k) + c := by rw [← hh]; exact (L.h_end (Or.inr rfl)).symm
    have hs := strip_sum (fun u => -(L.dir k * (m * u ^ 2 + 2 * c * u))) L.times_sorted (L.lo_mem k).1 (L.lo_mem k).2 (L.lo_lt_hi k).le
    have e : (L.strips.map fun s => if L.lo k ≤ s.1 ∧ s.2 ≤ L.hi k then -(L.dir k * (2 * (s.2 - s.1) * L.h k ((s.1 + s.2) / 2))) else 0) =
        (L.strips.map fun s => if L.lo k ≤ s.1 ∧ s.2 ≤ L.hi k then (fun u => -(L.dir k * (m * u ^ 2 + 2 * c * u))) s.2 - (fun u => -(L.dir k * (m * u ^ 2 + 2 * c * u))) s.1 else 0) := by
      apply List.map_congr_left
      intro s _
      refine if_congr Iff.rfl ?_ rfl
      rw [hh]
      ring
    rw [e]
    unfold strips
    rw [hs, h1, h2]
    unfold dir
    rcases L.lo_hi k with ⟨p, q, r⟩ | ⟨p, q, r⟩
    · rw [if_pos p, q, r]; ring
    · rw [if_neg (by linarith), q, r]; ring
  rw [Finset.sum_congr rfl fun k _ => hk k, sum_list_comm]
  congr 1
  apply List.map_congr_left
  intro s hs
  obtain ⟨_, _, h3⟩ := L.strip_mid hs
  unfold stripSum
  rw [Finset.mul_sum]
  refine Finset.sum_congr rfl fun k _ => ?_
  rw [if_congr (h3 k) rfl rfl]
  split <;> ring

theorem even_active {t : ℝ} (ht : ∀ i, L.x i ≠ t) [DecidablePred fun k => L.lo k < t ∧ t < L.hi k] :
    Even (Finset.univ.filter fun k => L.lo k < t ∧ t < L.hi k).card := by
  rw [← ZMod.natCast_eq_zero_iff_even, Finset.natCast_card_filter]
  refine Eq.trans (Finset.sum_congr rfl fun k _ => ?_) (L.sum_corners fun i => ind (L.x i < t))
  rcases L.lo_hi k with ⟨p, q, r⟩ | ⟨p, q, r⟩
  · rcases lt_or_gt_of_ne (ht k) with a | a <;> rcases lt_or_gt_of_ne (ht (L.nx k)) with b | b
    · rw [if_neg (by rw [q, r]; rintro ⟨_, h⟩; linarith), ind_true a, ind_true b]; exact (two_eq 1).symm
    · rw [if_pos (by rw [q, r]; exact ⟨a, b⟩), ind_true a, ind_false (by linarith), add_zero]
    · linarith
    · rw [if_neg (by rw [q, r]; rintro ⟨h, _⟩; linarith), ind_false (by linarith), ind_false (by linarith), add_zero]
  · rcases lt_or_gt_of_ne (ht k) with a | a <;> rcases lt_or_gt_of_ne (ht (L.nx k)) with b | b
    · rw [if_neg (by rw [q, r]; rintro ⟨_, h⟩; linarith), ind_true a, ind_true b]; exact (two_eq 1).symm
    · linarith
    · rw [if_pos (by rw [q, r]; exact ⟨b, a⟩), ind_true b, ind_false (by linarith), zero_add]
    · rw [if_neg (by rw [q, r]; rintro ⟨h, _⟩; linarith), ind_false (by linarith), ind_false (by linarith), add_zero]

open Classical in
theorem B_card (k : ι) (t : ℝ) :
    L.B k t = (((Finset.univ.filter fun l => L.lo l < t ∧ t < L.hi l).filter fun l => L.h l t < L.h k t).card : ZMod 2) := by
  unfold B
  rw [Finset.filter_filter, Finset.natCast_card_filter]
  refine Finset.sum_congr rfl fun l _ => ?_
  by_cases h : L.Bel k l t
  · rw [ind_true h, if_pos ⟨⟨h.1, h.2.1⟩, h.2.2⟩]
  · rw [ind_false h, if_neg fun h' => h ⟨h'.1.1, h'.1.2, h'.2⟩]

/-- The contribution of a strip has the sign that belongs to the direction of the chain. -/
theorem stripSum_sign {σ : ZMod 2} {t : ℝ} (ht : ∀ i, L.x i ≠ t) (hσ : ∀ k, L.lo k < t → t < L.hi k → L.R k + L.B k t = σ) :
    0 ≤ (if σ = 1 then 1 else -1) * L.stripSum t ∧ ((∃ k, L.lo k < t ∧ t < L.hi k) → 0 < (if σ = 1 then 1 else -1) * L.stripSum t) := by
  classical
  set S := Finset.univ.filter fun k => L.lo k < t ∧ t < L.hi k with hS
  have hmem : ∀ k, k ∈ S ↔ L.lo k < t ∧ t < L.hi k := fun k => by rw [hS, Finset.mem_filter]; simp
  have hsum : (if σ = 1 then (1 : ℝ) else -1) * L.stripSum t =
      ∑ k ∈ S, (if Even (S.filter fun j => L.h j t < L.h k t).card then - L.h k t else L.h k t) := by
    unfold stripSum
    rw [← Finset.sum_filter, Finset.mul_sum]
    refine Finset.sum_congr rfl fun k hk => ?_
    obtain ⟨a, b⟩ := (hmem k).1 hk
    have e := hσ k a b
    rw [L.B_card] at e
    by_cases hev : Even (S.filter fun j => L.h j t < L.h k t).card
    · rw [if_pos hev]
      rw [← hS, (ZMod.natCast_eq_zero_iff_even).2 hev, add_zero] at e
      unfold dir
      unfold R ind at e
      by_cases hr : L.x k < L.x (L.nx k)
      · rw [if_pos hr] at e ⊢; rw [if_pos e.symm]; ring
      · rw [if_neg hr] at e ⊢; rw [if_neg (by rw [← e]; decide)]; ring
    · rw [if_neg hev]
      rw [← hS, (ZMod.natCast_eq_one_iff_odd).2 (Nat.not_even_iff_odd.1 hev)] at e
      unfold dir
      unfold R ind at e
      by_cases hr : L.x k < L.x (L.nx k)
      · rw [if_pos hr] at e ⊢; rw [if_neg (by rw [← e]; decide)]; ring
      · rw [if_neg hr] at e ⊢; rw [if_pos (by rw [← e]; decide)]; ring
  have hinj : ∀ i ∈ S, ∀ j ∈ S, L.h i t = L.h j t → i = j := by
    intro i hi j hj e
    by_contra hne
    obtain ⟨a, b⟩ := (hmem i).1 hi
    obtain ⟨c, d⟩ := (hmem j).1 hj
    obtain ⟨k, hk, -⟩ := L.apart i j hne t a.le b.le c.le d.le e
    exact ht k hk
  obtain ⟨h1, h2⟩ := alternating (fun k => L.h k t) S.card S rfl hinj (L.even_active ht)
  rw [hsum]
  exact ⟨h1, fun ⟨k, hk⟩ => h2 ⟨k, (hmem k).2 hk⟩⟩

theorem area_sign [Nonempty ι] {σ : ZMod 2} (hσ : ∀ k t, (∀ i, L.x i ≠ t) → L.lo k < t → t < L.hi k → L.R k + L.B k t = σ) :
    0 < (if σ = 1 then 1 else -1) * L.area2 := by
  classical
  rw [L.area_strips, ← List.sum_map_mul_left]
  have hnn : ∀ s ∈ L.strips, 0 ≤ (if σ = 1 then (1 : ℝ) else -1) * (2 * (s.2 - s.1) * L.stripSum ((s.1 + s.2) / 2)) := by
    intro s hs
    obtain ⟨h1, h2, _⟩ := L.strip_mid hs
    have := (L.stripSum_sign h2 fun k a b => hσ k _ h2 a b).1
    have h3 : 0 ≤ 2 * (s.2 - s.1) := by linarith
    have := mul_nonneg h3 this
    linarith
  obtain ⟨k⟩ := ‹Nonempty ι›
  have hex : ∃ s ∈ L.strips, L.lo k ≤ s.1 ∧ s.2 ≤ L.hi k := by
    by_contra hno
    push Not at hno
    have hs := strip_sum (fun u => u) L.times_sorted (L.lo_mem k).1 (L.lo_mem k).2 (L.lo_lt_hi k).le
    have hz : ((L.times.zip L.times.tail).map fun s => if L.lo k ≤ s.1 ∧ s.2 ≤ L.hi k then s.2 - s.1 else 0).sum = 0 := by
      apply List.sum_eq_zero
      intro z hz
      obtain ⟨s, hs, rfl⟩ := List.mem_map.1 hz
      rw [if_neg (by rintro ⟨a, b⟩; exact absurd b (not_le.2 (hno s hs a)))]
    have := L.lo_lt_hi k
    rw [hz] at hs
    linarith
  obtain ⟨s, hs, hk⟩ := hex
  obtain ⟨h1, h2, h3⟩ := L.strip_mid hs
  have hpos := (L.stripSum_sign h2 fun k a b => hσ k _ h2 a b).2 ⟨k, (h3 k).1 hk⟩
  have hp : 0 < (if σ = 1 then (1 : ℝ) else -1) * (2 * (s.2 - s.1) * L.stripSum ((s.1 + s.2) / 2)) := by
    have h4 : 0 < 2 * (s.2 - s.1) := by linarith
    have := mul_pos h4 hpos
    linarith
  refine lt_of_lt_of_le hp (List.single_le_sum ?_ _ (List.mem_map_of_mem hs))
  intro z hz
  obtain ⟨s', hs', rfl⟩ := List.mem_map.1 hz
  exact hnn s' hs'

/-- **The sign of the area.**  A closed chain that does not touch itself turns left at its leftmost corner if its area is
positive, and right if it is negative. -/
theorem turn_area (hc : ∀ i j, ∃ n : ℕ, (L.nx ^ n) i = j) (m : ι) (hmin : ∀ i, L.x (L.nx m) ≤ L.x i) :
    let v := L.nx m
    let a := L.nx (L.nx m)
    let turn := (L.x a - L.x v) * (L.y m - L.y v) - (L.y a - L.y v) * (L.x m - L.x v)
    (0 < turn ∧ 0 < L.area2) ∨ (turn < 0 ∧ L.area2 < 0) := by
  intro v a turn
  have hvm : L.x v < L.x m := lt_of_le_of_ne (hmin m) (L.x_ne m).symm
  have hva : L.x v < L.x a := lt_of_le_of_ne (hmin a) (L.x_ne v)
  have : Nonempty ι := ⟨m⟩
  have hs := L.slope_ne m (Or.inl ⟨hvm, hva⟩)
  obtain ⟨t, h0, h1, h2⟩ := L.exists_time v
  have hcon := fun k s (x1 : ∀ i, L.x i ≠ s) x2 x3 => L.constant hc v h0 h1 h2 k (t := s) x1 x2 x3
  have harea := L.area_sign hcon
  have hC : L.C v = 0 := by
    unfold C
    refine Finset.sum_eq_zero fun l _ => ind_false ?_
    rintro ⟨h, _⟩
    rcases L.lo_hi l with ⟨_, b, _⟩ | ⟨_, b, _⟩ <;> rw [b] at h
    · exact absurd (hmin l) (not_le.2 h)
    · exact absurd (hmin (L.nx l)) (not_le.2 h)
  have hlom : L.lo m = L.x v := by
    rcases L.lo_hi m with ⟨h, _⟩ | ⟨_, b, _⟩
    · exact absurd h (by show ¬ L.x m < L.x v; linarith)
    · exact b
  have hlov : L.lo v = L.x v := by
    rcases L.lo_hi v with ⟨_, b, _⟩ | ⟨h, _⟩
    · exact b
    · exact absurd h (by show ¬ L.x a < L.x v; linarith)
  have hB := L.B_eq (k := v) (m := m) (j := v) (Or.inl rfl) (Or.inr rfl) (L.nx_ne m).symm h0 h1 h2
  have hR : L.R v = 1 := ind_true hva
  have hturn : turn = (L.x a - L.x v) * (L.x m - L.x v) * (L.slope m - L.slope v) := by
    have e1 : L.y a = L.y v + (L.x a - L.x v) * L.slope v := by rw [← L.h_at (Or.inl rfl)]; exact (L.h_end (Or.inr rfl)).symm
    have e2 : L.y m = L.y v + (L.x m - L.x v) * L.slope m := by rw [← L.h_at (Or.inr rfl)]; exact (L.h_end (Or.inl rfl)).symm
    show (L.x a - L.x v) * (L.y m - L.y v) - (L.y a - L.y v) * (L.x m - L.x v) = _
    rw [e1, e2]
    ring
  have hp : 0 < (L.x a - L.x v) * (L.x m - L.x v) := mul_pos (by linarith) (by linarith)
  rcases lt_or_gt_of_ne hs with hs | hs
  · right
    have hL : ind (L.Lower v m v) = 1 := ind_true (Or.inl ⟨hlom, hlov, hs⟩)
    rw [hB, hC, hL, hR, if_neg (by decide)] at harea
    refine ⟨?_, by linarith⟩
    rw [hturn]
    exact mul_neg_of_pos_of_neg hp (by linarith)
  · left
    have hL : ind (L.Lower v m v) = 0 := ind_false (by
      rintro (⟨_, _, h⟩ | ⟨_, h, _⟩)
      · exact absurd h (not_lt.2 hs.le)
      · have := L.lo_lt_hi v; rw [h, hlov] at this; exact lt_irrefl _ this)
    rw [hB, hC, hL, hR, if_pos (by decide)] at harea
    refine ⟨?_, by linarith⟩
    rw [hturn]
    exact mul_pos hp (by linarith)

end Loop

end Idc
