import Mathlib.Data.Real.Basic
import Mathlib.Data.ZMod.Basic
import Mathlib.Algebra.BigOperators.Group.Finset.Basic
import Mathlib.Algebra.CharP.Two
import Mathlib.Logic.Equiv.Fin.Rotate
import Mathlib.Tactic.Linarith
import Mathlib.Tactic.LinearCombination
import Mathlib.Tactic.FieldSimp
import Mathlib.Tactic.Ring
/-!
# Closed chains of segments that meet only in their ends (for C77): inside and outside alternate

The corners have different x coordinates (a shear brings that about).
-/

namespace Idc

/-- The slope of the segment from corner `k` to the next. -/
noncomputable def chainSlope {ι : Type} (x y : ι → ℝ) (nx : Equiv.Perm ι) (k : ι) : ℝ := (y (nx k) - y k) / (x (nx k) - x k)

/-- Its height above `u`. -/
noncomputable def chainH {ι : Type} (x y : ι → ℝ) (nx : Equiv.Perm ι) (k : ι) (u : ℝ) : ℝ := y k + (u - x k) * chainSlope x y nx k

/-- Closed chains of segments that meet only in their ends. -/
structure Loop (ι : Type) where
  x : ι → ℝ
  y : ι → ℝ
  nx : Equiv.Perm ι
  inj : ∀ i j, x i = x j → i = j
  nx_ne : ∀ i, nx i ≠ i
  nx_nx : ∀ i, nx (nx i) ≠ i
  apart : ∀ k l, k ≠ l → ∀ u, min (x k) (x (nx k)) ≤ u → u ≤ max (x k) (x (nx k)) → min (x l) (x (nx l)) ≤ u → u ≤ max (x l) (x (nx l)) →
    chainH x y nx k u = chainH x y nx l u → ∃ j, x j = u ∧ (j = k ∨ j = nx k) ∧ (j = l ∨ j = nx l)

open Classical in
/-- 1 if it holds, 0 if not. -/
noncomputable def ind (P : Prop) : ZMod 2 := if P then 1 else 0

theorem ind_true {P : Prop} (h : P) : ind P = 1 := if_pos h
theorem ind_false {P : Prop} (h : ¬ P) : ind P = 0 := if_neg h
theorem ind_congr {P Q : Prop} (h : P ↔ Q) : ind P = ind Q := by rw [propext h]
theorem two_eq (a : ZMod 2) : a + a = 0 := CharTwo.add_self_eq_zero a

/-- An affine function without zero does not change its sign. -/
theorem affine_sign {f : ℝ → ℝ} {m c : ℝ} (hf : ∀ u, f u = m * u + c) {s t : ℝ} (hst : s ≤ t) (h0 : ∀ u, s ≤ u → u ≤ t → f u ≠ 0) :
    f s < 0 ↔ f t < 0 := by
  by_contra hne
  have hs := h0 s le_rfl hst
  have ht := h0 t hst le_rfl
  have key : ∀ m c : ℝ, m * s + c < 0 → 0 < m * t + c → ∃ u, s ≤ u ∧ u ≤ t ∧ m * u + c = 0 := by
    intro m c h1 h2
    have hm : 0 < m := by
      by_contra hm
      have := mul_le_mul_of_nonpos_left hst (not_lt.1 hm)
      linarith
    refine ⟨-c / m, ?_, ?_, by field_simp; ring⟩
    · rw [le_div_iff₀ hm]; linarith
    · rw [div_le_iff₀ hm]; linarith
  rw [hf] at hs ht
  rw [hf, hf] at hne
  rcases lt_or_gt_of_ne hs with h1 | h1 <;> rcases lt_or_gt_of_ne ht with h2 | h2
  · exact hne ⟨fun _ => h2, fun _ => h1⟩
  · obtain ⟨u, h3, h4, h5⟩ := key m c h1 h2
    exact h0 u h3 h4 (by rw [hf]; exact h5)
  · obtain ⟨u, h3, h4, h5⟩ := key (-m) (-c) (by linarith) (by linarith)
    exact h0 u h3 h4 (by rw [hf]; linarith)
  · exact hne ⟨fun h => absurd h (by linarith), fun h => absurd h (by linarith)⟩

/-- A segment that does not cross the upper side of a region leaves it as often as it enters it. -/
theorem parity_core {f : ℝ → ℝ} {m c : ℝ} (hf : ∀ u, f u = m * u + c) {α β s t : ℝ} (hαβ : α < β) (hst : s < t)
    (h1 : α ≠ s) (h2 : α ≠ t) (h3 : β ≠ s) (h4 : β ≠ t) (h0 : ∀ u, s ≤ u → u ≤ t → α ≤ u → u ≤ β → f u ≠ 0) :
    ind (α < s ∧ s < β ∧ f s < 0) + ind (α < t ∧ t < β ∧ f t < 0) = ind (s < α ∧ α < t ∧ f α < 0) + ind (s < β ∧ β < t ∧ f β < 0) := by
  rcases lt_or_gt_of_ne h1 with a1 | a1
  · rw [ind_false (P := s < α ∧ α < t ∧ f α < 0) (by rintro ⟨h, _⟩; linarith)]
    rcases lt_or_gt_of_ne h3 with b1 | b1
    · rw [ind_false (by rintro ⟨_, h, _⟩; linarith), ind_false (by rintro ⟨_, h, _⟩; linarith), ind_false (by rintro ⟨h, _⟩; linarith)]
    · rcases lt_or_gt_of_ne h4 with b2 | b2
      · rw [ind_false (P := α < t ∧ t < β ∧ f t < 0) (by rintro ⟨_, h, _⟩; linarith), add_zero, zero_add]
        apply ind_congr
        have := affine_sign hf b1.le fun u p q => h0 u p (by linarith) (by linarith) q
        tauto
      · rw [ind_false (P := s < β ∧ β < t ∧ f β < 0) (by rintro ⟨_, h, _⟩; linarith), add_zero]
        have := affine_sign hf hst.le fun u p q => h0 u p q (by linarith) (by linarith)
        have e : ind (α < t ∧ t < β ∧ f t < 0) = ind (α < s ∧ s < β ∧ f s < 0) :=
          ind_congr ⟨fun h => ⟨a1, b1, this.2 h.2.2⟩, fun h => ⟨by linarith, b2, this.1 h.2.2⟩⟩
        rw [e, two_eq]
  · rw [ind_false (P := α < s ∧ s < β ∧ f s < 0) (by rintro ⟨h, _⟩; linarith), zero_add]
    rcases lt_or_gt_of_ne h2 with a2 | a2
    · rcases lt_or_gt_of_ne h4 with b2 | b2
      · rw [ind_false (P := α < t ∧ t < β ∧ f t < 0) (by rintro ⟨_, h, _⟩; linarith)]
        have := affine_sign hf hαβ.le fun u p q => h0 u (by linarith) (by linarith) p q
        have e : ind (s < β ∧ β < t ∧ f β < 0) = ind (s < α ∧ α < t ∧ f α < 0) :=
          ind_congr ⟨fun h => ⟨a1, a2, this.2 h.2.2⟩, fun h => ⟨by linarith, b2, this.1 h.2.2⟩⟩
        rw [e, two_eq]
      · rw [ind_false (P := s < β ∧ β < t ∧ f β < 0) (by rintro ⟨_, h, _⟩; linarith), add_zero]
        apply ind_congr
        have := affine_sign hf a2.le fun u p q => h0 u (by linarith) q p (by linarith)
        tauto
    · rw [ind_false (by rintro ⟨h, _⟩; linarith), ind_false (by rintro ⟨_, h, _⟩; linarith), ind_false (by rintro ⟨_, h, _⟩; linarith), add_zero]

namespace Loop

variable {ι : Type} (L : Loop ι)

/-- Where segment `k` begins. -/
noncomputable def lo (k : ι) : ℝ := min (L.x k) (L.x (L.nx k))
/-- Where it ends. -/
noncomputable def hi (k : ι) : ℝ := max (L.x k) (L.x (L.nx k))
/-- Its slope. -/
noncomputable def slope (k : ι) : ℝ := chainSlope L.x L.y L.nx k
/-- Its height. -/
noncomputable def h (k : ι) (u : ℝ) : ℝ := chainH L.x L.y L.nx k u

theorem x_ne (k : ι) : L.x k ≠ L.x (L.nx k) := fun e => L.nx_ne k (L.inj _ _ e).symm

theorem lo_hi (k : ι) : L.x k < L.x (L.nx k) ∧ L.lo k = L.x k ∧ L.hi k = L.x (L.nx k) ∨
    L.x (L.nx k) < L.x k ∧ L.lo k = L.x (L.nx k) ∧ L.hi k = L.x k := by
  unfold lo hi
  rcases lt_or_gt_of_ne (L.x_ne k) with e | e
  · exact Or.inl ⟨e, min_eq_left e.le, max_eq_right e.le⟩
  · exact Or.inr ⟨e, min_eq_right e.le, max_eq_left e.le⟩

theorem lo_lt_hi (k : ι) : L.lo k < L.hi k := by
  rcases L.lo_hi k with ⟨a, b, c⟩ | ⟨a, b, c⟩ <;> rw [b, c] <;> exact a

theorem h_at {j k : ι} (hj : j = k ∨ j = L.nx k) (u : ℝ) : L.h k u = L.y j + (u - L.x j) * L.slope k := by
  unfold h slope chainH
  rcases hj with rfl | rfl
  · rfl
  · have h0 : L.x (L.nx k) - L.x k ≠ 0 := sub_ne_zero.2 (L.x_ne k).symm
    have : (L.x (L.nx k) - L.x k) * chainSlope L.x L.y L.nx k = L.y (L.nx k) - L.y k := by
      unfold chainSlope
      field_simp
    linear_combination this

theorem h_end {j k : ι} (hj : j = k ∨ j = L.nx k) : L.h k (L.x j) = L.y j := by rw [L.h_at hj]; ring

theorem h_affine (k : ι) (u : ℝ) : L.h k u = L.slope k * u + (L.y k - L.x k * L.slope k) := by
  rw [L.h_at (Or.inl rfl)]; ring

/-- Segment `l` is below segment `k` at `u`. -/
def Bel (k l : ι) (u : ℝ) : Prop := L.lo l < u ∧ u < L.hi l ∧ L.h l u < L.h k u

/-- Corner `j` is below segment `k`, between `s` and `t`. -/
def Sub (k : ι) (s t : ℝ) (j : ι) : Prop := s < L.x j ∧ L.x j < t ∧ L.y j < L.h k (L.x j)

theorem edge_parity {k l : ι} {s t : ℝ} (hst : s < t) (h1 : L.x l ≠ s) (h2 : L.x l ≠ t) (h3 : L.x (L.nx l) ≠ s) (h4 : L.x (L.nx l) ≠ t)
    (h0 : ∀ u, s ≤ u → u ≤ t → L.lo l ≤ u → u ≤ L.hi l → L.h l u ≠ L.h k u) :
    ind (L.Bel k l s) + ind (L.Bel k l t) = ind (L.Sub k s t l) + ind (L.Sub k s t (L.nx l)) := by
  have hf : ∀ u, L.h l u - L.h k u = (L.slope l - L.slope k) * u + ((L.y l - L.x l * L.slope l) - (L.y k - L.x k * L.slope k)) := by
    intro u; rw [L.h_affine, L.h_affine]; ring
  have hs : ∀ u, L.h l u - L.h k u < 0 ↔ L.h l u < L.h k u := fun u => sub_neg
  have e1 : ∀ u, ind (L.Bel k l u) = ind (L.lo l < u ∧ u < L.hi l ∧ L.h l u - L.h k u < 0) := by
    intro u; unfold Bel; rw [hs]
  have e2 : ∀ j, (j = l ∨ j = L.nx l) → ind (L.Sub k s t j) = ind (s < L.x j ∧ L.x j < t ∧ L.h l (L.x j) - L.h k (L.x j) < 0) := by
    intro j hj; unfold Sub; rw [hs, L.h_end hj]
  rw [e1, e1, e2 l (Or.inl rfl), e2 _ (Or.inr rfl)]
  rcases L.lo_hi l with ⟨a, b, c⟩ | ⟨a, b, c⟩
  · rw [b, c]
    exact parity_core (f := fun u => L.h l u - L.h k u) hf a hst h1 h2 h3 h4 fun u p q r w => sub_ne_zero.2 (h0 u p q (by rw [b]; exact r) (by rw [c]; exact w))
  · rw [b, c, add_comm (ind (s < L.x l ∧ _))]
    exact parity_core (f := fun u => L.h l u - L.h k u) hf a hst h3 h4 h1 h2 fun u p q r w => sub_ne_zero.2 (h0 u p q (by rw [b]; exact r) (by rw [c]; exact w))

/-- Only two segments meet in a corner. -/
theorem two_at {j a b c : ι} (ha : j = a ∨ j = L.nx a) (hb : j = b ∨ j = L.nx b) (hc : j = c ∨ j = L.nx c) (hab : a ≠ b) (hac : a ≠ c) (hbc : b ≠ c) : False := by
  have inj : ∀ p q, L.nx p = L.nx q → p = q := fun p q h => L.nx.injective h
  rcases ha with rfl | ha <;> rcases hb with rfl | hb <;> rcases hc with rfl | hc
  · exact hab rfl
  · exact hab rfl
  · exact hac rfl
  · exact hbc (inj _ _ (hb.symm.trans hc))
  · exact hbc rfl
  · exact hac (inj _ _ (ha.symm.trans hc))
  · exact hab (inj _ _ (ha.symm.trans hb))
  · exact hab (inj _ _ (ha.symm.trans hb))

/-- At the corner `j` segment `m` leaves to the same side as `k`, and below it. -/
def Lower (k m j : ι) : Prop :=
  L.lo m = L.x j ∧ L.lo k = L.x j ∧ L.slope m < L.slope k ∨ L.hi m = L.x j ∧ L.hi k = L.x j ∧ L.slope k < L.slope m

/-- The other end. -/
theorem other_end {m j : ι} (hm : j = m ∨ j = L.nx m) : ∃ q, (q = m ∨ q = L.nx m) ∧ L.x q ≠ L.x j ∧
    (∀ g : ι → ZMod 2, g m + g (L.nx m) = g j + g q) ∧
    (L.x j < L.x q ∧ L.lo m = L.x j ∧ L.hi m = L.x q ∨ L.x q < L.x j ∧ L.hi m = L.x j ∧ L.lo m = L.x q) := by
  rcases hm with rfl | rfl
  · refine ⟨L.nx j, Or.inr rfl, (L.x_ne j).symm, fun g => rfl, ?_⟩
    rcases L.lo_hi j with ⟨a, b, c⟩ | ⟨a, b, c⟩
    · exact Or.inl ⟨a, b, c⟩
    · exact Or.inr ⟨a, c, b⟩
  · refine ⟨m, Or.inl rfl, L.x_ne m, fun g => add_comm _ _, ?_⟩
    rcases L.lo_hi m with ⟨a, b, c⟩ | ⟨a, b, c⟩
    · exact Or.inr ⟨a, c, b⟩
    · exact Or.inl ⟨a, b, c⟩

variable [Fintype ι]

/-- How many segments are below segment `k` at `t`: even or odd. -/
noncomputable def B (k : ι) (t : ℝ) : ZMod 2 := ∑ l, ind (L.Bel k l t)

/-- How many segments are below corner `j`: even or odd. -/
noncomputable def C (j : ι) : ZMod 2 := ∑ l, ind (L.lo l < L.x j ∧ L.x j < L.hi l ∧ L.h l (L.x j) < L.y j)

theorem sum_corners (g : ι → ZMod 2) : ∑ l, (g l + g (L.nx l)) = 0 := by
  rw [Finset.sum_add_distrib, Equiv.sum_comp L.nx g, two_eq]

/-- What is below a segment at a time inside is what is below its end, up to the other segment there. -/
theorem B_eq {k m j : ι} (hk : j = k ∨ j = L.nx k) (hm : j = m ∨ j = L.nx m) (hmk : m ≠ k) {t : ℝ} (ht : ∀ i, L.x i ≠ t)
    (h1 : L.lo k < t) (h2 : t < L.hi k) : L.B k t = L.C j + ind (L.Lower k m j) := by
  classical
  obtain ⟨q', hq', hq'j, -, hk2⟩ := L.other_end hk
  -- corners between the end and t
  let S : ι → Prop := fun i => L.Sub k (min (L.x j) t) (max (L.x j) t) i
  have key : ∀ l, ind (L.Bel k l t) + ind (L.lo l < L.x j ∧ L.x j < L.hi l ∧ L.h l (L.x j) < L.y j) + (if l = m then ind (L.Lower k m j) else 0) =
      ind (S l) + ind (S (L.nx l)) := by
    intro l
    have hS0 : ∀ i, L.x i = L.x j → ¬ S i := by
      rintro i hi ⟨a, b, -⟩
      rw [hi] at a b
      rcases le_total (L.x j) t with e | e
      · rw [min_eq_left e] at a; exact lt_irrefl _ a
      · rw [max_eq_left e] at b; exact lt_irrefl _ b
    have hSq : ¬ S q' := by
      rintro ⟨a, b, -⟩
      rcases hk2 with ⟨e, f, g⟩ | ⟨e, f, g⟩
      · rw [max_eq_right (by rw [← f]; exact h1.le)] at b; rw [g] at h2; linarith
      · rw [min_eq_right (by rw [← f]; exact h2.le)] at a; rw [g] at h1; linarith
    by_cases hlk : l = k
    · subst hlk
      rw [ind_false (P := L.Bel l l t) (by rintro ⟨_, _, h⟩; exact lt_irrefl _ h), if_neg (Ne.symm hmk)]
      rw [ind_false (by
        rintro ⟨a, b, -⟩
        rcases hk2 with ⟨e, f, g⟩ | ⟨e, f, g⟩
        · rw [f] at a; exact lt_irrefl _ a
        · rw [f] at b; exact lt_irrefl _ b)]
      have : ¬ S l ∧ ¬ S (L.nx l) := by
        rcases hk with rfl | rfl <;> rcases hq' with rfl | rfl
        · exact absurd rfl hq'j
        · exact ⟨hS0 _ rfl, hSq⟩
        · exact ⟨hSq, hS0 _ rfl⟩
        · exact absurd rfl hq'j
      rw [ind_false this.1, ind_false this.2]; ring
    by_cases hlm : l = m
    · subst hlm
      obtain ⟨q, hq, hqj, hg, hm2⟩ := L.other_end hm
      rw [if_pos rfl, hg fun i => ind (S i), ind_false (hS0 j rfl), zero_add]
      rw [ind_false (P := L.lo l < L.x j ∧ _) (by
        rintro ⟨a, b, -⟩
        rcases hm2 with ⟨e, f, g⟩ | ⟨e, f, g⟩
        · rw [f] at a; exact lt_irrefl _ a
        · rw [f] at b; exact lt_irrefl _ b), add_zero]
      have hcomp : ∀ u, L.h l u < L.h k u ↔ (u - L.x j) * L.slope l < (u - L.x j) * L.slope k := by
        intro u; rw [L.h_at hm, L.h_at hk]; constructor <;> intro h <;> linarith
      have hcompq : L.y q < L.h k (L.x q) ↔ (L.x q - L.x j) * L.slope l < (L.x q - L.x j) * L.slope k := by
        rw [← hcomp, L.h_end hq]
      rcases hk2 with ⟨e, f, g⟩ | ⟨e, f, g⟩
      · have htj : L.x j < t := by rw [← f]; exact h1
        have hSiff : ∀ i, S i ↔ L.x j < L.x i ∧ L.x i < t ∧ L.y i < L.h k (L.x i) := by
          intro i; show L.Sub k _ _ i ↔ _; unfold Sub; rw [min_eq_left htj.le, max_eq_right htj.le]
        rcases hm2 with ⟨e', f', g'⟩ | ⟨e', f', g'⟩
        · have hL : L.Lower k l j ↔ L.slope l < L.slope k := by
            unfold Lower
            constructor
            · rintro (⟨_, _, h⟩ | ⟨h, _, _⟩)
              · exact h
              · rw [g'] at h; linarith
            · intro h; exact Or.inl ⟨f', f, h⟩
          rcases lt_or_gt_of_ne (ht q) with r | r
          · rw [ind_false (P := L.Bel k l t) (by rintro ⟨_, h, _⟩; rw [g'] at h; linarith), zero_add]
            apply ind_congr
            rw [hL, hSiff, hcompq, mul_lt_mul_iff_right₀ (by linarith)]
            exact ⟨fun h => ⟨e', r, h⟩, fun h => h.2.2⟩
          · rw [ind_false (P := S q) (by rw [hSiff]; rintro ⟨_, h, _⟩; linarith)]
            have e1 : ind (L.Bel k l t) = ind (L.Lower k l j) := by
              apply ind_congr
              unfold Bel
              rw [hL, hcomp, mul_lt_mul_iff_right₀ (by linarith), f', g']
              exact ⟨fun h => h.2.2, fun h => ⟨htj, r, h⟩⟩
            rw [e1, two_eq]
        · rw [ind_false (P := L.Bel k l t) (by rintro ⟨_, h, _⟩; rw [f'] at h; linarith),
            ind_false (P := S q) (by rw [hSiff]; rintro ⟨h, _⟩; linarith),
            ind_false (P := L.Lower k l j) (by
              rintro (⟨h, _, _⟩ | ⟨_, h, _⟩)
              · rw [g'] at h; linarith
              · rw [g] at h; linarith), add_zero]
      · have htj : t < L.x j := by rw [← f]; exact h2
        have hSiff : ∀ i, S i ↔ t < L.x i ∧ L.x i < L.x j ∧ L.y i < L.h k (L.x i) := by
          intro i; show L.Sub k _ _ i ↔ _; unfold Sub; rw [min_eq_right htj.le, max_eq_left htj.le]
        have hneg : ∀ u, u < L.x j → ((u - L.x j) * L.slope l < (u - L.x j) * L.slope k ↔ L.slope k < L.slope l) := by
          intro u hu
          constructor <;> intro h <;> nlinarith
        rcases hm2 with ⟨e', f', g'⟩ | ⟨e', f', g'⟩
        · rw [ind_false (P := L.Bel k l t) (by rintro ⟨h, _, _⟩; rw [f'] at h; linarith),
            ind_false (P := S q) (by rw [hSiff]; rintro ⟨_, h, _⟩; linarith),
            ind_false (P := L.Lower k l j) (by
              rintro (⟨_, h, _⟩ | ⟨h, _, _⟩)
              · rw [g] at h; linarith
              · rw [g'] at h; linarith), add_zero]
        · have hL : L.Lower k l j ↔ L.slope k < L.slope l := by
            unfold Lower
            constructor
            · rintro (⟨h, _, _⟩ | ⟨_, _, h⟩)
              · rw [g'] at h; linarith
              · exact h
            · intro h; exact Or.inr ⟨f', f, h⟩
          rcases lt_or_gt_of_ne (ht q) with r | r
          · rw [ind_false (P := S q) (by rw [hSiff]; rintro ⟨h, _, _⟩; linarith)]
            have e1 : ind (L.Bel k l t) = ind (L.Lower k l j) := by
              apply ind_congr
              unfold Bel
              rw [hL, hcomp, hneg t htj, f', g']
              exact ⟨fun h => h.2.2, fun h => ⟨r, htj, h⟩⟩
            rw [e1, two_eq]
          · rw [ind_false (P := L.Bel k l t) (by rintro ⟨h, _, _⟩; rw [g'] at h; linarith), zero_add]
            apply ind_congr
            rw [hL, hSiff, hcompq, hneg _ e']
            exact ⟨fun h => ⟨r, e', h⟩, fun h => h.2.2⟩
    · rw [if_neg hlm, add_zero]
      have hfar : ∀ i, (i = l ∨ i = L.nx l) → L.x i ≠ L.x j := by
        intro i hi e
        have e' := L.inj _ _ e
        subst e'
        exact L.two_at hk hm hi (Ne.symm hmk) (Ne.symm hlk) (Ne.symm hlm)
      have h0 : ∀ u, min (L.x j) t ≤ u → u ≤ max (L.x j) t → L.lo l ≤ u → u ≤ L.hi l → L.h l u ≠ L.h k u := by
        intro u a b c d e
        have hin : L.lo k ≤ u ∧ u ≤ L.hi k := by
          rcases hk2 with ⟨e, f, g⟩ | ⟨e, f, g⟩
          · rw [min_eq_left (by rw [← f]; exact h1.le)] at a
            rw [max_eq_right (by rw [← f]; exact h1.le)] at b
            exact ⟨by rw [f]; exact a, by linarith⟩
          · rw [min_eq_right (by rw [← f]; exact h2.le)] at a
            rw [max_eq_left (by rw [← f]; exact h2.le)] at b
            exact ⟨by linarith, by rw [f]; exact b⟩
        obtain ⟨i, hi, hil, hik⟩ := L.apart l k hlk u c d hin.1 hin.2 e
        have : i = j := by
          by_contra hne
          have hiq : i = q' := by
            rcases hk with rfl | rfl <;> rcases hq' with rfl | rfl <;> rcases hik with rfl | rfl <;> first | rfl | exact absurd rfl hne | exact absurd rfl hq'j
          subst hiq
          rcases hk2 with ⟨e, f, g⟩ | ⟨e, f, g⟩
          · rw [max_eq_right (by rw [← f]; exact h1.le)] at b; rw [g] at h2; linarith
          · rw [min_eq_right (by rw [← f]; exact h2.le)] at a; rw [g] at h1; linarith
        exact hfar i hil (by rw [this])
      have hcor : ind (L.lo l < L.x j ∧ L.x j < L.hi l ∧ L.h l (L.x j) < L.y j) = ind (L.Bel k l (L.x j)) := by
        unfold Bel; rw [L.h_end hk]
      rw [hcor]
      rcases lt_or_gt_of_ne (ht j) with e | e
      · have h0' := h0
        rw [min_eq_left e.le, max_eq_right e.le] at h0'
        have := L.edge_parity (k := k) (l := l) e (hfar l (Or.inl rfl)) (ht l) (hfar _ (Or.inr rfl)) (ht _) h0'
        show _ = ind (L.Sub k _ _ l) + ind (L.Sub k _ _ (L.nx l))
        rw [min_eq_left e.le, max_eq_right e.le, ← this, add_comm]
      · have h0' := h0
        rw [min_eq_right e.le, max_eq_left e.le] at h0'
        have := L.edge_parity (k := k) (l := l) e (ht l) (hfar l (Or.inl rfl)) (ht _) (hfar _ (Or.inr rfl)) h0'
        show _ = ind (L.Sub k _ _ l) + ind (L.Sub k _ _ (L.nx l))
        rw [min_eq_right e.le, max_eq_left e.le, ← this]
  have hsum : ∑ l, (ind (L.Bel k l t) + ind (L.lo l < L.x j ∧ L.x j < L.hi l ∧ L.h l (L.x j) < L.y j) + (if l = m then ind (L.Lower k m j) else 0)) = 0 := by
    rw [Finset.sum_congr rfl fun l _ => key l]
    exact L.sum_corners fun i => ind (S i)
  rw [Finset.sum_add_distrib, Finset.sum_add_distrib, Finset.sum_ite_eq' Finset.univ m] at hsum
  simp only [Finset.mem_univ, if_true] at hsum
  have e3 : L.B k t + L.C j + ind (L.Lower k m j) = 0 := hsum
  have e4 := two_eq (L.C j + ind (L.Lower k m j))
  have : L.B k t + (L.C j + ind (L.Lower k m j)) = (L.C j + ind (L.Lower k m j)) + (L.C j + ind (L.Lower k m j)) := by rw [e4, ← e3]; ring
  exact add_right_cancel this

end Loop

end Idc
