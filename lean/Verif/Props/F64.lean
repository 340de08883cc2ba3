import Verif.Model.F64
import Verif.Spec.Double
import Verif.Spec.Float
import Mathlib.Tactic.Linarith
import Mathlib.Tactic.FieldSimp
import Mathlib.Tactic.Ring
/-!
# Double precision has the laws of `Double` and `IntExact`
-/

namespace Idc

namespace F64

theorem divRound_le (n d : Nat) : divRound n d ≤ n / d + 1 := by
  unfold divRound
  dsimp only
  split
  · omega
  · split
    · omega
    · split <;> omega

theorem le_divRound (n d : Nat) : n / d ≤ divRound n d := by
  unfold divRound
  dsimp only
  split
  · omega
  · split
    · omega
    · split <;> omega

theorem divRound_mono {n d n' d' : Nat} (hd : 0 < d) (hd' : 0 < d') (h : n * d' ≤ n' * d) : divRound n d ≤ divRound n' d' := by
  have hm : n / d ≤ n' / d' := by
    rw [Nat.le_div_iff_mul_le hd']
    have h1 : n / d * d ≤ n := Nat.div_mul_le_self n d
    have : n / d * d' * d ≤ n' * d := by
      calc n / d * d' * d = n / d * d * d' := by ring
        _ ≤ n * d' := Nat.mul_le_mul_right _ h1
        _ ≤ n' * d := h
    exact Nat.le_of_mul_le_mul_right this hd
  rcases hm.lt_or_eq with hlt | heq
  · exact (divRound_le n d).trans (Nat.succ_le_of_lt hlt |>.trans (le_divRound n' d'))
  · have e1 := Nat.div_add_mod n d
    have e2 := Nat.div_add_mod n' d'
    have hr : n % d * d' ≤ n' % d' * d := by
      have h3 : (d * (n / d) + n % d) * d' ≤ (d' * (n' / d') + n' % d') * d := by rw [e1, e2]; exact h
      rw [← heq] at h3
      nlinarith
    unfold divRound
    dsimp only
    rw [← heq]
    by_cases c1 : 2 * (n % d) < d
    · rw [if_pos c1]
      split
      · exact le_rfl
      · split
        · omega
        · split <;> omega
    · rw [if_neg c1]
      have k1 : d ≤ 2 * (n % d) := not_lt.1 c1
      have k2 : d' ≤ 2 * (n' % d') := by
        by_contra hc
        push Not at hc
        have : d * d' ≤ 2 * (n % d) * d' := Nat.mul_le_mul_right _ k1
        have h4 : 2 * (n' % d') * d < d' * d := Nat.mul_lt_mul_of_pos_right hc hd
        nlinarith
      rw [if_neg (not_lt.2 k2)]
      by_cases c2 : d < 2 * (n % d)
      · have k3 : d' < 2 * (n' % d') := by
          by_contra hc
          push Not at hc
          have : d * d' < 2 * (n % d) * d' := Nat.mul_lt_mul_of_pos_right c2 hd'
          have h4 : 2 * (n' % d') * d ≤ d' * d := Nat.mul_le_mul_right _ hc
          nlinarith
        rw [if_pos c2, if_pos k3]
      · rw [if_neg c2]
        split <;> split <;> omega

theorem divRound_exact (k d : Nat) (hd : 0 < d) : divRound (k * d) d = k := by
  unfold divRound
  simp [Nat.mul_mod_left, Nat.mul_div_cancel _ hd, hd]

theorem divRound_close (n d : Nat) (hd : 0 < d) : |(divRound n d : ℚ) - n / d| ≤ 1 / 2 := by
  have e1 := Nat.div_add_mod n d
  have hq : (n : ℚ) = d * (n / d : ℕ) + (n % d : ℕ) := by exact_mod_cast e1.symm
  have hdq : (0 : ℚ) < d := by exact_mod_cast hd
  have hdiv : (n : ℚ) / d = (n / d : ℕ) + (n % d : ℕ) / d := by
    rw [hq]
    field_simp
  have hr0 : (0 : ℚ) ≤ ((n % d : ℕ) : ℚ) / d := div_nonneg (Nat.cast_nonneg _) hdq.le
  have hr1 : ((n % d : ℕ) : ℚ) / d < 1 := by
    rw [div_lt_one hdq]
    exact_mod_cast Nat.mod_lt n hd
  have half1 : 2 * (n % d) ≤ d → ((n % d : ℕ) : ℚ) / d ≤ 1 / 2 := fun h => by
    rw [div_le_iff₀ hdq]
    have : (2 : ℚ) * (n % d : ℕ) ≤ d := by exact_mod_cast h
    linarith
  have half2 : d ≤ 2 * (n % d) → 1 / 2 ≤ ((n % d : ℕ) : ℚ) / d := fun h => by
    rw [le_div_iff₀ hdq]
    have : (d : ℚ) ≤ 2 * (n % d : ℕ) := by exact_mod_cast h
    linarith
  rw [hdiv, abs_le]
  unfold divRound
  dsimp only
  split
  · rename_i h
    have := half1 h.le
    constructor <;> linarith
  · rename_i h
    have k2 := half2 (not_lt.1 h)
    split
    · push_cast
      constructor <;> linarith
    · rename_i h'
      have k1 := half1 (not_lt.1 h')
      split
      · constructor <;> linarith
      · push_cast
        constructor <;> linarith

theorem expo_spec {n d : Nat} (hn : 0 < n) (hd : 0 < d) : (2 : ℚ) ^ expo n d ≤ n / d ∧ (n : ℚ) / d < 2 ^ (expo n d + 1) := by
  have hnq : (0 : ℚ) < n := by exact_mod_cast hn
  have hdq : (0 : ℚ) < d := by exact_mod_cast hd
  have two : (2 : ℚ) ≠ 0 := by norm_num
  have n1 : (2 : ℚ) ^ (n.log2 : ℤ) ≤ n := by
    rw [zpow_natCast]; exact_mod_cast Nat.log2_self_le hn.ne'
  have n2 : (n : ℚ) < 2 ^ ((n.log2 : ℤ) + 1) := by
    have : n < 2 ^ (n.log2 + 1) := Nat.lt_log2_self
    have h2 : (n : ℚ) < 2 ^ (n.log2 + 1) := by exact_mod_cast this
    exact_mod_cast h2
  have d1 : (2 : ℚ) ^ (d.log2 : ℤ) ≤ d := by
    rw [zpow_natCast]; exact_mod_cast Nat.log2_self_le hd.ne'
  have d2 : (d : ℚ) < 2 ^ ((d.log2 : ℤ) + 1) := by
    have : d < 2 ^ (d.log2 + 1) := Nat.lt_log2_self
    have h2 : (d : ℚ) < 2 ^ (d.log2 + 1) := by exact_mod_cast this
    exact_mod_cast h2
  set k : ℤ := (n.log2 : ℤ) - d.log2 with hk
  have hp : ∀ z : ℤ, (0 : ℚ) < 2 ^ z := fun z => zpow_pos (by norm_num) z
  have up : (n : ℚ) / d < 2 ^ (k + 1) := by
    rw [div_lt_iff₀ hdq]
    calc (n : ℚ) < 2 ^ ((n.log2 : ℤ) + 1) := n2
      _ = 2 ^ (k + 1) * 2 ^ (d.log2 : ℤ) := by rw [← zpow_add₀ two]; congr 1; rw [hk]; ring
      _ ≤ 2 ^ (k + 1) * d := mul_le_mul_of_nonneg_left d1 (hp _).le
  have low : (2 : ℚ) ^ (k - 1) ≤ n / d := by
    rw [le_div_iff₀ hdq]
    calc (2 : ℚ) ^ (k - 1) * d ≤ 2 ^ (k - 1) * 2 ^ ((d.log2 : ℤ) + 1) := mul_le_mul_of_nonneg_left d2.le (hp _).le
      _ = 2 ^ (n.log2 : ℤ) := by rw [← zpow_add₀ two]; congr 1; rw [hk]; ring
      _ ≤ n := n1
  have hcond : (if 0 ≤ k then d * 2 ^ k.toNat ≤ n else d ≤ n * 2 ^ (-k).toNat) ↔ (2 : ℚ) ^ k ≤ n / d := by
    split
    · rename_i h0
      have e : (2 : ℚ) ^ k = ((2 ^ k.toNat : ℕ) : ℚ) := by
        push_cast
        rw [← zpow_natCast, Int.toNat_of_nonneg h0]
      rw [e, le_div_iff₀ hdq, mul_comm]
      exact_mod_cast Iff.rfl
    · rename_i h0
      have e : (2 : ℚ) ^ k = (((2 ^ (-k).toNat : ℕ) : ℚ))⁻¹ := by
        push_cast
        rw [← zpow_natCast, Int.toNat_of_nonneg (by omega), zpow_neg, inv_inv]
      have hpos : (0 : ℚ) < ((2 ^ (-k).toNat : ℕ) : ℚ) := by positivity
      rw [e, le_div_iff₀ hdq, inv_mul_le_iff₀ hpos, mul_comm]
      exact_mod_cast Iff.rfl
  have hexp : expo n d = if (2 : ℚ) ^ k ≤ n / d then k else k - 1 := by
    unfold expo
    dsimp only
    by_cases h : (2 : ℚ) ^ k ≤ n / d
    · rw [if_pos h, if_pos (hcond.2 h)]
    · rw [if_neg h, if_neg (fun h' => h (hcond.1 h'))]
  rw [hexp]
  split
  · rename_i h
    exact ⟨h, up⟩
  · rename_i h
    refine ⟨low, ?_⟩
    rw [sub_add_cancel]
    exact not_le.1 h

theorem expo_le {n d : Nat} (hn : 0 < n) (hd : 0 < d) {z : ℤ} (h : (2 : ℚ) ^ z ≤ n / d) : z ≤ expo n d := by
  have := (expo_spec hn hd).2
  have h2 : (2 : ℚ) ^ z < 2 ^ (expo n d + 1) := lt_of_le_of_lt h this
  have := (zpow_lt_zpow_iff_right₀ (by norm_num : (1 : ℚ) < 2)).1 h2
  omega

theorem expo_lt {n d : Nat} (hn : 0 < n) (hd : 0 < d) {z : ℤ} (h : (n : ℚ) / d < 2 ^ z) : expo n d < z := by
  have := (expo_spec hn hd).1
  have h2 : (2 : ℚ) ^ expo n d < 2 ^ z := lt_of_le_of_lt this h
  exact (zpow_lt_zpow_iff_right₀ (by norm_num : (1 : ℚ) < 2)).1 h2

theorem scale_eq (m : Nat) (e : Int) : scale m e = m * 2 ^ e := by
  unfold scale
  split
  · rename_i h
    push_cast
    rw [← zpow_natCast, Int.toNat_of_nonneg h]
  · rename_i h
    rw [Rat.mkRat_eq_div, div_eq_mul_inv]
    push_cast
    rw [← zpow_natCast, Int.toNat_of_nonneg (by omega), zpow_neg, inv_inv]

/-- Rounding divides by a power of two, rounds, and multiplies. -/
theorem roundNat_eq (n d : Nat) (hd : 0 < d) : ∃ N D : Nat, 0 < D ∧ (N : ℚ) / D = n / d / 2 ^ lastBit n d ∧ roundNat n d = divRound N D * 2 ^ lastBit n d := by
  unfold roundNat
  dsimp only
  split
  · rename_i h
    refine ⟨n, d * 2 ^ (lastBit n d).toNat, by positivity, ?_, scale_eq _ _⟩
    push_cast
    rw [← zpow_natCast, Int.toNat_of_nonneg h, div_div]
  · rename_i h
    refine ⟨n * 2 ^ (-lastBit n d).toNat, d, hd, ?_, scale_eq _ _⟩
    push_cast
    rw [← zpow_natCast, Int.toNat_of_nonneg (by omega), zpow_neg, div_div, mul_comm (d : ℚ), ← div_div, div_eq_mul_inv (n : ℚ)]

theorem roundMag_eq {q : ℚ} (hq : 0 ≤ q) : ∃ (N D : Nat) (e : ℤ), 0 < D ∧ (N : ℚ) / D = q / 2 ^ e ∧ roundMag q = divRound N D * 2 ^ e ∧
    e = lastBit q.num.toNat q.den := by
  obtain ⟨N, D, h1, h2, h3⟩ := roundNat_eq q.num.toNat q.den q.den_pos
  refine ⟨N, D, _, h1, ?_, h3, rfl⟩
  rw [h2]
  congr 1
  have : ((q.num.toNat : ℤ) : ℚ) = q.num := by rw [Int.toNat_of_nonneg (Rat.num_nonneg.2 hq)]
  rw [← Int.cast_natCast, this, Rat.num_div_den]

theorem num_den {q : ℚ} (hq : 0 ≤ q) : ((q.num.toNat : ℕ) : ℚ) / q.den = q := by
  have : ((q.num.toNat : ℤ) : ℚ) = q.num := by rw [Int.toNat_of_nonneg (Rat.num_nonneg.2 hq)]
  rw [← Int.cast_natCast, this, Rat.num_div_den]

theorem roundMag_nonneg (q : ℚ) : 0 ≤ roundMag q := by
  obtain ⟨N, D, _, _, h3⟩ := roundNat_eq q.num.toNat q.den q.den_pos
  unfold roundMag
  rw [h3]
  exact mul_nonneg (Nat.cast_nonneg _) (zpow_nonneg (by norm_num) _)

theorem roundMag_zero : roundMag 0 = 0 := by decide +kernel

/-- If `q` is at most a multiple of its last bit, so is the result. -/
theorem roundMag_le {q : ℚ} (hq : 0 ≤ q) (k : Nat) (h : q ≤ k * 2 ^ lastBit q.num.toNat q.den) : roundMag q ≤ k * 2 ^ lastBit q.num.toNat q.den := by
  obtain ⟨N, D, e, h1, h2, h3, he⟩ := roundMag_eq hq
  rw [← he] at h ⊢
  have hp : (0 : ℚ) < 2 ^ e := zpow_pos (by norm_num) e
  rw [h3]
  refine mul_le_mul_of_nonneg_right ?_ hp.le
  have hD : (0 : ℚ) < D := by exact_mod_cast h1
  have : (N : ℚ) / D ≤ k := by rw [h2, div_le_iff₀ hp]; exact h
  rw [div_le_iff₀ hD] at this
  have h4 : N ≤ k * D := by exact_mod_cast this
  have h5 := divRound_mono (n := N) (d := D) (n' := k * D) (d' := D) h1 h1 (Nat.mul_le_mul_right _ h4)
  rw [divRound_exact _ _ h1] at h5
  exact_mod_cast h5

theorem le_roundMag {q : ℚ} (hq : 0 ≤ q) (k : Nat) (h : k * 2 ^ lastBit q.num.toNat q.den ≤ q) : k * 2 ^ lastBit q.num.toNat q.den ≤ roundMag q := by
  obtain ⟨N, D, e, h1, h2, h3, he⟩ := roundMag_eq hq
  rw [← he] at h ⊢
  have hp : (0 : ℚ) < 2 ^ e := zpow_pos (by norm_num) e
  rw [h3]
  refine mul_le_mul_of_nonneg_right ?_ hp.le
  have hD : (0 : ℚ) < D := by exact_mod_cast h1
  have : (k : ℚ) ≤ N / D := by rw [h2, le_div_iff₀ hp]; exact h
  rw [le_div_iff₀ hD] at this
  have h4 : k * D ≤ N := by exact_mod_cast this
  have h5 := divRound_mono (n := k * D) (d := D) (n' := N) (d' := D) h1 h1 (Nat.mul_le_mul_right _ h4)
  rw [divRound_exact _ _ h1] at h5
  exact_mod_cast h5

theorem pos_num {q : ℚ} (hq : 0 < q) : 0 < q.num.toNat := by
  have := Rat.num_pos.2 hq
  omega

/-- The exponent of a positive number. -/
theorem expo_bounds {q : ℚ} (hq : 0 < q) : (2 : ℚ) ^ expo q.num.toNat q.den ≤ q ∧ q < 2 ^ (expo q.num.toNat q.den + 1) := by
  have := expo_spec (pos_num hq) q.den_pos
  rwa [num_den hq.le] at this

theorem roundMag_mono {p q : ℚ} (hp : 0 ≤ p) (h : p ≤ q) : roundMag p ≤ roundMag q := by
  rcases hp.eq_or_lt with rfl | hp
  · rw [roundMag_zero]; exact roundMag_nonneg q
  have hq : 0 < q := lt_of_lt_of_le hp h
  have two : (2 : ℚ) ≠ 0 := by norm_num
  have pw : ∀ z : ℤ, (0 : ℚ) < 2 ^ z := fun z => zpow_pos (by norm_num) z
  have hexp : expo p.num.toNat p.den ≤ expo q.num.toNat q.den := expo_le (pos_num hq) q.den_pos (by
    rw [num_den hq.le]
    exact (expo_bounds hp).1.trans h)
  by_cases he : lastBit p.num.toNat p.den = lastBit q.num.toNat q.den
  · obtain ⟨N, D, e, h1, h2, h3, e1⟩ := roundMag_eq hp.le
    obtain ⟨N', D', e', h1', h2', h3', e1'⟩ := roundMag_eq hq.le
    have : e = e' := by rw [e1, e1', he]
    subst this
    rw [h3, h3']
    refine mul_le_mul_of_nonneg_right ?_ (pw e).le
    have hD : (0 : ℚ) < D := by exact_mod_cast h1
    have hD' : (0 : ℚ) < D' := by exact_mod_cast h1'
    have : (N : ℚ) / D ≤ N' / D' := by rw [h2, h2']; exact div_le_div_of_nonneg_right h (pw e).le
    rw [div_le_div_iff₀ hD hD'] at this
    exact_mod_cast divRound_mono h1 h1' (by exact_mod_cast this)
  · -- a power of two in between
    have hlt : expo p.num.toNat p.den < expo q.num.toNat q.den ∧ lastBit p.num.toNat p.den < lastBit q.num.toNat q.den ∧
        lastBit q.num.toNat q.den = expo q.num.toNat q.den - 52 := by
      unfold lastBit at *
      omega
    set z := expo q.num.toNat q.den with hz
    have mid : ∀ e : ℤ, e ≤ z → ∃ k : Nat, (2 : ℚ) ^ z = k * 2 ^ e := fun e he => ⟨2 ^ (z - e).toNat, by
      push_cast
      rw [← zpow_natCast, Int.toNat_of_nonneg (by omega), ← zpow_add₀ two]
      congr 1
      ring⟩
    obtain ⟨k, hk⟩ := mid (lastBit p.num.toNat p.den) (by omega)
    obtain ⟨k', hk'⟩ := mid (lastBit q.num.toNat q.den) (by omega)
    have h1 : roundMag p ≤ 2 ^ z := by
      rw [hk]
      refine roundMag_le hp.le k ?_
      rw [← hk]
      refine (expo_bounds hp).2.le.trans ?_
      exact zpow_le_zpow_right₀ (by norm_num) (by omega)
    have h2 : (2 : ℚ) ^ z ≤ roundMag q := by
      rw [hk']
      refine le_roundMag hq.le k' ?_
      rw [← hk']
      exact (expo_bounds hq).1
    exact h1.trans h2

theorem roundMag_multiple {q : ℚ} (hq : 0 ≤ q) (k : Nat) (h : q = k * 2 ^ lastBit q.num.toNat q.den) : roundMag q = q :=
  le_antisymm ((roundMag_le hq k h.le).trans h.ge) (h.le.trans (le_roundMag hq k h.ge))

theorem roundMag_nat (n : Nat) (h : n ≤ 2 ^ 53) : roundMag n = n := by
  rcases Nat.eq_zero_or_pos n with rfl | hn
  · exact_mod_cast roundMag_zero
  have hnq : (0 : ℚ) < n := by exact_mod_cast hn
  have two : (2 : ℚ) ≠ 0 := by norm_num
  rcases h.lt_or_eq with h | h
  · have he : lastBit (n : ℚ).num.toNat (n : ℚ).den ≤ 0 := by
      have := expo_lt (z := 53) (pos_num hnq) (n : ℚ).den_pos (by
        rw [num_den hnq.le]
        exact_mod_cast h)
      unfold lastBit
      omega
    refine roundMag_multiple hnq.le (n * 2 ^ (-lastBit (n : ℚ).num.toNat (n : ℚ).den).toNat) ?_
    push_cast
    rw [← zpow_natCast, Int.toNat_of_nonneg (by omega), mul_assoc, ← zpow_add₀ two]
    simp
  · subst h
    decide +kernel

theorem roundMag_close {q : ℚ} (h : 1 / 2 ^ 200 ≤ q) : |roundMag q - q| ≤ q / 2 ^ 53 := by
  have hq : 0 < q := lt_of_lt_of_le (by positivity) h
  have pw : ∀ z : ℤ, (0 : ℚ) < 2 ^ z := fun z => zpow_pos (by norm_num) z
  obtain ⟨N, D, e, h1, h2, h3, he⟩ := roundMag_eq hq.le
  have hx : -200 ≤ expo q.num.toNat q.den := expo_le (pos_num hq) q.den_pos (by
    rw [num_den hq.le]
    refine le_trans (le_of_eq ?_) h
    rw [zpow_neg, one_div]
    norm_cast)
  have he' : e = expo q.num.toNat q.den - 52 := by rw [he]; unfold lastBit; omega
  have hc := divRound_close N D h1
  rw [h2] at hc
  have : roundMag q - q = ((divRound N D : ℚ) - q / 2 ^ e) * 2 ^ e := by
    rw [h3]
    have := (pw e).ne'
    field_simp
  rw [this, abs_mul, abs_of_pos (pw e)]
  calc _ ≤ 1 / 2 * (2 : ℚ) ^ e := mul_le_mul_of_nonneg_right hc (pw e).le
    _ = 2 ^ expo q.num.toNat q.den / 2 ^ 53 := by
      rw [he', zpow_sub₀ (by norm_num)]
      norm_num
      ring
    _ ≤ q / 2 ^ 53 := div_le_div_of_nonneg_right (expo_bounds hq).1 (by positivity)

theorem roundMag_big {q : ℚ} (hq : 0 ≤ q) (h : q ≤ 2 ^ 200) : roundMag q < 2 ^ 1024 := by
  refine lt_of_le_of_lt (roundMag_mono hq h) ?_
  decide +kernel

/-- Rounding, with sign. -/
def rd (q : ℚ) : ℚ := if q < 0 then -roundMag (-q) else roundMag q

theorem rd_neg (q : ℚ) : rd (-q) = -rd q := by
  unfold rd
  rcases lt_trichotomy q 0 with h | rfl | h
  · rw [if_neg (by linarith), if_pos h, neg_neg]
  · simp [roundMag_zero]
  · rw [if_pos (by linarith), if_neg (by linarith), neg_neg]

theorem rd_nonneg {q : ℚ} (h : 0 ≤ q) : rd q = roundMag q := if_neg (not_lt.2 h)

theorem rd_mono {p q : ℚ} (h : p ≤ q) : rd p ≤ rd q := by
  rcases le_or_gt 0 p with hp | hp
  · rw [rd_nonneg hp, rd_nonneg (hp.trans h)]
    exact roundMag_mono hp h
  · rcases le_or_gt 0 q with hq | hq
    · rw [rd_nonneg hq]
      unfold rd
      rw [if_pos hp]
      have := roundMag_nonneg (-p)
      have := roundMag_nonneg q
      linarith
    · unfold rd
      rw [if_pos hp, if_pos hq]
      exact neg_le_neg (roundMag_mono (by linarith) (by linarith))

theorem rd_int (n : ℤ) (h : |n| ≤ 2 ^ 53) : rd n = n := by
  have key : ∀ m : ℕ, m ≤ 2 ^ 53 → rd (m : ℤ) = (m : ℤ) := fun m hm => by
    rw [rd_nonneg (by positivity)]
    exact_mod_cast roundMag_nat m hm
  rcases Int.eq_nat_or_neg n with ⟨m, rfl | rfl⟩
  · exact key m (by rw [Nat.abs_cast] at h; exact_mod_cast h)
  · have := key m (by rw [abs_neg, Nat.abs_cast] at h; exact_mod_cast h)
    push_cast at this ⊢
    rw [rd_neg, this]

theorem rd_close (x : ℚ) (h : 1 / 2 ^ 200 ≤ |x|) : |rd x - x| ≤ |x| / 2 ^ 53 := by
  rcases le_or_gt 0 x with hx | hx
  · rw [abs_of_nonneg hx] at h ⊢
    rw [rd_nonneg hx]
    exact roundMag_close h
  · rw [abs_of_neg hx] at h ⊢
    unfold rd
    rw [if_pos hx]
    have := roundMag_close h
    rw [abs_sub_comm] at this
    rw [show -roundMag (-x) - x = -x - roundMag (-x) by ring]
    exact this

/-- A finite number. -/
def Fin : F64 → Prop
  | .num _ q => 0 ≤ q
  | _ => False

theorem ofMag_fin {s : Bool} {q : ℚ} (h0 : 0 ≤ q) (h : q ≤ 2 ^ 200) : ofMag s q = .num s (roundMag q) := by
  unfold ofMag
  dsimp only
  rw [if_neg (not_le.2 (roundMag_big h0 h))]

theorem ofRat_val (z : Bool) (q : ℚ) (h : |q| ≤ 2 ^ 200) : Fin (ofRat z q) ∧ val (ofRat z q) = rd q := by
  unfold ofRat
  split
  · rename_i h0
    subst h0
    refine ⟨le_rfl, ?_⟩
    rw [rd_nonneg le_rfl, roundMag_zero]
    cases z <;> simp [val]
  · split
    · rename_i h1
      rw [abs_of_neg h1] at h
      rw [ofMag_fin (by linarith) h]
      refine ⟨roundMag_nonneg _, ?_⟩
      simp [val, rd, h1]
    · rename_i h1
      rw [abs_of_nonneg (not_lt.1 h1)] at h
      rw [ofMag_fin (not_lt.1 h1) h]
      refine ⟨roundMag_nonneg _, ?_⟩
      simp [val, rd, h1]

theorem Fin.num {a : F64} (h : Fin a) : ∃ s q, a = .num s q ∧ 0 ≤ q := by
  cases a with
  | nan => exact absurd h id
  | inf => exact absurd h id
  | num s q => exact ⟨s, q, rfl, h⟩

theorem neg_val (a : F64) : val (neg a) = -val a := by
  cases a with
  | nan => rfl
  | inf => rfl
  | num s q => cases s <;> simp [neg, val]

theorem neg_fin {a : F64} (h : Fin a) : Fin (neg a) := by
  obtain ⟨s, q, rfl, hq⟩ := h.num
  exact hq

theorem add_val (a b : F64) (ha : Fin a) (hb : Fin b) (h : |val a + val b| ≤ 2 ^ 200) : Fin (add a b) ∧ val (add a b) = rd (val a + val b) := by
  obtain ⟨s, p, rfl, hp⟩ := ha.num
  obtain ⟨t, q, rfl, hq⟩ := hb.num
  exact ofRat_val _ _ h

theorem signed (s t : Bool) {p : ℚ} (hp : 0 ≤ p) (h : p ≤ 2 ^ 200) : Fin (ofMag (s != t) p) ∧
    val (ofMag (s != t) p) = rd ((if s then -1 else 1) * (if t then -1 else 1) * p) := by
  rw [ofMag_fin hp h]
  refine ⟨roundMag_nonneg _, ?_⟩
  cases s <;> cases t <;> simp [val, rd_nonneg hp, rd_neg]

theorem mul_val (a b : F64) (ha : Fin a) (hb : Fin b) (h : |val a * val b| ≤ 2 ^ 200) : Fin (mul a b) ∧ val (mul a b) = rd (val a * val b) := by
  obtain ⟨s, p, rfl, hp⟩ := ha.num
  obtain ⟨t, q, rfl, hq⟩ := hb.num
  have e : val (.num s p) * val (.num t q) = (if s then -1 else 1) * (if t then -1 else 1) * (p * q) := by
    cases s <;> cases t <;> simp [val]
  have e2 : |val (.num s p) * val (.num t q)| = p * q := by
    rw [e, abs_mul, abs_of_nonneg (mul_nonneg hp hq)]
    cases s <;> cases t <;> simp
  rw [e2] at h
  rw [e]
  exact signed s t (mul_nonneg hp hq) h

theorem div_val (a b : F64) (ha : Fin a) (hb : Fin b) (h0 : val b ≠ 0) (h : |val a / val b| ≤ 2 ^ 200) :
    Fin (div a b) ∧ val (div a b) = rd (val a / val b) := by
  obtain ⟨s, p, rfl, hp⟩ := ha.num
  obtain ⟨t, q, rfl, hq⟩ := hb.num
  have hq0 : q ≠ 0 := by
    rintro rfl
    apply h0
    cases t <;> simp [val]
  have e : val (.num s p) / val (.num t q) = (if s then -1 else 1) * (if t then -1 else 1) * (p / q) := by
    cases s <;> cases t <;> simp [val, neg_div, div_neg]
  have e2 : |val (.num s p) / val (.num t q)| = p / q := by
    rw [e, abs_mul, abs_of_nonneg (div_nonneg hp hq)]
    cases s <;> cases t <;> simp
  rw [e2] at h
  rw [e]
  unfold div
  dsimp only
  rw [if_neg hq0]
  exact signed s t (div_nonneg hp hq) h

theorem num_ne_nan {s : Bool} {q : ℚ} : (F64.num s q) ≠ .nan := by intro h; cases h

theorem lt_val (a b : F64) (ha : Fin a) (hb : Fin b) : lt a b = decide (val a < val b) := by
  obtain ⟨s, p, rfl, hp⟩ := ha.num
  obtain ⟨t, q, rfl, hq⟩ := hb.num
  rfl

/-- The result depends on the quotient only. -/
theorem roundNat_mag {n d : Nat} (hn : 0 < n) (hd : 0 < d) : roundNat n d = roundMag ((n : ℚ) / d) := by
  have hq : (0 : ℚ) < (n : ℚ) / d := div_pos (by exact_mod_cast hn) (by exact_mod_cast hd)
  obtain ⟨N, D, h1, h2, h3⟩ := roundNat_eq n d hd
  obtain ⟨N', D', e', h1', h2', h3', he'⟩ := roundMag_eq hq.le
  have b1 := expo_spec hn hd
  have b2 := expo_bounds hq
  have x1 := expo_le (pos_num hq) (Rat.den_pos _) (z := expo n d) (by rw [num_den hq.le]; exact b1.1)
  have x2 := expo_le hn hd (z := expo ((n : ℚ) / d).num.toNat ((n : ℚ) / d).den) b2.1
  have he : lastBit n d = e' := by rw [he']; unfold lastBit; omega
  rw [h3, h3', he]
  rw [he] at h2
  have hD : (0 : ℚ) < D := by exact_mod_cast h1
  have hD' : (0 : ℚ) < D' := by exact_mod_cast h1'
  have e : (N : ℚ) * D' = N' * D := by
    have : (N : ℚ) / D = N' / D' := by rw [h2, h2']
    rwa [div_eq_div_iff hD.ne' hD'.ne'] at this
  have e : N * D' = N' * D := by exact_mod_cast e
  have : divRound N D = divRound N' D' := le_antisymm (divRound_mono h1 h1' e.le) (divRound_mono h1' h1 e.ge)
  rw [this]

/-- The square root, to 51 bits. -/
theorem sqrtMag_close {q : ℚ} (h : 1 ≤ q) (h' : q ≤ 2 ^ 200) : 0 < sqrtMag q ∧ |sqrtMag q ^ 2 - q| ≤ q / 2 ^ 51 := by
  have hq : 0 < q := by linarith
  set k := 60 + q.den.log2 with hk
  set n := q.num.toNat * 4 ^ k / q.den with hn
  set m := Nat.sqrt n with hm
  have hden : (0 : ℚ) < q.den := by exact_mod_cast q.den_pos
  have hK : (0 : ℚ) < 2 ^ k := by positivity
  have hK60 : (2 : ℚ) ^ 60 ≤ 2 ^ k := pow_le_pow_right₀ (by norm_num) (by omega)
  have hval : ((q.num.toNat * 4 ^ k : ℕ) : ℚ) / q.den = q * (2 ^ k) ^ 2 := by
    push_cast
    rw [mul_div_right_comm, num_den hq.le, ← pow_mul, mul_comm k 2, pow_mul]
    norm_num
  -- the bounds of the root
  have l1 : (m : ℚ) ^ 2 ≤ q * (2 ^ k) ^ 2 := by
    rw [← hval, le_div_iff₀ hden]
    have a1 : m * m ≤ n := Nat.sqrt_le n
    have a2 : n * q.den ≤ q.num.toNat * 4 ^ k := Nat.div_mul_le_self _ _
    have : m ^ 2 * q.den ≤ q.num.toNat * 4 ^ k := by rw [sq]; exact (Nat.mul_le_mul_right _ a1).trans a2
    exact_mod_cast this
  have l2 : q * (2 ^ k) ^ 2 < ((m : ℚ) + 1) ^ 2 := by
    rw [← hval, div_lt_iff₀ hden]
    have a1 : n < (m + 1) * (m + 1) := Nat.lt_succ_sqrt n
    have a2 : q.num.toNat * 4 ^ k < (n + 1) * q.den := by
      have := Nat.lt_mul_div_succ (q.num.toNat * 4 ^ k) q.den_pos
      rw [mul_comm (n + 1)]; exact this
    have : q.num.toNat * 4 ^ k < (m + 1) ^ 2 * q.den := by rw [sq]; exact lt_of_lt_of_le a2 (Nat.mul_le_mul_right _ a1)
    exact_mod_cast this
  have lm : (2 : ℚ) ^ k - 1 < m := by
    have : (2 ^ k) ^ 2 < ((m : ℚ) + 1) ^ 2 := lt_of_le_of_lt (by nlinarith) l2
    have := lt_of_pow_lt_pow_left₀ 2 (by positivity) this
    linarith
  have hmpos : 0 < m := by
    have : (0 : ℚ) < m := by linarith [show (1 : ℚ) < 2 ^ 60 by norm_num]
    exact_mod_cast this
  have hbig : (2 : ℚ) ^ 59 ≤ m := by
    have : (2 : ℚ) ^ 59 ≤ 2 ^ 60 - 1 := by norm_num
    linarith
  -- rounding a number close to the root
  have fin : ∀ s : ℚ, 1 / 2 ≤ s → |s ^ 2 - q| ≤ q / 2 ^ 58 → 0 < roundMag s ∧ |roundMag s ^ 2 - q| ≤ q / 2 ^ 51 := by
    intro s hs hsq
    have hc := roundMag_close (q := s) (le_trans (by norm_num) hs)
    rw [abs_le] at hc hsq ⊢
    set r := roundMag s
    have hr : 0 < r := by
      have : s / 2 ^ 53 ≤ s / 2 := div_le_div_of_nonneg_left (by linarith) (by norm_num) (by norm_num)
      linarith
    refine ⟨hr, ?_⟩
    have u1 : r ≤ s * (1 + 1 / 2 ^ 53) := by linarith
    have u2 : s * (1 - 1 / 2 ^ 53) ≤ r := by linarith
    have v1 : r ^ 2 ≤ s ^ 2 * (1 + 1 / 2 ^ 53) ^ 2 := by rw [← mul_pow]; exact pow_le_pow_left₀ hr.le u1 2
    have v2 : s ^ 2 * (1 - 1 / 2 ^ 53) ^ 2 ≤ r ^ 2 := by
      rw [← mul_pow]
      exact pow_le_pow_left₀ (mul_nonneg (by linarith) (by norm_num)) u2 2
    have w1 : s ^ 2 ≤ q * (1 + 1 / 2 ^ 58) := by linarith [hsq.2]
    have w2 : q * (1 - 1 / 2 ^ 58) ≤ s ^ 2 := by linarith [hsq.1]
    have x1 : r ^ 2 ≤ q * ((1 + 1 / 2 ^ 58) * (1 + 1 / 2 ^ 53) ^ 2) := by
      rw [← mul_assoc]; exact v1.trans (mul_le_mul_of_nonneg_right w1 (by positivity))
    have x2 : q * ((1 - 1 / 2 ^ 58) * (1 - 1 / 2 ^ 53) ^ 2) ≤ r ^ 2 := by
      rw [← mul_assoc]; exact le_trans (mul_le_mul_of_nonneg_right w2 (by positivity)) v2
    have y1 : q * ((1 + 1 / 2 ^ 58) * (1 + 1 / 2 ^ 53) ^ 2) ≤ q * (1 + 1 / 2 ^ 51) := mul_le_mul_of_nonneg_left (by norm_num) hq.le
    have y2 : q * (1 - 1 / 2 ^ 51) ≤ q * ((1 - 1 / 2 ^ 58) * (1 - 1 / 2 ^ 53) ^ 2) := mul_le_mul_of_nonneg_left (by norm_num) hq.le
    constructor <;> linarith
  have hsq : sqrtMag q = if m * m * q.den = q.num.toNat * 4 ^ k then roundNat m (2 ^ k) else roundNat (2 * m + 1) (2 ^ (k + 1)) := rfl
  rw [hsq]
  split
  · rename_i he
    rw [roundNat_mag hmpos (by positivity)]
    refine fin _ ?_ ?_
    · push_cast
      rw [le_div_iff₀ hK]
      linarith
    · have : ((m : ℚ) / ((2 ^ k : ℕ) : ℚ)) ^ 2 = q := by
        push_cast
        rw [div_pow, div_eq_iff (by positivity), ← hval, eq_div_iff hden.ne', sq]
        exact_mod_cast he
      rw [this, sub_self, abs_zero]
      positivity
  · rw [roundNat_mag (by omega) (by positivity)]
    have e : ((2 * m + 1 : ℕ) : ℚ) / ((2 ^ (k + 1) : ℕ) : ℚ) = (m + 1 / 2) / 2 ^ k := by
      push_cast
      rw [pow_succ]
      field_simp
    rw [e]
    refine fin _ ?_ ?_
    · rw [le_div_iff₀ hK]
      linarith
    · have hd : (((m : ℚ) + 1 / 2) / 2 ^ k) ^ 2 - q = ((m + 1 / 2) ^ 2 - q * (2 ^ k) ^ 2) / (2 ^ k) ^ 2 := by
        field_simp
      rw [hd, abs_div, abs_of_pos (by positivity : (0 : ℚ) < (2 ^ k) ^ 2), div_le_iff₀ (by positivity)]
      have hm1 : (m : ℚ) + 1 ≤ m ^ 2 / 2 ^ 58 := by
        rw [le_div_iff₀ (by norm_num)]
        nlinarith
      have : (m : ℚ) ^ 2 / 2 ^ 58 ≤ q / 2 ^ 58 * (2 ^ k) ^ 2 := by
        rw [div_mul_eq_mul_div]
        exact div_le_div_of_nonneg_right l1 (by norm_num)
      rw [abs_le]
      constructor <;> nlinarith

end F64

open F64 in
/-- Double precision is what the theorems call double precision. -/
instance : Double F64 where
  fin := Fin
  val := val
  rd := rd
  rd_mono := rd_mono
  rd_neg := rd_neg
  rd_int := rd_int
  rd_close x h _ := rd_close x h
  ofInt_val n h := ofRat_val false n h
  lit_val m k h := by
    show Fin (ofRat false (mkRat m (10 ^ k))) ∧ val (ofRat false (mkRat m (10 ^ k))) = _
    rw [Rat.mkRat_eq_div]
    push_cast
    refine ofRat_val false _ ?_
    rw [abs_div, abs_of_nonneg (by positivity : (0 : ℚ) ≤ 10 ^ k)]
    refine (div_le_self (abs_nonneg _) ?_).trans h
    exact one_le_pow₀ (by norm_num)
  add_val := add_val
  sub_val a b ha hb h := by
    have := add_val a (neg b) ha (neg_fin hb) (by rw [neg_val, ← sub_eq_add_neg]; exact h)
    rwa [neg_val, ← sub_eq_add_neg] at this
  mul_val := mul_val
  div_val := div_val
  sqrt_val a ha h h' := by
    obtain ⟨s, q, rfl, hq⟩ := ha.num
    cases s with
    | true => simp [val] at h; linarith
    | false =>
      have h : 1 ≤ q := h
      obtain ⟨k1, k2⟩ := sqrtMag_close h h'
      have e : F64.sqrt (.num false q) = .num false (sqrtMag q) := by
        unfold F64.sqrt
        dsimp only
        rw [if_neg (by linarith), if_neg (by decide)]
      show Fin (F64.sqrt _) ∧ 0 < val (F64.sqrt _) ∧ |val (F64.sqrt _) ^ 2 - _| ≤ _
      rw [e]
      exact ⟨k1.le, k1, k2⟩
  abs_val a ha := by
    obtain ⟨s, q, rfl, hq⟩ := ha.num
    refine ⟨hq, ?_⟩
    cases s <;> simp [FloatOps.abs, F64.abs, val, abs_of_nonneg hq]
  fract_val a n ha h := by
    obtain ⟨s, q, rfl, hq⟩ := ha.num
    have : q - q.floor = 0 := by
      obtain ⟨m, rfl⟩ : ∃ m : ℤ, q = m := by
        cases s
        · exact ⟨n, by simpa [val] using h⟩
        · exact ⟨-n, by simp [val] at h; push_cast; linarith⟩
      simp
    show Fin (F64.fract (.num s q)) ∧ val (F64.fract (.num s q)) = 0
    unfold F64.fract
    dsimp only
    rw [if_pos this]
    exact ⟨le_rfl, rfl⟩
  round_val a n ha h := by
    obtain ⟨s, q, rfl, hq⟩ := ha.num
    obtain ⟨m, rfl, hm⟩ : ∃ m : ℤ, q = m ∧ (if s then -m else m) = n := by
      cases s
      · exact ⟨n, by simpa [val] using h, rfl⟩
      · exact ⟨-n, by simp [val] at h; push_cast; linarith, by simp⟩
    have e : ((m : ℚ) + 1 / 2).floor = m := by
      show ⌊(m : ℚ) + 1 / 2⌋ = m
      rw [Int.floor_eq_iff]
      constructor <;> linarith
    show Fin (F64.round (.num s m)) ∧ val (F64.round (.num s m)) = n
    unfold F64.round
    dsimp only
    rw [e]
    exact ⟨hq, h⟩
  min_val a b ha hb := by
    obtain ⟨s, p, rfl, hp⟩ := ha.num
    obtain ⟨t, q, rfl, hq⟩ := hb.num
    show Fin (F64.min _ _) ∧ val (F64.min _ _) = _
    unfold F64.min
    rw [if_neg num_ne_nan, if_neg num_ne_nan, lt_val _ _ hb ha]
    by_cases h : val (.num t q) < val (.num s p)
    · simp only [h, decide_true, if_true]
      exact ⟨hb, (min_eq_right h.le).symm⟩
    · simp only [h, decide_false]
      exact ⟨ha, (min_eq_left (not_lt.1 h)).symm⟩
  max_val a b ha hb := by
    obtain ⟨s, p, rfl, hp⟩ := ha.num
    obtain ⟨t, q, rfl, hq⟩ := hb.num
    show Fin (F64.max _ _) ∧ val (F64.max _ _) = _
    unfold F64.max
    rw [if_neg num_ne_nan, if_neg num_ne_nan, lt_val _ _ ha hb]
    by_cases h : val (.num s p) < val (.num t q)
    · simp only [h, decide_true, if_true]
      exact ⟨hb, (max_eq_right h.le).symm⟩
    · simp only [h, decide_false]
      exact ⟨ha, (max_eq_left (not_lt.1 h)).symm⟩
  lt_val := lt_val
  eq_val a b ha hb := by
    obtain ⟨s, p, rfl, hp⟩ := ha.num
    obtain ⟨t, q, rfl, hq⟩ := hb.num
    rfl
  lt_self a := by
    cases a with
    | nan => rfl
    | inf s => cases s <;> rfl
    | num s q => simp [FloatOps.lt, F64.lt]

namespace F64

/-- Whole numbers up to 2^53 are exact. -/
theorem ofInt_num (n : ℤ) (h : |n| ≤ 2 ^ 53) : ofRat false n = .num (decide (n < 0)) |(n : ℚ)| := by
  have hb : |(n : ℚ)| ≤ 2 ^ 200 := by
    have : (|n| : ℤ) ≤ (2 ^ 200 : ℤ) := h.trans (by norm_num)
    exact_mod_cast this
  have hr := rd_int n h
  unfold ofRat
  rcases lt_trichotomy n 0 with h0 | rfl | h0
  · have h1 : (n : ℚ) < 0 := by exact_mod_cast h0
    rw [if_neg h1.ne, if_pos h1, ofMag_fin (by linarith) (by rwa [abs_of_neg h1] at hb), abs_of_neg h1, decide_eq_true h0]
    unfold rd at hr
    rw [if_pos h1] at hr
    congr 1
    linarith
  · simp
  · have h1 : (0 : ℚ) < n := by exact_mod_cast h0
    rw [if_neg h1.ne', if_neg (by linarith), ofMag_fin h1.le (by rwa [abs_of_pos h1] at hb), abs_of_pos h1, decide_eq_false (by omega)]
    unfold rd at hr
    rw [if_neg (by linarith)] at hr
    rw [hr]

theorem val_num_abs (n : ℤ) : val (.num (decide (n < 0)) |(n : ℚ)|) = n := by
  unfold val
  by_cases h : n < 0
  · have h1 : (n : ℚ) < 0 := by exact_mod_cast h
    simp [h, abs_of_neg h1]
  · have h1 : (0 : ℚ) ≤ n := by exact_mod_cast not_lt.1 h
    simp [h, abs_of_nonneg h1]

theorem ofRat_zero_sign {s : Bool} {q : ℚ} (h : q = 0 → s = false) : ofRat s q = ofRat false q := by
  unfold ofRat
  split
  · rename_i h0
    rw [h h0]
  · rfl

theorem sum_ofInt (a b c : ℤ) (t : Bool) (ha : |a| ≤ 2 ^ 53) (hz : a + b = 0 → a < 0 → t = false)
    (hv : val (.num t c) = b) : add (ofRat false a) (.num t c) = ofRat false ((a + b : ℤ) : ℚ) := by
  rw [ofInt_num a ha]
  unfold add
  dsimp only
  rw [val_num_abs, hv, ofRat_zero_sign]
  · push_cast; rfl
  · intro h
    have h' : a + b = 0 := by exact_mod_cast h
    by_cases h0 : a < 0
    · rw [hz h' h0, Bool.and_false]
    · simp [h0]

end F64

open F64 in
/-- Double precision is exact on whole numbers. -/
instance : IntExact F64 where
  lt_ofInt a b ha hb := by
    show lt (ofRat false a) (ofRat false b) = _
    rw [ofInt_num a ha, ofInt_num b hb, lt_val _ _ (abs_nonneg _) (abs_nonneg _), val_num_abs, val_num_abs]
    simp
  eq_ofInt a b ha hb := by
    show eq (ofRat false a) (ofRat false b) = _
    rw [ofInt_num a ha, ofInt_num b hb]
    show decide (val _ = val _) = _
    rw [val_num_abs, val_num_abs]
    simp
  add_ofInt a b ha hb hab := by
    show add (ofRat false a) (ofRat false b) = ofRat false ((a + b : ℤ) : ℚ)
    have := sum_ofInt a b |b| (decide (b < 0)) ha (by intro h h0; simp; omega) (by push_cast; exact val_num_abs b)
    rw [ofInt_num b hb]
    push_cast at this ⊢
    exact this
  sub_ofInt a b ha hb hab := by
    show add (ofRat false a) (neg (ofRat false b)) = ofRat false ((a - b : ℤ) : ℚ)
    have := sum_ofInt a (-b) |b| (!decide (b < 0)) ha (by intro h h0; simp; omega) (by
      push_cast
      rw [show F64.num (!decide (b < 0)) |(b : ℚ)| = neg (.num (decide (b < 0)) |(b : ℚ)|) from rfl, neg_val, val_num_abs])
    rw [ofInt_num b hb]
    rw [← sub_eq_add_neg] at this
    push_cast at this ⊢
    exact this
  mul_ofInt a b ha0 hb0 ha hb hab := by
    show mul (ofRat false a) (ofRat false b) = ofRat false ((a * b : ℤ) : ℚ)
    rw [ofInt_num a ha, ofInt_num b hb, ofInt_num _ hab]
    have e1 : decide (a < 0) = false := decide_eq_false (by omega)
    have e2 : decide (b < 0) = false := decide_eq_false (by omega)
    have hab0 : 0 ≤ a * b := mul_nonneg ha0 hb0
    have e3 : decide (a * b < 0) = false := decide_eq_false (by omega)
    rw [e1, e2, e3]
    have hq : (0 : ℚ) ≤ ((a * b : ℤ) : ℚ) := by exact_mod_cast hab0
    have hr := rd_int _ hab
    rw [rd_nonneg hq] at hr
    unfold mul
    dsimp only
    rw [← abs_mul, ← Int.cast_mul, abs_of_nonneg hq, ofMag_fin hq, hr]
    · rfl
    · have : (|a * b| : ℤ) ≤ (2 ^ 200 : ℤ) := hab.trans (by norm_num)
      rw [abs_of_nonneg hab0] at this
      exact_mod_cast this

end Idc
