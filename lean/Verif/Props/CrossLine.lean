import Verif.Spec.Crossing
import Verif.Props.CutEdges
/-!
# Segments on one line, for C84
-/

namespace Idc

/-- The point at a position along a segment. -/
noncomputable def along (d : Pt ℝ × Pt ℝ) (t : ℝ) : Pt ℝ := ⟨d.1.x + t * (d.2.x - d.1.x), d.1.y + t * (d.2.y - d.1.y)⟩

theorem on_along {d : Pt ℝ × Pt ℝ} {q : Pt ℝ} : OnSegment d q ↔ ∃ t : ℝ, 0 ≤ t ∧ t ≤ 1 ∧ q = along d t := by
  constructor
  · rintro ⟨t, h0, h1, hx, hy⟩
    exact ⟨t, h0, h1, pt_ext hx hy⟩
  · rintro ⟨t, h0, h1, rfl⟩
    exact ⟨t, h0, h1, rfl, rfl⟩

theorem along_zero (d : Pt ℝ × Pt ℝ) : along d 0 = d.1 := pt_ext (by simp [along]) (by simp [along])
theorem along_one (d : Pt ℝ × Pt ℝ) : along d 1 = d.2 := pt_ext (by simp [along]) (by simp [along])

theorem along_inj {d : Pt ℝ × Pt ℝ} (hd : d.1 ≠ d.2) {s t : ℝ} (h : along d s = along d t) : s = t := by
  by_contra hne
  have hx := congrArg Pt.x h
  have hy := congrArg Pt.y h
  simp only [along] at hx hy
  apply hd
  have h0 : s - t ≠ 0 := sub_ne_zero.2 hne
  refine pt_ext ?_ ?_
  · have : (s - t) * (d.2.x - d.1.x) = 0 := by linarith
    have := (mul_eq_zero.1 this).resolve_left h0
    linarith
  · have : (s - t) * (d.2.y - d.1.y) = 0 := by linarith
    have := (mul_eq_zero.1 this).resolve_left h0
    linarith

theorem onLine_along {d : Pt ℝ × Pt ℝ} (hd : d.1 ≠ d.2) {q : Pt ℝ} (h : OnLine d q) : ∃ t, q = along d t := by
  unfold OnLine at h
  by_cases hx : d.2.x - d.1.x = 0
  · have hy : d.2.y - d.1.y ≠ 0 := fun hy => hd (pt_ext (by linarith) (by linarith))
    refine ⟨(q.y - d.1.y) / (d.2.y - d.1.y), pt_ext ?_ ?_⟩
    · rw [hx, mul_zero] at h
      have := (mul_eq_zero.1 h).resolve_right hy
      simp only [along, hx]
      linarith
    · simp only [along]; field_simp; ring
  · refine ⟨(q.x - d.1.x) / (d.2.x - d.1.x), pt_ext ?_ ?_⟩
    · simp only [along]; field_simp; ring
    · simp only [along]; field_simp; linarith

theorem on_within {d d' : Pt ℝ × Pt ℝ} {s u : ℝ} (h1 : d'.1 = along d s) (h2 : d'.2 = along d u) {t : ℝ} (hsu : s < u ∧ s ≤ t ∧ t ≤ u ∨ u < s ∧ u ≤ t ∧ t ≤ s) :
    OnSegment d' (along d t) := by
  have hne : u - s ≠ 0 := by rcases hsu with h | h <;> [exact ne_of_gt (by linarith [h.1]); exact ne_of_lt (by linarith [h.1])]
  refine ⟨(t - s) / (u - s), ?_, ?_, ?_, ?_⟩
  · rcases hsu with h | h
    · exact div_nonneg (by linarith [h.2.1]) (by linarith [h.1])
    · exact div_nonneg_of_nonpos (by linarith [h.2.2]) (by linarith [h.1])
  · rcases hsu with h | h
    · rw [div_le_one (by linarith [h.1])]; linarith [h.2.2]
    · rw [div_le_one_of_neg (by linarith [h.1])]; linarith [h.2.1]
  · rw [h1, h2]; simp only [along]; field_simp; ring
  · rw [h1, h2]; simp only [along]; field_simp; ring

/-- Segments on one line that overlap, but neither has an end inside the other, are the same. -/
theorem same_of_overlap {d d' : Pt ℝ × Pt ℝ} (hd : d.1 ≠ d.2) (hd' : d'.1 ≠ d'.2) {m : Pt ℝ} (hm : OnSegment d m) (hm' : OnSegment d' m) (hp : ParallelEdges d d')
    (h1 : ∀ q, EndOf d' q → OnSegment d q → EndOf d q) (h2 : ∀ q, EndOf d q → OnSegment d' q → EndOf d' q) (hn : ¬ EndOf d m) (hn' : ¬ EndOf d' m) :
    d' = d ∨ d' = d.swap := by
  obtain ⟨r, r0, r1, hr⟩ := on_along.1 hm'
  obtain ⟨t, t0, t1, ht⟩ := on_along.1 hm
  unfold ParallelEdges at hp
  have hx : m.x = d'.1.x + r * (d'.2.x - d'.1.x) := congrArg Pt.x hr
  have hy : m.y = d'.1.y + r * (d'.2.y - d'.1.y) := congrArg Pt.y hr
  have hx' : m.x = d.1.x + t * (d.2.x - d.1.x) := congrArg Pt.x ht
  have hy' : m.y = d.1.y + t * (d.2.y - d.1.y) := congrArg Pt.y ht
  obtain ⟨s, hs⟩ := onLine_along hd (q := d'.1) (by
    unfold OnLine
    have e1 : d'.1.x = m.x - r * (d'.2.x - d'.1.x) := by linarith
    have e2 : d'.1.y = m.y - r * (d'.2.y - d'.1.y) := by linarith
    linear_combination (d.2.y - d.1.y) * e1 - (d.2.x - d.1.x) * e2 + (d.2.y - d.1.y) * hx' - (d.2.x - d.1.x) * hy' + r * hp)
  obtain ⟨u, hu⟩ := onLine_along hd (q := d'.2) (by
    unfold OnLine
    have e1 : d'.2.x = m.x + (1 - r) * (d'.2.x - d'.1.x) := by linarith
    have e2 : d'.2.y = m.y + (1 - r) * (d'.2.y - d'.1.y) := by linarith
    linear_combination (d.2.y - d.1.y) * e1 - (d.2.x - d.1.x) * e2 + (d.2.y - d.1.y) * hx' - (d.2.x - d.1.x) * hy' - (1 - r) * hp)
  have hsu : s ≠ u := fun e => hd' (by rw [hs, hu, e])
  -- the position of `m`
  have hmt : t = s + r * (u - s) := by
    apply along_inj hd
    rw [← ht, hr]
    unfold along
    rw [hs, hu]
    simp only [along]
    refine pt_ext ?_ ?_ <;> ring
  have r0' : 0 < r := lt_of_le_of_ne r0 fun e => hn' (Or.inl (by rw [hr, ← e, along_zero]))
  have r1' : r < 1 := lt_of_le_of_ne r1 fun e => hn' (Or.inr (by rw [hr, e, along_one]))
  have t0' : 0 < t := lt_of_le_of_ne t0 fun e => hn (Or.inl (by rw [ht, ← e, along_zero]))
  have t1' : t < 1 := lt_of_le_of_ne t1 fun e => hn (Or.inr (by rw [ht, e, along_one]))
  have endD : ∀ {w : ℝ}, EndOf d (along d w) → w = 0 ∨ w = 1 := by
    rintro w (h | h)
    · exact Or.inl (along_inj hd (by rw [h, along_zero]))
    · exact Or.inr (along_inj hd (by rw [h, along_one]))
  have endD' : ∀ {w : ℝ}, EndOf d' (along d w) → w = s ∨ w = u := by
    rintro w (h | h)
    · exact Or.inl (along_inj hd (by rw [h, hs]))
    · exact Or.inr (along_inj hd (by rw [h, hu]))
  have in1 : ∀ {w : ℝ}, w = s ∨ w = u → 0 ≤ w → w ≤ 1 → w = 0 ∨ w = 1 := by
    intro w hw w0 w1
    apply endD
    apply h1
    · rcases hw with rfl | rfl
      · exact Or.inl hs.symm
      · exact Or.inr hu.symm
    · exact on_along.2 ⟨w, w0, w1, rfl⟩
  rcases lt_or_gt_of_ne hsu with h | h
  · have a1 : s < t := by rw [hmt]; nlinarith
    have a2 : t < u := by rw [hmt]; nlinarith
    have s0 : s ≤ 0 := by
      by_contra hc; push Not at hc
      rcases in1 (Or.inl rfl) hc.le (by linarith) with k | k <;> linarith
    have u1 : 1 ≤ u := by
      by_contra hc; push Not at hc
      rcases in1 (Or.inr rfl) (by linarith) hc.le with k | k <;> linarith
    have k0 := endD' (w := 0) (h2 _ (Or.inl (along_zero d)) (on_within hs hu (Or.inl ⟨h, s0, by linarith⟩)))
    have k1 := endD' (w := 1) (h2 _ (Or.inr (along_one d)) (on_within hs hu (Or.inl ⟨h, by linarith, u1⟩)))
    have es : s = 0 := by rcases k0 with k | k <;> linarith
    have eu : u = 1 := by rcases k1 with k | k <;> linarith
    left
    rw [es, along_zero] at hs
    rw [eu, along_one] at hu
    exact Prod.ext hs hu
  · have a1 : t < s := by rw [hmt]; nlinarith
    have a2 : u < t := by rw [hmt]; nlinarith
    have s0 : u ≤ 0 := by
      by_contra hc; push Not at hc
      rcases in1 (Or.inr rfl) hc.le (by linarith) with k | k <;> linarith
    have u1 : 1 ≤ s := by
      by_contra hc; push Not at hc
      rcases in1 (Or.inl rfl) (by linarith) hc.le with k | k <;> linarith
    have k0 := endD' (w := 0) (h2 _ (Or.inl (along_zero d)) (on_within hs hu (Or.inr ⟨h, s0, by linarith⟩)))
    have k1 := endD' (w := 1) (h2 _ (Or.inr (along_one d)) (on_within hs hu (Or.inr ⟨h, by linarith, u1⟩)))
    have es : u = 0 := by rcases k0 with k | k <;> linarith
    have eu : s = 1 := by rcases k1 with k | k <;> linarith
    right
    rw [es, along_zero] at hu
    rw [eu, along_one] at hs
    exact Prod.ext hs hu

/-- The middle of two points of a segment. -/
theorem middle_on {e : Pt ℝ × Pt ℝ} {u v : Pt ℝ} (hu : OnSegment e u) (hv : OnSegment e v) (huv : u ≠ v) :
    OnSegment e ⟨(u.x + v.x) / 2, (u.y + v.y) / 2⟩ ∧ ¬ EndOf e ⟨(u.x + v.x) / 2, (u.y + v.y) / 2⟩ := by
  obtain ⟨s, s0, s1, rfl⟩ := on_along.1 hu
  obtain ⟨t, t0, t1, rfl⟩ := on_along.1 hv
  have he : e.1 ≠ e.2 := by
    intro h
    apply huv
    refine pt_ext ?_ ?_ <;> simp [along, h]
  have em : (⟨((along e s).x + (along e t).x) / 2, ((along e s).y + (along e t).y) / 2⟩ : Pt ℝ) = along e ((s + t) / 2) := by
    refine pt_ext ?_ ?_ <;> simp only [along] <;> ring
  rw [em]
  have hst : s ≠ t := fun h => huv (by rw [h])
  refine ⟨on_along.2 ⟨_, by linarith, by linarith, rfl⟩, ?_⟩
  rintro (h | h)
  · have := along_inj he (h.trans (along_zero e).symm)
    exact hst (by linarith)
  · have := along_inj he (h.trans (along_one e).symm)
    exact hst (by linarith)

theorem parallel_of_two {e e' : Pt ℝ × Pt ℝ} {u v : Pt ℝ} (hu : OnSegment e u) (hv : OnSegment e v) (hu' : OnSegment e' u) (hv' : OnSegment e' v) (huv : u ≠ v) :
    ParallelEdges e e' := by
  obtain ⟨s, _, _, rfl⟩ := on_along.1 hu
  obtain ⟨t, _, _, rfl⟩ := on_along.1 hv
  obtain ⟨s', _, _, h1⟩ := on_along.1 hu'
  obtain ⟨t', _, _, h2⟩ := on_along.1 hv'
  have hst : s - t ≠ 0 := fun h => huv (by rw [sub_eq_zero.1 h])
  have x1 := congrArg Pt.x h1
  have y1 := congrArg Pt.y h1
  have x2 := congrArg Pt.x h2
  have y2 := congrArg Pt.y h2
  simp only [along] at x1 y1 x2 y2
  unfold ParallelEdges
  have ex : (s - t) * (e.2.x - e.1.x) = (s' - t') * (e'.2.x - e'.1.x) := by linarith
  have ey : (s - t) * (e.2.y - e.1.y) = (s' - t') * (e'.2.y - e'.1.y) := by linarith
  apply mul_left_cancel₀ hst
  linear_combination (e'.2.y - e'.1.y) * ex - (e'.2.x - e'.1.x) * ey

end Idc
