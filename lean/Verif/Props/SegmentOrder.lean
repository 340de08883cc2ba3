import Verif.Spec.SegmentOrder
import Verif.Spec.Endpoint
import Verif.Spec.Rat
import Mathlib.Tactic.Linarith
import Mathlib.Tactic.Ring
import Mathlib.Tactic.LinearCombination
import Mathlib.Tactic.FieldSimp
/-!
# C68: the order of the segments on the sweep line
-/

namespace Idc

variable {T : Type}

/-- Twice the area of the triangle of a segment and a point. -/
theorem area_height (s : SweepSegment ℝ T) (h : s.left_point.x < s.right_point.x) (p : Pt ℝ) :
    triangleSignedArea s.left_point s.right_point p = (s.right_point.x - s.left_point.x) * (p.y - s.heightAt p.x) := by
  have h0 : s.right_point.x - s.left_point.x ≠ 0 := by linarith
  unfold SweepSegment.heightAt
  simp only [triangleSignedArea, FloatOps.sub, FloatOps.mul]
  field_simp
  ring

theorem area_formula (s : SweepSegment ℝ T) (p : Pt ℝ) : triangleSignedArea s.left_point s.right_point p =
    (s.right_point.x - s.left_point.x) * (p.y - s.left_point.y) - (s.right_point.y - s.left_point.y) * (p.x - s.left_point.x) := by
  simp only [triangleSignedArea, FloatOps.sub, FloatOps.mul]
  ring

theorem heightAt_left (s : SweepSegment ℝ T) : s.heightAt s.left_point.x = s.left_point.y := by
  unfold SweepSegment.heightAt
  ring

theorem heightAt_right (s : SweepSegment ℝ T) (h : s.left_point.x < s.right_point.x) : s.heightAt s.right_point.x = s.right_point.y := by
  have h0 : s.right_point.x - s.left_point.x ≠ 0 := by linarith
  unfold SweepSegment.heightAt
  field_simp
  ring

/-- The difference of heights is linear. -/
theorem height_diff (s s' : SweepSegment ℝ T) : ∃ m c : ℝ, ∀ x, s'.heightAt x - s.heightAt x = m * x + c := by
  refine ⟨(s'.right_point.y - s'.left_point.y) / (s'.right_point.x - s'.left_point.x) -
    (s.right_point.y - s.left_point.y) / (s.right_point.x - s.left_point.x),
    s'.left_point.y - s'.left_point.x * ((s'.right_point.y - s'.left_point.y) / (s'.right_point.x - s'.left_point.x)) -
    (s.left_point.y - s.left_point.x * ((s.right_point.y - s.left_point.y) / (s.right_point.x - s.left_point.x))), fun x => ?_⟩
  unfold SweepSegment.heightAt
  ring

/-- A linear function without a zero between two places has the same sign there. -/
theorem same_sign {m c x0 x1 : ℝ} (h01 : x1 ≤ x0) (h : ∀ x, x1 ≤ x → x ≤ x0 → m * x + c ≠ 0) :
    0 < m * x1 + c ↔ 0 < m * x0 + c := by
  have h1 := h x1 le_rfl h01
  have h0 := h x0 h01 le_rfl
  have key : ∀ m c : ℝ, (∀ x, x1 ≤ x → x ≤ x0 → m * x + c ≠ 0) → 0 < m * x1 + c → 0 < m * x0 + c := by
    intro m c h hp
    by_contra hn
    rw [not_lt] at hn
    have hm : m < 0 := by
      by_contra hm
      rw [not_lt] at hm
      nlinarith
    refine h (-c / m) ?_ ?_ (by rw [mul_div_cancel₀ _ hm.ne]; ring)
    · rw [le_div_iff_of_neg hm]; linarith
    · rw [div_le_iff_of_neg hm]; linarith
  constructor
  · exact key m c h
  · intro hp
    by_contra hn
    have hneg : m * x1 + c < 0 := lt_of_le_of_ne (not_lt.1 hn) h1
    have := key (-m) (-c) (fun x a b e => h x a b (by linarith)) (by linarith)
    linarith

theorem real_cmp (a b : ℝ) : FloatOps.cmp a b = some (compare a b) := by
  unfold FloatOps.cmp
  simp only [FloatOps.lt, FloatOps.eq, decide_eq_true_eq]
  rcases lt_trichotomy a b with h | h | h
  · rw [if_pos h, compare_lt_iff_lt.2 h]
  · rw [if_neg (by linarith), if_pos h, compare_eq_iff_eq.2 h]
  · rw [if_neg (by linarith), if_neg (by linarith), if_pos h, compare_gt_iff_gt.2 h]

theorem endpointCmp_left {s s' : SweepSegment ℝ T} (hne : s.left_point ≠ s'.left_point) :
    endpointCmp s .left s' .left = .ok ((compare s.left_point.x s'.left_point.x).then (compare s.left_point.y s'.left_point.y)) := by
  unfold endpointCmp
  simp only [real_cmp, SweepSegment.pointAt, unwrap, Res.bind_ok]
  have : (compare s.left_point.x s'.left_point.x).then (compare s.left_point.y s'.left_point.y) ≠ .eq := by
    intro h
    obtain ⟨h1, h2⟩ := Ordering.then_eq_eq.1 h
    apply hne
    have h1 := compare_eq_iff_eq.1 h1
    have h2 := compare_eq_iff_eq.1 h2
    rcases hs : s.left_point with ⟨x, y⟩
    rcases hs' : s'.left_point with ⟨x', y'⟩
    rw [hs, hs'] at h1 h2
    cases h1; cases h2; rfl
  rcases h : (compare s.left_point.x s'.left_point.x).then (compare s.left_point.y s'.left_point.y)
  · rfl
  · exact absurd h this
  · rfl

/-- **C68** With exact arithmetic: two segments through which the sweep line passes, which do not meet before it (except
that they may start at one point) and are not within the tolerance of each other, compare like their heights there. -/
theorem C68_order_partial (x0 : ℝ) (s s' : SweepSegment ℝ T) (hi : s.index ≠ s'.index) (ha : s.Alive x0) (ha' : s'.Alive x0)
    (hc : ClearOf s s') (hc' : ClearOf s' s) (hd : ApartUpTo x0 s s') :
    s.cmp s' = .ok (if s.heightAt x0 < s'.heightAt x0 then .lt else .gt) := by
  obtain ⟨a1, a2⟩ := ha
  obtain ⟨b1, b2⟩ := ha'
  have hs : s.left_point.x < s.right_point.x := by linarith
  have hs' : s'.left_point.x < s'.right_point.x := by linarith
  obtain ⟨m, c, hmc⟩ := height_diff s s'
  have hne0 : s.heightAt x0 ≠ s'.heightAt x0 := fun e => by
    have := (hd x0 a1.le b1.le le_rfl e).2
    linarith
  have hw : 0 < s.right_point.x - s.left_point.x := by linarith
  have hw' : 0 < s'.right_point.x - s'.left_point.x := by linarith
  have clear : ∀ p ∈ [s'.left_point, s'.right_point], triangleSignedArea s.left_point s.right_point p = 0 ∨
      1 / 10 ^ 7 < |triangleSignedArea s.left_point s.right_point p| := by
    intro p hp
    rw [area_formula]
    exact hc p hp
  have clear' : ∀ p ∈ [s.left_point, s.right_point], triangleSignedArea s'.left_point s'.right_point p = 0 ∨
      1 / 10 ^ 7 < |triangleSignedArea s'.left_point s'.right_point p| := by
    intro p hp
    rw [area_formula]
    exact hc' p hp
  have belowIff : ∀ p ∈ [s'.left_point, s'.right_point], s.below p = true ↔ 0 < p.y - s.heightAt p.x := by
    intro p hp
    unfold SweepSegment.below areaEps
    simp only [FloatOps.lt, FloatOps.lit, decide_eq_true_eq]
    have e := area_height s hs p
    rw [← mul_pos_iff_of_pos_left hw, ← e]
    have hcl := clear p hp
    norm_num at hcl ⊢
    rcases hcl with h | h
    · rw [h]; norm_num
    · constructor
      · intro h; linarith
      · intro h'; rw [abs_of_pos h'] at h; exact h
  have belowIff' : ∀ p ∈ [s.left_point, s.right_point], s'.below p = true ↔ 0 < p.y - s'.heightAt p.x := by
    intro p hp
    unfold SweepSegment.below areaEps
    simp only [FloatOps.lt, FloatOps.lit, decide_eq_true_eq]
    have e := area_height s' hs' p
    rw [← mul_pos_iff_of_pos_left hw', ← e]
    have hcl := clear' p hp
    norm_num at hcl ⊢
    rcases hcl with h | h
    · rw [h]; norm_num
    · constructor
      · intro h; linarith
      · intro h'; rw [abs_of_pos h'] at h; exact h
  have nearIff : ∀ p ∈ [s'.left_point, s'.right_point],
      FloatOps.lt (FloatOps.abs (triangleSignedArea s.left_point s.right_point p)) areaEps = true → p.y - s.heightAt p.x = 0 := by
    intro p hp h
    unfold areaEps at h
    simp only [FloatOps.lt, FloatOps.abs, FloatOps.lit, decide_eq_true_eq] at h
    rcases clear p hp with h1 | h1
    · rw [area_height s hs] at h1
      rcases mul_eq_zero.1 h1 with h | h
      · exact absurd h hw.ne'
      · exact h
    · norm_num at h h1
      linarith
  unfold SweepSegment.cmp
  rw [if_neg hi, if_neg]
  swap
  · -- not on one line
    intro h
    rw [Bool.and_eq_true] at h
    have h1 := nearIff s'.left_point (by simp) h.1
    have h2 := nearIff s'.right_point (by simp) h.2
    rw [← heightAt_left s', hmc] at h1
    rw [← heightAt_right s' hs', hmc] at h2
    have hm : m * (s'.right_point.x - s'.left_point.x) = 0 := by linarith
    have hm : m = 0 := by
      rcases mul_eq_zero.1 hm with h | h
      · exact h
      · exact absurd h hw'.ne'
    have := hmc x0
    rw [hm] at this h1
    apply hne0
    linarith
  have goal_iff : s.heightAt x0 < s'.heightAt x0 ↔ 0 < m * x0 + c := by
    rw [← hmc]
    constructor <;> intro h <;> linarith
  by_cases heq : s.left_point = s'.left_point
  · rw [if_pos (by rw [heq]; simp [Pt.beq, FloatOps.eq])]
    congr 1
    have hz : m * s'.left_point.x + c = 0 := by
      rw [← hmc, heightAt_left, ← heq, heightAt_left]; ring
    have : s.below s'.right_point = true ↔ s.heightAt x0 < s'.heightAt x0 := by
      rw [belowIff _ (by simp), ← heightAt_right s' hs', hmc, goal_iff]
      have e1 : m * s'.right_point.x + c = m * (s'.right_point.x - s'.left_point.x) := by linarith
      have e2 : m * x0 + c = m * (x0 - s'.left_point.x) := by linarith
      rw [e1, e2, mul_pos_iff_of_pos_right hw', mul_pos_iff_of_pos_right (by linarith)]
    rw [if_congr this rfl rfl]
  · rw [if_neg, endpointCmp_left heq, Res.bind_ok]
    swap
    · intro h
      apply heq
      unfold Pt.beq at h
      simp only [FloatOps.eq, Bool.and_eq_true, decide_eq_true_eq] at h
      rcases e : s.left_point with ⟨x, y⟩
      rcases e' : s'.left_point with ⟨x', y'⟩
      rw [e, e'] at h
      obtain ⟨rfl, rfl⟩ := h
      rfl
    have apart : ∀ x, s.left_point.x ≤ x → s'.left_point.x ≤ x → x ≤ x0 → m * x + c ≠ 0 := by
      intro x h1 h2 h3 h
      rw [← hmc] at h
      exact heq (hd x h1 h2 h3 (by linarith)).1
    rcases hcmp : (compare s.left_point.x s'.left_point.x).then (compare s.left_point.y s'.left_point.y)
    · rw [if_pos rfl]
      have hx : s.left_point.x ≤ s'.left_point.x := by
        rcases Ordering.then_eq_lt.1 hcmp with h | h
        · exact (compare_lt_iff_lt.1 h).le
        · exact (compare_eq_iff_eq.1 h.1).le
      have := same_sign b1.le fun x h1 h2 => apart x (hx.trans h1) h1 h2
      have : s.below s'.left_point = true ↔ s.heightAt x0 < s'.heightAt x0 := by
        rw [belowIff _ (by simp), goal_iff, ← this, ← hmc, heightAt_left]
      rw [if_congr this rfl rfl]
      rfl
    · exfalso
      obtain ⟨h1, h2⟩ := Ordering.then_eq_eq.1 hcmp
      have h1 := compare_eq_iff_eq.1 h1
      have h2 := compare_eq_iff_eq.1 h2
      apply heq
      rcases e : s.left_point with ⟨x, y⟩
      rcases e' : s'.left_point with ⟨x', y'⟩
      rw [e, e'] at h1 h2
      cases h1; cases h2; rfl
    · rw [if_neg (by decide)]
      have hx : s'.left_point.x ≤ s.left_point.x := by
        rcases Ordering.then_eq_gt.1 hcmp with h | h
        · exact (compare_gt_iff_gt.1 h).le
        · exact (compare_eq_iff_eq.1 h.1).ge
      have sgn := same_sign a1.le fun x h1 h2 => apart x h1 (hx.trans h1) h2
      have hnz := apart s.left_point.x le_rfl hx a1.le
      have : s'.above s.left_point = true ↔ s.heightAt x0 < s'.heightAt x0 := by
        unfold SweepSegment.above
        rw [Bool.not_eq_true', ← Bool.not_eq_true, belowIff' _ (by simp), goal_iff, ← sgn, ← heightAt_left s]
        rw [heightAt_left]
        have e := hmc s.left_point.x
        rw [heightAt_left] at e
        constructor
        · intro h
          exact lt_of_le_of_ne (by linarith) (Ne.symm hnz)
        · intro h h'
          linarith
      rw [if_congr this rfl rfl]
      rfl

theorem cmp_heights {x0 : ℝ} {P : SweepSegment ℝ T → Prop} (h : OnSweepLine x0 P) {s s' : SweepSegment ℝ T} (hs : P s) (hs' : P s') :
    s.cmp s' = .ok (compare (s.heightAt x0) (s'.heightAt x0)) := by
  by_cases e : s = s'
  · subst e
    unfold SweepSegment.cmp
    rw [if_pos rfl, compare_eq_iff_eq.2 rfl]
  · have hi : s.index ≠ s'.index := fun hi => e (h.named s s' hs hs' hi)
    rw [C68_order_partial x0 s s' hi (h.alive s hs) (h.alive s' hs') (h.clear s s' hs hs' e) (h.clear s' s hs' hs (Ne.symm e))
      (h.apart s s' hs hs' e)]
    have hne : s.heightAt x0 ≠ s'.heightAt x0 := fun he => by
      have := (h.apart s s' hs hs' e x0 (h.alive s hs).1.le (h.alive s' hs').1.le le_rfl he).2
      have := (h.alive s hs).1
      linarith
    congr 1
    split
    · rename_i hl
      exact (compare_lt_iff_lt.2 hl).symm
    · rename_i hl
      exact (compare_gt_iff_gt.2 (lt_of_le_of_ne (not_lt.1 hl) (Ne.symm hne))).symm

/-- **C68** So on such a set the comparison never panics and is a linear order: bottom to top. -/
theorem C68_lawful (x0 : ℝ) (P : SweepSegment ℝ T → Prop) (h : OnSweepLine x0 P) :
    TotalPreorderOn P (fun s s' => s.cmp s') ∧
    ∀ s s', P s → P s' → (s.cmp s' = .ok .eq ↔ s = s') ∧ (s.cmp s' = .ok .lt ↔ s.heightAt x0 < s'.heightAt x0) := by
  refine ⟨⟨?_, ?_⟩, ?_⟩
  · intro a b ha hb
    refine ⟨_, cmp_heights h ha hb, ?_⟩
    rw [cmp_heights h hb ha]
    congr 1
    rcases lt_trichotomy (a.heightAt x0) (b.heightAt x0) with h | h | h
    · rw [compare_lt_iff_lt.mpr h, compare_gt_iff_gt.mpr h]; rfl
    · rw [compare_eq_iff_eq.mpr h, compare_eq_iff_eq.mpr h.symm]; rfl
    · rw [compare_lt_iff_lt.mpr h, compare_gt_iff_gt.mpr h]; rfl
  · intro a b c o₁ o₂ o₃ ha hb hc h1 h2 h3 n1 n2
    rw [cmp_heights h ha hb] at h1
    rw [cmp_heights h hb hc] at h2
    rw [cmp_heights h ha hc] at h3
    cases h1; cases h2; cases h3
    simp only [Ne, compare_gt_iff_gt, gt_iff_lt, not_lt, compare_eq_iff_eq] at *
    refine ⟨n1.trans n2, fun e => ?_⟩
    exact ⟨le_antisymm n1 (by linarith), le_antisymm n2 (by linarith)⟩
  · intro s s' hs hs'
    rw [cmp_heights h hs hs', Res.ok.injEq, Res.ok.injEq, compare_lt_iff_lt, compare_eq_iff_eq]
    refine ⟨⟨fun he => ?_, fun e => by rw [e]⟩, Iff.rfl⟩
    by_contra e
    have := (h.apart s s' hs hs' e x0 (h.alive s hs).1.le (h.alive s' hs').1.le le_rfl he).2
    have := (h.alive s hs).1
    linarith

/-- A segment with whole coordinates, to try the comparison with. -/
def exSeg {F : Type} [FloatOps F] (x0 y0 x1 y1 : Int) (i : Nat) : SweepSegment F Unit :=
  ⟨⟨FloatOps.ofInt x0, FloatOps.ofInt y0⟩, ⟨FloatOps.ofInt x1, FloatOps.ofInt y1⟩, false, i, 0, ()⟩

/-- C68 is about some segments: two that start at one point, and one above both. -/
theorem C68_hypotheses_met : OnSweepLine 10 fun s : SweepSegment ℝ Unit => s ∈ [exSeg 0 0 10 0 0, exSeg 0 0 20 10 1, exSeg (-5) 7 10 7 2] := by
  constructor
  · simp only [List.mem_cons, List.not_mem_nil, or_false]
    rintro s (rfl | rfl | rfl) <;> simp [exSeg, SweepSegment.Alive, FloatOps.ofInt] <;> norm_num
  · simp only [List.mem_cons, List.not_mem_nil, or_false]
    rintro s s' (rfl | rfl | rfl) (rfl | rfl | rfl) <;> simp [exSeg]
  · simp only [List.mem_cons, List.not_mem_nil, or_false]
    rintro s s' (rfl | rfl | rfl) (rfl | rfl | rfl) hne <;>
      simp [exSeg, ClearOf, FloatOps.ofInt] at hne ⊢ <;> norm_num
  · simp only [List.mem_cons, List.not_mem_nil, or_false]
    rintro s s' (rfl | rfl | rfl) (rfl | rfl | rfl) hne x h1 h2 h3 h4 <;>
      simp [exSeg, SweepSegment.heightAt, FloatOps.ofInt] at h1 h2 h3 h4 hne ⊢ <;> linarith

/-- C68 is false if one segment starts on the other: whether it goes up or down from there, it counts as below. -/
theorem C68_start_on_other :
    (exSeg 0 0 10 0 0 : SweepSegment Rat Unit).cmp (exSeg 5 0 10 5 1) = .ok .gt ∧
    (exSeg 0 0 10 0 0 : SweepSegment Rat Unit).cmp (exSeg 5 0 10 (-5) 1) = .ok .gt := by
  decide +kernel

/-- C68 is false of vertical segments: a segment that starts above the whole of a vertical one, at the same x, counts as
below it; so does one that starts below it. -/
theorem C68_vertical :
    (exSeg 0 0 0 1 0 : SweepSegment Rat Unit).cmp (exSeg 0 2 5 2 1) = .ok .gt ∧
    (exSeg 0 0 0 1 0 : SweepSegment Rat Unit).cmp (exSeg 0 (-1) 5 (-1) 1) = .ok .gt := by
  decide +kernel

end Idc
