import Verif.Spec.Endpoint
import Verif.Props.Holes
import Mathlib.Data.Prod.Lex
import Mathlib.Order.WithBot
/-!
# C55: sweep endpoints are totally preordered
-/

namespace Idc

open FloatOps

variable {T : Type}

theorem fcmp_real (a b : ℝ) : FloatOps.cmp a b = some (compare a b) := by
  unfold FloatOps.cmp
  simp only [lt, eq, decide_eq_true_eq]
  rcases lt_trichotomy a b with h | h | h
  · rw [if_pos h, compare_lt_iff_lt.mpr h]
  · rw [if_neg (by rw [h]; exact lt_irrefl _), if_pos h, compare_eq_iff_eq.mpr h]
  · rw [if_neg (not_lt_of_gt h), if_neg (ne_of_gt h), if_pos h, compare_gt_iff_gt.mpr h]

/-- For directions pointing right (or straight up) the sign of the cross product compares slopes. -/
theorem cross_slope {a b c d : ℝ} (h1 : 0 < a ∨ a = 0 ∧ 0 < b) (h2 : 0 < c ∨ c = 0 ∧ 0 < d) :
    compare (a * d - b * c) 0 = compare (slope c d) (slope a b) := by
  unfold slope
  rcases h1 with h1 | ⟨rfl, h1⟩ <;> rcases h2 with h2 | ⟨rfl, h2⟩
  · rw [if_neg h1.ne', if_neg h2.ne']
    rcases lt_trichotomy (a * d - b * c) 0 with h | h | h
    · rw [compare_lt_iff_lt.mpr h, eq_comm, compare_lt_iff_lt, WithTop.coe_lt_coe, div_lt_div_iff₀ h2 h1]; linarith
    · rw [compare_eq_iff_eq.mpr h, eq_comm, compare_eq_iff_eq, WithTop.coe_eq_coe, div_eq_div_iff h2.ne' h1.ne']; linarith
    · rw [compare_gt_iff_gt.mpr h, eq_comm, compare_gt_iff_gt, WithTop.coe_lt_coe, div_lt_div_iff₀ h1 h2]; linarith
  · rw [if_neg h1.ne', if_pos rfl]
    have : a * d - b * 0 > 0 := by nlinarith
    rw [compare_gt_iff_gt.mpr this, eq_comm, compare_gt_iff_gt]
    exact WithTop.coe_lt_top _
  · rw [if_neg h2.ne', if_pos rfl]
    have : 0 * d - b * c < 0 := by nlinarith
    rw [compare_lt_iff_lt.mpr this, eq_comm, compare_lt_iff_lt]
    exact WithTop.coe_lt_top _
  · rw [if_pos rfl, if_pos rfl]
    have : (0 : ℝ) * d - b * 0 = 0 := by ring
    rw [compare_eq_iff_eq.mpr this, compare_eq_iff_eq.mpr rfl]

/-- The key that endpoints are ordered by. -/
noncomputable def endKey (a : SweepSegment ℝ T × SegmentEnd) : ℝ ×ₗ ℝ ×ₗ ℕ ×ₗ WithTop ℝ ×ₗ ℕ :=
  let s := a.1
  let dx := s.right_point.x - s.left_point.x
  let dy := s.right_point.y - s.left_point.y
  match a.2 with
  | .left => toLex (s.left_point.x, toLex (s.left_point.y, toLex (1, toLex (slope dx dy, s.order))))
  | .right => toLex (s.right_point.x, toLex (s.right_point.y, toLex (0, toLex (slope dx dy, s.order))))

theorem compare_lex {α β : Type} [LinearOrder α] [LinearOrder β] (a a' : α) (b b' : β) :
    compare (toLex (a, b)) (toLex (a', b')) = (compare a a').then (compare b b') := rfl

theorem area_slope {s s' : SweepSegment ℝ T} (h : s.WellFormed) (h' : s'.WellFormed) (e : SegmentEnd)
    (hx : (s.pointAt e).x = (s'.pointAt e).x) (hy : (s.pointAt e).y = (s'.pointAt e).y) :
    compare (triangleSignedArea (s'.pointAt e) (s'.otherPointAt e) (s.otherPointAt e)) 0 =
      compare (slope (s.right_point.x - s.left_point.x) (s.right_point.y - s.left_point.y))
        (slope (s'.right_point.x - s'.left_point.x) (s'.right_point.y - s'.left_point.y)) := by
  have w : 0 < s.right_point.x - s.left_point.x ∨ s.right_point.x - s.left_point.x = 0 ∧ 0 < s.right_point.y - s.left_point.y := by
    rcases h with h | ⟨h, h2⟩
    · left; linarith
    · right; exact ⟨by linarith, by linarith⟩
  have w' : 0 < s'.right_point.x - s'.left_point.x ∨ s'.right_point.x - s'.left_point.x = 0 ∧ 0 < s'.right_point.y - s'.left_point.y := by
    rcases h' with h | ⟨h, h2⟩
    · left; linarith
    · right; exact ⟨by linarith, by linarith⟩
  rw [← cross_slope w' w]
  congr 1
  unfold triangleSignedArea
  cases e <;> simp only [SweepSegment.pointAt, SweepSegment.otherPointAt, FloatOps.sub, FloatOps.mul] at *
  · rw [← hx, ← hy]; ring
  · rw [← hx, ← hy]; ring

theorem endpointCmp_eq {a b : SweepSegment ℝ T × SegmentEnd} (ha : a.1.WellFormed) (hb : b.1.WellFormed) :
    endpointCmp a.1 a.2 b.1 b.2 = .ok (compare (endKey a) (endKey b)) := by
  obtain ⟨s, e⟩ := a
  obtain ⟨s', e'⟩ := b
  dsimp only at *
  unfold endpointCmp
  simp only [fcmp_real, unwrap, Res.bind_ok, Res.pure_eq]
  have h0 : (ofInt 0 : ℝ) = 0 := by simp [ofInt]
  rw [h0]
  rcases hx : compare (s.pointAt e).x (s'.pointAt e').x with _ | _ | _
  · have hk : compare (endKey (s, e)) (endKey (s', e')) = .lt := by
      cases e <;> cases e' <;> simp only [endKey, compare_lex] <;> simp only [SweepSegment.pointAt] at hx <;> rw [hx] <;> rfl
    rw [hk]; rfl
  · rcases hy : compare (s.pointAt e).y (s'.pointAt e').y with _ | _ | _
    · have hk : compare (endKey (s, e)) (endKey (s', e')) = .lt := by
        cases e <;> cases e' <;> simp only [endKey, compare_lex] <;> simp only [SweepSegment.pointAt] at hx hy <;> rw [hx, hy] <;> rfl
      rw [hk]; rfl
    · by_cases he : e = e'
      · subst he
        have := area_slope ha hb e (compare_eq_iff_eq.mp hx) (compare_eq_iff_eq.mp hy)
        rw [this]
        have hk : compare (endKey (s, e)) (endKey (s', e)) =
            (compare (slope (s.right_point.x - s.left_point.x) (s.right_point.y - s.left_point.y))
              (slope (s'.right_point.x - s'.left_point.x) (s'.right_point.y - s'.left_point.y))).then (compare s.order s'.order) := by
          cases e <;> simp only [endKey, compare_lex] <;> simp only [SweepSegment.pointAt] at hx hy <;> rw [hx, hy] <;> rfl
        rw [hk]
        cases e <;> rfl
      · have hk : compare (endKey (s, e)) (endKey (s', e')) = endCmp e e' := by
          cases e <;> cases e' <;> simp only [endKey, compare_lex] <;> simp only [SweepSegment.pointAt] at hx hy <;> rw [hx, hy] <;>
            first | exact absurd rfl he | rfl
        rw [hk]
        cases e <;> cases e' <;> first | exact absurd rfl he | rfl
    · have hk : compare (endKey (s, e)) (endKey (s', e')) = .gt := by
        cases e <;> cases e' <;> simp only [endKey, compare_lex] <;> simp only [SweepSegment.pointAt] at hx hy <;> rw [hx, hy] <;> rfl
      rw [hk]; rfl
  · have hk : compare (endKey (s, e)) (endKey (s', e')) = .gt := by
      cases e <;> cases e' <;> simp only [endKey, compare_lex] <;> simp only [SweepSegment.pointAt] at hx <;> rw [hx] <;> rfl
    rw [hk]; rfl

/-- **C55**: with exact arithmetic, the comparison of endpoints of well-formed segments never panics and
is a total preorder. -/
theorem C55_total_preorder : TotalPreorderOn (fun a : SweepSegment ℝ T × SegmentEnd => a.1.WellFormed)
    (fun a b => endpointCmp a.1 a.2 b.1 b.2) where
  total a b ha hb := by
    refine ⟨compare (endKey a) (endKey b), endpointCmp_eq ha hb, ?_⟩
    rw [endpointCmp_eq hb ha]
    congr 1
    rcases lt_trichotomy (endKey a) (endKey b) with h | h | h
    · rw [compare_lt_iff_lt.mpr h, compare_gt_iff_gt.mpr h]; rfl
    · rw [compare_eq_iff_eq.mpr h, compare_eq_iff_eq.mpr h.symm]; rfl
    · rw [compare_lt_iff_lt.mpr h, compare_gt_iff_gt.mpr h]; rfl
  trans a b c o₁ o₂ o₃ ha hb hc h1 h2 h3 n1 n2 := by
    rw [endpointCmp_eq ha hb] at h1
    rw [endpointCmp_eq hb hc] at h2
    rw [endpointCmp_eq ha hc] at h3
    cases h1; cases h2; cases h3
    have l1 : endKey a ≤ endKey b := le_of_not_gt fun h => n1 (compare_gt_iff_gt.mpr h)
    have l2 : endKey b ≤ endKey c := le_of_not_gt fun h => n2 (compare_gt_iff_gt.mpr h)
    refine ⟨fun h => absurd (le_trans l1 l2) (not_le_of_gt (compare_gt_iff_gt.mp h)), fun h => ?_⟩
    have h := compare_eq_iff_eq.mp h
    rw [compare_eq_iff_eq, compare_eq_iff_eq]
    exact ⟨le_antisymm l1 (h ▸ l2), le_antisymm l2 (h ▸ l1)⟩

/-- **C55**: the order itself.  Endpoints come by x, then y, then right ends before left ends; left ends at
one point come by the slope of their segments, upwards, and so do right ends (so there the segment that
is *above* comes first); then by polygon. -/
theorem C55_order {s s' : SweepSegment ℝ T} (h : s.WellFormed) (h' : s'.WellFormed) (e e' : SegmentEnd) :
    endpointCmp s e s' e' = .ok .lt ↔
    (s.pointAt e).x < (s'.pointAt e').x ∨ (s.pointAt e).x = (s'.pointAt e').x ∧
    ((s.pointAt e).y < (s'.pointAt e').y ∨ (s.pointAt e).y = (s'.pointAt e').y ∧
    ((e = .right ∧ e' = .left) ∨ e = e' ∧
    (slope (s.right_point.x - s.left_point.x) (s.right_point.y - s.left_point.y) <
        slope (s'.right_point.x - s'.left_point.x) (s'.right_point.y - s'.left_point.y) ∨
      slope (s.right_point.x - s.left_point.x) (s.right_point.y - s.left_point.y) =
        slope (s'.right_point.x - s'.left_point.x) (s'.right_point.y - s'.left_point.y) ∧ s.order < s'.order))) := by
  rw [endpointCmp_eq (a := (s, e)) (b := (s', e')) h h', Res.ok.injEq, compare_lt_iff_lt]
  cases e <;> cases e' <;> simp [endKey, Prod.Lex.toLex_lt_toLex, SweepSegment.pointAt]

/-- The hypotheses are met, and right ends at one point come with the upper segment first. -/
theorem C55_right_ends_top_first : ∃ top bottom : SweepSegment ℝ Unit, top.WellFormed ∧ bottom.WellFormed ∧
    top.right_point = bottom.right_point ∧ bottom.left_point.y < top.left_point.y ∧ top.left_point.x = bottom.left_point.x ∧
    endpointCmp top .right bottom .right = .ok .lt := by
  have w1 : SweepSegment.WellFormed (⟨⟨0, 1⟩, ⟨1, 0⟩, false, 0, 0, ()⟩ : SweepSegment ℝ Unit) := Or.inl (by norm_num)
  have w2 : SweepSegment.WellFormed (⟨⟨0, -1⟩, ⟨1, 0⟩, false, 1, 0, ()⟩ : SweepSegment ℝ Unit) := Or.inl (by norm_num)
  refine ⟨⟨⟨0, 1⟩, ⟨1, 0⟩, false, 0, 0, ()⟩, ⟨⟨0, -1⟩, ⟨1, 0⟩, false, 1, 0, ()⟩, w1, w2, rfl, by norm_num, rfl, ?_⟩
  rw [endpointCmp_eq (a := (⟨⟨0, 1⟩, ⟨1, 0⟩, false, 0, 0, ()⟩, .right)) (b := (⟨⟨0, -1⟩, ⟨1, 0⟩, false, 1, 0, ()⟩, .right)) w1 w2]
  congr 1
  rw [compare_lt_iff_lt]
  simp only [endKey, Prod.Lex.toLex_lt_toLex, slope]
  right; refine ⟨trivial, ?_⟩
  right; refine ⟨trivial, ?_⟩
  right; refine ⟨trivial, ?_⟩
  left
  rw [if_neg (by norm_num), if_neg (by norm_num), WithTop.coe_lt_coe]
  norm_num

/-- `SweepSegment::new` makes well-formed segments. -/
theorem C55_new_wellFormed {p q : Pt ℝ} {i o : Nat} {d : T} {s : SweepSegment ℝ T} (h : SweepSegment.new p q i o d = .ok s) :
    s.WellFormed := by
  unfold SweepSegment.new at h
  split_ifs at h with h1 h2
  · cases h
    simp only [lt, eq, Bool.or_eq_true, Bool.and_eq_true, decide_eq_true_eq] at h2
    exact h2
  · cases h
    simp only [lt, eq, Bool.or_eq_true, Bool.and_eq_true, decide_eq_true_eq, not_or, not_and, not_lt] at h2
    simp only [Pt.beq, eq, Bool.and_eq_true, decide_eq_true_eq, not_and] at h1
    unfold SweepSegment.WellFormed
    dsimp only
    rcases lt_or_eq_of_le h2.1 with h3 | h3
    · exact Or.inl h3
    · exact Or.inr ⟨h3, lt_of_le_of_ne (h2.2 h3.symm) fun h => h1 h3.symm h.symm⟩

end Idc
