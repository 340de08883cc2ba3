import Verif.Props.PlanGeom
import Verif.Props.Sweep
/-!
# The order of the ends of segments, for C81

At one corner this is the order in which a ray meets them that turns counterclockwise, starting upwards.
-/

namespace Idc

namespace Plan

variable (G : Plan)

/-- A segment of the plan. -/
structure Is {T : Type} (i : Nat) (s : SweepSegment ℝ T) : Prop where
  left : s.left_point = G.lp i
  right : s.right_point = G.rp i
  index : s.index = i
  order : s.order = G.poly i

/-- A segment of the plan, without data. -/
def sg (i : Nat) : SweepSegment ℝ Unit := ⟨G.lp i, G.rp i, false, i, G.poly i, ()⟩

theorem sg_is (i : Nat) : G.Is i (G.sg i) := ⟨rfl, rfl, rfl, rfl⟩

/-- What endpoints are ordered by. -/
noncomputable def key (x : EndId) : ℝ ×ₗ ℝ ×ₗ ℕ ×ₗ WithTop ℝ ×ₗ ℕ := endKey (G.sg x.1, x.2)

/-- The slope of the sheared segment. -/
noncomputable def sl (i : ℕ) : ℝ := ((G.rp i).y - (G.lp i).y) / (G.b i - G.a i)

/-- The time a segment takes, seen from an end. -/
noncomputable def dt (x : EndId) : ℝ := G.time (G.pt (opp x)) - G.time (G.pt x)

/-- The cross product of two segments, seen from ends. -/
noncomputable def crs (x y : EndId) : ℝ :=
  ((G.pt (opp x)).x - (G.pt x).x) * ((G.pt (opp y)).y - (G.pt y).y) - ((G.pt (opp x)).y - (G.pt x).y) * ((G.pt (opp y)).x - (G.pt y).x)

variable {G}

theorem Is.wf {T : Type} {i : Nat} {s : SweepSegment ℝ T} (h : G.Is i s) (hi : i ∈ G.S) : s.WellFormed := by
  unfold SweepSegment.WellFormed
  rw [h.left, h.right]
  exact G.wf i hi

theorem Is.pointAt {T : Type} {i : Nat} {s : SweepSegment ℝ T} (h : G.Is i s) (e : SegmentEnd) : s.pointAt e = G.pt (i, e) := by
  cases e
  · exact h.left
  · exact h.right

theorem Is.otherPointAt {T : Type} {i : Nat} {s : SweepSegment ℝ T} (h : G.Is i s) (e : SegmentEnd) : s.otherPointAt e = G.pt (opp (i, e)) := by
  cases e
  · exact h.right
  · exact h.left

theorem endKey_is {T : Type} {x : EndId} {s : SweepSegment ℝ T} (h : G.Is x.1 s) : endKey (s, x.2) = G.key x := by
  obtain ⟨i, e⟩ := x
  unfold key endKey
  cases e <;> dsimp only <;> rw [h.left, h.right, h.order] <;> rfl

theorem h_eq (i : ℕ) (t : ℝ) : G.h i t = (G.lp i).y + (t - G.a i) * G.sl i := rfl

theorem sl_mul {i : ℕ} (hi : i ∈ G.S) : (G.b i - G.a i) * G.sl i = (G.rp i).y - (G.lp i).y := by
  have := G.a_lt_b hi
  unfold sl
  rw [mul_div_cancel₀]
  linarith

theorem h_eq' {i : ℕ} (hi : i ∈ G.S) (t : ℝ) : G.h i t = (G.rp i).y + (t - G.b i) * G.sl i := by
  have := sl_mul hi
  rw [h_eq]
  linear_combination this

theorem crs_eq (x y : EndId) : G.crs x y = G.dt x * ((G.pt (opp y)).y - (G.pt y).y) - ((G.pt (opp x)).y - (G.pt x).y) * G.dt y := by
  unfold crs dt time shearX
  ring

theorem crs_neg (x y : EndId) : G.crs y x = - G.crs x y := by
  unfold crs; ring

theorem dt_left (i : ℕ) : G.dt (i, .left) = G.b i - G.a i := rfl
theorem dt_right (i : ℕ) : G.dt (i, .right) = G.a i - G.b i := rfl

theorem crs_sl {x y : EndId} (hx : x.1 ∈ G.S) (hy : y.1 ∈ G.S) : G.crs x y = G.dt x * G.dt y * (G.sl y.1 - G.sl x.1) := by
  rw [crs_eq]
  have h1 := sl_mul hx
  have h2 := sl_mul hy
  obtain ⟨i, e⟩ := x
  obtain ⟨j, e'⟩ := y
  cases e <;> cases e' <;> simp only [dt_left, dt_right, opp, SegmentEnd.other, pt] at * <;>
    first
    | linear_combination (G.b j - G.a j) * h1 - (G.b i - G.a i) * h2
    | linear_combination -(G.b j - G.a j) * h1 + (G.b i - G.a i) * h2

/-- The three cross products of three segments. -/
theorem crs_three (w z y : EndId) : G.crs w z * G.dt y + G.crs z y * G.dt w + G.crs y w * G.dt z = 0 := by
  rw [crs_eq, crs_eq, crs_eq]
  ring

theorem key_lt_of_leftOf {x y : EndId} (h : LeftOf (G.pt x) (G.pt y)) : G.key x < G.key y := by
  obtain ⟨i, e⟩ := x
  obtain ⟨j, e'⟩ := y
  unfold key endKey
  cases e <;> cases e' <;> simp only [pt] at h <;> simp only [sg, Prod.Lex.toLex_lt_toLex] <;>
    (rcases h with h | ⟨h, h'⟩ <;> [exact Or.inl h; exact Or.inr ⟨h, Or.inl h'⟩])

theorem key_lt_of_time {x y : EndId} (hx : x.1 ∈ G.S) (hy : y.1 ∈ G.S) (h : G.time (G.pt x) < G.time (G.pt y)) : G.key x < G.key y :=
  key_lt_of_leftOf ((G.leftOf_iff hx hy).2 h)

theorem time_le_of_key {x y : EndId} (hx : x.1 ∈ G.S) (hy : y.1 ∈ G.S) (h : G.key x ≤ G.key y) : G.time (G.pt x) ≤ G.time (G.pt y) := by
  by_contra hn
  rw [not_le] at hn
  exact absurd (key_lt_of_time hy hx hn) (not_lt.2 h)

theorem key_right_left {i j : Nat} (h : G.pt (i, .right) = G.pt (j, .left)) : G.key (i, .right) < G.key (j, .left) := by
  unfold key endKey
  simp only [pt] at h
  simp only [sg, Prod.Lex.toLex_lt_toLex]
  rw [h]
  exact Or.inr ⟨rfl, Or.inr ⟨rfl, Or.inl (by norm_num)⟩⟩

/-- At one corner, and on one side of it: counterclockwise, then by polygon. -/
theorem key_iff {i j : ℕ} {e : SegmentEnd} (hi : i ∈ G.S) (hj : j ∈ G.S) (h : G.pt (i, e) = G.pt (j, e)) :
    G.key (i, e) < G.key (j, e) ↔ 0 < G.crs (i, e) (j, e) ∨ G.crs (i, e) (j, e) = 0 ∧ G.poly i < G.poly j := by
  have hs := area_slope (s := G.sg i) (s' := G.sg j) ((G.sg_is i).wf hi) ((G.sg_is j).wf hj) e
    (by rw [(G.sg_is i).pointAt, (G.sg_is j).pointAt, h]) (by rw [(G.sg_is i).pointAt, (G.sg_is j).pointAt, h])
  have ha : triangleSignedArea ((G.sg j).pointAt e) ((G.sg j).otherPointAt e) ((G.sg i).otherPointAt e) = - G.crs (i, e) (j, e) := by
    rw [(G.sg_is j).pointAt, (G.sg_is j).otherPointAt, (G.sg_is i).otherPointAt]
    unfold crs
    rw [h]
    simp only [triangleSignedArea, FloatOps.sub, FloatOps.mul]
    ring
  rw [ha] at hs
  have hk : G.key (i, e) < G.key (j, e) ↔
      (slope ((G.sg i).right_point.x - (G.sg i).left_point.x) ((G.sg i).right_point.y - (G.sg i).left_point.y) <
        slope ((G.sg j).right_point.x - (G.sg j).left_point.x) ((G.sg j).right_point.y - (G.sg j).left_point.y) ∨
      slope ((G.sg i).right_point.x - (G.sg i).left_point.x) ((G.sg i).right_point.y - (G.sg i).left_point.y) =
        slope ((G.sg j).right_point.x - (G.sg j).left_point.x) ((G.sg j).right_point.y - (G.sg j).left_point.y) ∧ G.poly i < G.poly j) := by
    unfold key endKey
    cases e <;> simp only [pt] at h <;> simp only [sg, Prod.Lex.toLex_lt_toLex] <;> rw [h] <;> simp
  rw [hk, ← compare_lt_iff_lt, ← compare_eq_iff_eq (a := slope _ _), ← hs, compare_lt_iff_lt, compare_eq_iff_eq]
  constructor
  · rintro (h | ⟨h, h'⟩)
    · left; linarith
    · right; exact ⟨by linarith, h'⟩
  · rintro (h | ⟨h, h'⟩)
    · left; linarith
    · right; exact ⟨by linarith, h'⟩

/-- Segments that leave a corner in the same direction coincide. -/
theorem same_of_crs {i j : ℕ} {e : SegmentEnd} (hi : i ∈ G.S) (hj : j ∈ G.S) (h : G.pt (i, e) = G.pt (j, e)) (hc : G.crs (i, e) (j, e) = 0) : G.Same i j := by
  have hbi := G.a_lt_b hi
  have hbj := G.a_lt_b hj
  rw [crs_sl (x := (i, e)) (y := (j, e)) hi hj] at hc
  have hsl : G.sl j = G.sl i := by
    have hne : G.dt (i, e) * G.dt (j, e) ≠ 0 := by
      cases e <;> simp only [dt_left, dt_right] <;> refine mul_ne_zero ?_ ?_ <;> linarith
    have := (mul_eq_zero.1 hc).resolve_left hne
    dsimp only at this
    linarith
  cases e
  · have h : G.lp i = G.lp j := h
    have hh : ∀ t, G.h i t = G.h j t := fun t => by rw [h_eq, h_eq, hsl, ← h]; unfold a; rw [h]
    have ha : G.a i = G.a j := by unfold a; rw [h]
    have hz : G.a i < Min.min (G.b i) (G.b j) := lt_min hbi (ha ▸ hbj)
    have hz1 := min_le_left (G.b i) (G.b j)
    have hz2 := min_le_right (G.b i) (G.b j)
    exact G.same_of_h hi hj (t := (G.a i + Min.min (G.b i) (G.b j)) / 2) (by linarith) (by linarith) (by linarith) (by linarith) (hh _)
  · have h : G.rp i = G.rp j := h
    have hh : ∀ t, G.h i t = G.h j t := fun t => by rw [h_eq' hi, h_eq' hj, hsl, ← h]; unfold b; rw [h]
    have ha : G.b i = G.b j := by unfold b; rw [h]
    have hz : Max.max (G.a i) (G.a j) < G.b i := max_lt hbi (ha ▸ hbj)
    have hz1 := le_max_left (G.a i) (G.a j)
    have hz2 := le_max_right (G.a i) (G.a j)
    exact G.same_of_h hi hj (t := (G.b i + Max.max (G.a i) (G.a j)) / 2) (by linarith) (by linarith) (by linarith) (by linarith) (hh _)

theorem crs_same {i j : ℕ} (e : SegmentEnd) (h : G.Same i j) : G.crs (i, e) (j, e) = 0 := by
  unfold crs
  cases e <;> simp only [opp, SegmentEnd.other, pt, h.1, h.2] <;> ring

theorem pt_same {i j : ℕ} (e : SegmentEnd) (h : G.Same i j) : G.pt (i, e) = G.pt (j, e) := by
  cases e
  · exact h.1
  · exact h.2

theorem key_same {i j : ℕ} (e : SegmentEnd) (hi : i ∈ G.S) (hj : j ∈ G.S) (h : G.Same i j) : G.key (i, e) < G.key (j, e) ↔ G.poly i < G.poly j := by
  rw [key_iff hi hj (pt_same e h), crs_same e h]
  simp

/-- Two left ends at one corner: the lower segment comes first. -/
theorem crs_left {i j : ℕ} (hi : i ∈ G.S) (hj : j ∈ G.S) (h : G.lp i = G.lp j) {u : ℝ} (hu : G.a i < u) :
    0 < G.crs (i, .left) (j, .left) ↔ G.h i u < G.h j u := by
  have hbi := G.a_lt_b hi
  have hbj := G.a_lt_b hj
  have ha : G.a i = G.a j := by unfold a; rw [h]
  rw [crs_sl (x := (i, .left)) (y := (j, .left)) hi hj, h_eq, h_eq, ← h, ← ha, dt_left, dt_left]
  rw [mul_pos_iff_of_pos_left (mul_pos (by linarith) (by linarith)), add_lt_add_iff_left, mul_lt_mul_iff_right₀ (by linarith)]
  exact sub_pos

/-- Two right ends at one corner: the upper segment comes first. -/
theorem crs_right {i j : ℕ} (hi : i ∈ G.S) (hj : j ∈ G.S) (h : G.rp i = G.rp j) {u : ℝ} (hu : u < G.b i) :
    0 < G.crs (i, .right) (j, .right) ↔ G.h j u < G.h i u := by
  have hbi := G.a_lt_b hi
  have hbj := G.a_lt_b hj
  have ha : G.b i = G.b j := by unfold b; rw [h]
  rw [crs_sl (x := (i, .right)) (y := (j, .right)) hi hj, h_eq' hi, h_eq' hj, ← h, ← ha, dt_right, dt_right]
  rw [mul_pos_iff_of_pos_left (mul_pos_of_neg_of_neg (by linarith) (by linarith)), add_lt_add_iff_left, mul_lt_mul_left_of_neg (by linarith)]
  exact sub_pos

/-- Different endpoints are strictly ordered. -/
theorem key_inj {x y : EndId} (hx : x.1 ∈ G.S) (hy : y.1 ∈ G.S) (h : G.key x = G.key y) : x = y := by
  have hp : G.pt x = G.pt y := by
    by_contra hn
    rcases LeftOf.total hn with h1 | h1 <;> have := key_lt_of_leftOf h1 <;> rw [h] at this <;> exact lt_irrefl _ this
  obtain ⟨i, e⟩ := x
  obtain ⟨j, e'⟩ := y
  have he : e = e' := by
    cases e <;> cases e'
    · rfl
    · have := key_right_left (G := G) hp.symm
      rw [h] at this; exact absurd this (lt_irrefl _)
    · have := key_right_left (G := G) hp
      rw [h] at this; exact absurd this (lt_irrefl _)
    · rfl
  subst he
  by_contra hne
  have hij : i ≠ j := fun e => hne (by rw [e])
  have h1 : ¬ G.key (i, e) < G.key (j, e) := by rw [h]; exact lt_irrefl _
  have h2 : ¬ G.key (j, e) < G.key (i, e) := by rw [h]; exact lt_irrefl _
  rw [key_iff hx hy hp] at h1
  rw [key_iff hy hx hp.symm, crs_neg (i, e)] at h2
  push Not at h1 h2
  have hc : G.crs (i, e) (j, e) = 0 := by linarith [h1.1, h2.1]
  have hs := same_of_crs hx hy hp hc
  exact G.poly_ne hx hy hij hs (le_antisymm (h2.2 (by rw [hc, neg_zero])) (h1.2 hc))

theorem key_trichotomy {x y : EndId} (hx : x.1 ∈ G.S) (hy : y.1 ∈ G.S) : G.key x < G.key y ∨ x = y ∨ G.key y < G.key x := by
  rcases lt_trichotomy (G.key x) (G.key y) with h | h | h
  · exact Or.inl h
  · exact Or.inr (Or.inl (key_inj hx hy h))
  · exact Or.inr (Or.inr h)

/-! ### The arena -/

/-- The arena holds the segments of the plan. -/
structure Has (G : Plan) (arena : Arena ℝ) : Prop where
  seg : ∀ i ∈ G.S, ∃ s, arena[i]? = some s ∧ G.Is i s

theorem Has.lt {arena : Arena ℝ} (h : G.Has arena) {i : ℕ} (hi : i ∈ G.S) : i < arena.length := by
  obtain ⟨s, hs, _⟩ := h.seg i hi
  exact (List.getElem?_eq_some_iff.1 hs).1

theorem endCmp_key {arena : Arena ℝ} (ha : G.Has arena) {x y : EndId} (hx : x.1 ∈ G.S) (hy : y.1 ∈ G.S) :
    arena.endCmp x y = .ok (compare (G.key x) (G.key y)) := by
  obtain ⟨s, hs, is⟩ := ha.seg x.1 hx
  obtain ⟨s', hs', is'⟩ := ha.seg y.1 hy
  unfold Arena.endCmp index
  rw [hs, hs']
  simp only [Res.bind_ok]
  rw [endpointCmp_eq (a := (s, x.2)) (b := (s', y.2)) (is.wf hx) (is'.wf hy), endKey_is is, endKey_is is']

theorem endCmp_total {arena : Arena ℝ} (ha : G.Has arena) {P : EndId → Prop} (hP : ∀ x, P x → x.1 ∈ G.S) : TotalPreorderOn P arena.endCmp where
  total x y hx hy := by
    refine ⟨_, endCmp_key ha (hP x hx) (hP y hy), ?_⟩
    rw [endCmp_key ha (hP y hy) (hP x hx)]
    congr 1
    rcases lt_trichotomy (G.key x) (G.key y) with h | h | h
    · rw [compare_lt_iff_lt.mpr h, compare_gt_iff_gt.mpr h]; rfl
    · rw [compare_eq_iff_eq.mpr h, compare_eq_iff_eq.mpr h.symm]; rfl
    · rw [compare_lt_iff_lt.mpr h, compare_gt_iff_gt.mpr h]; rfl
  trans x y z o₁ o₂ o₃ hx hy hz h1 h2 h3 n1 n2 := by
    rw [endCmp_key ha (hP x hx) (hP y hy)] at h1
    rw [endCmp_key ha (hP y hy) (hP z hz)] at h2
    rw [endCmp_key ha (hP x hx) (hP z hz)] at h3
    cases h1; cases h2; cases h3
    have l1 : G.key x ≤ G.key y := le_of_not_gt fun h => n1 (compare_gt_iff_gt.mpr h)
    have l2 : G.key y ≤ G.key z := le_of_not_gt fun h => n2 (compare_gt_iff_gt.mpr h)
    refine ⟨fun h => absurd (le_trans l1 l2) (not_le_of_gt (compare_gt_iff_gt.mp h)), fun h => ?_⟩
    have h := compare_eq_iff_eq.mp h
    rw [compare_eq_iff_eq, compare_eq_iff_eq]
    exact ⟨le_antisymm l1 (h ▸ l2), le_antisymm l2 (h ▸ l1)⟩

end Plan

end Idc
