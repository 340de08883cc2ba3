import Verif.Props.TidyCmp
import Verif.Props.Sweep
/-!
# The order of the events of a net, for C76
-/

namespace Idc

namespace Net

variable (G : Net)

/-- A segment of the net, without data. -/
def sg (i : Nat) : SweepSegment ℝ Unit := ⟨G.lp i, G.rp i, false, i, G.poly i, ()⟩

theorem sg_is (i : Nat) : G.Is i (G.sg i) := ⟨rfl, rfl, rfl, rfl⟩

/-- What endpoints are ordered by. -/
noncomputable def key (x : EndId) : ℝ ×ₗ ℝ ×ₗ ℕ ×ₗ WithTop ℝ ×ₗ ℕ := endKey (G.sg x.1, x.2)

variable {G}

theorem endKey_is {T : Type} {x : EndId} {s : SweepSegment ℝ T} (h : G.Is x.1 s) : endKey (s, x.2) = G.key x := by
  obtain ⟨i, e⟩ := x
  unfold key endKey
  cases e <;> dsimp only <;> rw [h.left, h.right, h.order] <;> rfl

/-- The arena holds the segments of the net. -/
structure Has (G : Net) (arena : Arena ℝ) : Prop where
  length : arena.length = G.N
  seg : ∀ i < G.N, ∃ s, arena[i]? = some s ∧ G.Is i s

theorem endCmp_key {arena : Arena ℝ} (ha : G.Has arena) {x y : EndId} (hx : x.1 < G.N) (hy : y.1 < G.N) :
    arena.endCmp x y = .ok (compare (G.key x) (G.key y)) := by
  obtain ⟨s, hs, is⟩ := ha.seg x.1 hx
  obtain ⟨s', hs', is'⟩ := ha.seg y.1 hy
  unfold Arena.endCmp index
  rw [hs, hs']
  simp only [Res.bind_ok]
  rw [endpointCmp_eq (a := (s, x.2)) (b := (s', y.2)) (is.wf hx) (is'.wf hy), endKey_is is, endKey_is is']

theorem endCmp_total {arena : Arena ℝ} (ha : G.Has arena) {P : EndId → Prop} (hP : ∀ x, P x → x.1 < G.N) : TotalPreorderOn P arena.endCmp where
  total x y hx hy := by
    refine ⟨_, endCmp_key ha (hP x hx) (hP y hy), ?_⟩
    rw [endCmp_key ha (hP y hy) (hP x hx)]
    congr 1
    rcases lt_trichotomy (G.key x) (G.key y) with h | h | h
    · rw [compare_lt_iff_lt.mpr h, compare_gt_iff_gt.mpr h]; rfl
    · rw [compare_eq_iff_eq.mpr h, compare_eq_iff_eq.mpr h.symm]; rfl
    · rw [compare_lt_iff_lt.mpr h, compare_gt_iff_gt.mpr h]; rfl
  trans x y z o₁ o₂ o₃ hx hy hz h1 h2 h3 n1 n2 := by
    rw [endCmp_key ha (hP x hx) (hP y hy)] at h1
    rw [endCmp_key ha (hP y hy) (hP z hz)] at h2
    rw [endCmp_key ha (hP x hx) (hP z hz)] at h3
    cases h1; cases h2; cases h3
    have l1 : G.key x ≤ G.key y := le_of_not_gt fun h => n1 (compare_gt_iff_gt.mpr h)
    have l2 : G.key y ≤ G.key z := le_of_not_gt fun h => n2 (compare_gt_iff_gt.mpr h)
    refine ⟨fun h => absurd (le_trans l1 l2) (not_le_of_gt (compare_gt_iff_gt.mp h)), fun h => ?_⟩
    have h := compare_eq_iff_eq.mp h
    rw [compare_eq_iff_eq, compare_eq_iff_eq]
    exact ⟨le_antisymm l1 (h ▸ l2), le_antisymm l2 (h ▸ l1)⟩

theorem key_lt_of_leftOf {x y : EndId} (h : LeftOf (G.pt x) (G.pt y)) : G.key x < G.key y := by
  obtain ⟨i, e⟩ := x
  obtain ⟨j, e'⟩ := y
  unfold key endKey
  cases e <;> cases e' <;> simp only [pt] at h <;> simp only [sg, Prod.Lex.toLex_lt_toLex] <;>
    (rcases h with h | ⟨h, h'⟩ <;> [exact Or.inl h; exact Or.inr ⟨h, Or.inl h'⟩])

theorem key_lt_of_time {x y : EndId} (hx : x.1 < G.N) (hy : y.1 < G.N) (h : G.time (G.pt x) < G.time (G.pt y)) : G.key x < G.key y :=
  key_lt_of_leftOf ((G.leftOf_iff hx hy).2 h)

theorem key_right_left {i j : Nat} (h : G.pt (i, .right) = G.pt (j, .left)) : G.key (i, .right) < G.key (j, .left) := by
  unfold key endKey
  simp only [pt] at h
  simp only [sg, Prod.Lex.toLex_lt_toLex]
  rw [h]
  exact Or.inr ⟨rfl, Or.inr ⟨rfl, Or.inl (by norm_num)⟩⟩

theorem area_h' {i : Nat} (hi : i < G.N) (p : Pt ℝ) : triangleSignedArea (G.rp i) (G.lp i) p = (G.b i - G.a i) * (G.h i (G.time p) - p.y) := by
  have := G.area_h hi p
  simp only [triangleSignedArea, FloatOps.sub, FloatOps.mul] at this ⊢
  linarith

/-- Two segments with a common left end: after it, the order is that of the slopes. -/
theorem h_from_left {i j : Nat} (h : G.lp i = G.lp j) : ∃ m : ℝ, ∀ u, G.h i u - G.h j u = m * (u - G.a i) := by
  obtain ⟨m, c, hm⟩ := G.h_linear i
  obtain ⟨m', c', hm'⟩ := G.h_linear j
  refine ⟨m - m', fun u => ?_⟩
  have e1 := G.h_left i
  have e2 := G.h_left j
  have : G.a j = G.a i := by unfold a; rw [h]
  rw [this, ← h, ← e1, hm, hm'] at e2
  rw [hm, hm']
  linear_combination -e2

theorem h_from_right {i j : Nat} (hi : i < G.N) (hj : j < G.N) (h : G.rp i = G.rp j) : ∃ m : ℝ, ∀ u, G.h i u - G.h j u = m * (u - G.b i) := by
  obtain ⟨m, c, hm⟩ := G.h_linear i
  obtain ⟨m', c', hm'⟩ := G.h_linear j
  refine ⟨m - m', fun u => ?_⟩
  have e1 := G.h_right hi
  have e2 := G.h_right hj
  have : G.b j = G.b i := by unfold b; rw [h]
  rw [this, ← h, ← e1, hm, hm'] at e2
  rw [hm, hm']
  linear_combination -e2

/-- Two left ends at one corner: the lower segment comes first. -/
theorem key_left_left {i j : Nat} (hi : i < G.N) (hj : j < G.N) (hij : i ≠ j) (h : G.lp i = G.lp j) {u : ℝ} (hu : G.a i < u) :
    G.h i u ≠ G.h j u ∧ (G.key (i, .left) < G.key (j, .left) ↔ G.h i u < G.h j u) := by
  obtain ⟨m, hm⟩ := h_from_left (G := G) h
  have hab := G.a_lt_b hi
  have haj : G.a j = G.a i := by unfold a; rw [h]
  have hab' := G.a_lt_b hj
  have hm0 : m ≠ 0 := by
    intro h0
    set z := Min.min (G.b i) (G.b j) with hz
    have hz1 : G.a i < z := lt_min hab (haj ▸ hab')
    have := G.meet hi hj hij (t := (G.a i + z) / 2) (by linarith) (by have := min_le_left (G.b i) (G.b j); linarith) (by linarith)
      (by have := min_le_right (G.b i) (G.b j); linarith) (by have := hm ((G.a i + z) / 2); rw [h0] at this; linarith)
    rcases this.1 with h | h
    · linarith
    · have := min_le_left (G.b i) (G.b j); linarith
  have hne : G.h i u ≠ G.h j u := by
    intro e
    have := hm u
    rw [e, sub_self] at this
    rcases mul_eq_zero.1 this.symm with h | h
    · exact hm0 h
    · linarith
  refine ⟨hne, ?_⟩
  have hs := area_slope (s := G.sg i) (s' := G.sg j) ((G.sg_is i).wf hi) ((G.sg_is j).wf hj) .left (congrArg Pt.x h) (congrArg Pt.y h)
  have ha : triangleSignedArea ((G.sg j).pointAt .left) ((G.sg j).otherPointAt .left) ((G.sg i).otherPointAt .left) = (G.b j - G.a j) * (m * (G.b i - G.a i)) := by
    show triangleSignedArea (G.lp j) (G.rp j) (G.rp i) = _
    rw [G.area_h hj, ← hm]
    rw [G.h_right hi]
    rfl
  rw [ha] at hs
  have hk : G.key (i, .left) < G.key (j, .left) ↔
      (slope ((G.sg i).right_point.x - (G.sg i).left_point.x) ((G.sg i).right_point.y - (G.sg i).left_point.y) <
        slope ((G.sg j).right_point.x - (G.sg j).left_point.x) ((G.sg j).right_point.y - (G.sg j).left_point.y) ∨
      slope ((G.sg i).right_point.x - (G.sg i).left_point.x) ((G.sg i).right_point.y - (G.sg i).left_point.y) =
        slope ((G.sg j).right_point.x - (G.sg j).left_point.x) ((G.sg j).right_point.y - (G.sg j).left_point.y) ∧ G.poly i < G.poly j) := by
    unfold key endKey
    simp only [sg, Prod.Lex.toLex_lt_toLex]
    rw [h]
    simp
  rw [hk, ← compare_lt_iff_lt, ← compare_eq_iff_eq (a := slope _ _), ← hs, compare_lt_iff_lt, compare_eq_iff_eq]
  have p1 : 0 < G.b j - G.a j := by linarith
  have p2 : 0 < G.b i - G.a i := by linarith
  have p3 : 0 < u - G.a i := by linarith
  have e0 : (G.b j - G.a j) * (m * (G.b i - G.a i)) ≠ 0 := mul_ne_zero p1.ne' (mul_ne_zero hm0 p2.ne')
  have : G.h i u < G.h j u ↔ m < 0 := by
    rw [← sub_neg, hm u]
    constructor
    · intro h; by_contra hn; rw [not_lt] at hn; have := mul_nonneg hn p3.le; linarith
    · intro h; exact mul_neg_of_neg_of_pos h p3
  rw [this]
  constructor
  · rintro (h | ⟨h, _⟩)
    · by_contra hn
      rw [not_lt] at hn
      have := mul_nonneg p1.le (mul_nonneg hn p2.le)
      linarith
    · exact absurd h e0
  · intro h
    left
    exact mul_neg_of_pos_of_neg p1 (mul_neg_of_neg_of_pos h p2)

/-- Two right ends at one corner: the upper segment comes first. -/
theorem key_right_right {i j : Nat} (hi : i < G.N) (hj : j < G.N) (hij : i ≠ j) (h : G.rp i = G.rp j) {u : ℝ} (hu : u < G.b i) :
    G.h i u ≠ G.h j u ∧ (G.key (i, .right) < G.key (j, .right) ↔ G.h j u < G.h i u) := by
  obtain ⟨m, hm⟩ := h_from_right (G := G) hi hj h
  have hab := G.a_lt_b hi
  have hbj : G.b j = G.b i := by unfold b; rw [h]
  have hab' := G.a_lt_b hj
  have hm0 : m ≠ 0 := by
    intro h0
    set z := Max.max (G.a i) (G.a j) with hz
    have hz1 : z < G.b i := max_lt hab (hbj ▸ hab')
    have := G.meet hi hj hij (t := (G.b i + z) / 2) (by have := le_max_left (G.a i) (G.a j); linarith) (by linarith)
      (by have := le_max_right (G.a i) (G.a j); linarith) (by linarith) (by have := hm ((G.b i + z) / 2); rw [h0] at this; linarith)
    rcases this.1 with h | h
    · have := le_max_left (G.a i) (G.a j); linarith
    · linarith
  have hne : G.h i u ≠ G.h j u := by
    intro e
    have := hm u
    rw [e, sub_self] at this
    rcases mul_eq_zero.1 this.symm with h | h
    · exact hm0 h
    · linarith
  refine ⟨hne, ?_⟩
  have hs := area_slope (s := G.sg i) (s' := G.sg j) ((G.sg_is i).wf hi) ((G.sg_is j).wf hj) .right (congrArg Pt.x h) (congrArg Pt.y h)
  have ha : triangleSignedArea ((G.sg j).pointAt .right) ((G.sg j).otherPointAt .right) ((G.sg i).otherPointAt .right) =
      (G.b j - G.a j) * (m * (G.b i - G.a i)) := by
    show triangleSignedArea (G.rp j) (G.lp j) (G.lp i) = _
    rw [area_h' hj]
    have := hm (G.a i)
    rw [G.h_left] at this
    have e : G.time (G.lp i) = G.a i := rfl
    rw [e]
    linear_combination -(G.b j - G.a j) * this
  rw [ha] at hs
  have hk : G.key (i, .right) < G.key (j, .right) ↔
      (slope ((G.sg i).right_point.x - (G.sg i).left_point.x) ((G.sg i).right_point.y - (G.sg i).left_point.y) <
        slope ((G.sg j).right_point.x - (G.sg j).left_point.x) ((G.sg j).right_point.y - (G.sg j).left_point.y) ∨
      slope ((G.sg i).right_point.x - (G.sg i).left_point.x) ((G.sg i).right_point.y - (G.sg i).left_point.y) =
        slope ((G.sg j).right_point.x - (G.sg j).left_point.x) ((G.sg j).right_point.y - (G.sg j).left_point.y) ∧ G.poly i < G.poly j) := by
    unfold key endKey
    simp only [sg, Prod.Lex.toLex_lt_toLex]
    rw [h]
    simp
  rw [hk, ← compare_lt_iff_lt, ← compare_eq_iff_eq (a := slope _ _), ← hs, compare_lt_iff_lt, compare_eq_iff_eq]
  have p1 : 0 < G.b j - G.a j := by linarith
  have p2 : 0 < G.b i - G.a i := by linarith
  have p3 : u - G.b i < 0 := by linarith
  have e0 : (G.b j - G.a j) * (m * (G.b i - G.a i)) ≠ 0 := mul_ne_zero p1.ne' (mul_ne_zero hm0 p2.ne')
  have : G.h j u < G.h i u ↔ m < 0 := by
    rw [← sub_pos, hm u]
    constructor
    · intro h; by_contra hn; rw [not_lt] at hn; have := mul_nonpos_of_nonneg_of_nonpos hn p3.le; linarith
    · intro h; exact mul_pos_of_neg_of_neg h p3
  rw [this]
  constructor
  · rintro (h | ⟨h, _⟩)
    · by_contra hn
      rw [not_lt] at hn
      have := mul_nonneg p1.le (mul_nonneg hn p2.le)
      linarith
    · exact absurd h e0
  · intro h
    left
    exact mul_neg_of_pos_of_neg p1 (mul_neg_of_neg_of_pos h p2)

/-- Different endpoints are strictly ordered. -/
theorem key_inj {x y : EndId} (hx : x.1 < G.N) (hy : y.1 < G.N) (h : G.key x = G.key y) : x = y := by
  have hp : G.pt y = G.pt x := by
    by_contra hn
    rcases LeftOf.total hn with h1 | h1 <;> have := key_lt_of_leftOf h1 <;> rw [h] at this <;> exact lt_irrefl _ this
  rcases G.at_corner hx hy hp with e | e
  · exact e.symm
  · exfalso
    have hne : y.1 ≠ x.1 := by rw [e]; exact G.mate_ne hx
    obtain ⟨i, e1⟩ := x
    obtain ⟨j, e2⟩ := y
    cases e1 <;> cases e2
    · obtain ⟨h1, h2⟩ := key_left_left hx hy (Ne.symm hne) hp.symm (lt_add_one (G.a i))
      obtain ⟨h3, h4⟩ := key_left_left hy hx hne hp (lt_add_one (G.a j))
      have ea : G.a j = G.a i := by unfold a; rw [show G.lp j = G.lp i from hp]
      rw [ea] at h4
      rcases lt_or_gt_of_ne h1 with k | k
      · have := h2.2 k; rw [h] at this; exact lt_irrefl _ this
      · have := h4.2 k; rw [h] at this; exact lt_irrefl _ this
    · have := key_right_left (G := G) (i := j) (j := i) hp
      rw [h] at this; exact lt_irrefl _ this
    · have := key_right_left (G := G) (i := i) (j := j) hp.symm
      rw [h] at this; exact lt_irrefl _ this
    · obtain ⟨h1, h2⟩ := key_right_right hx hy (Ne.symm hne) hp.symm (sub_one_lt (G.b i))
      obtain ⟨h3, h4⟩ := key_right_right hy hx hne hp (sub_one_lt (G.b j))
      have ea : G.b j = G.b i := by unfold b; rw [show G.rp j = G.rp i from hp]
      rw [ea] at h4
      rcases lt_or_gt_of_ne h1 with k | k
      · have := h4.2 k; rw [h] at this; exact lt_irrefl _ this
      · have := h2.2 k; rw [h] at this; exact lt_irrefl _ this

/-- The segment comparison, on the arena, at a time when both segments are on the sweep line. -/
theorem segCmp_lt {arena : Arena ℝ} (ha : G.Has arena) {i j : Nat} (hi : i < G.N) (hj : j < G.N) {t : ℝ} (i1 : G.a i < t) (i2 : t < G.b i)
    (j1 : G.a j < t) (j2 : t < G.b j) (h : G.h i t < G.h j t) : arena.segCmp i j = .ok .lt ∧ arena.segCmp j i = .ok .gt := by
  obtain ⟨s, hs, is⟩ := ha.seg i hi
  obtain ⟨s', hs', is'⟩ := ha.seg j hj
  have hij : i ≠ j := by rintro rfl; exact lt_irrefl _ h
  unfold Arena.segCmp index
  rw [hs, hs']
  simp only [Res.bind_ok]
  exact ⟨(cmp_eq hi hj hij is is' i1 i2 j1 j2).1 h, (cmp_eq hj hi (Ne.symm hij) is' is j1 j2 i1 i2).2.1 h⟩

theorem segCmp_self {arena : Arena ℝ} (ha : G.Has arena) {i : Nat} (hi : i < G.N) : arena.segCmp i i = .ok .eq := by
  obtain ⟨s, hs, is⟩ := ha.seg i hi
  unfold Arena.segCmp index
  rw [hs]
  simp only [Res.bind_ok]
  unfold SweepSegment.cmp
  rw [if_pos rfl]

theorem segCmp_ok {arena : Arena ℝ} (ha : G.Has arena) {i j : Nat} (hi : i < G.N) (hj : j < G.N) : ∃ o, arena.segCmp i j = .ok o := by
  by_cases h : i = j
  · subst h
    exact ⟨_, segCmp_self ha hi⟩
  · obtain ⟨s, hs, is⟩ := ha.seg i hi
    obtain ⟨s', hs', is'⟩ := ha.seg j hj
    unfold Arena.segCmp index
    rw [hs, hs']
    simp only [Res.bind_ok]
    obtain ⟨o, ho, _⟩ := cmp_ne_eq (s := s) (s' := s') (by rw [is.index, is'.index]; exact h)
    exact ⟨o, ho⟩

end Net

end Idc
