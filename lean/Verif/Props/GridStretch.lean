import Verif.Props.GridMeet
/-!
# Only the order of the coordinates matters on a grid, for C92
-/

namespace Idc

open FloatOps

theorem mono_compare {f : ℤ → ℤ} {X : Set ℤ} (h : StrictMonoOn f X) {a b : ℤ} (ha : a ∈ X) (hb : b ∈ X) : compare (f a) (f b) = compare a b := by
  rcases lt_trichotomy a b with c | c | c
  · rw [compare_lt_iff_lt.2 c, compare_lt_iff_lt.2 (h ha hb c)]
  · rw [c]; simp
  · rw [compare_gt_iff_gt.2 c, compare_gt_iff_gt.2 (h hb ha c)]

theorem mono_sign {f : ℤ → ℤ} {X : Set ℤ} (h : StrictMonoOn f X) {a b : ℤ} (ha : a ∈ X) (hb : b ∈ X) : (f a - f b).sign = (a - b).sign := by
  rcases lt_trichotomy a b with c | c | c
  · rw [Int.sign_eq_neg_one_of_neg (a := a - b) (by omega), Int.sign_eq_neg_one_of_neg (a := f a - f b) (by have := h ha hb c; omega)]
  · rw [c]; simp
  · rw [Int.sign_eq_one_of_pos (a := a - b) (by omega), Int.sign_eq_one_of_pos (a := f a - f b) (by have := h hb ha c; omega)]

theorem compare_of_sign {a b : ℤ} (h : a.sign = b.sign) : compare a 0 = compare b 0 := by
  rcases lt_trichotomy b 0 with c | c | c
  · rw [Int.sign_eq_neg_one_of_neg c] at h
    rw [compare_lt_iff_lt.2 c, compare_lt_iff_lt.2 (Int.sign_eq_neg_one_iff_neg.1 h)]
  · rw [c] at h ⊢
    rw [Int.sign_zero, Int.sign_eq_zero_iff_zero] at h
    rw [h]
  · rw [Int.sign_eq_one_of_pos c] at h
    rw [compare_gt_iff_gt.2 c, compare_gt_iff_gt.2 (Int.sign_eq_one_iff_pos.1 h)]

theorem zero_of_sign {a b : ℤ} (h : a.sign = b.sign) : a = 0 ↔ b = 0 := by rw [← Int.sign_eq_zero_iff_zero, h, Int.sign_eq_zero_iff_zero]
theorem pos_of_sign {a b : ℤ} (h : a.sign = b.sign) : 0 < a ↔ 0 < b := by rw [← Int.sign_eq_one_iff_pos, h, Int.sign_eq_one_iff_pos]

section

variable {X Y : Set ℤ} {f g : ℤ → ℤ}

theorem Grid.inj (G : Grid X Y f g) {p q : Pt ℤ} (hp : OnGrid X Y p) (hq : OnGrid X Y q) : stretchPt f g p = stretchPt f g q ↔ p = q := by
  cases p; cases q
  simp only [stretchPt, Pt.mk.injEq]
  rw [G.monoX.injOn.eq_iff hp.1 hq.1, G.monoY.injOn.eq_iff hp.2 hq.2]

theorem Grid.sign_area (G : Grid X Y f g) {a b c : Pt ℤ} (ha : OnGrid X Y a) (hb : OnGrid X Y b) (hc : OnGrid X Y c) (h : a.x = b.x ∨ a.y = b.y) :
    (ptArea (stretchPt f g a) (stretchPt f g b) (stretchPt f g c)).sign = (ptArea a b c).sign := by
  have sx := mono_sign G.monoX ha.1 hc.1
  have sy := mono_sign G.monoY ha.2 hc.2
  have s1 := mono_sign G.monoX ha.1 hb.1
  have s2 := mono_sign G.monoY hb.2 ha.2
  unfold ptArea stretchPt
  rcases h with h | h
  · have e : ∀ u v w w' : ℤ, (u - w) * (v - w') - (u - w) * (a.y - w') = (u - w) * (v - a.y) := fun _ _ _ _ => by ring
    have e' : ∀ u v w w' z : ℤ, (u - w) * (v - w') - (u - w) * (z - w') = (u - w) * (v - z) := fun _ _ _ _ _ => by ring
    rw [← h, e', e', Int.sign_mul, Int.sign_mul, sx, s2]
  · have e' : ∀ u v w w' z : ℤ, (u - w) * (z - w') - (v - w) * (z - w') = (u - v) * (z - w') := fun _ _ _ _ _ => by ring
    rw [← h, e', e', Int.sign_mul, Int.sign_mul, s1, sy]

theorem Grid.endCmp (G : Grid X Y f g) {p o p' o' : Pt ℤ} (hp : OnGrid X Y p) (ho : OnGrid X Y o) (hp' : OnGrid X Y p') (ho' : OnGrid X Y o') (h : p'.x = o'.x ∨ p'.y = o'.y)
    (e e' : SegmentEnd) (k k' : ℕ) : ptEndCmp (stretchPt f g p) (stretchPt f g o) e k (stretchPt f g p') (stretchPt f g o') e' k' = ptEndCmp p o e k p' o' e' k' := by
  unfold ptEndCmp
  rw [compare_of_sign (G.sign_area hp' ho' ho h)]
  simp only [stretchPt]
  rw [mono_compare G.monoX hp.1 hp'.1, mono_compare G.monoY hp.2 hp'.2]

theorem Grid.segCmp (G : Grid X Y f g) {a b a' b' : Pt ℤ} (ha : OnGrid X Y a) (hb : OnGrid X Y b) (ha' : OnGrid X Y a') (hb' : OnGrid X Y b') (h : a.x = b.x ∨ a.y = b.y)
    (h' : a'.x = b'.x ∨ a'.y = b'.y) (i k i' k' : ℕ) :
    ptSegCmp i k (stretchPt f g a) (stretchPt f g b) i' k' (stretchPt f g a') (stretchPt f g b') = ptSegCmp i k a b i' k' a' b' := by
  unfold ptSegCmp
  simp only [zero_of_sign (G.sign_area ha hb ha' h), zero_of_sign (G.sign_area ha hb hb' h), pos_of_sign (G.sign_area ha hb ha' h), pos_of_sign (G.sign_area ha hb hb' h),
    pos_of_sign (G.sign_area ha' hb' ha h'), G.inj ha ha', G.endCmp ha hb ha' hb' h', G.endCmp ha' hb' ha hb h]

/-- The outcome, stretched. -/
def ZMeet.stretch (f g : ℤ → ℤ) : ZMeet → ZMeet
  | .none => .none
  | .point z => .point (stretchPt f g z)
  | .segment => .segment

theorem spanMeet_mono {f : ℤ → ℤ} {X : Set ℤ} (h : StrictMonoOn f X) {a b a' b' : ℤ} (ha : a ∈ X) (hb : b ∈ X) (ha' : a' ∈ X) (hb' : b' ∈ X) (i j : ℤ → ℤ) (p q : Pt ℤ) :
    spanMeet (f a) (f b) (f a') (f b') (stretchPt i j p) (stretchPt i j q) = (spanMeet a b a' b' p q).stretch i j := by
  unfold spanMeet
  simp only [h.lt_iff_lt hb ha', h.lt_iff_lt hb' ha, h.injOn.eq_iff hb ha', h.injOn.eq_iff hb' ha]
  split_ifs <;> rfl

theorem Grid.meet (G : Grid X Y f g) {a b a' b' : Pt ℤ} (ha : OnGrid X Y a) (hb : OnGrid X Y b) (ha' : OnGrid X Y a') (hb' : OnGrid X Y b') :
    zMeet (stretchPt f g a) (stretchPt f g b) (stretchPt f g a') (stretchPt f g b') = (zMeet a b a' b').stretch f g := by
  unfold zMeet
  have ux := spanMeet_mono G.monoX ha.1 hb.1 ha'.1 hb'.1 f g a b
  have uy := spanMeet_mono G.monoY ha.2 hb.2 ha'.2 hb'.2 f g a b
  simp only [show ∀ p, (stretchPt f g p).x = f p.x from fun _ => rfl, show ∀ p, (stretchPt f g p).y = g p.y from fun _ => rfl, ux, uy,
    G.monoY.injOn.eq_iff ha.2 hb.2, G.monoY.injOn.eq_iff ha'.2 hb'.2, G.monoY.injOn.eq_iff ha.2 ha'.2, G.monoX.injOn.eq_iff ha.1 ha'.1,
    G.monoX.le_iff_le ha.1 ha'.1, G.monoX.le_iff_le ha'.1 hb.1, G.monoY.le_iff_le ha'.2 ha.2, G.monoY.le_iff_le ha.2 hb'.2,
    G.monoX.le_iff_le ha'.1 ha.1, G.monoX.le_iff_le ha.1 hb'.1, G.monoY.le_iff_le ha.2 ha'.2, G.monoY.le_iff_le ha'.2 hb.2]
  split_ifs <;> rfl

theorem Grid.forth (G : Grid X Y f g) {a b : Pt ℤ} (ha : OnGrid X Y a) (hb : OnGrid X Y b) (h : Forth a b) : Forth (stretchPt f g a) (stretchPt f g b) := by
  rcases h with ⟨e, l⟩ | ⟨e, l⟩
  · exact Or.inl ⟨congrArg g e, G.monoX ha.1 hb.1 l⟩
  · exact Or.inr ⟨congrArg f e, G.monoY ha.2 hb.2 l⟩

/-- Where two segments meet is on the grid. -/
theorem meet_onGrid {a b a' b' z : Pt ℤ} (ha : OnGrid X Y a) (hb : OnGrid X Y b) (ha' : OnGrid X Y a') (h : zMeet a b a' b' = .point z) : OnGrid X Y z := by
  unfold zMeet spanMeet at h
  split_ifs at h <;> first | (cases h; done) | (cases h; first | exact ha | exact hb | exact ⟨ha'.1, ha.2⟩ | exact ⟨ha.1, ha'.2⟩)

/-- It is on both. -/
theorem meet_on {a b a' b' z : Pt ℤ} (hf : Forth a b) (hf' : Forth a' b') (h : zMeet a b a' b' = .point z) :
    (a.x ≤ z.x ∧ z.x ≤ b.x ∧ a.y ≤ z.y ∧ z.y ≤ b.y) ∧ (a'.x ≤ z.x ∧ z.x ≤ b'.x ∧ a'.y ≤ z.y ∧ z.y ≤ b'.y) := by
  unfold Forth at hf hf'
  unfold zMeet spanMeet at h
  split_ifs at h <;> first | (cases h; done) | (cases h; (try dsimp only); omega)

end

section

variable {F : Type} [FloatOps F] [Exact F] {X Y : Set ℤ} {f g : ℤ → ℤ}

/-- Where the points are drawn. -/
def place (F : Type) [FloatOps F] (f g : ℤ → ℤ) (p : Pt ℤ) : Pt F := asPt F (stretchPt f g p)

theorem Grid.intersect (G : Grid X Y f g) {a b a' b' : Pt ℤ} (ha : OnGrid X Y a) (hb : OnGrid X Y b) (ha' : OnGrid X Y a') (hb' : OnGrid X Y b') (h : Forth a b) (h' : Forth a' b') :
    (zMeet a b a' b').Is (place F f g) (intersectSegments (place F f g a, place F f g b) (place F f g a', place F f g b')) := by
  have := ex_meet (F := F) (G.forth ha hb h) (G.forth ha' hb' h')
    (fun hne => by
      have hne : a.x ≠ a'.x := fun e => hne (congrArg f e)
      exact G.apartX _ ha'.1 _ ha.1 hne.symm _ ha'.2 _ ha.2)
    (fun hne => by
      have hne : a.y ≠ a'.y := fun e => hne (congrArg g e)
      exact G.apartY _ ha'.1 _ ha.1 _ ha'.2 _ ha.2 hne.symm)
  rw [G.meet ha hb ha' hb'] at this
  cases hz : zMeet a b a' b' <;> rw [hz] at this <;> exact this

end

end Idc
