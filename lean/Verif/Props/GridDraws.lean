import Verif.Props.GridTrace
/-!
# A grid drawn exactly, for C92
-/

namespace Idc

open FloatOps

variable {F : Type} [FloatOps F] [Exact F] {X Y : Set ℤ} {f g : ℤ → ℤ}

theorem gridS_straight {T : Type} {s : SweepSegment ℤ T} (hs : GridS X Y s) (e : SegmentEnd) :
    OnGrid X Y (s.pointAt e) ∧ OnGrid X Y (s.otherPointAt e) ∧ ((s.pointAt e).x = (s.otherPointAt e).x ∨ (s.pointAt e).y = (s.otherPointAt e).y) ∧ s.pointAt e ≠ s.otherPointAt e := by
  have hf := hs.forth
  have hne : s.left_point ≠ s.right_point := by
    intro h; rcases hf with h' | h' <;> rw [h] at h' <;> omega
  cases e
  · exact ⟨hs.left, hs.right, hf.elim (fun h => .inr h.1) (fun h => .inl h.1), hne⟩
  · exact ⟨hs.right, hs.left, hf.elim (fun h => .inr h.1.symm) (fun h => .inl h.1.symm), hne.symm⟩

theorem sign_mul_diff (G : Grid X Y f g) {p q a b : Pt ℤ} (hp : OnGrid X Y p) (hq : OnGrid X Y q) (ha : OnGrid X Y a) (hb : OnGrid X Y b) (h : p.x = q.x ∨ p.y = q.y) (h' : a.x = b.x ∨ a.y = b.y) :
    (zTurn (stretchPt f g p) (stretchPt f g q) (stretchPt f g a) (stretchPt f g b)).sign = (zTurn p q a b).sign := by
  unfold zTurn stretchPt
  have e1 := mono_sign G.monoX hp.1 hq.1
  have e2 := mono_sign G.monoY hp.2 hq.2
  have e3 := mono_sign G.monoX ha.1 hb.1
  have e4 := mono_sign G.monoY ha.2 hb.2
  dsimp only
  rcases h with h | h <;> rcases h' with h' | h' <;> simp only [h, h', sub_self, zero_mul, mul_zero, zero_sub, sub_zero, Int.sign_neg, Int.sign_mul, e1, e2, e3, e4]

theorem sign_dot (G : Grid X Y f g) {p q a b : Pt ℤ} (hp : OnGrid X Y p) (hq : OnGrid X Y q) (ha : OnGrid X Y a) (hb : OnGrid X Y b) (h : p.x = q.x ∨ p.y = q.y) (h' : a.x = b.x ∨ a.y = b.y) :
    (ptDot (stretchPt f g p) (stretchPt f g q) (stretchPt f g a) (stretchPt f g b)).sign = (ptDot p q a b).sign := by
  unfold ptDot stretchPt
  have e1 := mono_sign G.monoX hp.1 hq.1
  have e2 := mono_sign G.monoY hp.2 hq.2
  have e3 := mono_sign G.monoX ha.1 hb.1
  have e4 := mono_sign G.monoY ha.2 hb.2
  dsimp only
  rcases h with h | h <;> rcases h' with h' | h' <;> simp only [h, h', sub_self, zero_mul, mul_zero, zero_add, add_zero, Int.sign_mul, e1, e2, e3, e4]

/-- The length of the first vector. -/
def ptLen (p q : Pt ℤ) : ℤ := |p.x - q.x| + |p.y - q.y|

theorem ex_cosAt {p q a b : Pt ℤ} (h : p.x = q.x ∨ p.y = q.y) (h' : a.x = b.x ∨ a.y = b.y) (hne : a ≠ b) :
    Exact.val (cosAt (asPt F) p q a b) = ((ptLen p q * (ptDot p q a b).sign : ℤ) : ℝ) := by
  have hlen : Exact.val (((asPt F a).sub (asPt F b)).length) = ((ptLen a b : ℤ) : ℝ) := by
    rw [ex_ptSub, Pt.length, ex_sqLength]
    unfold ptLen
    rcases h' with h' | h'
    · simp only [h', sub_self, mul_zero, zero_add, abs_zero, Exact.sqrt]; push_cast; rfl
    · simp only [h', sub_self, mul_zero, add_zero, abs_zero, Exact.sqrt]; push_cast; rfl
  have hpos : 0 < ptLen a b := by
    unfold ptLen
    rcases h' with h' | h'
    · have : a.y ≠ b.y := fun e => hne (by cases a; cases b; simp_all)
      have : 0 < |a.y - b.y| := abs_pos.2 (by omega)
      have := abs_nonneg (a.x - b.x)
      omega
    · have : a.x ≠ b.x := fun e => hne (by cases a; cases b; simp_all)
      have : 0 < |a.x - b.x| := abs_pos.2 (by omega)
      have := abs_nonneg (a.y - b.y)
      omega
  have hprod : ptDot p q a b = ptLen p q * (ptDot p q a b).sign * ptLen a b := by
    have key : ∀ x y : ℤ, x * y = |x| * (x * y).sign * |y| := by
      intro x y
      rw [Int.sign_mul]
      have h1 := Int.sign_mul_abs x
      have h2 := Int.sign_mul_abs y
      calc x * y = (x.sign * |x|) * (y.sign * |y|) := by rw [h1, h2]
        _ = _ := by ring
    unfold ptDot ptLen
    rcases h with h | h <;> rcases h' with h' | h' <;> simp only [h, h', sub_self, zero_mul, mul_zero, zero_add, add_zero, abs_zero, Int.sign_zero]
    · exact key _ _
    · exact key _ _
  unfold cosAt
  rw [Exact.div, hlen, ex_ptSub, ex_ptSub, ex_dot, Exact.ofInt]
  have e : (p.x - q.x) * (a.x - b.x) + (p.y - q.y) * (a.y - b.y) = ptDot p q a b := rfl
  dsimp only
  rw [e, div_eq_iff (by exact_mod_cast hpos.ne')]
  exact_mod_cast hprod

theorem Grid.draws (G : Grid X Y f g) : Draws X Y (place F f g) where
  beq hp hq := by
    unfold place
    rw [ex_beq]
    exact decide_eq_decide.2 (G.inj hp hq)
  before {p q} hp hq := by
    unfold place asPt stretchPt
    dsimp only
    rw [ex_lt, ex_lt, ex_eq]
    have h1 := G.monoX.lt_iff_lt hp.1 hq.1
    have h2 := G.monoY.lt_iff_lt hp.2 hq.2
    have h3 := G.monoX.injOn.eq_iff hp.1 hq.1
    simp only [h1, h2, h3]
    simp
  vertical hp hq := by
    unfold place asPt stretchPt
    dsimp only
    rw [ex_eq]
    exact decide_eq_decide.2 (G.monoX.injOn.eq_iff hp.1 hq.1)
  points hp hq := by
    unfold place asPt stretchPt comparePoints
    dsimp only
    rw [ex_cmp, ex_cmp, mono_compare G.monoX hp.1 hq.1, mono_compare G.monoY hp.2 hq.2]
    rfl
  ends {s t} hs ht e e' := by
    rw [show place F f g = fun p => asPt F (stretchPt f g p) from rfl, ex_endpointCmp]
    obtain ⟨h1, h2, _, _⟩ := gridS_straight hs e
    obtain ⟨h3, h4, h5, _⟩ := gridS_straight ht e'
    rw [G.endCmp h1 h2 h3 h4 h5]
  segs {s t} hs ht := by
    rw [show place F f g = fun p => asPt F (stretchPt f g p) from rfl, ex_segCmp]
    obtain ⟨h1, h2, h5, _⟩ := gridS_straight hs .left
    obtain ⟨h3, h4, h6, _⟩ := gridS_straight ht .left
    rw [G.segCmp hs.left hs.right ht.left ht.right h5 h6]
  meet hs ht := G.intersect hs.left hs.right ht.left ht.right hs.forth ht.forth
  turn {s t} hs ht d e := by
    obtain ⟨h1, h2, h5, _⟩ := gridS_straight hs d
    obtain ⟨h3, h4, h6, _⟩ := gridS_straight ht e
    unfold place
    rw [ex_ptSub, ex_ptSub, ex_cross, ex_lt]
    exact decide_eq_decide.2 (pos_of_sign (sign_mul_diff G h2 h1 h4 h3 (h5.imp Eq.symm Eq.symm) (h6.imp Eq.symm Eq.symm)))
  cos {s t u} hs ht hu d e e' := by
    obtain ⟨h1, h2, h3, h4⟩ := gridS_straight hs d
    obtain ⟨i1, i2, i3, i4⟩ := gridS_straight ht e
    obtain ⟨j1, j2, j3, j4⟩ := gridS_straight hu e'
    have st : ∀ {a b : Pt ℤ}, (a.x = b.x ∨ a.y = b.y) → ((stretchPt f g b).x = (stretchPt f g a).x ∨ (stretchPt f g b).y = (stretchPt f g a).y) := fun h => h.imp (fun h => by simp [stretchPt, h]) (fun h => by simp [stretchPt, h])
    have cc : ∀ p q a b, cosAt (place F f g) p q a b = cosAt (asPt F) (stretchPt f g p) (stretchPt f g q) (stretchPt f g a) (stretchPt f g b) := fun _ _ _ _ => rfl
    rw [cc, cc, Exact.lt, ex_cosAt (st h3) (st i3) (fun h => i4 ((G.inj i2 i1).1 h).symm), ex_cosAt (st h3) (st j3) (fun h => j4 ((G.inj j2 j1).1 h).symm),
      sign_dot G h2 h1 i2 i1 (h3.imp Eq.symm Eq.symm) (i3.imp Eq.symm Eq.symm), sign_dot G h2 h1 j2 j1 (h3.imp Eq.symm Eq.symm) (j3.imp Eq.symm Eq.symm)]
    refine decide_eq_decide.2 ?_
    have hpos : 0 < ptLen (stretchPt f g (s.otherPointAt d)) (stretchPt f g (s.pointAt d)) := by
      have hne := fun h => h4 ((G.inj h2 h1).1 h).symm
      unfold ptLen
      generalize stretchPt f g (s.otherPointAt d) = a at *
      generalize stretchPt f g (s.pointAt d) = b at *
      by_contra hc
      apply hne
      have x1 := abs_nonneg (a.x - b.x)
      have x2 := abs_nonneg (a.y - b.y)
      have y1 : a.x - b.x = 0 := abs_eq_zero.1 (by omega)
      have y2 : a.y - b.y = 0 := abs_eq_zero.1 (by omega)
      cases a; cases b
      dsimp only at y1 y2
      rw [sub_eq_zero.1 y1, sub_eq_zero.1 y2]
    rw [Int.cast_lt]
    exact mul_lt_mul_iff_right₀ hpos

end Idc
