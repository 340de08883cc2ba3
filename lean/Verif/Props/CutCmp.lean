import Verif.Props.CutGeom
/-!
# Segments made up of several pieces: comparisons and intersections, for C84
-/

namespace Idc

namespace Cut

open Plan

/-- Two segments that have only ends in common meet nowhere, or in a common end. -/
theorem intersect_apart {P Q P' Q' : Pt ℝ} (hw : ∀ q, EndOf (P, Q) q → (Steady q.x ∧ Steady q.y) ∧ ∀ e ∈ [P, Q, P', Q'], q = e ∨ 1 / 10 ^ 15 ≤ (q.x - e.x) ^ 2 + (q.y - e.y) ^ 2) (hd : P ≠ Q)
    (hap : ∀ q, CommonPoint (P, Q) (P', Q') q → EndOf (P, Q) q ∧ EndOf (P', Q') q)
    (hang : ParallelEdges (P, Q) (P', Q') ∨ ¬ NearlyParallel (P, Q) (P', Q'))
    (hdist : ParallelEdges (P, Q) (P', Q') → OnLine (P, Q) P' ∨ ClearlyOff (P, Q) P P') :
    intersectSegments (P, Q) (P', Q') = .none ∨
    ∃ p, intersectSegments (P, Q) (P', Q') = .point p ∧ EndOf (P, Q) p ∧ EndOf (P', Q') p := by
  have hne := hd
  rcases hang with hpar | hnp
  · rcases hdist hpar with hon | hoff
    · -- on one line
      have hon2 : OnLine (P, Q) (Q') := by
        unfold OnLine ParallelEdges at *
        dsimp only at *
        linear_combination hon - hpar
      obtain ⟨u, hu⟩ : ∃ u, P' = linePt (P, Q) u := ⟨_, onLine_pos hne hon⟩
      obtain ⟨v, hv⟩ : ∃ v, Q' = linePt (P, Q) v := ⟨_, onLine_pos hne hon2⟩
      have hcol := intersect_collinear (P, Q) hne u v
      rw [← hu, ← hv] at hcol
      have hc := C67_collinear (P, Q) (P', Q') hne hon hon2
      rw [hcol] at hc ⊢
      split
      · exact Or.inl rfl
      · rename_i hn
        split
        · rename_i he
          right
          rw [if_neg hn, if_pos he] at hc
          refine ⟨_, rfl, ?_⟩
          set q := linePt (P, Q) (Max.max 0 (Min.min u v)) with hq
          -- the common point is an end of both
          have hcom : CommonPoint (P, Q) (P', Q') q := by
            push Not at hn
            refine ⟨?_, ?_⟩
            · rw [seg_linePt (P, Q), onSegment_linePt]
              refine ⟨_, ?_, ?_, hq⟩
              · rw [min_eq_left zero_le_one]; exact le_max_left _ _
              · rw [max_eq_right zero_le_one]; exact max_le zero_le_one hn.1
            · rw [hu, hv, onSegment_linePt]
              refine ⟨_, le_max_right _ _, ?_, hq⟩
              exact max_le hn.2 min_le_max
          have := hap _ hcom
          rw [snap_spaced (hw q this.1).2]
          exact this
        · -- more than one common point: impossible
          exfalso
          rename_i he
          rw [if_neg hn, if_neg he] at hc
          obtain ⟨p, hpe, hcp, _⟩ := hc
          set e := linePt (P, Q) (Min.min 1 (Max.max u v)) with hedef
          have c1 := (hcp p).2 (Net.onSegment_left (p, e))
          have c2 := (hcp e).2 (Net.onSegment_right (p, e))
          -- the midpoint of the common part
          have c3 := (hcp ⟨p.x + 1 / 2 * (e.x - p.x), p.y + 1 / 2 * (e.y - p.y)⟩).2 ⟨1 / 2, by norm_num, by norm_num, rfl, rfl⟩
          have k1 := (hap _ c1).1
          have k2 := (hap _ c2).1
          have k3 := (hap _ c3).1
          have ne1 : (⟨p.x + 1 / 2 * (e.x - p.x), p.y + 1 / 2 * (e.y - p.y)⟩ : Pt ℝ) ≠ p := by
            intro h
            apply hpe
            have hx := congrArg Pt.x h
            have hy := congrArg Pt.y h
            dsimp only at hx hy
            exact pt_ext (by linarith) (by linarith)
          have ne2 : (⟨p.x + 1 / 2 * (e.x - p.x), p.y + 1 / 2 * (e.y - p.y)⟩ : Pt ℝ) ≠ e := by
            intro h
            apply hpe
            have hx := congrArg Pt.x h
            have hy := congrArg Pt.y h
            dsimp only at hx hy
            exact pt_ext (by linarith) (by linarith)
          rcases k1 with k1 | k1 <;> rcases k2 with k2 | k2 <;> rcases k3 with k3 | k3
          · exact ne1 (k3.trans k1.symm)
          · exact hpe (k1.trans k2.symm)
          · exact ne1 (k3.trans k1.symm)
          · exact ne2 (k3.trans k2.symm)
          · exact ne2 (k3.trans k2.symm)
          · exact ne1 (k3.trans k1.symm)
          · exact hpe (k1.trans k2.symm)
          · exact hpe (k1.trans k2.symm)
    · -- parallel, apart
      left
      unfold intersectSegments
      simp only [real_lt, Pt.sub, Pt.cross, Pt.sqLength, sqrEpsilon, FloatOps.lit, FloatOps.add, FloatOps.mul, FloatOps.sub, decide_eq_true_eq]
      rw [if_neg, if_pos]
      · unfold ClearlyOff at hoff
        dsimp only at hoff
        push_cast
        nlinarith [hoff]
      · rw [not_lt]
        have h0 : ((Q).x - (P).x) * ((Q').y - (P').y) - ((Q).y - (P).y) * ((Q').x - (P').x) = 0 := by
          unfold ParallelEdges at hpar
          dsimp only at hpar
          linarith
        rw [h0, mul_zero]
        push_cast
        have m1 := mul_self_nonneg ((Q).x - (P).x)
        have m2 := mul_self_nonneg ((Q).y - (P).y)
        have m3 := mul_self_nonneg ((Q').x - (P').x)
        have m4 := mul_self_nonneg ((Q').y - (P').y)
        exact mul_nonneg (mul_nonneg (by norm_num) (by linarith)) (by linarith)
  · -- an angle
    by_cases hcp : ∃ p, CommonPoint (P, Q) (P', Q') p
    · right
      obtain ⟨p, hp⟩ := hcp
      have he := hap _ hp
      exact ⟨p, C67_steady_point _ _ hnp p hp (hw p he.1).2 (hw p he.1).1, he⟩
    · left
      exact (C67_none_iff_partial _ _ hnp).2 fun p hp => hcp ⟨p, hp⟩


variable {G : Plan} {C : Cut G}

/-- A segment that extends over the pieces from `k` to `l`. -/
structure Seg {T : Type} (G : Plan) (k l i : ℕ) (s : SweepSegment ℝ T) : Prop where
  left : s.left_point = G.lp k
  right : s.right_point = G.rp l
  index : s.index = i
  order : s.order = G.poly k

theorem Run.spaced {k l k' l' : ℕ} (h : C.Run k l) (h' : C.Run k' l') {p : Pt ℝ} (hp : ∃ j ∈ G.S, EndOf (G.lp j, G.rp j) p) :
    ∀ e ∈ [G.lp k, G.rp l, G.lp k', G.rp l'], p = e ∨ 1 / 10 ^ 15 ≤ (p.x - e.x) ^ 2 + (p.y - e.y) ^ 2 := by
  intro e he
  simp only [List.mem_cons, List.not_mem_nil, or_false] at he
  refine G.sep.spaced p e hp ?_
  rcases he with rfl | rfl | rfl | rfl
  exacts [⟨k, h.left, Or.inl rfl⟩, ⟨l, h.right, Or.inr rfl⟩, ⟨k', h'.left, Or.inl rfl⟩, ⟨l', h'.right, Or.inr rfl⟩]

theorem Run.steady {k l k' l' : ℕ} (h : C.Run k l) (h' : C.Run k' l') (q : Pt ℝ) (hq : EndOf (G.lp k, G.rp l) q) :
    (Steady q.x ∧ Steady q.y) ∧ ∀ e ∈ [G.lp k, G.rp l, G.lp k', G.rp l'], q = e ∨ 1 / 10 ^ 15 ≤ (q.x - e.x) ^ 2 + (q.y - e.y) ^ 2 := by
  have : ∃ j ∈ G.S, EndOf (G.lp j, G.rp j) q := by
    rcases hq with rfl | rfl
    exacts [⟨k, h.left, Or.inl rfl⟩, ⟨l, h.right, Or.inr rfl⟩]
  exact ⟨G.sep.steady q this, h.spaced h' this⟩

theorem Run.clear {k l : ℕ} (h : C.Run k l) {p : Pt ℝ} (hp : ∃ j ∈ G.S, EndOf (G.lp j, G.rp j) p) :
    triangleSignedArea (G.lp k) (G.rp l) p = 0 ∨ 1 / 10 ^ 7 < |triangleSignedArea (G.lp k) (G.rp l) p| := by
  obtain ⟨r, hr, hx, hy⟩ := h.dir
  have h1 : 1 ≤ r := by
    have e1 : G.b l - G.a k = r * (G.b k - G.a k) := by
      unfold Plan.a Plan.b Plan.time shearX
      linear_combination hx + G.eps * hy
    have h2 := h.b_le
    have h3 := G.a_lt_b h.left
    by_contra hc
    nlinarith
  have e : ∀ q : Pt ℝ, triangleSignedArea (G.lp k) q p = (q.x - (G.lp k).x) * (p.y - (G.lp k).y) - (q.y - (G.lp k).y) * (p.x - (G.lp k).x) := by
    intro q
    simp only [triangleSignedArea, FloatOps.sub, FloatOps.mul]
    ring
  have e' : triangleSignedArea (G.lp k) (G.rp l) p = r * triangleSignedArea (G.lp k) (G.rp k) p := by
    rw [e, e, hx, hy]
    ring
  rw [e']
  rcases area_clear (G.sep.clear _ _ ⟨k, h.left, rfl⟩ hp) with h0 | h0
  · exact Or.inl (by rw [h0, mul_zero])
  · right
    rw [abs_mul, abs_of_pos hr]
    nlinarith

theorem Seg.wf {T : Type} {k l i : ℕ} (h : C.Run k l) {s : SweepSegment ℝ T} (hs : Seg G k l i s) : s.WellFormed := by
  unfold SweepSegment.WellFormed
  rw [hs.left, hs.right]
  exact h.leftOf

theorem slope_scale {r x y : ℝ} (hr : 0 < r) : slope (r * x) (r * y) = slope x y := by
  unfold slope
  by_cases h : x = 0
  · simp [h]
  · rw [if_neg h, if_neg (mul_ne_zero hr.ne' h), mul_div_mul_left _ _ hr.ne']

theorem Seg.key_left {T : Type} {k l i : ℕ} (h : C.Run k l) {s : SweepSegment ℝ T} (hs : Seg G k l i s) : endKey (s, .left) = G.key (k, .left) := by
  obtain ⟨r, hr, hx, hy⟩ := h.dir
  unfold Plan.key endKey
  dsimp only
  rw [hs.left, hs.right, hs.order, hx, hy, slope_scale hr]
  rfl

theorem Seg.key_right {T : Type} {k l i : ℕ} (h : C.Run k l) {s : SweepSegment ℝ T} (hs : Seg G k l i s) : endKey (s, .right) = G.key (l, .right) := by
  obtain ⟨r, hr, hx, hy⟩ := h.dir'
  unfold Plan.key endKey
  dsimp only
  rw [hs.left, hs.right, hs.order, hx, hy, slope_scale hr, C.poly k h.left l h.right h.own]
  rfl

theorem Seg.vertical {T : Type} {k l i : ℕ} (h : C.Run k l) {s : SweepSegment ℝ T} (hs : Seg G k l i s) : s.vertical = decide ((G.lp k).x = (G.rp k).x) := by
  obtain ⟨r, hr, hx, hy⟩ := h.dir
  unfold SweepSegment.vertical
  rw [hs.left, hs.right]
  show decide _ = _
  rw [decide_eq_decide]
  constructor
  · intro e
    rw [← e, sub_self] at hx
    have := (mul_eq_zero.1 hx.symm).resolve_left hr.ne'
    linarith
  · intro e
    rw [← e, sub_self, mul_zero] at hx
    linarith

/-- Two segments compare like the heights of their first pieces, while these are on the sweep line. -/
theorem Seg.cmp_eq {T : Type} {k l i k' l' i' : ℕ} (h : C.Run k l) (h' : C.Run k' l') (hij : ¬ G.Same k k') {s s' : SweepSegment ℝ T} (hs : Seg G k l i s)
    (hs' : Seg G k' l' i' s') (hii : i ≠ i') {t : ℝ} (i1 : G.a k < t) (i2 : t < G.b k) (j1 : G.a k' < t) (j2 : t < G.b k') :
    (G.h k t < G.h k' t → s.cmp s' = .ok .lt) ∧ (G.h k' t < G.h k t → s.cmp s' = .ok .gt) ∧ G.h k t ≠ G.h k' t := by
  have hl : (shearSeg G.eps s).left_point = shearPt G.eps (G.lp k) := by rw [← hs.left]; rfl
  have hr : (shearSeg G.eps s).right_point = shearPt G.eps (G.rp l) := by rw [← hs.right]; rfl
  have hl' : (shearSeg G.eps s').left_point = shearPt G.eps (G.lp k') := by rw [← hs'.left]; rfl
  have hr' : (shearSeg G.eps s').right_point = shearPt G.eps (G.rp l') := by rw [← hs'.right]; rfl
  have hgt : ∀ {k l i : ℕ} {s : SweepSegment ℝ T}, C.Run k l → Seg G k l i s → ∀ z, (shearSeg G.eps s).heightAt z = G.h k z := by
    intro k l i s h hs z
    have hl : (shearSeg G.eps s).left_point = shearPt G.eps (G.lp k) := by rw [← hs.left]; rfl
    have hr : (shearSeg G.eps s).right_point = shearPt G.eps (G.rp l) := by rw [← hs.right]; rfl
    unfold SweepSegment.heightAt
    rw [hl, hr]
    obtain ⟨m, c, hm⟩ := G.h_linear k
    have e1 : (G.lp k).y = m * G.a k + c := by rw [← hm, G.h_left]
    have e2 : (G.rp l).y = m * G.b l + c := by rw [← hm, C.line k h.left l h.right h.own, G.h_right h.right]
    have := h.lt
    show (G.lp k).y + (z - G.a k) * (((G.rp l).y - (G.lp k).y) / (G.b l - G.a k)) = _
    rw [hm, e1, e2]
    have hd : G.b l - G.a k ≠ 0 := by linarith
    field_simp
    ring
  have hh := hgt h hs
  have hh' := hgt h' hs'
  have hne : G.h k t ≠ G.h k' t := by
    intro e
    rcases (G.meet h.left h'.left hij i1.le i2.le j1.le j2.le e).1 with h | h <;> linarith
  have clear : ∀ {k l i k' l' i' : ℕ} {s s' : SweepSegment ℝ T}, C.Run k l → C.Run k' l' → Seg G k l i s → Seg G k' l' i' s' →
      ClearOf (shearSeg G.eps s) (shearSeg G.eps s') := by
    intro k l i k' l' i' s s' h h' hs hs' p hp
    have : ∃ p0, (∃ j ∈ G.S, EndOf (G.lp j, G.rp j) p0) ∧ p = shearPt G.eps p0 := by
      simp only [List.mem_cons, List.not_mem_nil, or_false] at hp
      rcases hp with rfl | rfl
      · exact ⟨G.lp k', ⟨k', h'.left, Or.inl rfl⟩, by rw [← hs'.left]; rfl⟩
      · exact ⟨G.rp l', ⟨l', h'.right, Or.inr rfl⟩, by rw [← hs'.right]; rfl⟩
    obtain ⟨p0, hw, rfl⟩ := this
    dsimp only
    rw [← area_formula (shearSeg G.eps s)]
    rw [show triangleSignedArea (shearSeg G.eps s).left_point (shearSeg G.eps s).right_point (shearPt G.eps p0) =
      triangleSignedArea (shearPt G.eps s.left_point) (shearPt G.eps s.right_point) (shearPt G.eps p0) from rfl, shear_area, hs.left, hs.right]
    exact h.clear hw
  have hap : ApartUpTo t (shearSeg G.eps s) (shearSeg G.eps s') := by
    intro x h1 h2 h3 h4
    rw [hl] at h1
    rw [hl'] at h2
    rw [hh, hh'] at h4
    have h1 : G.a k ≤ x := h1
    have h2 : G.a k' ≤ x := h2
    have := G.meet h.left h'.left hij h1 (by linarith) h2 (by linarith) h4
    have e1 : x = G.a k := by rcases this.1 with h | h <;> [exact h; linarith]
    have e2 : x = G.a k' := by rcases this.2 with h | h <;> [exact h; linarith]
    have : G.pt (k, .left) = G.pt (k', .left) := G.time_inj (x := (k, .left)) (y := (k', .left)) h.left h'.left (by
      show G.a k = G.a k'
      rw [← e1, ← e2])
    refine ⟨?_, ?_⟩
    · rw [hl, hl']
      exact congrArg _ this
    · rw [hl]
      exact e1
  have main := C68_order_partial t (shearSeg G.eps s) (shearSeg G.eps s') (by
    show s.index ≠ s'.index
    rw [hs.index, hs'.index]; exact hii) ⟨by rw [hl]; exact i1, by rw [hr]; exact i2.le.trans h.b_le⟩ ⟨by rw [hl']; exact j1, by rw [hr']; exact j2.le.trans h'.b_le⟩
    (clear h h' hs hs') (clear h' h hs' hs) hap
  rw [cmp_shear G.eps] at main
  · rw [hh, hh'] at main
    refine ⟨fun h => ?_, fun h => ?_, hne⟩
    · rw [main, if_pos h]
    · rw [main, if_neg (by linarith)]
  · intro hlo
    rw [hs.left, hs'.left] at hlo ⊢
    exact G.time_lt (x := (k, .left)) (y := (k', .left)) h.left h'.left hlo
  · intro hlo
    rw [hs.left, hs'.left] at hlo ⊢
    exact G.time_lt (x := (k', .left)) (y := (k, .left)) h'.left h.left hlo

/-- Of two runs that start with pieces that coincide, only one goes on. -/
theorem Run.eq_of_same {k l k' l' : ℕ} (h : C.Run k l) (h' : C.Run k' l') (hne : k ≠ k') (hs : G.Same k k') : l = k ∨ l' = k' := by
  by_contra hn
  push Not at hn
  obtain ⟨m, hj, _⟩ := exists_next h hn.1.symm
  obtain ⟨m', hj', _⟩ := exists_next h' hn.2.symm
  exact hj.not_same hj' hne hs

/-- Ends of runs along one line. -/
theorem Run.area_zero {k l k' : ℕ} (h : C.Run k l) (hh : ∀ t, G.h k t = G.h k' t) {p : Pt ℝ} (hp : p.y = G.h k' (G.time p)) :
    triangleSignedArea (G.lp k) (G.rp l) p = 0 := by
  obtain ⟨m, c, hm⟩ := G.h_linear k
  have e1 : (G.lp k).y = m * G.a k + c := by rw [← hm, G.h_left]
  have e2 : (G.rp l).y = m * G.b l + c := by rw [← hm, C.line k h.left l h.right h.own, G.h_right h.right]
  have e3 : p.y = m * G.time p + c := by rw [hp, ← hh, hm]
  have x1 : (G.lp k).x = G.a k - G.eps * (G.lp k).y := by unfold Plan.a Plan.time shearX; ring
  have x2 : (G.rp l).x = G.b l - G.eps * (G.rp l).y := by unfold Plan.b Plan.time shearX; ring
  have x3 : p.x = G.time p - G.eps * p.y := by unfold Plan.time shearX; ring
  simp only [triangleSignedArea, FloatOps.sub, FloatOps.mul]
  rw [x1, x2, x3, e1, e2, e3]
  ring

/-- Segments along one line compare like their polygons. -/
theorem Seg.cmp_line {T : Type} {k l i k' l' i' : ℕ} (h : C.Run k l) (h' : C.Run k' l') {s s' : SweepSegment ℝ T} (hs : Seg G k l i s)
    (hs' : Seg G k' l' i' s') (hii : i ≠ i') (hh : ∀ t, G.h k t = G.h k' t) (hp : G.poly k ≠ G.poly k') :
    s.cmp s' = .ok (compare (G.poly k) (G.poly k')) := by
  have e1 : triangleSignedArea s.left_point s.right_point s'.left_point = 0 := by
    rw [hs.left, hs.right, hs'.left]
    exact h.area_zero hh (by show _ = G.h k' (G.a k'); rw [G.h_left])
  have e2 : triangleSignedArea s.left_point s.right_point s'.right_point = 0 := by
    rw [hs.left, hs.right, hs'.right]
    exact h.area_zero hh (by show _ = G.h k' (G.b l'); rw [C.line k' h'.left l' h'.right h'.own, G.h_right h'.right])
  unfold SweepSegment.cmp
  rw [if_neg (by rw [hs.index, hs'.index]; exact hii), e1, e2]
  have h0 : FloatOps.lt (FloatOps.abs (0 : ℝ)) (areaEps : ℝ) = true := by
    simp only [real_lt, FloatOps.abs, areaEps, FloatOps.lit, decide_eq_true_eq, abs_zero]
    norm_num
  rw [h0, if_pos (by simp), hs.order, hs'.order]
  rcases lt_or_gt_of_ne hp with h | h
  · rw [compare_lt_iff_lt.2 h]; rfl
  · rw [compare_gt_iff_gt.2 h]; rfl

/-- The order of two segments on the sweep line. -/
theorem Seg.cmp_low {T : Type} {k l i k' l' i' : ℕ} (h : C.Run k l) (h' : C.Run k' l') {s s' : SweepSegment ℝ T} (hs : Seg G k l i s)
    (hs' : Seg G k' l' i' s') (hii : i ≠ i') {t : ℝ} (hi : G.Alive t k) (hj : G.Alive t k') (hlow : G.Low t k k') :
    s.cmp s' = .ok .lt ∧ s'.cmp s = .ok .gt := by
  rcases hlow with hl | ⟨hl, hp⟩
  · have hij : ¬ G.Same k k' := fun e => by rw [e.h] at hl; exact lt_irrefl _ hl
    exact ⟨(Seg.cmp_eq h h' hij hs hs' hii hi.2.1 hi.2.2 hj.2.1 hj.2.2).1 hl,
      (Seg.cmp_eq h' h (fun e => hij e.symm) hs' hs hii.symm hj.2.1 hj.2.2 hi.2.1 hi.2.2).2.1 hl⟩
  · have hsm := G.same_of_h hi.1 hj.1 hi.2.1 hi.2.2 hj.2.1.le hj.2.2.le hl
    rw [Seg.cmp_line h h' hs hs' hii hsm.h hp.ne, Seg.cmp_line h' h hs' hs hii.symm hsm.symm.h hp.ne', compare_lt_iff_lt.2 hp, compare_gt_iff_gt.2 hp]
    exact ⟨rfl, rfl⟩

/-- The order of two pieces on the sweep line.  A piece may still be there when another starts where it ends. -/
def Lower (G : Plan) (k k' : ℕ) : Prop := k ∈ G.S ∧ k' ∈ G.S ∧ ((∃ t, G.Alive t k ∧ G.Alive t k' ∧ G.Low t k k') ∨
  (G.lp k = G.rp k' ∧ ((∀ t, G.h k t = G.h k' t) → G.poly k < G.poly k')) ∨ (G.lp k' = G.rp k ∧ (∀ t, G.h k t = G.h k' t) ∧ G.poly k < G.poly k'))

theorem Lower.ne {k k' : ℕ} (h : Lower G k k') : k ≠ k' := by
  rintro rfl
  obtain ⟨hk, _, ⟨t, _, _, h⟩ | ⟨h, _⟩ | ⟨h, _⟩⟩ := h
  · exact Low.irrefl h
  · have : G.a k = G.b k := congrArg G.time h
    have := G.a_lt_b hk
    linarith
  · have : G.a k = G.b k := congrArg G.time h
    have := G.a_lt_b hk
    linarith

/-- A point on the line through a segment is not below it. -/
theorem Run.below_on {T : Type} {k l i : ℕ} (h : C.Run k l) {s : SweepSegment ℝ T} (hs : Seg G k l i s) {p : Pt ℝ} (hp : p.y = G.h k (G.time p)) :
    s.below p = false := by
  unfold SweepSegment.below
  rw [hs.left, hs.right, h.area_zero (fun _ => rfl) hp]
  simp only [real_lt, areaEps, FloatOps.lit, decide_eq_false_iff_not]
  norm_num

theorem Seg.cmp_under {T : Type} {k l i k' l' i' : ℕ} (h : C.Run k l) (h' : C.Run k' l') {s s' : SweepSegment ℝ T} (hs : Seg G k l i s)
    (hs' : Seg G k' l' i' s') (hii : i ≠ i') (hu : Lower G k k') : s.cmp s' = .ok .lt ∧ s'.cmp s = .ok .gt := by
  obtain ⟨hk, hk', ⟨t, h1, h2, h3⟩ | ⟨h1, h2⟩ | ⟨h1, h2, hp⟩⟩ := hu
  · exact Seg.cmp_low h h' hs hs' hii h1 h2 h3
  · by_cases hh : ∀ t, G.h k t = G.h k' t
    · have hp := h2 hh
      rw [Seg.cmp_line h h' hs hs' hii hh hp.ne, Seg.cmp_line h' h hs' hs hii.symm (fun t => (hh t).symm) hp.ne', compare_lt_iff_lt.2 hp, compare_gt_iff_gt.2 hp]
      exact ⟨rfl, rfl⟩
    · -- the first starts on the second
      have hab : G.a k = G.b k' := congrArg G.time h1
      have ha' := G.a_lt_b hk'
      have ha := G.a_lt_b hk
      have hat : G.h k (G.a k) = G.h k' (G.a k) := by
        rw [G.h_left, hab, G.h_right hk', h1]
      have hoff : ∀ u, u ≠ G.a k → G.h k u ≠ G.h k' u := by
        intro u hu e
        apply hh
        obtain ⟨m, c, hm⟩ := G.h_linear k
        obtain ⟨m', c', hm'⟩ := G.h_linear k'
        rw [hm, hm'] at hat e
        have e0 : (m - m') * (u - G.a k) = 0 := by linear_combination e - hat
        have hmm : m - m' = 0 := (mul_eq_zero.1 e0).resolve_right (sub_ne_zero.2 hu)
        have hmm : m = m' := by linarith
        subst hmm
        have : c = c' := by linarith
        intro v
        rw [hm, hm', this]
      have far : ∀ {k l k' l' : ℕ}, C.Run k l → C.Run k' l' → ∀ {p : Pt ℝ}, (∃ j ∈ G.S, EndOf (G.lp j, G.rp j) p) → G.h k (G.time p) ≠ p.y →
          FloatOps.lt (FloatOps.abs (triangleSignedArea (G.lp k) (G.rp l) p)) (areaEps : ℝ) = false := by
        intro k l k' l' h h' p hw hne
        have hz0 : triangleSignedArea (G.lp k) (G.rp l) p ≠ 0 := by
          intro hz
          apply hne
          obtain ⟨m, c, hm⟩ := G.h_linear k
          have e1 : (G.lp k).y = m * G.a k + c := by rw [← hm, G.h_left]
          have e2 : (G.rp l).y = m * G.b l + c := by rw [← hm, C.line k h.left l h.right h.own, G.h_right h.right]
          have x1 : (G.lp k).x = G.a k - G.eps * (G.lp k).y := by unfold Plan.a Plan.time shearX; ring
          have x2 : (G.rp l).x = G.b l - G.eps * (G.rp l).y := by unfold Plan.b Plan.time shearX; ring
          have x3 : p.x = G.time p - G.eps * p.y := by unfold Plan.time shearX; ring
          simp only [triangleSignedArea, FloatOps.sub, FloatOps.mul] at hz
          rw [x1, x2, x3, e1, e2] at hz
          push_cast at hz
          have hlt := h.lt
          have : (G.b l - G.a k) * (m * G.time p + c - p.y) = 0 := by linear_combination -hz
          have := (mul_eq_zero.1 this).resolve_left (by linarith)
          rw [hm]; linarith
        have := (h.clear hw).resolve_left hz0
        simp only [real_lt, FloatOps.abs, areaEps, FloatOps.lit, decide_eq_false_iff_not, not_lt]
        push_cast
        exact this.le
      have n1 : ¬ s.left_point.beq s'.left_point = true := by
        rw [beq_iff, hs.left, hs'.left]
        intro e
        have : G.a k = G.a k' := congrArg G.time e
        linarith [h'.le]
      have n2 : ¬ s'.left_point.beq s.left_point = true := by
        rw [beq_iff, hs.left, hs'.left]
        intro e
        have : G.a k' = G.a k := congrArg G.time e
        linarith
      have c1 : endpointCmp s .left s' .left = .ok .gt := by
        rw [endpointCmp_eq (a := (s, .left)) (b := (s', .left)) (hs.wf h) (hs'.wf h'), hs.key_left h, hs'.key_left h', compare_gt_iff_gt.2]
        refine lt_of_not_ge fun hle => ?_
        have := time_le_of_key (x := (k, .left)) (y := (k', .left)) hk hk' hle
        have this : G.a k ≤ G.a k' := this
        linarith
      have c2 : endpointCmp s' .left s .left = .ok .lt := by
        rw [endpointCmp_eq (a := (s', .left)) (b := (s, .left)) (hs'.wf h') (hs.wf h), hs.key_left h, hs'.key_left h', compare_lt_iff_lt.2]
        refine lt_of_not_ge fun hle => ?_
        have := time_le_of_key (x := (k, .left)) (y := (k', .left)) hk hk' hle
        have this : G.a k ≤ G.a k' := this
        linarith
      have hon : s'.below s.left_point = false := by
        rw [hs.left]
        exact h'.below_on hs' (by show _ = G.h k' (G.a k); rw [← hat, G.h_left])
      constructor
      · unfold SweepSegment.cmp
        rw [if_neg (by rw [hs.index, hs'.index]; exact hii), if_neg ?_, if_neg n1, c1]
        · simp [SweepSegment.above, hon]
        · rw [hs.left, hs.right, hs'.left, far h h' ⟨k', hk', Or.inl rfl⟩ (by
            show G.h k (G.a k') ≠ _
            rw [← G.h_left (i := k')]
            exact hoff _ (by linarith))]
          simp
      · unfold SweepSegment.cmp
        rw [if_neg (by rw [hs.index, hs'.index]; exact hii.symm), if_neg ?_, if_neg n2, c2]
        · simp [hon]
        · rw [hs'.left, hs'.right, hs.right, far h' h ⟨l, h.right, Or.inr rfl⟩ (by
            show G.h k' (G.b l) ≠ _
            rw [← G.h_right h.right, ← C.line k h.left l h.right h.own]
            exact (hoff _ (by linarith [h.lt])).symm)]
          simp
  · rw [Seg.cmp_line h h' hs hs' hii h2 hp.ne, Seg.cmp_line h' h hs' hs hii.symm (fun t => (h2 t).symm) hp.ne', compare_lt_iff_lt.2 hp, compare_gt_iff_gt.2 hp]
    exact ⟨rfl, rfl⟩

end Cut

end Idc
