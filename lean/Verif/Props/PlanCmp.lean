import Verif.Props.PlanKey
import Verif.Props.TidySweep
/-!
# Comparisons and intersections of segments that meet only in ends or coincide, for C81
-/

namespace Idc

theorem area_clear {a b p : Pt ℝ} (h : OnLine (a, b) p ∨ 1 / 10 ^ 7 < |(b.x - a.x) * (p.y - a.y) - (b.y - a.y) * (p.x - a.x)|) :
    triangleSignedArea a b p = 0 ∨ 1 / 10 ^ 7 < |triangleSignedArea a b p| := by
  have e : triangleSignedArea a b p = (b.x - a.x) * (p.y - a.y) - (b.y - a.y) * (p.x - a.x) := by
    simp only [triangleSignedArea, FloatOps.sub, FloatOps.mul]
    ring
  rw [e]
  refine h.imp_left fun h => ?_
  unfold OnLine at h
  dsimp only at h
  linarith

namespace Plan

variable {G : Plan}

/-- Two segments that are on the sweep line at some time compare like their heights then. -/
theorem cmp_eq {T : Type} {i j : Nat} (hi : i ∈ G.S) (hj : j ∈ G.S) (hij : ¬ G.Same i j) {s s' : SweepSegment ℝ T} (hs : G.Is i s) (hs' : G.Is j s') {t : ℝ}
    (i1 : G.a i < t) (i2 : t < G.b i) (j1 : G.a j < t) (j2 : t < G.b j) :
    (G.h i t < G.h j t → s.cmp s' = .ok .lt) ∧ (G.h j t < G.h i t → s.cmp s' = .ok .gt) ∧ G.h i t ≠ G.h j t := by
  have hl : (shearSeg G.eps s).left_point = shearPt G.eps (G.lp i) := by rw [← hs.left]; rfl
  have hr : (shearSeg G.eps s).right_point = shearPt G.eps (G.rp i) := by rw [← hs.right]; rfl
  have hl' : (shearSeg G.eps s').left_point = shearPt G.eps (G.lp j) := by rw [← hs'.left]; rfl
  have hr' : (shearSeg G.eps s').right_point = shearPt G.eps (G.rp j) := by rw [← hs'.right]; rfl
  have hh : ∀ z, (shearSeg G.eps s).heightAt z = G.h i z := fun z => by
    unfold Plan.h SweepSegment.heightAt; rw [hl, hr]; rfl
  have hh' : ∀ z, (shearSeg G.eps s').heightAt z = G.h j z := fun z => by
    unfold Plan.h SweepSegment.heightAt; rw [hl', hr']; rfl
  have hne : G.h i t ≠ G.h j t := by
    intro e
    rcases (G.meet hi hj hij i1.le i2.le j1.le j2.le e).1 with h | h <;> linarith
  have clear : ∀ {i j : Nat} {s s' : SweepSegment ℝ T}, i ∈ G.S → j ∈ G.S → G.Is i s → G.Is j s' → ClearOf (shearSeg G.eps s) (shearSeg G.eps s') := by
    intro i j s s' hi hj hs hs' p hp
    have : ∃ p0, EndOf (G.lp j, G.rp j) p0 ∧ p = shearPt G.eps p0 := by
      simp only [List.mem_cons, List.not_mem_nil, or_false] at hp
      rcases hp with rfl | rfl
      · exact ⟨G.lp j, Or.inl rfl, by rw [← hs'.left]; rfl⟩
      · exact ⟨G.rp j, Or.inr rfl, by rw [← hs'.right]; rfl⟩
    obtain ⟨p0, hw, rfl⟩ := this
    dsimp only
    rw [← area_formula (shearSeg G.eps s)]
    rw [show triangleSignedArea (shearSeg G.eps s).left_point (shearSeg G.eps s).right_point (shearPt G.eps p0) =
      triangleSignedArea (shearPt G.eps s.left_point) (shearPt G.eps s.right_point) (shearPt G.eps p0) from rfl, shear_area, hs.left, hs.right]
    exact area_clear (G.sep.clear _ _ ⟨i, hi, rfl⟩ ⟨j, hj, hw⟩)
  have hap : ApartUpTo t (shearSeg G.eps s) (shearSeg G.eps s') := by
    intro x h1 h2 h3 h4
    rw [hl] at h1
    rw [hl'] at h2
    rw [hh, hh'] at h4
    have h1 : G.a i ≤ x := h1
    have h2 : G.a j ≤ x := h2
    have := G.meet hi hj hij h1 (by linarith) h2 (by linarith) h4
    have e1 : x = G.a i := by rcases this.1 with h | h <;> [exact h; linarith]
    have e2 : x = G.a j := by rcases this.2 with h | h <;> [exact h; linarith]
    have : G.pt (i, .left) = G.pt (j, .left) := G.time_inj (x := (i, .left)) (y := (j, .left)) hi hj (by
      show G.a i = G.a j
      rw [← e1, ← e2])
    refine ⟨?_, ?_⟩
    · rw [hl, hl']
      exact congrArg _ this
    · rw [hl]
      exact e1
  have main := C68_order_partial t (shearSeg G.eps s) (shearSeg G.eps s') (by
    show s.index ≠ s'.index
    rw [hs.index, hs'.index]; exact fun e => hij (e ▸ Same.refl G i)) ⟨by rw [hl]; exact i1, by rw [hr]; exact i2.le⟩ ⟨by rw [hl']; exact j1, by rw [hr']; exact j2.le⟩
    (clear hi hj hs hs') (clear hj hi hs' hs) hap
  rw [cmp_shear G.eps] at main
  · rw [hh, hh'] at main
    refine ⟨fun h => ?_, fun h => ?_, hne⟩
    · rw [main, if_pos h]
    · rw [main, if_neg (by linarith)]
  · intro hlo
    rw [hs.left, hs'.left] at hlo ⊢
    exact G.time_lt (x := (i, .left)) (y := (j, .left)) hi hj hlo
  · intro hlo
    rw [hs.left, hs'.left] at hlo ⊢
    exact G.time_lt (x := (j, .left)) (y := (i, .left)) hj hi hlo

/-! ### Intersections -/

theorem spaced4 {i j : Nat} (hi : i ∈ G.S) (hj : j ∈ G.S) {p : Pt ℝ} (hp : ∃ k ∈ G.S, EndOf (G.lp k, G.rp k) p) :
    ∀ e ∈ [G.lp i, G.rp i, G.lp j, G.rp j], p = e ∨ 1 / 10 ^ 15 ≤ (p.x - e.x) ^ 2 + (p.y - e.y) ^ 2 := by
  intro e he
  simp only [List.mem_cons, List.not_mem_nil, or_false] at he
  refine G.sep.spaced p e hp ?_
  rcases he with rfl | rfl | rfl | rfl
  exacts [⟨i, hi, Or.inl rfl⟩, ⟨i, hi, Or.inr rfl⟩, ⟨j, hj, Or.inl rfl⟩, ⟨j, hj, Or.inr rfl⟩]

/-- Two segments of the plan meet nowhere, or in a common end. -/
theorem intersect_plan {i j : Nat} (hi : i ∈ G.S) (hj : j ∈ G.S) (hij : ¬ G.Same i j) :
    intersectSegments (G.lp i, G.rp i) (G.lp j, G.rp j) = .none ∨
    ∃ p, intersectSegments (G.lp i, G.rp i) (G.lp j, G.rp j) = .point p ∧ EndOf (G.lp i, G.rp i) p ∧ EndOf (G.lp j, G.rp j) p := by
  have hne : G.lp i ≠ G.rp i := (G.wf i hi).ne
  have hne' : G.lp j ≠ G.rp j := (G.wf j hj).ne
  rcases G.angles i hi j hj with hpar | hnp
  · rcases G.distances i hi j hj hpar with hon | hoff
    · -- on one line
      have hon2 : OnLine (G.lp i, G.rp i) (G.rp j) := by
        unfold OnLine ParallelEdges at *
        dsimp only at *
        linear_combination hon - hpar
      obtain ⟨u, hu⟩ : ∃ u, G.lp j = linePt (G.lp i, G.rp i) u := ⟨_, onLine_pos hne hon⟩
      obtain ⟨v, hv⟩ : ∃ v, G.rp j = linePt (G.lp i, G.rp i) v := ⟨_, onLine_pos hne hon2⟩
      have hcol := intersect_collinear (G.lp i, G.rp i) hne u v
      rw [← hu, ← hv] at hcol
      have hc := C67_collinear (G.lp i, G.rp i) (G.lp j, G.rp j) hne hon hon2
      rw [hcol] at hc ⊢
      split
      · exact Or.inl rfl
      · rename_i hn
        split
        · rename_i he
          right
          rw [if_neg hn, if_pos he] at hc
          refine ⟨_, rfl, ?_⟩
          set q := linePt (G.lp i, G.rp i) (Max.max 0 (Min.min u v)) with hq
          -- the common point is an end of both
          have hcom : CommonPoint (G.lp i, G.rp i) (G.lp j, G.rp j) q := by
            push Not at hn
            refine ⟨?_, ?_⟩
            · rw [seg_linePt (G.lp i, G.rp i), onSegment_linePt]
              refine ⟨_, ?_, ?_, hq⟩
              · rw [min_eq_left zero_le_one]; exact le_max_left _ _
              · rw [max_eq_right zero_le_one]; exact max_le zero_le_one hn.1
            · rw [hu, hv, onSegment_linePt]
              refine ⟨_, le_max_right _ _, ?_, hq⟩
              exact max_le hn.2 min_le_max
          have := G.apart' hi hj hij hcom
          rw [snap_spaced]
          · exact this
          · exact G.spaced4 hi hj ⟨i, hi, this.1⟩
        · -- more than one common point: impossible
          exfalso
          rename_i he
          rw [if_neg hn, if_neg he] at hc
          obtain ⟨p, hpe, hcp, _⟩ := hc
          set e := linePt (G.lp i, G.rp i) (Min.min 1 (Max.max u v)) with hedef
          have c1 := (hcp p).2 (Net.onSegment_left (p, e))
          have c2 := (hcp e).2 (Net.onSegment_right (p, e))
          -- the midpoint of the common part
          have c3 := (hcp ⟨p.x + 1 / 2 * (e.x - p.x), p.y + 1 / 2 * (e.y - p.y)⟩).2 ⟨1 / 2, by norm_num, by norm_num, rfl, rfl⟩
          have k1 := (G.apart' hi hj hij c1).1
          have k2 := (G.apart' hi hj hij c2).1
          have k3 := (G.apart' hi hj hij c3).1
          have ne1 : (⟨p.x + 1 / 2 * (e.x - p.x), p.y + 1 / 2 * (e.y - p.y)⟩ : Pt ℝ) ≠ p := by
            intro h
            apply hpe
            have hx := congrArg Pt.x h
            have hy := congrArg Pt.y h
            dsimp only at hx hy
            exact pt_ext (by linarith) (by linarith)
          have ne2 : (⟨p.x + 1 / 2 * (e.x - p.x), p.y + 1 / 2 * (e.y - p.y)⟩ : Pt ℝ) ≠ e := by
            intro h
            apply hpe
            have hx := congrArg Pt.x h
            have hy := congrArg Pt.y h
            dsimp only at hx hy
            exact pt_ext (by linarith) (by linarith)
          rcases k1 with k1 | k1 <;> rcases k2 with k2 | k2 <;> rcases k3 with k3 | k3
          · exact ne1 (k3.trans k1.symm)
          · exact hpe (k1.trans k2.symm)
          · exact ne1 (k3.trans k1.symm)
          · exact ne2 (k3.trans k2.symm)
          · exact ne2 (k3.trans k2.symm)
          · exact ne1 (k3.trans k1.symm)
          · exact hpe (k1.trans k2.symm)
          · exact hpe (k1.trans k2.symm)
    · -- parallel, apart
      left
      unfold intersectSegments
      simp only [real_lt, Pt.sub, Pt.cross, Pt.sqLength, sqrEpsilon, FloatOps.lit, FloatOps.add, FloatOps.mul, FloatOps.sub, decide_eq_true_eq]
      rw [if_neg, if_pos]
      · unfold ClearlyOff at hoff
        dsimp only at hoff
        push_cast
        nlinarith [hoff]
      · rw [not_lt]
        have h0 : ((G.rp i).x - (G.lp i).x) * ((G.rp j).y - (G.lp j).y) - ((G.rp i).y - (G.lp i).y) * ((G.rp j).x - (G.lp j).x) = 0 := by
          unfold ParallelEdges at hpar
          dsimp only at hpar
          linarith
        rw [h0, mul_zero]
        push_cast
        have m1 := mul_self_nonneg ((G.rp i).x - (G.lp i).x)
        have m2 := mul_self_nonneg ((G.rp i).y - (G.lp i).y)
        have m3 := mul_self_nonneg ((G.rp j).x - (G.lp j).x)
        have m4 := mul_self_nonneg ((G.rp j).y - (G.lp j).y)
        exact mul_nonneg (mul_nonneg (by norm_num) (by linarith)) (by linarith)
  · -- an angle
    by_cases hcp : ∃ p, CommonPoint (G.lp i, G.rp i) (G.lp j, G.rp j) p
    · right
      obtain ⟨p, hp⟩ := hcp
      have he := G.apart' hi hj hij hp
      exact ⟨p, C67_steady_point _ _ hnp p hp (G.spaced4 hi hj ⟨i, hi, he.1⟩) (G.sep.steady p ⟨i, hi, he.1⟩), he⟩
    · left
      exact (C67_none_iff_partial _ _ hnp).2 fun p hp => hcp ⟨p, hp⟩

/-- So nothing is ever split. -/
theorem handle_plan {arena : Arena ℝ} {i j : Nat} (hi : i ∈ G.S) (hj : j ∈ G.S) (hij : ¬ G.Same i j) {s s' : BoolSegment ℝ} (hs : arena[i]? = some s)
    (hs' : arena[j]? = some s') (h : G.Is i s) (h' : G.Is j s') :
    ∃ m, m < 2 ∧ handleIntersections arena (some i) (some j) = .ok (arena, m, none, none) := by
  unfold handleIntersections
  have e1 : index arena i = .ok s := by unfold index; rw [hs]
  have e2 : index arena j = .ok s' := by unfold index; rw [hs']
  dsimp only
  rw [e1, e2]
  simp only [Res.bind_ok]
  rw [h.left, h.right, h'.left, h'.right]
  rcases intersect_plan hi hj hij with h0 | ⟨p, hp, k1, k2⟩
  · rw [h0]
    exact ⟨0, by norm_num, rfl⟩
  · rw [hp]
    dsimp only
    split
    · exact ⟨0, by norm_num, rfl⟩
    · refine ⟨1, by norm_num, ?_⟩
      have : ∀ {k : Nat}, EndOf (G.lp k, G.rp k) p → (!(G.lp k).beq p && !(G.rp k).beq p) = false := by
        rintro k (h | h)
        · simp only at h
          rw [h, beq_iff.2 rfl]; rfl
        · simp only at h
          rw [h, beq_iff.2 (rfl : G.rp k = G.rp k)]; simp
      rw [this k1, this k2]
      rfl


/-! ### Segments that coincide -/

theorem cmp_same {T : Type} {i j : Nat} (hij : i ≠ j) (hs : G.Same i j) (hp : G.poly i ≠ G.poly j) {s s' : SweepSegment ℝ T} (is : G.Is i s)
    (is' : G.Is j s') : s.cmp s' = .ok (compare (G.poly i) (G.poly j)) := by
  have e1 : triangleSignedArea s.left_point s.right_point s'.left_point = 0 := by
    rw [is.left, is.right, is'.left, hs.1]
    simp only [triangleSignedArea, FloatOps.sub, FloatOps.mul]; ring
  have e2 : triangleSignedArea s.left_point s.right_point s'.right_point = 0 := by
    rw [is.left, is.right, is'.right, hs.2]
    simp only [triangleSignedArea, FloatOps.sub, FloatOps.mul]; ring
  unfold SweepSegment.cmp
  rw [if_neg (by rw [is.index, is'.index]; exact hij), e1, e2]
  have h0 : FloatOps.lt (FloatOps.abs (0 : ℝ)) (areaEps : ℝ) = true := by
    simp only [real_lt, FloatOps.abs, areaEps, FloatOps.lit, decide_eq_true_eq, abs_zero]
    norm_num
  rw [h0, if_pos (by simp), is.order, is'.order]
  rcases lt_or_gt_of_ne hp with h | h
  · rw [compare_lt_iff_lt.2 h]; rfl
  · rw [compare_gt_iff_gt.2 h]; rfl

/-- Below on the sweep line: lower, or coinciding and of an earlier polygon. -/
def Low (G : Plan) (t : ℝ) (i j : ℕ) : Prop := G.h i t < G.h j t ∨ G.h i t = G.h j t ∧ G.poly i < G.poly j

theorem Low.irrefl {t : ℝ} {i : ℕ} : ¬ G.Low t i i := by
  rintro (h | h)
  · exact lt_irrefl _ h
  · exact lt_irrefl _ h.2

theorem Low.trans {t : ℝ} {i j k : ℕ} (h1 : G.Low t i j) (h2 : G.Low t j k) : G.Low t i k := by
  rcases h1 with h1 | ⟨h1, h1'⟩ <;> rcases h2 with h2 | ⟨h2, h2'⟩
  · exact Or.inl (h1.trans h2)
  · exact Or.inl (h2 ▸ h1)
  · exact Or.inl (h1 ▸ h2)
  · exact Or.inr ⟨h1.trans h2, h1'.trans h2'⟩

/-- On the sweep line. -/
def Alive (G : Plan) (t : ℝ) (i : ℕ) : Prop := i ∈ G.S ∧ G.a i < t ∧ t < G.b i

theorem Alive.low_or {t : ℝ} {i j : ℕ} (hi : G.Alive t i) (hj : G.Alive t j) (hij : i ≠ j) : G.Low t i j ∨ G.Low t j i := by
  rcases lt_trichotomy (G.h i t) (G.h j t) with h | h | h
  · exact Or.inl (Or.inl h)
  · have hs := G.same_of_h hi.1 hj.1 hi.2.1 hi.2.2 hj.2.1.le hj.2.2.le h
    rcases lt_or_gt_of_ne (G.poly_ne hi.1 hj.1 hij hs) with hp | hp
    · exact Or.inl (Or.inr ⟨h, hp⟩)
    · exact Or.inr (Or.inr ⟨h.symm, hp⟩)
  · exact Or.inr (Or.inl h)

/-- The segment comparison, on the arena, at a time when both segments are on the sweep line. -/
theorem segCmp_low {arena : Arena ℝ} (ha : G.Has arena) {i j : Nat} {t : ℝ} (hi : G.Alive t i) (hj : G.Alive t j) (h : G.Low t i j) :
    arena.segCmp i j = .ok .lt ∧ arena.segCmp j i = .ok .gt := by
  obtain ⟨s, hs, is⟩ := ha.seg i hi.1
  obtain ⟨s', hs', is'⟩ := ha.seg j hj.1
  unfold Arena.segCmp index
  rw [hs, hs']
  simp only [Res.bind_ok]
  rcases h with h | ⟨h, hp⟩
  · have hij : ¬ G.Same i j := fun e => by rw [e.h] at h; exact lt_irrefl _ h
    exact ⟨(cmp_eq hi.1 hj.1 hij is is' hi.2.1 hi.2.2 hj.2.1 hj.2.2).1 h,
      (cmp_eq hj.1 hi.1 (fun e => hij e.symm) is' is hj.2.1 hj.2.2 hi.2.1 hi.2.2).2.1 h⟩
  · have hsm := G.same_of_h hi.1 hj.1 hi.2.1 hi.2.2 hj.2.1.le hj.2.2.le h
    have hij : i ≠ j := by rintro rfl; exact lt_irrefl _ hp
    rw [cmp_same hij hsm hp.ne is is', cmp_same hij.symm hsm.symm hp.ne' is' is, compare_lt_iff_lt.2 hp, compare_gt_iff_gt.2 hp]
    exact ⟨rfl, rfl⟩

theorem segCmp_self {arena : Arena ℝ} (ha : G.Has arena) {i : Nat} (hi : i ∈ G.S) : arena.segCmp i i = .ok .eq := by
  obtain ⟨s, hs, is⟩ := ha.seg i hi
  unfold Arena.segCmp index
  rw [hs]
  simp only [Res.bind_ok]
  unfold SweepSegment.cmp
  rw [if_pos rfl]

theorem intersect_same {i j : ℕ} (hi : i ∈ G.S) (hs : G.Same i j) :
    ∃ p q, intersectSegments (G.lp i, G.rp i) (G.lp j, G.rp j) = .segment p q := by
  have hne : G.lp i ≠ G.rp i := (G.wf i hi).ne
  have h0 : linePt (G.lp i, G.rp i) 0 = G.lp j := by rw [← hs.1]; exact pt_ext (by simp [linePt]) (by simp [linePt])
  have h1 : linePt (G.lp i, G.rp i) 1 = G.rp j := by rw [← hs.2]; exact pt_ext (by simp [linePt]) (by simp [linePt])
  have hcol := intersect_collinear (G.lp i, G.rp i) hne 0 1
  rw [h0, h1] at hcol
  rw [hcol, if_neg (by norm_num), if_neg (by norm_num)]
  exact ⟨_, _, rfl⟩

theorem Has.put {arena : Arena ℝ} (h : G.Has arena) (i : Nat) (p : SegmentPacket) : G.Has (putPacket arena i p) where
  seg j hj := by
    obtain ⟨s, hs, is⟩ := h.seg j hj
    rw [put_get, hs]
    refine ⟨_, rfl, ?_⟩
    split
    · exact ⟨is.left, is.right, is.index, is.order⟩
    · exact is

/-- The lower of two segments that coincide no longer counts. -/
theorem handle_same {arena : Arena ℝ} (ha : G.Has arena) {i j : Nat} (hi : i ∈ G.S) (hj : j ∈ G.S) (hij : i ≠ j) (hs : G.Same i j)
    (pi : (dat arena i).polygon_index = G.poly i) (pj : (dat arena j).polygon_index = G.poly j) (hn : (dat arena j).edge_type ≠ .nonContributing) :
    ∃ t : EdgeType, t ≠ .nonContributing ∧ handleIntersections arena (some i) (some j) =
      .ok (putPacket (putPacket arena i { dat arena i with edge_type := .nonContributing }) j { dat arena j with edge_type := t }, 2, none, none) := by
  obtain ⟨s, es, is⟩ := ha.seg i hi
  obtain ⟨s', es', is'⟩ := ha.seg j hj
  have hp := G.poly_ne hi hj hij hs
  rw [dat_of es] at pi
  rw [dat_of es'] at pj hn
  unfold handleIntersections
  have e1 : index arena i = .ok s := by unfold index; rw [es]
  have e2 : index arena j = .ok s' := by unfold index; rw [es']
  dsimp only
  rw [e1, e2]
  simp only [Res.bind_ok]
  rw [is.left, is.right, is'.left, is'.right]
  obtain ⟨p, q, hpq⟩ := intersect_same hi hs
  rw [hpq]
  dsimp only
  rw [if_neg (by rw [pi, pj]; exact hp)]
  have c1 : ∀ p : Pt ℝ, comparePoints p p = .ok .eq := by
    intro p
    unfold comparePoints
    simp only [real_cmp, unwrap, Res.bind_ok]
    rw [compare_eq_iff_eq.2 rfl, compare_eq_iff_eq.2 rfl]
    rfl
  rw [hs.1, hs.2, c1, c1]
  simp only [Res.bind_ok]
  rw [if_pos (beq_iff.2 rfl), setPacket_put (ha.lt hi)]
  simp only [Res.bind_ok]
  unfold setUpperType
  have e3 : index (putPacket arena i { s.data with edge_type := .nonContributing }) j = .ok s' := by
    unfold index
    rw [put_get, es']
    simp [hij.symm]
  rw [e3]
  simp only [Res.bind_ok]
  rw [if_pos hn, setPacket_put (by rw [put_length]; exact ha.lt hj), dat_of es, dat_of es']
  refine ⟨_, ?_, rfl⟩
  split <;> decide

end Plan

end Idc
