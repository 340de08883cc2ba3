import Verif.Props.TidyGeom
/-!
# Comparisons and intersections of segments that do not cross, for C76
-/

namespace Idc



theorem beq_iff {p q : Pt ℝ} : p.beq q = true ↔ p = q := by
  constructor
  · intro hb
    simp only [Pt.beq, FloatOps.eq, Bool.and_eq_true, decide_eq_true_eq] at hb
    exact pt_ext hb.1 hb.2
  · rintro rfl
    simp [Pt.beq, FloatOps.eq]

theorem beq_false_iff {p q : Pt ℝ} : p.beq q = false ↔ p ≠ q := by
  rw [← Bool.not_eq_true, Ne, beq_iff]

/-- With exact arithmetic, the comparison never panics and different segments never compare equal. -/
theorem cmp_ne_eq {T : Type} {s s' : SweepSegment ℝ T} (hi : s.index ≠ s'.index) : ∃ o, s.cmp s' = .ok o ∧ o ≠ .eq := by
  unfold SweepSegment.cmp
  rw [if_neg hi]
  split
  · by_cases he : s.left_point = s'.left_point
    · rw [if_pos (beq_iff.2 he)]
      have hn : (compare s.order s'.order).then (compare s.index s'.index) ≠ .eq := fun h =>
        hi (compare_eq_iff_eq.1 (Ordering.then_eq_eq.1 h).2)
      refine ⟨(compare s.order s'.order).then (compare s.index s'.index), ?_, hn⟩
      rcases ho : (compare s.order s'.order).then (compare s.index s'.index)
      · rfl
      · exact absurd ho hn
      · rfl
    · rw [if_neg (fun h => he (beq_iff.1 h)), endpointCmp_left (Ne.symm he)]
      have hn : (compare s'.left_point.x s.left_point.x).then (compare s'.left_point.y s.left_point.y) ≠ .eq := by
        intro h
        obtain ⟨h1, h2⟩ := Ordering.then_eq_eq.1 h
        exact he (pt_ext (compare_eq_iff_eq.1 h1).symm (compare_eq_iff_eq.1 h2).symm)
      rcases ho : (compare s.order s'.order).then Ordering.eq
      · exact ⟨_, rfl, by decide⟩
      · exact ⟨_, rfl, hn⟩
      · exact ⟨_, rfl, by decide⟩
  · split
    · split <;> exact ⟨_, rfl, by decide⟩
    · rename_i h
      rw [endpointCmp_left (fun he => h (beq_iff.2 he)), Res.bind_ok]
      split <;> split <;> exact ⟨_, rfl, by decide⟩

/-- A number that is whole is zero, or more than the tolerance. -/
theorem whole_clear {z : ℤ} : (z : ℝ) = 0 ∨ 1 / 10 ^ 7 < |(z : ℝ)| := by
  by_cases h : z = 0
  · left; exact_mod_cast h
  · right
    have h1 : 1 ≤ |z| := Int.one_le_abs h
    have : (1 : ℝ) ≤ |(z : ℝ)| := by exact_mod_cast h1
    refine lt_of_lt_of_le ?_ this
    norm_num

theorem whole_area {a b c : Pt ℝ} (ha : WholePt a) (hb : WholePt b) (hc : WholePt c) : ∃ z : ℤ, triangleSignedArea a b c = z := by
  obtain ⟨a1, a2, rfl⟩ := ha
  obtain ⟨b1, b2, rfl⟩ := hb
  obtain ⟨c1, c2, rfl⟩ := hc
  refine ⟨(a1 - c1) * (b2 - c2) - (b1 - c1) * (a2 - c2), ?_⟩
  simp only [triangleSignedArea, FloatOps.sub, FloatOps.mul]
  push_cast
  ring

namespace Net

variable (G : Net)

/-- A segment of the net. -/
structure Is {T : Type} (i : Nat) (s : SweepSegment ℝ T) : Prop where
  left : s.left_point = G.lp i
  right : s.right_point = G.rp i
  index : s.index = i
  order : s.order = G.poly i

variable {G}

theorem Is.wf {T : Type} {i : Nat} {s : SweepSegment ℝ T} (h : G.Is i s) (hi : i < G.N) : s.WellFormed := by
  unfold SweepSegment.WellFormed
  rw [h.left, h.right]
  exact G.wf i hi

theorem Is.pointAt {T : Type} {i : Nat} {s : SweepSegment ℝ T} (h : G.Is i s) (e : SegmentEnd) : s.pointAt e = G.pt (i, e) := by
  cases e
  · exact h.left
  · exact h.right

theorem Is.otherPointAt {T : Type} {i : Nat} {s : SweepSegment ℝ T} (h : G.Is i s) (e : SegmentEnd) : s.otherPointAt e = G.pt (opp (i, e)) := by
  cases e
  · exact h.right
  · exact h.left

/-- Two segments that are on the sweep line at some time compare like their heights then. -/
theorem cmp_eq {T : Type} {i j : Nat} (hi : i < G.N) (hj : j < G.N) (hij : i ≠ j) {s s' : SweepSegment ℝ T} (hs : G.Is i s) (hs' : G.Is j s') {t : ℝ}
    (i1 : G.a i < t) (i2 : t < G.b i) (j1 : G.a j < t) (j2 : t < G.b j) :
    (G.h i t < G.h j t → s.cmp s' = .ok .lt) ∧ (G.h j t < G.h i t → s.cmp s' = .ok .gt) ∧ G.h i t ≠ G.h j t := by
  have hl : (shearSeg G.eps s).left_point = shearPt G.eps (G.lp i) := by rw [← hs.left]; rfl
  have hr : (shearSeg G.eps s).right_point = shearPt G.eps (G.rp i) := by rw [← hs.right]; rfl
  have hl' : (shearSeg G.eps s').left_point = shearPt G.eps (G.lp j) := by rw [← hs'.left]; rfl
  have hr' : (shearSeg G.eps s').right_point = shearPt G.eps (G.rp j) := by rw [← hs'.right]; rfl
  have hh : ∀ z, (shearSeg G.eps s).heightAt z = G.h i z := fun z => by
    unfold Net.h SweepSegment.heightAt; rw [hl, hr]; rfl
  have hh' : ∀ z, (shearSeg G.eps s').heightAt z = G.h j z := fun z => by
    unfold Net.h SweepSegment.heightAt; rw [hl', hr']; rfl
  have hne : G.h i t ≠ G.h j t := by
    intro e
    rcases (G.meet hi hj hij i1.le i2.le j1.le j2.le e).1 with h | h <;> linarith
  have clear : ∀ {i j : Nat} {s s' : SweepSegment ℝ T}, i < G.N → j < G.N → G.Is i s → G.Is j s' → ClearOf (shearSeg G.eps s) (shearSeg G.eps s') := by
    intro i j s s' hi hj hs hs' p hp
    have : ∃ p0, WholePt p0 ∧ p = shearPt G.eps p0 := by
      simp only [List.mem_cons, List.not_mem_nil, or_false] at hp
      rcases hp with rfl | rfl
      · exact ⟨G.lp j, G.wholeL j hj, by rw [← hs'.left]; rfl⟩
      · exact ⟨G.rp j, G.wholeR j hj, by rw [← hs'.right]; rfl⟩
    obtain ⟨p0, hw, rfl⟩ := this
    dsimp only
    rw [← area_formula (shearSeg G.eps s)]
    rw [show triangleSignedArea (shearSeg G.eps s).left_point (shearSeg G.eps s).right_point (shearPt G.eps p0) =
      triangleSignedArea (shearPt G.eps s.left_point) (shearPt G.eps s.right_point) (shearPt G.eps p0) from rfl, shear_area, hs.left, hs.right]
    obtain ⟨z, hz⟩ := whole_area (G.wholeL i hi) (G.wholeR i hi) hw
    rw [hz]
    exact whole_clear
  have hap : ApartUpTo t (shearSeg G.eps s) (shearSeg G.eps s') := by
    intro x h1 h2 h3 h4
    rw [hl] at h1
    rw [hl'] at h2
    rw [hh, hh'] at h4
    have h1 : G.a i ≤ x := h1
    have h2 : G.a j ≤ x := h2
    have := G.meet hi hj hij h1 (by linarith) h2 (by linarith) h4
    have e1 : x = G.a i := by rcases this.1 with h | h <;> [exact h; linarith]
    have e2 : x = G.a j := by rcases this.2 with h | h <;> [exact h; linarith]
    have : G.pt (i, .left) = G.pt (j, .left) := G.time_inj (x := (i, .left)) (y := (j, .left)) hi hj (by
      show G.a i = G.a j
      rw [← e1, ← e2])
    refine ⟨?_, ?_⟩
    · rw [hl, hl']
      exact congrArg _ this
    · rw [hl]
      exact e1
  have main := C68_order_partial t (shearSeg G.eps s) (shearSeg G.eps s') (by
    show s.index ≠ s'.index
    rw [hs.index, hs'.index]; exact hij) ⟨by rw [hl]; exact i1, by rw [hr]; exact i2.le⟩ ⟨by rw [hl']; exact j1, by rw [hr']; exact j2.le⟩
    (clear hi hj hs hs') (clear hj hi hs' hs) hap
  rw [cmp_shear G.eps] at main
  · rw [hh, hh'] at main
    refine ⟨fun h => ?_, fun h => ?_, hne⟩
    · rw [main, if_pos h]
    · rw [main, if_neg (by linarith)]
  · intro hlo
    rw [hs.left, hs'.left] at hlo ⊢
    exact G.time_lt (x := (i, .left)) (y := (j, .left)) hi hj hlo
  · intro hlo
    rw [hs.left, hs'.left] at hlo ⊢
    exact G.time_lt (x := (j, .left)) (y := (i, .left)) hj hi hlo

/-! ### Intersections -/

theorem onSegment_left (s : Pt ℝ × Pt ℝ) : OnSegment s s.1 := ⟨0, le_rfl, zero_le_one, by ring, by ring⟩
theorem onSegment_right (s : Pt ℝ × Pt ℝ) : OnSegment s s.2 := ⟨1, zero_le_one, le_rfl, by ring, by ring⟩

/-- Two segments of the net meet nowhere, or in a common end. -/
theorem intersect_net {i j : Nat} (hi : i < G.N) (hj : j < G.N) (hij : i ≠ j) :
    intersectSegments (G.lp i, G.rp i) (G.lp j, G.rp j) = .none ∨
    ∃ p, intersectSegments (G.lp i, G.rp i) (G.lp j, G.rp j) = .point p ∧ EndOf (G.lp i, G.rp i) p ∧ EndOf (G.lp j, G.rp j) p := by
  have wI : ∀ p, EndOf (G.lp i, G.rp i) p → WholePt p := by
    rintro p (rfl | rfl)
    · exact G.wholeL i hi
    · exact G.wholeR i hi
  have hne : G.lp i ≠ G.rp i := (G.wf i hi).ne
  have hne' : G.lp j ≠ G.rp j := (G.wf j hj).ne
  rcases G.angles i hi j hj hij with hpar | hnp
  · rcases G.distances i hi j hj hij hpar with hon | hoff
    · -- on one line
      have hon2 : OnLine (G.lp i, G.rp i) (G.rp j) := by
        unfold OnLine ParallelEdges at *
        dsimp only at *
        linear_combination hon - hpar
      obtain ⟨u, hu⟩ : ∃ u, G.lp j = linePt (G.lp i, G.rp i) u := ⟨_, onLine_pos hne hon⟩
      obtain ⟨v, hv⟩ : ∃ v, G.rp j = linePt (G.lp i, G.rp i) v := ⟨_, onLine_pos hne hon2⟩
      have hcol := intersect_collinear (G.lp i, G.rp i) hne u v
      rw [← hu, ← hv] at hcol
      have hc := C67_collinear (G.lp i, G.rp i) (G.lp j, G.rp j) hne hon hon2
      rw [hcol] at hc ⊢
      split
      · exact Or.inl rfl
      · rename_i hn
        split
        · rename_i he
          right
          rw [if_neg hn, if_pos he] at hc
          refine ⟨_, rfl, ?_⟩
          set q := linePt (G.lp i, G.rp i) (Max.max 0 (Min.min u v)) with hq
          -- the common point is an end of both
          have hcom : CommonPoint (G.lp i, G.rp i) (G.lp j, G.rp j) q := by
            push Not at hn
            refine ⟨?_, ?_⟩
            · rw [seg_linePt (G.lp i, G.rp i), onSegment_linePt]
              refine ⟨_, ?_, ?_, hq⟩
              · rw [min_eq_left zero_le_one]; exact le_max_left _ _
              · rw [max_eq_right zero_le_one]; exact max_le zero_le_one hn.1
            · rw [hu, hv, onSegment_linePt]
              refine ⟨_, le_max_right _ _, ?_, hq⟩
              exact max_le hn.2 min_le_max
          have := G.apart i hi j hj hij q hcom
          have hw := wI q this.1
          rw [snap_whole hw]
          · exact this
          · intro e he
            simp only [List.mem_cons, List.not_mem_nil, or_false] at he
            rcases he with rfl | rfl | rfl | rfl
            · exact G.wholeL i hi
            · exact G.wholeR i hi
            · exact G.wholeL j hj
            · exact G.wholeR j hj
        · -- more than one common point: impossible
          exfalso
          rename_i he
          rw [if_neg hn, if_neg he] at hc
          obtain ⟨p, hpe, hcp, _⟩ := hc
          set e := linePt (G.lp i, G.rp i) (Min.min 1 (Max.max u v)) with hedef
          have c1 := (hcp p).2 (onSegment_left (p, e))
          have c2 := (hcp e).2 (onSegment_right (p, e))
          -- the midpoint of the common part
          have c3 := (hcp ⟨p.x + 1 / 2 * (e.x - p.x), p.y + 1 / 2 * (e.y - p.y)⟩).2 ⟨1 / 2, by norm_num, by norm_num, rfl, rfl⟩
          have k1 := (G.apart i hi j hj hij _ c1).1
          have k2 := (G.apart i hi j hj hij _ c2).1
          have k3 := (G.apart i hi j hj hij _ c3).1
          have ne1 : (⟨p.x + 1 / 2 * (e.x - p.x), p.y + 1 / 2 * (e.y - p.y)⟩ : Pt ℝ) ≠ p := by
            intro h
            apply hpe
            have hx := congrArg Pt.x h
            have hy := congrArg Pt.y h
            dsimp only at hx hy
            exact pt_ext (by linarith) (by linarith)
          have ne2 : (⟨p.x + 1 / 2 * (e.x - p.x), p.y + 1 / 2 * (e.y - p.y)⟩ : Pt ℝ) ≠ e := by
            intro h
            apply hpe
            have hx := congrArg Pt.x h
            have hy := congrArg Pt.y h
            dsimp only at hx hy
            exact pt_ext (by linarith) (by linarith)
          rcases k1 with k1 | k1 <;> rcases k2 with k2 | k2 <;> rcases k3 with k3 | k3
          · exact ne1 (k3.trans k1.symm)
          · exact hpe (k1.trans k2.symm)
          · exact ne1 (k3.trans k1.symm)
          · exact ne2 (k3.trans k2.symm)
          · exact ne2 (k3.trans k2.symm)
          · exact ne1 (k3.trans k1.symm)
          · exact hpe (k1.trans k2.symm)
          · exact hpe (k1.trans k2.symm)
    · -- parallel, apart
      left
      unfold intersectSegments
      simp only [real_lt, Pt.sub, Pt.cross, Pt.sqLength, sqrEpsilon, FloatOps.lit, FloatOps.add, FloatOps.mul, FloatOps.sub, decide_eq_true_eq]
      rw [if_neg, if_pos]
      · unfold ClearlyOff at hoff
        dsimp only at hoff
        push_cast
        nlinarith [hoff]
      · rw [not_lt]
        have h0 : ((G.rp i).x - (G.lp i).x) * ((G.rp j).y - (G.lp j).y) - ((G.rp i).y - (G.lp i).y) * ((G.rp j).x - (G.lp j).x) = 0 := by
          unfold ParallelEdges at hpar
          dsimp only at hpar
          linarith
        rw [h0, mul_zero]
        push_cast
        have m1 := mul_self_nonneg ((G.rp i).x - (G.lp i).x)
        have m2 := mul_self_nonneg ((G.rp i).y - (G.lp i).y)
        have m3 := mul_self_nonneg ((G.rp j).x - (G.lp j).x)
        have m4 := mul_self_nonneg ((G.rp j).y - (G.lp j).y)
        exact mul_nonneg (mul_nonneg (by norm_num) (by linarith)) (by linarith)
  · -- an angle
    by_cases hcp : ∃ p, CommonPoint (G.lp i, G.rp i) (G.lp j, G.rp j) p
    · right
      obtain ⟨p, hp⟩ := hcp
      have he := G.apart i hi j hj hij p hp
      exact ⟨p, C67_whole_point _ _ hnp p hp ⟨G.wholeL i hi, G.wholeR i hi, G.wholeL j hj, G.wholeR j hj⟩ (wI p he.1), he⟩
    · left
      exact (C67_none_iff_partial _ _ hnp).2 fun p hp => hcp ⟨p, hp⟩

/-- So nothing is ever split. -/
theorem handle_net {arena : Arena ℝ} {i j : Nat} (hi : i < G.N) (hj : j < G.N) (hij : i ≠ j) {s s' : BoolSegment ℝ} (hs : arena[i]? = some s)
    (hs' : arena[j]? = some s') (h : G.Is i s) (h' : G.Is j s') :
    ∃ m, m < 2 ∧ handleIntersections arena (some i) (some j) = .ok (arena, m, none, none) := by
  unfold handleIntersections
  have e1 : index arena i = .ok s := by unfold index; rw [hs]
  have e2 : index arena j = .ok s' := by unfold index; rw [hs']
  dsimp only
  rw [e1, e2]
  simp only [Res.bind_ok]
  rw [h.left, h.right, h'.left, h'.right]
  rcases intersect_net hi hj hij with h0 | ⟨p, hp, k1, k2⟩
  · rw [h0]
    exact ⟨0, by norm_num, rfl⟩
  · rw [hp]
    dsimp only
    split
    · exact ⟨0, by norm_num, rfl⟩
    · refine ⟨1, by norm_num, ?_⟩
      have : ∀ {k : Nat}, EndOf (G.lp k, G.rp k) p → (!(G.lp k).beq p && !(G.rp k).beq p) = false := by
        rintro k (h | h)
        · simp only at h
          rw [h, beq_iff.2 rfl]; rfl
        · simp only at h
          rw [h, beq_iff.2 (rfl : G.rp k = G.rp k)]; simp
      rw [this k1, this k2]
      rfl

end Net

end Idc
