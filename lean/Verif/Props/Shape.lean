import Verif.Spec.Shape
import Verif.Props.Textures
/-!
# Contours: C49–C52, C54
-/

namespace Idc

open FloatOps

set_option linter.unusedSectionVars false

section
variable {F : Type} [FloatOps F]

theorem areaOf_ok {ps : List (Pt F)} (h : ps ≠ []) : ∃ a, areaOf ps = .ok a := by
  obtain ⟨p, ps, rfl⟩ := List.exists_cons_of_ne_nil h
  refine ⟨areaLoop (((p :: ps).getLast (by simp)).cross p) ((p :: ps).zip ((p :: ps).drop 1)), ?_⟩
  unfold areaOf
  rw [List.getLast?_eq_some_getLast (by simp)]
  rfl

theorem clockwise_ok (c : Contour F) (h : c.points ≠ []) :
    ∃ r, c.clockwise = .ok (r, { c with is_clockwise := some r }) := by
  unfold Contour.clockwise
  rcases hc : c.is_clockwise with _ | r
  · obtain ⟨a, ha⟩ := areaOf_ok h
    exact ⟨lt a (ofInt 0), by simp only [ha, Res.bind_ok, Res.pure_eq]⟩
  · refine ⟨r, ?_⟩
    have : { c with is_clockwise := some r } = c := by rw [← hc]
    simp only [this]

/-- **C49**: after `set_clockwise` a contour reports clockwise, its points are the old ones or their
reversal, everything else is unchanged, and a second call changes nothing.  It panics only without points. -/
theorem C49_set_clockwise (c : Contour F) (h : c.points ≠ []) :
    ∃ c', c.setClockwise = .ok c' ∧ c'.clockwise = .ok (true, c') ∧ c'.counterclockwise = .ok (false, c') ∧
      (c'.points = c.points ∨ c'.points = c.points.reverse) ∧ c'.setClockwise = .ok c' ∧
      c'.holes = c.holes ∧ c'.external = c.external ∧ c'.from_polygons = c.from_polygons ∧ c'.neighbors = c.neighbors := by
  obtain ⟨r, hr⟩ := clockwise_ok c h
  unfold Contour.setClockwise Contour.counterclockwise
  cases r
  · refine ⟨{ c with points := c.points.reverse, is_clockwise := some true }, ?_, rfl, rfl, Or.inr rfl, rfl, rfl, rfl, rfl, rfl⟩
    rw [hr]; rfl
  · refine ⟨{ c with is_clockwise := some true }, ?_, rfl, rfl, Or.inl rfl, rfl, rfl, rfl, rfl, rfl⟩
    rw [hr]; rfl

/-- **C49**: the same for `set_counterclockwise`. -/
theorem C49_set_counterclockwise (c : Contour F) (h : c.points ≠ []) :
    ∃ c', c.setCounterclockwise = .ok c' ∧ c'.clockwise = .ok (false, c') ∧ c'.counterclockwise = .ok (true, c') ∧
      (c'.points = c.points ∨ c'.points = c.points.reverse) ∧ c'.setCounterclockwise = .ok c' ∧
      c'.holes = c.holes ∧ c'.external = c.external ∧ c'.from_polygons = c.from_polygons ∧ c'.neighbors = c.neighbors := by
  obtain ⟨r, hr⟩ := clockwise_ok c h
  unfold Contour.setCounterclockwise
  cases r
  · refine ⟨{ c with is_clockwise := some false }, ?_, rfl, rfl, Or.inl rfl, rfl, rfl, rfl, rfl, rfl⟩
    rw [hr]; rfl
  · refine ⟨{ c with points := c.points.reverse, is_clockwise := some false }, ?_, rfl, rfl, Or.inr rfl, rfl, rfl, rfl, rfl, rfl⟩
    rw [hr]; rfl

/-- Without points the orientation calls panic. -/
theorem C49_empty_panics (c : Contour F) (h : c.points = []) (hc : c.is_clockwise = none) :
    c.setClockwise = .panic .unwrap ∧ c.setCounterclockwise = .panic .unwrap := by
  have : c.clockwise = .panic .unwrap := by
    unfold Contour.clockwise areaOf
    rw [hc, h]; rfl
  unfold Contour.setClockwise Contour.setCounterclockwise Contour.counterclockwise
  rw [this]; exact ⟨rfl, rfl⟩

theorem collect_from (c : Contour F) : ∀ (k i fuel : Nat), i + k = c.points.length → c.points ≠ [] → k < fuel →
    ContourSegments.collect fuel ⟨c, i⟩ = .ok ((List.range' i k).filterMap fun j =>
      match c.points[j]?, c.points[(j + 1) % c.points.length]? with
      | some a, some b => some (a, b)
      | _, _ => none) := by
  intro k
  induction k with
  | zero =>
    intro i fuel hi hne hf
    obtain ⟨f, rfl⟩ : ∃ f, fuel = f + 1 := ⟨fuel - 1, by omega⟩
    have hlen : c.points.length ≠ 0 := by simpa using hne
    simp only [ContourSegments.collect, ContourSegments.next, if_neg hlen, if_neg (by omega : ¬ i < c.points.length - 1),
      if_neg (by omega : ¬ i = c.points.length - 1), Res.bind_ok, Res.pure_eq]
    rfl
  | succ k ih =>
    intro i fuel hi hne hf
    obtain ⟨f, rfl⟩ : ∃ f, fuel = f + 1 := ⟨fuel - 1, by omega⟩
    have hlen : c.points.length ≠ 0 := by simpa using hne
    have hi1 : i < c.points.length := by omega
    have h2 := ih (i + 1) f (by omega) hne (by omega)
    simp only [ContourSegments.collect, ContourSegments.next, if_neg hlen]
    rw [List.range'_succ, List.filterMap_cons]
    by_cases hlast : i < c.points.length - 1
    · have e1 : (i + 1) % c.points.length = i + 1 := Nat.mod_eq_of_lt (by omega)
      simp only [if_pos hlast, index_ok (List.getElem?_eq_getElem hi1),
        index_ok (List.getElem?_eq_getElem (by omega : i + 1 < c.points.length)), Res.bind_ok, Res.pure_eq, e1,
        List.getElem?_eq_getElem hi1, List.getElem?_eq_getElem (by omega : i + 1 < c.points.length)]
      rw [h2]; rfl
    · have e0 : i = c.points.length - 1 := by omega
      have e1 : (i + 1) % c.points.length = 0 := by rw [show i + 1 = c.points.length by omega]; exact Nat.mod_self _
      simp only [if_neg hlast, if_pos e0, index_ok (List.getElem?_eq_getElem hi1),
        index_ok (List.getElem?_eq_getElem (by omega : 0 < c.points.length)), Res.bind_ok, Res.pure_eq, e1,
        List.getElem?_eq_getElem hi1, List.getElem?_eq_getElem (by omega : 0 < c.points.length)]
      rw [h2]; rfl

/-- **C52**: the segments of a contour are, in order, one per point: from the i-th point to the next one,
the last leading back to the first. -/
theorem C52_segments (c : Contour F) : ∃ segs, c.segments = .ok segs ∧ segs.length = c.points.length ∧
    ∀ i a b, segs[i]? = some (a, b) ↔ c.points[i]? = some a ∧ c.points[(i + 1) % c.points.length]? = some b := by
  by_cases hne : c.points = []
  · refine ⟨[], ?_, by simp [hne], ?_⟩
    · unfold Contour.segments Contour.iterSegments
      rw [hne]
      simp only [List.length_nil, ContourSegments.collect, ContourSegments.next, hne, if_true, Res.bind_ok, Res.pure_eq]
    · intro i a b; simp [hne]
  · have hpos : 0 < c.points.length := List.length_pos_iff.mpr hne
    have key : ∀ k i, i + k = c.points.length →
        ((List.range' i k).filterMap fun j =>
          match c.points[j]?, c.points[(j + 1) % c.points.length]? with
          | some a, some b => some (a, b)
          | _, _ => none).map some = (List.range' i k).map fun j =>
          match c.points[j]?, c.points[(j + 1) % c.points.length]? with
          | some a, some b => some (a, b)
          | _, _ => none := by
      intro k
      induction k with
      | zero => intro i _; rfl
      | succ k ih =>
        intro i hi
        rw [List.range'_succ, List.filterMap_cons, List.map_cons, List.getElem?_eq_getElem (by omega : i < c.points.length),
          List.getElem?_eq_getElem (Nat.mod_lt _ hpos)]
        simp only [List.map_cons, ih (i + 1) (by omega)]
    refine ⟨_, collect_from c c.points.length 0 _ (by omega) hne (by omega), ?_, ?_⟩
    · have := congrArg List.length (key c.points.length 0 (by omega))
      simpa using this
    · intro i a b
      have h1 := congrArg (fun l => l[i]?) (key c.points.length 0 (by omega))
      simp only [List.getElem?_map] at h1
      by_cases hi : i < c.points.length
      · rw [List.getElem?_range' hi] at h1
        simp only [Nat.zero_add, Nat.one_mul, Option.map_some, List.getElem?_eq_getElem hi,
          List.getElem?_eq_getElem (Nat.mod_lt (i + 1) hpos)] at h1
        rw [List.getElem?_eq_getElem hi, List.getElem?_eq_getElem (Nat.mod_lt _ hpos)]
        rw [Option.map_eq_some_iff] at h1
        obtain ⟨s, hs1, hs2⟩ := h1
        rw [hs1]
        cases hs2
        simp [Prod.ext_iff, eq_comm]
      · rw [List.getElem?_eq_none (by omega : c.points.length ≤ i)]
        constructor
        · intro h2
          rw [h2, List.getElem?_eq_none (by simpa using (by omega : c.points.length ≤ i))] at h1
          simp at h1
        · rintro ⟨h2, _⟩; simp at h2

end


/-! ### Exact arithmetic -/

/-- Cross product. -/
noncomputable def crossR (a b : Pt ℝ) : ℝ := a.x * b.y - a.y * b.x

theorem crossR_swap (a b : Pt ℝ) : crossR a b = -crossR b a := by unfold crossR; ring

theorem areaLoop_eq (a : ℝ) (l : List (Pt ℝ × Pt ℝ)) : areaLoop a l = a + (l.map fun e => crossR e.1 e.2).sum := by
  induction l generalizing a with
  | nil => simp [areaLoop]
  | cons e l ih =>
    obtain ⟨p, q⟩ := e
    rw [areaLoop, ih, List.map_cons, List.sum_cons]
    show a + crossR p q + _ = _
    ring

/-- The sum of the cross products along an open chain. -/
noncomputable def chain (l : List (Pt ℝ)) : ℝ := ((l.zip (l.drop 1)).map fun e => crossR e.1 e.2).sum

theorem chain_cons (p q : Pt ℝ) (l : List (Pt ℝ)) : chain (p :: q :: l) = crossR p q + chain (q :: l) := by
  simp [chain]

theorem zip_append_last (p q : Pt ℝ) (ps : List (Pt ℝ)) :
    (((p :: ps).zip (ps ++ [q])).map fun e => crossR e.1 e.2).sum = chain (p :: ps) + crossR ((p :: ps).getLast (by simp)) q := by
  induction ps generalizing p with
  | nil => simp [chain]
  | cons r ps ih =>
    have := ih r
    rw [chain_cons, List.cons_append, List.zip_cons_cons, List.map_cons, List.sum_cons, this, List.getLast_cons_cons]
    ring

theorem signedArea2_cons (p : Pt ℝ) (ps : List (Pt ℝ)) :
    signedArea2 (p :: ps) = chain (p :: ps) + crossR ((p :: ps).getLast (by simp)) p := by
  rw [← zip_append_last]
  unfold signedArea2
  rw [List.rotate_cons_succ, List.rotate_zero]
  rfl

theorem areaOf_eq {ps : List (Pt ℝ)} (h : ps ≠ []) : areaOf ps = .ok (signedArea2 ps) := by
  obtain ⟨p, ps, rfl⟩ := List.exists_cons_of_ne_nil h
  unfold areaOf
  rw [List.getLast?_eq_some_getLast (by simp), signedArea2_cons]
  show Res.ok (areaLoop (((p :: ps).getLast (by simp)).cross p) ((p :: ps).zip ((p :: ps).drop 1))) = _
  rw [areaLoop_eq]
  congr 1
  show crossR _ _ + chain (p :: ps) = _
  ring

theorem chain_snoc (l : List (Pt ℝ)) (p q : Pt ℝ) : chain (l ++ [p, q]) = chain (l ++ [p]) + crossR p q := by
  induction l with
  | nil => simp [chain]
  | cons a l ih =>
    cases l with
    | nil => simp [chain]
    | cons b l =>
      simp only [List.cons_append] at ih ⊢
      rw [chain_cons, chain_cons, ih]; ring

theorem chain_reverse (l : List (Pt ℝ)) : chain l.reverse = -chain l := by
  induction l with
  | nil => simp [chain]
  | cons p l ih =>
    cases l with
    | nil => simp [chain]
    | cons q l =>
      rw [chain_cons, List.reverse_cons, List.reverse_cons, List.append_assoc]
      show chain (l.reverse ++ [q, p]) = _
      rw [chain_snoc, ← List.reverse_cons, ih, crossR_swap q p]; ring

theorem signedArea2_reverse (l : List (Pt ℝ)) : signedArea2 l.reverse = -signedArea2 l := by
  cases l with
  | nil => simp [signedArea2]
  | cons p ps =>
    have hne : (p :: ps).reverse ≠ [] := by simp
    obtain ⟨q, qs, hq⟩ := List.exists_cons_of_ne_nil hne
    have h2 : (p :: ps).getLast (by simp) = q := by
      have : (p :: ps).reverse.head hne = q := by simp only [hq, List.head_cons]
      rw [← this, List.head_reverse]
    have h3 : (q :: qs).getLast (by simp) = p := by
      have h1 : (p :: ps).reverse.getLast? = some p := by simp
      rw [hq, List.getLast?_eq_some_getLast (by simp)] at h1
      exact Option.some.inj h1
    have hc : chain (q :: qs) = -chain (p :: ps) := by rw [← hq]; exact chain_reverse _
    rw [hq, signedArea2_cons, signedArea2_cons, h2, h3, hc, crossR_swap p q]; ring

/-- The cached answer, if any, is right for the current points. -/
def CacheRight (c : Contour ℝ) : Prop := ∀ r, c.is_clockwise = some r → (r = true ↔ signedArea2 c.points < 0)

theorem clockwise_right {c : Contour ℝ} (hne : c.points ≠ []) (hc : CacheRight c) :
    c.clockwise = .ok (decide (signedArea2 c.points < 0), { c with is_clockwise := some (decide (signedArea2 c.points < 0)) }) := by
  unfold Contour.clockwise
  rcases h : c.is_clockwise with _ | r
  · simp only [areaOf_eq hne, Res.bind_ok, Res.pure_eq]
    have : lt (signedArea2 c.points) (ofInt 0) = decide (signedArea2 c.points < 0) := by simp [lt, ofInt]
    rw [this]
  · have : r = decide (signedArea2 c.points < 0) := by
      have := hc r h
      cases r <;> simp_all
    dsimp only
    rw [← this, ← h]

theorem change_right {c : Contour ℝ} (h0 : signedArea2 c.points ≠ 0) (hc : CacheRight c) : CacheRight c.changeOrientation := by
  intro r hr
  unfold Contour.changeOrientation at *
  dsimp only at *
  rw [signedArea2_reverse]
  rcases h : c.is_clockwise with _ | r'
  · rw [h] at hr; cases hr
  · rw [h] at hr
    simp only [Option.map_some, Option.some.injEq] at hr
    have := hc r' h
    subst hr
    rcases lt_or_gt_of_ne h0 with h1 | h1
    · have : r' = true := this.mpr h1
      subst this
      simp; linarith
    · have : r' = false := by
        cases r'
        · rfl
        · exact absurd (this.mp rfl) (by linarith)
      subst this
      simp; linarith

theorem ofPoints_eq (ps : List (Pt ℝ)) : (Contour.ofPoints ps).points = ps ∧ (Contour.ofPoints ps).is_clockwise = none := by
  unfold Contour.ofPoints
  have : ∀ (ps : List (Pt ℝ)) (c : Contour ℝ), (ps.foldl Contour.add c).points = c.points ++ ps ∧
      (ps.foldl Contour.add c).is_clockwise = c.is_clockwise := by
    intro ps
    induction ps with
    | nil => intro c; simp
    | cons p ps ih => intro c; rw [List.foldl_cons]; obtain ⟨h1, h2⟩ := ih (c.add p); rw [h1, h2]; simp [Contour.add]
  obtain ⟨h1, h2⟩ := this ps Contour.new
  rw [h1, h2]; exact ⟨rfl, rfl⟩

/-- **C50, fresh contours**: the first `clockwise()` on a contour made of some points is true iff their
signed area is negative. -/
theorem C50_fresh (ps : List (Pt ℝ)) (h : ps ≠ []) :
    ∃ c', (Contour.ofPoints ps).clockwise = .ok (decide (signedArea2 ps < 0), c') := by
  obtain ⟨h1, h2⟩ := ofPoints_eq ps
  rw [clockwise_right (by rw [h1]; exact h) (by intro r hr; rw [h2] at hr; cases hr), h1]
  exact ⟨_, rfl⟩

theorem orientOp_step {c : Contour ℝ} {ps : List (Pt ℝ)} (hne : ps ≠ []) (h0 : signedArea2 ps ≠ 0)
    (hp : c.points = ps ∨ c.points = ps.reverse) (hc : CacheRight c) (op : OrientOp) :
    ∃ c', op.run c = .ok c' ∧ (c'.points = ps ∨ c'.points = ps.reverse) ∧ CacheRight c' := by
  have hne' : c.points ≠ [] := by rcases hp with h | h <;> rw [h] <;> simpa using hne
  have h0' : signedArea2 c.points ≠ 0 := by
    rcases hp with h | h <;> rw [h]
    · exact h0
    · rw [signedArea2_reverse]; simpa using h0
  have hcl := clockwise_right hne' hc
  have hq : CacheRight { c with is_clockwise := some (decide (signedArea2 c.points < 0)) } := by
    intro r hr
    simp only [Option.some.injEq] at hr
    subst hr
    exact decide_eq_true_iff
  have hch : ∀ d : Contour ℝ, d.points = c.points → CacheRight d →
      (d.changeOrientation.points = ps ∨ d.changeOrientation.points = ps.reverse) ∧ CacheRight d.changeOrientation := by
    intro d hd hcd
    refine ⟨?_, change_right (by rw [hd]; exact h0') hcd⟩
    unfold Contour.changeOrientation
    dsimp only
    rw [hd]
    rcases hp with h | h <;> rw [h]
    · exact Or.inr rfl
    · left; simp
  cases op with
  | clockwise =>
    refine ⟨{ c with is_clockwise := some (decide (signedArea2 c.points < 0)) }, ?_, hp, hq⟩
    unfold OrientOp.run; rw [hcl]; rfl
  | counterclockwise =>
    refine ⟨{ c with is_clockwise := some (decide (signedArea2 c.points < 0)) }, ?_, hp, hq⟩
    unfold OrientOp.run Contour.counterclockwise; rw [hcl]; rfl
  | changeOrientation =>
    obtain ⟨h1, h2⟩ := hch c rfl hc
    exact ⟨c.changeOrientation, rfl, h1, h2⟩
  | setClockwise =>
    unfold OrientOp.run Contour.setClockwise Contour.counterclockwise
    rw [hcl]
    cases hd : decide (signedArea2 c.points < 0) <;> rw [hd] at hq
    · obtain ⟨h1, h2⟩ := hch { c with is_clockwise := some false } rfl hq
      exact ⟨_, rfl, h1, h2⟩
    · exact ⟨_, rfl, hp, hq⟩
  | setCounterclockwise =>
    unfold OrientOp.run Contour.setCounterclockwise
    rw [hcl]
    cases hd : decide (signedArea2 c.points < 0) <;> rw [hd] at hq
    · exact ⟨_, rfl, hp, hq⟩
    · obtain ⟨h1, h2⟩ := hch { c with is_clockwise := some true } rfl hq
      exact ⟨_, rfl, h1, h2⟩

/-- **C50, partial**: for points of non-zero area, after any sequence of orientation calls, `clockwise()`
is true iff the signed area of the points as they then are is negative.  Missing: points added after an
orientation call (`C50_stale_after_add`) and zero area (`C50_zero_area`), where the claim is false; the
arithmetic is exact. -/
theorem C50_orientation_partial (ps : List (Pt ℝ)) (h0 : signedArea2 ps ≠ 0) (ops : List OrientOp) :
    ∃ c, forEach OrientOp.run ops (Contour.ofPoints ps) = .ok c ∧ (c.points = ps ∨ c.points = ps.reverse) ∧
      ∃ c', c.clockwise = .ok (decide (signedArea2 c.points < 0), c') := by
  have hne : ps ≠ [] := by rintro rfl; exact h0 (by simp [signedArea2])
  have : ∀ (ops : List OrientOp) (c : Contour ℝ), (c.points = ps ∨ c.points = ps.reverse) → CacheRight c →
      ∃ c', forEach OrientOp.run ops c = .ok c' ∧ (c'.points = ps ∨ c'.points = ps.reverse) ∧ CacheRight c' := by
    intro ops
    induction ops with
    | nil => intro c h1 h2; exact ⟨c, rfl, h1, h2⟩
    | cons op ops ih =>
      intro c h1 h2
      obtain ⟨c', h3, h4, h5⟩ := orientOp_step hne h0 h1 h2 op
      obtain ⟨c'', h6, h7⟩ := ih c' h4 h5
      exact ⟨c'', by simp only [forEach, h3, Res.bind_ok, h6], h7⟩
  obtain ⟨h1, h2⟩ := ofPoints_eq ps
  obtain ⟨c, h3, h4, h5⟩ := this ops (Contour.ofPoints ps) (Or.inl h1) (by intro r hr; rw [h2] at hr; cases hr)
  refine ⟨c, h3, h4, _, clockwise_right ?_ h5⟩
  rcases h4 with h | h <;> rw [h] <;> simpa using hne

/-- The hypothesis of `C50_orientation_partial` is met by a triangle. -/
theorem C50_hypothesis_met : signedArea2 [⟨0, 0⟩, ⟨1, 0⟩, ⟨0, 1⟩] = 1 := by
  simp [signedArea2, List.rotate]

/-- **C50 is false**: query a counterclockwise triangle, then add a point that makes the outline clockwise:
`clockwise()` still answers false. -/
theorem C50_stale_after_add : ∃ c c' c'' : Contour ℝ, (Contour.ofPoints [⟨0, 0⟩, ⟨1, 0⟩, ⟨0, 1⟩]).clockwise = .ok (false, c) ∧
    c' = c.add ⟨5, 5⟩ ∧ signedArea2 c'.points < 0 ∧ c'.clockwise = .ok (false, c'') := by
  have h := clockwise_right (c := Contour.ofPoints [⟨0, 0⟩, ⟨1, 0⟩, ⟨0, 1⟩]) (by rw [(ofPoints_eq _).1]; simp)
    (by intro r hr; rw [(ofPoints_eq _).2] at hr; cases hr)
  rw [(ofPoints_eq _).1, C50_hypothesis_met] at h
  have h01 : decide ((1 : ℝ) < 0) = false := by rw [decide_eq_false_iff_not]; norm_num
  rw [h01] at h
  refine ⟨_, _, _, h, rfl, ?_, rfl⟩
  unfold Contour.add
  dsimp only
  simp [signedArea2, List.rotate]

/-- **C50 is false** for outlines of zero area: after `clockwise()` (which answers false) and
`change_orientation()`, `clockwise()` answers true. -/
theorem C50_zero_area : signedArea2 [⟨0, 0⟩, ⟨1, 0⟩] = 0 ∧ ∃ c c' : Contour ℝ,
    (Contour.ofPoints [⟨0, 0⟩, ⟨1, 0⟩]).clockwise = .ok (false, c) ∧ c.changeOrientation.clockwise = .ok (true, c') := by
  have h0 : signedArea2 [⟨0, 0⟩, ⟨1, 0⟩] = 0 := by simp [signedArea2, List.rotate]
  have h := clockwise_right (c := Contour.ofPoints [⟨0, 0⟩, ⟨1, 0⟩]) (by rw [(ofPoints_eq _).1]; simp)
    (by intro r hr; rw [(ofPoints_eq _).2] at hr; cases hr)
  rw [(ofPoints_eq _).1, h0] at h
  have h01 : decide ((0 : ℝ) < 0) = false := by rw [decide_eq_false_iff_not]; norm_num
  rw [h01] at h
  exact ⟨h0, _, _, h, rfl⟩

/-! ### Bounding boxes -/

theorem bboxLoop_inv (ps : List (Pt ℝ)) : ∀ (qs : List (ℝ × ℝ)) (x0 y0 x1 y1 : ℝ), SmallestBox x0 y0 x1 y1 qs →
    SmallestBox (bboxLoop ps (x0, y0, x1, y1)).1 (bboxLoop ps (x0, y0, x1, y1)).2.1 (bboxLoop ps (x0, y0, x1, y1)).2.2.1
      (bboxLoop ps (x0, y0, x1, y1)).2.2.2 (qs ++ ps.map fun p => (p.x, p.y)) := by
  induction ps with
  | nil => intro qs x0 y0 x1 y1 h; simpa [bboxLoop] using h
  | cons p ps ih =>
    intro qs x0 y0 x1 y1 h
    have := ih (qs ++ [(p.x, p.y)]) (Min.min x0 p.x) (Min.min y0 p.y) (Max.max x1 p.x) (Max.max y1 p.y) (by
      constructor
      · intro q hq
        rcases List.mem_append.mp hq with hq | hq
        · obtain ⟨h1, h2, h3, h4⟩ := h.inside q hq
          exact ⟨le_trans (min_le_left _ _) h1, le_trans h2 (le_max_left _ _), le_trans (min_le_left _ _) h3, le_trans h4 (le_max_left _ _)⟩
        · simp only [List.mem_singleton] at hq
          subst hq
          exact ⟨min_le_right _ _, le_max_right _ _, min_le_right _ _, le_max_right _ _⟩
      · rcases le_total x0 p.x with hl | hl
        · obtain ⟨q, hq, he⟩ := h.left; exact ⟨q, List.mem_append_left _ hq, by rw [min_eq_left hl, he]⟩
        · exact ⟨(p.x, p.y), by simp, by rw [min_eq_right hl]⟩
      · rcases le_total p.x x1 with hl | hl
        · obtain ⟨q, hq, he⟩ := h.right; exact ⟨q, List.mem_append_left _ hq, by rw [max_eq_left hl, he]⟩
        · exact ⟨(p.x, p.y), by simp, by rw [max_eq_right hl]⟩
      · rcases le_total y0 p.y with hl | hl
        · obtain ⟨q, hq, he⟩ := h.bottom; exact ⟨q, List.mem_append_left _ hq, by rw [min_eq_left hl, he]⟩
        · exact ⟨(p.x, p.y), by simp, by rw [min_eq_right hl]⟩
      · rcases le_total p.y y1 with hl | hl
        · obtain ⟨q, hq, he⟩ := h.top; exact ⟨q, List.mem_append_left _ hq, by rw [max_eq_left hl, he]⟩
        · exact ⟨(p.x, p.y), by simp, by rw [max_eq_right hl]⟩)
    simp only [List.append_assoc, List.singleton_append] at this
    exact this

/-- **C51, contours**: `bbox` is the smallest rectangle around the contour's points (the zero rectangle if
there are none). -/
theorem C51_contour_bbox (c : Contour ℝ) :
    (c.points = [] → c.bbox = ⟨0, 0, 0, 0⟩) ∧
    (c.points ≠ [] → SmallestBox c.bbox.x c.bbox.y (c.bbox.x + c.bbox.width) (c.bbox.y + c.bbox.height) (c.points.map fun p => (p.x, p.y))) := by
  constructor
  · intro h
    unfold Contour.bbox Rect.zero
    rw [h]
    simp [ofInt]
  · intro h
    unfold Contour.bbox
    obtain ⟨p, ps, hp⟩ := List.exists_cons_of_ne_nil h
    rw [hp]
    have := bboxLoop_inv ps [(p.x, p.y)] p.x p.y p.x p.y (by
      constructor
      · intro q hq; simp only [List.mem_singleton] at hq; subst hq; exact ⟨le_refl _, le_refl _, le_refl _, le_refl _⟩
      all_goals exact ⟨(p.x, p.y), by simp, rfl⟩)
    dsimp only
    have e : ∀ a b : ℝ, a + FloatOps.sub b a = b := by intro a b; show a + (b - a) = b; ring
    rw [e, e]
    simpa using this

theorem around_bbox {c : Contour ℝ} (h : c.points ≠ []) : Around c.bbox (· ∈ c.points) := by
  have hb := (C51_contour_bbox c).2 h
  have hin : ∀ p ∈ c.points, c.bbox.Covers p := fun p hp => hb.inside _ (List.mem_map.mpr ⟨p, hp, rfl⟩)
  obtain ⟨p, ps, hp⟩ := List.exists_cons_of_ne_nil h
  have h1 := hin p (by rw [hp]; simp)
  unfold Rect.Covers at h1
  refine ⟨⟨by linarith, by linarith⟩, hin, ?_, ?_, ?_, ?_⟩
  · obtain ⟨q, hq, he⟩ := hb.left; obtain ⟨p, hp, rfl⟩ := List.mem_map.mp hq; exact ⟨p, hp, he⟩
  · obtain ⟨q, hq, he⟩ := hb.right; obtain ⟨p, hp, rfl⟩ := List.mem_map.mp hq; exact ⟨p, hp, he⟩
  · obtain ⟨q, hq, he⟩ := hb.bottom; obtain ⟨p, hp, rfl⟩ := List.mem_map.mp hq; exact ⟨p, hp, he⟩
  · obtain ⟨q, hq, he⟩ := hb.top; obtain ⟨p, hp, rfl⟩ := List.mem_map.mp hq; exact ⟨p, hp, he⟩

theorem around_union {a b : Rect ℝ} {S T : Pt ℝ → Prop} (ha : Around a S) (hb : Around b T) (hda : ¬ a.Degenerate) (hdb : ¬ b.Degenerate) :
    Around (a.union b) (fun p => S p ∨ T p) ∧ ¬ (a.union b).Degenerate := by
  have e : a.union b = ⟨Min.min a.x b.x, Min.min a.y b.y, Max.max (a.x + a.width) (b.x + b.width) - Min.min a.x b.x,
      Max.max (a.y + a.height) (b.y + b.height) - Min.min a.y b.y⟩ := by
    unfold Rect.union
    have h1 : (eq a.width (ofInt 0) && eq a.height (ofInt 0)) = false := by
      rw [Bool.eq_false_iff]; intro h; apply hda
      simpa [eq, ofInt, Rect.Degenerate] using h
    have h2 : (eq b.width (ofInt 0) && eq b.height (ofInt 0)) = false := by
      rw [Bool.eq_false_iff]; intro h; apply hdb
      simpa [eq, ofInt, Rect.Degenerate] using h
    have hle : ∀ x y : ℝ, FloatOps.le x y = decide (x ≤ y) := by
      intro x y
      simp only [FloatOps.le, lt, eq, le_iff_lt_or_eq, Bool.decide_or]
    rw [if_neg (by simp [h1]), if_neg (by simp [h2])]
    simp only [hle, decide_eq_true_eq, Rect.maxX, Rect.maxY]
    show (⟨_, _, _ - _, _ - _⟩ : Rect ℝ) = _
    simp only [min_def, max_def]
    rfl
  rw [e]
  have hw := ha.wide
  have hw' := hb.wide
  have m1 := min_le_left a.x b.x
  have m2 := min_le_right a.x b.x
  have m3 := le_max_left (a.x + a.width) (b.x + b.width)
  have m4 := le_max_right (a.x + a.width) (b.x + b.width)
  have n1 := min_le_left a.y b.y
  have n2 := min_le_right a.y b.y
  have n3 := le_max_left (a.y + a.height) (b.y + b.height)
  have n4 := le_max_right (a.y + a.height) (b.y + b.height)
  refine ⟨⟨⟨by dsimp only; linarith, by dsimp only; linarith⟩, ?_, ?_, ?_, ?_, ?_⟩, ?_⟩
  · rintro p (hp | hp)
    · obtain ⟨h1, h2, h3, h4⟩ := ha.inside p hp
      refine ⟨?_, ?_, ?_, ?_⟩ <;> dsimp only <;> linarith
    · obtain ⟨h1, h2, h3, h4⟩ := hb.inside p hp
      refine ⟨?_, ?_, ?_, ?_⟩ <;> dsimp only <;> linarith
  · rcases min_choice a.x b.x with h | h
    · obtain ⟨p, hp, hx⟩ := ha.left; exact ⟨p, Or.inl hp, by dsimp only; rw [h, hx]⟩
    · obtain ⟨p, hp, hx⟩ := hb.left; exact ⟨p, Or.inr hp, by dsimp only; rw [h, hx]⟩
  · rcases max_choice (a.x + a.width) (b.x + b.width) with h | h
    · obtain ⟨p, hp, hx⟩ := ha.right; exact ⟨p, Or.inl hp, by dsimp only; rw [h, hx]; ring⟩
    · obtain ⟨p, hp, hx⟩ := hb.right; exact ⟨p, Or.inr hp, by dsimp only; rw [h, hx]; ring⟩
  · rcases min_choice a.y b.y with h | h
    · obtain ⟨p, hp, hx⟩ := ha.bottom; exact ⟨p, Or.inl hp, by dsimp only; rw [h, hx]⟩
    · obtain ⟨p, hp, hx⟩ := hb.bottom; exact ⟨p, Or.inr hp, by dsimp only; rw [h, hx]⟩
  · rcases max_choice (a.y + a.height) (b.y + b.height) with h | h
    · obtain ⟨p, hp, hx⟩ := ha.top; exact ⟨p, Or.inl hp, by dsimp only; rw [h, hx]; ring⟩
    · obtain ⟨p, hp, hx⟩ := hb.top; exact ⟨p, Or.inr hp, by dsimp only; rw [h, hx]; ring⟩
  · rintro ⟨h1, h2⟩
    dsimp only at h1 h2
    exact hda ⟨by linarith, by linarith⟩

theorem union_degenerate_left {a b : Rect ℝ} (h : a.Degenerate) : a.union b = b := by
  unfold Rect.union
  rw [if_pos (by simp [eq, ofInt, h.1, h.2])]

theorem union_degenerate_right {a b : Rect ℝ} (ha : ¬ a.Degenerate) (h : b.Degenerate) : a.union b = a := by
  unfold Rect.union
  rw [if_neg (by
    intro h'; apply ha
    simpa [eq, ofInt, Rect.Degenerate] using h'), if_pos (by simp [eq, ofInt, h.1, h.2])]

/-- **C51, polygons**: `Polygon::bbox` is the smallest rectangle around all contours that have some extent,
if there is one. -/
theorem C51_polygon_bbox (p : Polygon ℝ) (c₀ : Contour ℝ) (hc : c₀ ∈ p.contours) (hd : ¬ c₀.bbox.Degenerate) :
    Around p.bbox (fun q => ∃ c ∈ p.contours, ¬ c.bbox.Degenerate ∧ q ∈ c.points) := by
  have hpts : ∀ c : Contour ℝ, ¬ c.bbox.Degenerate → c.points ≠ [] := by
    intro c hc h
    apply hc
    rw [(C51_contour_bbox c).1 h]; exact ⟨rfl, rfl⟩
  have key : ∀ (cs done : List (Contour ℝ)) (b : Rect ℝ),
      ((b.Degenerate ∧ ∀ c ∈ done, c.bbox.Degenerate) ∨
        (¬ b.Degenerate ∧ Around b (fun q => ∃ c ∈ done, ¬ c.bbox.Degenerate ∧ q ∈ c.points))) →
      let b' := cs.foldl (fun b c => b.union c.bbox) b
      ((b'.Degenerate ∧ ∀ c ∈ done ++ cs, c.bbox.Degenerate) ∨
        (¬ b'.Degenerate ∧ Around b' (fun q => ∃ c ∈ done ++ cs, ¬ c.bbox.Degenerate ∧ q ∈ c.points))) := by
    intro cs
    induction cs with
    | nil => intro done b h; simpa using h
    | cons c cs ih =>
      intro done b h
      rw [List.foldl_cons]
      have := ih (done ++ [c]) (b.union c.bbox) ?_
      · rw [List.append_assoc, List.singleton_append] at this; exact this
      · rcases h with ⟨h1, h2⟩ | ⟨h1, h2⟩
        · rw [union_degenerate_left h1]
          by_cases hcd : c.bbox.Degenerate
          · left
            refine ⟨hcd, ?_⟩
            intro x hx
            rcases List.mem_append.mp hx with hx | hx
            · exact h2 x hx
            · rw [List.mem_singleton.mp hx]; exact hcd
          · right
            refine ⟨hcd, ?_⟩
            have e : (fun q => ∃ x ∈ done ++ [c], ¬ x.bbox.Degenerate ∧ q ∈ x.points) = (· ∈ c.points) := by
              funext q
              apply propext
              constructor
              · rintro ⟨x, hx, hx1, hx2⟩
                rcases List.mem_append.mp hx with hx | hx
                · exact absurd (h2 x hx) hx1
                · rw [List.mem_singleton.mp hx] at hx2; exact hx2
              · intro hq; exact ⟨c, by simp, hcd, hq⟩
            rw [e]
            exact around_bbox (hpts c hcd)
        · by_cases hcd : c.bbox.Degenerate
          · rw [union_degenerate_right h1 hcd]
            right
            refine ⟨h1, ?_⟩
            have e : (fun q => ∃ x ∈ done ++ [c], ¬ x.bbox.Degenerate ∧ q ∈ x.points) =
                (fun q => ∃ x ∈ done, ¬ x.bbox.Degenerate ∧ q ∈ x.points) := by
              funext q
              apply propext
              constructor
              · rintro ⟨x, hx, hx1, hx2⟩
                rcases List.mem_append.mp hx with hx | hx
                · exact ⟨x, hx, hx1, hx2⟩
                · rw [List.mem_singleton.mp hx] at hx1; exact absurd hcd hx1
              · rintro ⟨x, hx, hx1, hx2⟩; exact ⟨x, by simp [hx], hx1, hx2⟩
            rw [e]; exact h2
          · obtain ⟨h3, h4⟩ := around_union h2 (around_bbox (hpts c hcd)) h1 hcd
            right
            refine ⟨h4, ?_⟩
            have e : (fun q => ∃ x ∈ done ++ [c], ¬ x.bbox.Degenerate ∧ q ∈ x.points) =
                (fun q => (∃ x ∈ done, ¬ x.bbox.Degenerate ∧ q ∈ x.points) ∨ q ∈ c.points) := by
              funext q
              apply propext
              constructor
              · rintro ⟨x, hx, hx1, hx2⟩
                rcases List.mem_append.mp hx with hx | hx
                · exact Or.inl ⟨x, hx, hx1, hx2⟩
                · rw [List.mem_singleton.mp hx] at hx2; exact Or.inr hx2
              · rintro (⟨x, hx, hx1, hx2⟩ | hq)
                · exact ⟨x, by simp [hx], hx1, hx2⟩
                · exact ⟨c, by simp, hcd, hq⟩
            rw [e]; exact h3
  unfold Polygon.bbox
  rcases hcs : p.contours with _ | ⟨c, cs⟩
  · rw [hcs] at hc; cases hc
  · rw [hcs] at hc
    dsimp only
    have := key cs [c] c.bbox (by
      by_cases hcd : c.bbox.Degenerate
      · left; exact ⟨hcd, by intro x hx; rw [List.mem_singleton.mp hx]; exact hcd⟩
      · right
        refine ⟨hcd, ?_⟩
        have e : (fun q => ∃ x ∈ [c], ¬ x.bbox.Degenerate ∧ q ∈ x.points) = (· ∈ c.points) := by
          funext q
          simp [hcd]
        rw [e]; exact around_bbox (hpts c hcd))
    dsimp only at this
    rcases this with ⟨_, h2⟩ | ⟨_, h2⟩
    · exact absurd (h2 c₀ (by simpa using hc)) hd
    · exact h2

/-- A contour with the given points (for examples). -/
def exContour (ps : List (Pt ℝ)) : Contour ℝ where
  points := ps
  holes := []
  from_polygons := []
  neighbors := []
  external := true
  is_clockwise := none

theorem exContour_bbox : (exContour [⟨0, 0⟩, ⟨1, 1⟩]).bbox = ⟨0, 0, 1, 1⟩ := by
  simp [exContour, Contour.bbox, bboxLoop, FloatOps.sub, FloatOps.min, FloatOps.max]

/-- A contour without extent (a single point) is ignored by `Polygon::bbox`. -/
theorem C51_point_ignored : ∃ p : Polygon ℝ, ∃ c ∈ p.contours, ∃ q ∈ c.points, ¬ p.bbox.Covers q := by
  refine ⟨⟨[exContour [⟨0, 0⟩, ⟨1, 1⟩], exContour [⟨5, 5⟩]]⟩, exContour [⟨5, 5⟩], by simp, ⟨5, 5⟩, by simp [exContour], ?_⟩
  have h2 : (exContour [⟨5, 5⟩]).bbox.Degenerate := by
    simp [exContour, Contour.bbox, bboxLoop, Rect.Degenerate, FloatOps.sub]
  have h1 := exContour_bbox
  unfold Polygon.bbox
  dsimp only
  rw [List.foldl_cons, List.foldl_nil, union_degenerate_right _ h2, h1]
  · rintro ⟨_, h, _⟩
    norm_num at h
  · rw [h1]; rintro ⟨h, _⟩; norm_num at h

/-- The hypotheses of `C51_polygon_bbox` are met. -/
example : ∃ (p : Polygon ℝ) (c : Contour ℝ), c ∈ p.contours ∧ ¬ c.bbox.Degenerate := by
  refine ⟨⟨[exContour [⟨0, 0⟩, ⟨1, 1⟩]]⟩, exContour [⟨0, 0⟩, ⟨1, 1⟩], by simp, ?_⟩
  rw [exContour_bbox]; rintro ⟨h, _⟩; norm_num at h

/-! ### Triangle areas -/

/-- **C54**: with exact arithmetic `triangle_signed_area` changes sign when two corners are swapped, is
unchanged when the corners are rotated or all moved together, and is zero exactly if the corners lie on
one line. -/
theorem C54_triangle_area (a b c v : Pt ℝ) :
    triangleSignedArea b a c = -triangleSignedArea a b c ∧ triangleSignedArea a c b = -triangleSignedArea a b c ∧
    triangleSignedArea c b a = -triangleSignedArea a b c ∧ triangleSignedArea b c a = triangleSignedArea a b c ∧
    triangleSignedArea (a.add v) (b.add v) (c.add v) = triangleSignedArea a b c ∧
    (triangleSignedArea a b c = 0 ↔ CollinearPts a b c) := by
  simp only [triangleSignedArea, Pt.add, FloatOps.sub, FloatOps.mul, FloatOps.add]
  refine ⟨by ring, by ring, by ring, by ring, by ring, ?_⟩
  constructor
  · intro h
    by_cases hab : a.x = b.x ∧ a.y = b.y
    · by_cases hac : a.x = c.x ∧ a.y = c.y
      · exact ⟨1, 0, a.x, Or.inl one_ne_zero, by ring, by rw [← hab.1]; ring, by rw [← hac.1]; ring⟩
      · refine ⟨c.y - a.y, a.x - c.x, (c.y - a.y) * a.x + (a.x - c.x) * a.y, ?_, rfl, by rw [← hab.1, ← hab.2], by ring⟩
        by_contra hn
        push Not at hn
        exact hac ⟨by linarith [hn.2], by linarith [hn.1]⟩
    · refine ⟨b.y - a.y, a.x - b.x, (b.y - a.y) * a.x + (a.x - b.x) * a.y, ?_, rfl, by ring, by linarith⟩
      by_contra hn
      push Not at hn
      exact hab ⟨by linarith [hn.2], by linarith [hn.1]⟩
  · rintro ⟨l, m, n, hlm, h1, h2, h3⟩
    have e1 : l * (a.x - c.x) = -(m * (a.y - c.y)) := by linarith
    have e2 : l * (b.x - c.x) = -(m * (b.y - c.y)) := by linarith
    rcases hlm with hl | hm
    · have : l * ((a.x - c.x) * (b.y - c.y) - (b.x - c.x) * (a.y - c.y)) = 0 := by
        have : l * ((a.x - c.x) * (b.y - c.y) - (b.x - c.x) * (a.y - c.y)) =
          (l * (a.x - c.x)) * (b.y - c.y) - (l * (b.x - c.x)) * (a.y - c.y) := by ring
        rw [this, e1, e2]; ring
      exact (mul_eq_zero.mp this).resolve_left hl
    · have : m * ((a.x - c.x) * (b.y - c.y) - (b.x - c.x) * (a.y - c.y)) = 0 := by
        have : m * ((a.x - c.x) * (b.y - c.y) - (b.x - c.x) * (a.y - c.y)) =
          (a.x - c.x) * (m * (b.y - c.y)) - (b.x - c.x) * (m * (a.y - c.y)) := by ring
        rw [this, show m * (b.y - c.y) = -(l * (b.x - c.x)) by linarith, show m * (a.y - c.y) = -(l * (a.x - c.x)) by linarith]; ring
      exact (mul_eq_zero.mp this).resolve_left hm

end Idc
