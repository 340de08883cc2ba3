import Verif.Spec.Tidy
import Verif.Props.SegmentOrder
import Verif.Props.Intersect
import Verif.Props.Endpoint
/-!
# Geometry of segments that do not cross, for C76

A sweep from left to right, bottom to top on one vertical, is a sweep from left to right after a small shear, which makes
all corners have different x.
-/

namespace Idc

open FloatOps

/-- An endpoint: a segment number and an end. -/
abbrev EndId := Nat × SegmentEnd

/-- The other end. -/
def SegmentEnd.other : SegmentEnd → SegmentEnd
  | .left => .right
  | .right => .left

/-- The other end of the same segment. -/
def opp (x : EndId) : EndId := (x.1, x.2.other)

@[simp] theorem opp_opp (x : EndId) : opp (opp x) = x := by
  obtain ⟨i, e⟩ := x
  cases e <;> rfl

@[simp] theorem opp_fst (x : EndId) : (opp x).1 = x.1 := rfl

/-- Segments that meet only in their ends, two in every corner. -/
structure Net where
  N : Nat
  lp : Nat → Pt ℝ
  rp : Nat → Pt ℝ
  poly : Nat → Nat
  n : Nat
  wf : ∀ i < N, LeftOf (lp i) (rp i)
  wholeL : ∀ i < N, WholePt (lp i)
  wholeR : ∀ i < N, WholePt (rp i)
  poly_lt : ∀ i < N, poly i < n
  apart : ∀ i < N, ∀ j < N, i ≠ j → ∀ q, CommonPoint (lp i, rp i) (lp j, rp j) q → EndOf (lp i, rp i) q ∧ EndOf (lp j, rp j) q
  angles : ∀ i < N, ∀ j < N, i ≠ j → ParallelEdges (lp i, rp i) (lp j, rp j) ∨ ¬ NearlyParallel (lp i, rp i) (lp j, rp j)
  distances : ∀ i < N, ∀ j < N, i ≠ j → ParallelEdges (lp i, rp i) (lp j, rp j) →
    OnLine (lp i, rp i) (lp j) ∨ ClearlyOff (lp i, rp i) (lp i) (lp j)
  next : EndId → EndId
  next_lt : ∀ x, x.1 < N → (next x).1 < N
  next_pt : ∀ x, x.1 < N → (match (next x).2 with | .left => lp (next x).1 | .right => rp (next x).1) =
    match x.2 with | .left => rp x.1 | .right => lp x.1
  next_ne : ∀ x, x.1 < N → (next x).1 ≠ x.1
  next_poly : ∀ x, x.1 < N → poly (next x).1 = poly x.1
  only : ∀ x y, x.1 < N → y.1 < N → (match y.2 with | .left => lp y.1 | .right => rp y.1) =
    (match x.2 with | .left => rp x.1 | .right => lp x.1) → y = (x.1, x.2.other) ∨ y = next x

namespace Net

variable (G : Net)

/-- The point of an endpoint. -/
def pt (x : EndId) : Pt ℝ := match x.2 with
  | .left => G.lp x.1
  | .right => G.rp x.1

theorem pt_opp (x : EndId) : G.pt (opp x) = match x.2 with | .left => G.rp x.1 | .right => G.lp x.1 := by
  obtain ⟨i, e⟩ := x
  cases e <;> rfl

theorem pt_next {x : EndId} (h : x.1 < G.N) : G.pt (G.next x) = G.pt (opp x) := by
  rw [pt_opp]; exact G.next_pt x h

theorem only' {x y : EndId} (hx : x.1 < G.N) (hy : y.1 < G.N) (h : G.pt y = G.pt (opp x)) : y = opp x ∨ y = G.next x := by
  rw [pt_opp] at h
  exact G.only x y hx hy h

/-- The other endpoint at the same corner. -/
def mate (x : EndId) : EndId := G.next (opp x)

theorem mate_lt {x : EndId} (h : x.1 < G.N) : (G.mate x).1 < G.N := G.next_lt _ h
theorem mate_pt {x : EndId} (h : x.1 < G.N) : G.pt (G.mate x) = G.pt x := by
  unfold mate
  rw [G.pt_next (x := opp x) h, opp_opp]
theorem mate_ne {x : EndId} (h : x.1 < G.N) : (G.mate x).1 ≠ x.1 := G.next_ne (opp x) h
theorem mate_poly {x : EndId} (h : x.1 < G.N) : G.poly (G.mate x).1 = G.poly x.1 := G.next_poly (opp x) h
theorem at_corner {x y : EndId} (hx : x.1 < G.N) (hy : y.1 < G.N) (h : G.pt y = G.pt x) : y = x ∨ y = G.mate x := by
  have := G.only' (x := opp x) hx hy (by rw [opp_opp]; exact h)
  rwa [opp_opp] at this
theorem mate_mate {x : EndId} (h : x.1 < G.N) : G.mate (G.mate x) = x := by
  rcases G.at_corner h (G.mate_lt (G.mate_lt h)) ((G.mate_pt (G.mate_lt h)).trans (G.mate_pt h)) with e | e
  · exact e
  · exact absurd (congrArg Prod.fst e) (G.mate_ne (G.mate_lt h))
theorem next_eq (x : EndId) : G.next x = G.mate (opp x) := by unfold mate; rw [opp_opp]

theorem whole {x : EndId} (h : x.1 < G.N) : WholePt (G.pt x) := by
  obtain ⟨i, e⟩ := x
  cases e
  · exact G.wholeL i h
  · exact G.wholeR i h

/-! ### The shear -/

end Net

/-- The x coordinate after the shear. -/
def shearX (ε : ℝ) (p : Pt ℝ) : ℝ := p.x + ε * p.y

/-- The shear. -/
def shearPt (ε : ℝ) (p : Pt ℝ) : Pt ℝ := ⟨shearX ε p, p.y⟩

/-- The shear, of a segment. -/
def shearSeg {T : Type} (ε : ℝ) (s : SweepSegment ℝ T) : SweepSegment ℝ T :=
  { s with left_point := shearPt ε s.left_point, right_point := shearPt ε s.right_point }

theorem shear_area (ε : ℝ) (a b c : Pt ℝ) : triangleSignedArea (shearPt ε a) (shearPt ε b) (shearPt ε c) = triangleSignedArea a b c := by
  simp only [triangleSignedArea, FloatOps.sub, FloatOps.mul, shearPt, shearX]
  ring

theorem LeftOf.irrefl (p : Pt ℝ) : ¬ LeftOf p p := by
  rintro (h | ⟨_, h⟩) <;> exact lt_irrefl _ h

theorem LeftOf.ne {p q : Pt ℝ} (h : LeftOf p q) : p ≠ q := by
  rintro rfl; exact LeftOf.irrefl p h

theorem LeftOf.trans {p q r : Pt ℝ} (h : LeftOf p q) (h' : LeftOf q r) : LeftOf p r := by
  unfold LeftOf at *
  rcases h with h | ⟨h, h2⟩ <;> rcases h' with h' | ⟨h', h2'⟩
  · left; linarith
  · left; linarith
  · left; linarith
  · right; exact ⟨by linarith, by linarith⟩

theorem pt_ext {p q : Pt ℝ} (hx : p.x = q.x) (hy : p.y = q.y) : p = q := by
  cases p; cases q; cases hx; cases hy; rfl

theorem LeftOf.total {p q : Pt ℝ} (h : p ≠ q) : LeftOf p q ∨ LeftOf q p := by
  unfold LeftOf
  rcases lt_trichotomy p.x q.x with hx | hx | hx
  · left; left; exact hx
  · rcases lt_trichotomy p.y q.y with hy | hy | hy
    · left; right; exact ⟨hx, hy⟩
    · exact absurd (pt_ext hx hy) h
    · right; right; exact ⟨hx.symm, hy⟩
  · right; left; exact hx

/-- For whole points there is a shear after which the points are ordered by x alone. -/
theorem exists_shear (l : List (Pt ℝ)) (hw : ∀ p ∈ l, WholePt p) :
    ∃ ε : ℝ, 0 < ε ∧ ∀ p ∈ l, ∀ q ∈ l, LeftOf p q → shearX ε p < shearX ε q := by
  obtain ⟨M, hM0, hM⟩ : ∃ M : ℝ, 0 < M ∧ ∀ p ∈ l, |p.y| < M := by
    clear hw
    induction l with
    | nil => exact ⟨1, one_pos, by simp⟩
    | cons a l ih =>
      obtain ⟨M, h0, h⟩ := ih
      refine ⟨M + |a.y| + 1, by positivity, ?_⟩
      intro p hp
      rcases List.mem_cons.1 hp with rfl | hp
      · linarith
      · have := h p hp
        have := abs_nonneg a.y
        linarith
  refine ⟨1 / (2 * M), by positivity, ?_⟩
  intro p hp q hq h
  have e : (0 : ℝ) < 1 / (2 * M) := by positivity
  unfold shearX
  rcases h with h | ⟨h, h2⟩
  · obtain ⟨a, b, rfl⟩ := hw p hp
    obtain ⟨c, d, rfl⟩ := hw q hq
    dsimp only at h ⊢
    have h1 : (a : ℝ) + 1 ≤ c := by
      have : a < c := by exact_mod_cast h
      exact_mod_cast this
    have hb := abs_lt.1 (hM _ hp)
    have hd := abs_lt.1 (hM _ hq)
    dsimp only at hb hd
    have : 1 / (2 * M) * ((b : ℝ) - d) < 1 := by
      rw [div_mul_eq_mul_div, div_lt_one (by positivity)]
      linarith
    nlinarith
  · have := mul_lt_mul_of_pos_left h2 e
    linarith

/-- The comparison of segments does not notice a shear that keeps the order of the left ends. -/
theorem cmp_shear {T : Type} (ε : ℝ) {s s' : SweepSegment ℝ T} (h : LeftOf s.left_point s'.left_point → shearX ε s.left_point < shearX ε s'.left_point)
    (h' : LeftOf s'.left_point s.left_point → shearX ε s'.left_point < shearX ε s.left_point) :
    (shearSeg ε s).cmp (shearSeg ε s') = s.cmp s' := by
  have hs1 : (shearSeg ε s).left_point = shearPt ε s.left_point := rfl
  have hs2 : (shearSeg ε s).right_point = shearPt ε s.right_point := rfl
  have hs3 : (shearSeg ε s').left_point = shearPt ε s'.left_point := rfl
  have hs4 : (shearSeg ε s').right_point = shearPt ε s'.right_point := rfl
  have hs5 : (shearSeg ε s).index = s.index := rfl
  have hs6 : (shearSeg ε s').index = s'.index := rfl
  have hs7 : (shearSeg ε s).order = s.order := rfl
  have hs8 : (shearSeg ε s').order = s'.order := rfl
  by_cases hi : s.index = s'.index
  · unfold SweepSegment.cmp
    rw [if_pos hi, if_pos (show (shearSeg ε s).index = (shearSeg ε s').index from hi)]
  by_cases he : s.left_point = s'.left_point
  · unfold SweepSegment.cmp
    have e1 : s.left_point.beq s'.left_point = true := by rw [he]; simp [Pt.beq, FloatOps.eq]
    have e2 : (shearSeg ε s).left_point.beq (shearSeg ε s').left_point = true := by
      simp only [shearSeg, he]; simp [Pt.beq, FloatOps.eq]
    rw [e1, e2]
    rw [if_pos (show true = true from rfl), if_pos (show true = true from rfl), if_pos (show true = true from rfl)]
    have hn : (compare s.order s'.order).then (compare s.index s'.index) ≠ .eq := by
      intro h
      exact hi (compare_eq_iff_eq.1 (Ordering.then_eq_eq.1 h).2)
    have hth : ∀ k : Unit → Res Ordering, thenWith ((compare s.order s'.order).then (compare s.index s'.index)) k =
        .ok ((compare s.order s'.order).then (compare s.index s'.index)) := by
      intro k
      rcases ho : (compare s.order s'.order).then (compare s.index s'.index)
      · rfl
      · exact absurd ho hn
      · rfl
    have hth' : ∀ k : Unit → Res Ordering, thenWith ((compare (shearSeg ε s).order (shearSeg ε s').order).then (compare (shearSeg ε s).index (shearSeg ε s').index)) k =
        .ok ((compare s.order s'.order).then (compare s.index s'.index)) := hth
    rw [hth, hth']
    simp only [SweepSegment.below, hs1, hs2, hs3, hs4, hs5, hs6, shear_area]
    rfl
  · have hne : shearPt ε s.left_point ≠ shearPt ε s'.left_point := by
      intro e
      have ex : shearX ε s.left_point = shearX ε s'.left_point := congrArg Pt.x e
      rcases LeftOf.total he with h1 | h1
      · have := h h1; linarith
      · have := h' h1; linarith
    have nb : ∀ {p q : Pt ℝ}, p ≠ q → p.beq q = false := by
      intro p q hpq
      rw [← Bool.not_eq_true]
      intro hb
      simp only [Pt.beq, FloatOps.eq, Bool.and_eq_true, decide_eq_true_eq] at hb
      exact hpq (pt_ext hb.1 hb.2)
    have lexlt : ∀ {p q : Pt ℝ}, LeftOf p q → (compare p.x q.x).then (compare p.y q.y) = .lt := by
      rintro p q (h | ⟨h, h2⟩)
      · rw [compare_lt_iff_lt.2 h]; rfl
      · rw [compare_eq_iff_eq.2 h, compare_lt_iff_lt.2 h2]; rfl
    have lexgt : ∀ {p q : Pt ℝ}, LeftOf q p → (compare p.x q.x).then (compare p.y q.y) = .gt := by
      rintro p q (h | ⟨h, h2⟩)
      · rw [compare_gt_iff_gt.2 h]; rfl
      · rw [compare_eq_iff_eq.2 h.symm, compare_gt_iff_gt.2 h2]; rfl
    have hl : endpointCmp (shearSeg ε s) .left (shearSeg ε s') .left = endpointCmp s .left s' .left := by
      rw [endpointCmp_left (s := shearSeg ε s) (s' := shearSeg ε s') hne, endpointCmp_left he]
      rcases LeftOf.total he with h1 | h1
      · rw [lexlt h1, lexlt (p := (shearSeg ε s).left_point) (q := (shearSeg ε s').left_point) (Or.inl (h h1))]
      · rw [lexgt h1, lexgt (p := (shearSeg ε s).left_point) (q := (shearSeg ε s').left_point) (Or.inl (h' h1))]
    have hl' : endpointCmp (shearSeg ε s') .left (shearSeg ε s) .left = endpointCmp s' .left s .left := by
      rw [endpointCmp_left (s := shearSeg ε s') (s' := shearSeg ε s) (Ne.symm hne), endpointCmp_left (Ne.symm he)]
      rcases LeftOf.total he with h1 | h1
      · rw [lexgt h1, lexgt (p := (shearSeg ε s').left_point) (q := (shearSeg ε s).left_point) (Or.inl (h h1))]
      · rw [lexlt h1, lexlt (p := (shearSeg ε s').left_point) (q := (shearSeg ε s).left_point) (Or.inl (h' h1))]
    unfold SweepSegment.cmp
    rw [hl, hl', nb he, nb (p := (shearSeg ε s).left_point) (q := (shearSeg ε s').left_point) hne]
    simp only [SweepSegment.above, SweepSegment.below, hs1, hs2, hs3, hs4, hs5, hs6, hs7, hs8, shear_area]
    rfl

namespace Net

variable (G : Net)

theorem exists_eps : ∃ ε : ℝ, 0 < ε ∧ ∀ x y : EndId, x.1 < G.N → y.1 < G.N → LeftOf (G.pt x) (G.pt y) → shearX ε (G.pt x) < shearX ε (G.pt y) := by
  obtain ⟨ε, h0, h⟩ := exists_shear ((List.range G.N).flatMap fun i => [G.lp i, G.rp i]) (by
    intro p hp
    simp only [List.mem_flatMap, List.mem_range, List.mem_cons, List.not_mem_nil, or_false] at hp
    obtain ⟨i, hi, rfl | rfl⟩ := hp
    · exact G.wholeL i hi
    · exact G.wholeR i hi)
  refine ⟨ε, h0, fun x y hx hy hl => h _ ?_ _ ?_ hl⟩
  · simp only [List.mem_flatMap, List.mem_range, List.mem_cons, List.not_mem_nil, or_false]
    refine ⟨x.1, hx, ?_⟩
    obtain ⟨i, e⟩ := x
    cases e
    · exact Or.inl rfl
    · exact Or.inr rfl
  · simp only [List.mem_flatMap, List.mem_range, List.mem_cons, List.not_mem_nil, or_false]
    refine ⟨y.1, hy, ?_⟩
    obtain ⟨i, e⟩ := y
    cases e
    · exact Or.inl rfl
    · exact Or.inr rfl

noncomputable def eps : ℝ := Classical.choose G.exists_eps
theorem eps_pos : 0 < G.eps := (Classical.choose_spec G.exists_eps).1

/-- The time at which the sweep line passes a point. -/
noncomputable def time (p : Pt ℝ) : ℝ := shearX G.eps p

theorem time_lt {x y : EndId} (hx : x.1 < G.N) (hy : y.1 < G.N) (h : LeftOf (G.pt x) (G.pt y)) : G.time (G.pt x) < G.time (G.pt y) :=
  (Classical.choose_spec G.exists_eps).2 x y hx hy h

theorem time_inj {x y : EndId} (hx : x.1 < G.N) (hy : y.1 < G.N) (h : G.time (G.pt x) = G.time (G.pt y)) : G.pt x = G.pt y := by
  by_contra hn
  rcases LeftOf.total hn with h1 | h1
  · have := G.time_lt hx hy h1; linarith
  · have := G.time_lt hy hx h1; linarith

theorem leftOf_iff {x y : EndId} (hx : x.1 < G.N) (hy : y.1 < G.N) : LeftOf (G.pt x) (G.pt y) ↔ G.time (G.pt x) < G.time (G.pt y) := by
  refine ⟨G.time_lt hx hy, fun h => ?_⟩
  rcases LeftOf.total (p := G.pt x) (q := G.pt y) (fun e => by rw [e] at h; exact lt_irrefl _ h) with h1 | h1
  · exact h1
  · have := G.time_lt hy hx h1; linarith

/-- When a segment starts. -/
noncomputable def a (i : Nat) : ℝ := G.time (G.lp i)
/-- When a segment ends. -/
noncomputable def b (i : Nat) : ℝ := G.time (G.rp i)

theorem a_lt_b {i : Nat} (h : i < G.N) : G.a i < G.b i := G.time_lt (x := (i, .left)) (y := (i, .right)) h h (G.wf i h)

/-- The sheared segment. -/
noncomputable def sh (i : Nat) : SweepSegment ℝ Unit := ⟨shearPt G.eps (G.lp i), shearPt G.eps (G.rp i), false, i, 0, ()⟩

/-- The height of a segment at a time. -/
noncomputable def h (i : Nat) (t : ℝ) : ℝ := (G.sh i).heightAt t

theorem h_left (i : Nat) : G.h i (G.a i) = (G.lp i).y := heightAt_left (G.sh i)
theorem h_right {i : Nat} (hi : i < G.N) : G.h i (G.b i) = (G.rp i).y := heightAt_right (G.sh i) (G.a_lt_b hi)

theorem h_linear (i : Nat) : ∃ m c : ℝ, ∀ t, G.h i t = m * t + c := by
  refine ⟨((G.rp i).y - (G.lp i).y) / (G.b i - G.a i), (G.lp i).y - G.a i * (((G.rp i).y - (G.lp i).y) / (G.b i - G.a i)), fun t => ?_⟩
  show (G.lp i).y + (t - G.a i) * (((G.rp i).y - (G.lp i).y) / (G.b i - G.a i)) = _
  ring

/-- The area is the height over the segment, times its duration. -/
theorem area_h {i : Nat} (hi : i < G.N) (p : Pt ℝ) : triangleSignedArea (G.lp i) (G.rp i) p = (G.b i - G.a i) * (p.y - G.h i (G.time p)) := by
  have := area_height (G.sh i) (G.a_lt_b hi) (shearPt G.eps p)
  rw [show triangleSignedArea (G.sh i).left_point (G.sh i).right_point (shearPt G.eps p) =
    triangleSignedArea (shearPt G.eps (G.lp i)) (shearPt G.eps (G.rp i)) (shearPt G.eps p) from rfl, shear_area] at this
  exact this

/-- The point of a segment at a time. -/
noncomputable def at_ (i : Nat) (t : ℝ) : Pt ℝ := ⟨t - G.eps * G.h i t, G.h i t⟩

theorem at_on {i : Nat} (hi : i < G.N) {t : ℝ} (h1 : G.a i ≤ t) (h2 : t ≤ G.b i) : OnSegment (G.lp i, G.rp i) (G.at_ i t) := by
  have h0 := G.a_lt_b hi
  have hd : G.b i - G.a i ≠ 0 := by linarith
  refine ⟨(t - G.a i) / (G.b i - G.a i), div_nonneg (by linarith) (by linarith), (div_le_one (by linarith)).2 (by linarith), ?_, ?_⟩
  · show t - G.eps * G.h i t = (G.lp i).x + (t - G.a i) / (G.b i - G.a i) * ((G.rp i).x - (G.lp i).x)
    have e1 : (G.lp i).x = G.a i - G.eps * (G.lp i).y := by unfold Net.a Net.time shearX; ring
    have e2 : (G.rp i).x = G.b i - G.eps * (G.rp i).y := by unfold Net.b Net.time shearX; ring
    rw [e1, e2]
    show t - G.eps * ((G.lp i).y + (t - G.a i) * (((G.rp i).y - (G.lp i).y) / (G.b i - G.a i))) = _
    field_simp
    ring
  · show (G.lp i).y + (t - G.a i) * (((G.rp i).y - (G.lp i).y) / (G.b i - G.a i)) = (G.lp i).y + (t - G.a i) / (G.b i - G.a i) * ((G.rp i).y - (G.lp i).y)
    ring

theorem time_at (i : Nat) (t : ℝ) : G.time (G.at_ i t) = t := by
  unfold time shearX at_
  ring

/-- Two segments have the same height only at an end of both. -/
theorem meet {i j : Nat} (hi : i < G.N) (hj : j < G.N) (hij : i ≠ j) {t : ℝ} (hi1 : G.a i ≤ t) (hi2 : t ≤ G.b i) (hj1 : G.a j ≤ t) (hj2 : t ≤ G.b j)
    (he : G.h i t = G.h j t) : (t = G.a i ∨ t = G.b i) ∧ (t = G.a j ∨ t = G.b j) := by
  have e : G.at_ i t = G.at_ j t := by unfold at_; rw [he]
  have := G.apart i hi j hj hij (G.at_ i t) ⟨G.at_on hi hi1 hi2, e ▸ G.at_on hj hj1 hj2⟩
  obtain ⟨h1, h2⟩ := this
  constructor
  · rcases h1 with h1 | h1
    · left; rw [← G.time_at i t, h1]; rfl
    · right; rw [← G.time_at i t, h1]; rfl
  · rcases h2 with h1 | h1
    · left; rw [← G.time_at i t, h1]; rfl
    · right; rw [← G.time_at i t, h1]; rfl

/-- Segments that pass the sweep line do so in the same order all the time. -/
theorem order_const {i j : Nat} (hi : i < G.N) (hj : j < G.N) (hij : i ≠ j) {t u : ℝ} (ht1 : G.a i ≤ t) (ht2 : t ≤ G.b i) (ht3 : G.a j ≤ t) (ht4 : t ≤ G.b j)
    (hu1 : G.a i ≤ u) (hu2 : u ≤ G.b i) (hu3 : G.a j ≤ u) (hu4 : u ≤ G.b j) (h1 : G.h i t < G.h j t) : G.h i u ≤ G.h j u := by
  by_contra hn
  rw [not_le] at hn
  obtain ⟨m, c, hm⟩ := G.h_linear i
  obtain ⟨m', c', hm'⟩ := G.h_linear j
  -- a crossing strictly between t and u
  have hd : ∀ z, G.h j z - G.h i z = (m' - m) * z + (c' - c) := fun z => by rw [hm, hm']; ring
  have dt := hd t
  have du := hd u
  have hmm : m' - m ≠ 0 := by
    intro h0
    rw [h0] at dt du
    linarith
  set z := -(c' - c) / (m' - m) with hz
  have hz0 : G.h i z = G.h j z := by
    have := hd z
    rw [hz, mul_div_cancel₀ _ hmm, ← hz] at this
    linarith
  have key : (t < z ∧ z < u) ∨ (u < z ∧ z < t) := by
    rcases lt_or_gt_of_ne hmm with hneg | hpos
    · left
      rw [hz, lt_div_iff_of_neg hneg, div_lt_iff_of_neg hneg]
      constructor <;> linarith
    · right
      rw [hz, lt_div_iff₀ hpos, div_lt_iff₀ hpos]
      constructor <;> linarith
  have hz1 : G.a i < z ∧ z < G.b i ∧ G.a j < z ∧ z < G.b j := by
    rcases key with ⟨k1, k2⟩ | ⟨k1, k2⟩
    · exact ⟨by linarith, by linarith, by linarith, by linarith⟩
    · exact ⟨by linarith, by linarith, by linarith, by linarith⟩
  have := G.meet hi hj hij hz1.1.le hz1.2.1.le hz1.2.2.1.le hz1.2.2.2.le hz0
  rcases this.1 with h | h <;> rw [h] at hz1 <;> [exact lt_irrefl _ hz1.1; exact lt_irrefl _ hz1.2.1]

end Net

end Idc
