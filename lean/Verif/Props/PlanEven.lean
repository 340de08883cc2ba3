import Verif.Props.PlanSetup
import Mathlib.Topology.Order.Real
import Mathlib.Topology.Instances.Real.Lemmas
/-!
# The flags of an edge are those of the area beside it, for C81
-/

namespace Idc

open Filter Topology

/-- The two rays down from a point, straight and slanted, bound a wedge; a segment from left to right crosses them as
often as it enters and leaves the wedge. -/
theorem wedge {f0 f1 g0 g1 : ℝ} (hf : f0 ≤ f1) (hg : g0 < g1)
    (h : f0 * g1 - f1 * g0 = 0 → ¬ (f0 ≤ 0 ∧ 0 < f1) ∧ ¬ (g0 ≤ 0 ∧ 0 < g1)) :
    ind (f0 ≤ 0 ∧ 0 < f1 ∧ 0 < f0 * g1 - f1 * g0) + ind (g0 ≤ 0 ∧ 0 < g1 ∧ 0 < f0 * g1 - f1 * g0) =
      ind (0 < f0 ∧ g0 ≤ 0) + ind (0 < f1 ∧ g1 ≤ 0) := by
  rcases lt_trichotomy (f0 * g1 - f1 * g0) 0 with hd | hd | hd <;> rcases le_or_gt f0 0 with a | a <;> rcases le_or_gt f1 0 with b | b <;>
    rcases le_or_gt g0 0 with c | c <;> rcases le_or_gt g1 0 with d | d <;>
    first
    | (exfalso; nlinarith)
    | (exfalso; exact (h hd).1 ⟨a, b⟩)
    | (exfalso; exact (h hd).2 ⟨c, d⟩)
    | (simp [ind, a, b, c, d, hd, not_lt.2, not_le.2, hd.le, not_lt.2 hd.le]; done)
    | (have a' := not_le.2 a; simp [ind, a, b, c, d, hd, hd.le, not_lt.2 hd.le, a', two_eq]; done)
    | (rw [ind_true ⟨a, b, hd⟩, ind_true ⟨c, d, hd⟩, ind_false (fun k => absurd k.1 (not_lt.2 a)), ind_false (fun k => absurd k.2 (not_le.2 d)), two_eq, add_zero]; done)

namespace Plan

variable {G : Plan}

/-- How many segments of polygon `m` are below a point, counted along the sweep line. -/
noncomputable def under (G : Plan) (m : ℕ) (t y : ℝ) : ZMod 2 := ∑ k ∈ G.S with G.poly k = m, ind (G.a k ≤ t ∧ t < G.b k ∧ G.h k t < y)

theorem area_v {k : ℕ} (hk : k ∈ G.S) (v : Pt ℝ) :
    ((G.lp k).x - v.x) * ((G.rp k).y - v.y) - ((G.rp k).x - v.x) * ((G.lp k).y - v.y) = (G.b k - G.a k) * (v.y - G.h k (G.time v)) := by
  have := G.area_h' hk v
  simp only [triangleSignedArea, FloatOps.sub, FloatOps.mul] at this
  linarith

/-- A point at the height of a segment is on it. -/
theorem on_of_h {k : ℕ} (hk : k ∈ G.S) {v : Pt ℝ} (h1 : G.a k ≤ G.time v) (h2 : G.time v ≤ G.b k) (h3 : G.h k (G.time v) = v.y) : OnSegment (G.lp k, G.rp k) v := by
  have := G.at_on hk h1 h2
  rwa [show G.at_ k (G.time v) = v from G.pt_eq_of (G.time_at _ _) h3] at this

theorem h_of_on {k : ℕ} (hk : k ∈ G.S) {v : Pt ℝ} (h : OnSegment (G.lp k, G.rp k) v) : G.h k (G.time v) = v.y := by
  have h1 := area_v hk v
  have h2 := G.a_lt_b hk
  obtain ⟨t, _, _, hx, hy⟩ := h
  dsimp only at hx hy
  have : (G.b k - G.a k) * (v.y - G.h k (G.time v)) = 0 := by rw [← h1, hx, hy]; ring
  rcases mul_eq_zero.1 this with h | h <;> linarith

theorem crosses_wedge (he : 0 < G.eps) {k : ℕ} (hk : k ∈ G.S) {v : Pt ℝ} (hv : ¬ OnSegment (G.lp k, G.rp k) v) :
    ind (CrossesBelow v (G.lp k, G.rp k)) + ind (G.a k ≤ G.time v ∧ G.time v < G.b k ∧ G.h k (G.time v) < v.y) =
      ind (v.x < (G.lp k).x ∧ G.time (G.lp k) ≤ G.time v) + ind (v.x < (G.rp k).x ∧ G.time (G.rp k) ≤ G.time v) := by
  have hab := G.a_lt_b hk
  have har := area_v hk v
  have hlx : (G.lp k).x ≤ (G.rp k).x := by rcases G.wf k hk with h | h <;> linarith [h]
  have hD : ((G.lp k).x - v.x) * (G.b k - G.time v) - ((G.rp k).x - v.x) * (G.a k - G.time v) = G.eps * ((G.b k - G.a k) * (v.y - G.h k (G.time v))) := by
    rw [← har]
    unfold Plan.a Plan.b Plan.time shearX
    ring
  have hpos : 0 < ((G.lp k).x - v.x) * (G.b k - G.time v) - ((G.rp k).x - v.x) * (G.a k - G.time v) ↔ G.h k (G.time v) < v.y := by
    rw [hD, mul_pos_iff_of_pos_left he, mul_pos_iff_of_pos_left (by linarith), sub_pos]
  have h := wedge (f0 := (G.lp k).x - v.x) (f1 := (G.rp k).x - v.x) (g0 := G.a k - G.time v) (g1 := G.b k - G.time v) (by linarith) (by linarith) (by
    intro h0
    rw [hD, mul_eq_zero, mul_eq_zero] at h0
    have h3 : G.h k (G.time v) = v.y := by
      rcases h0 with h | h | h <;> linarith
    have hnt : ¬ (G.a k - G.time v ≤ 0 ∧ 0 < G.b k - G.time v) := fun hh => hv (on_of_h hk (by linarith [hh.1]) (by linarith [hh.2]) h3)
    refine ⟨fun hh => ?_, hnt⟩
    rw [h3, sub_self, mul_zero] at har
    refine hv ⟨(v.x - (G.lp k).x) / ((G.rp k).x - (G.lp k).x), div_nonneg (by linarith [hh.1]) (by linarith), ?_, ?_, ?_⟩
    · rw [div_le_one (by linarith [hh.1, hh.2])]; linarith [hh.2]
    · dsimp only
      have : (G.rp k).x - (G.lp k).x ≠ 0 := by linarith [hh.1, hh.2]
      field_simp
      ring
    · dsimp only
      have : (G.rp k).x - (G.lp k).x ≠ 0 := by linarith [hh.1, hh.2]
      field_simp
      linarith)
  have e1 : ind (CrossesBelow v (G.lp k, G.rp k)) =
      ind ((G.lp k).x - v.x ≤ 0 ∧ 0 < (G.rp k).x - v.x ∧ 0 < ((G.lp k).x - v.x) * (G.b k - G.time v) - ((G.rp k).x - v.x) * (G.a k - G.time v)) := by
    apply ind_congr
    rw [sub_pos, sub_nonpos]
    unfold CrossesBelow
    dsimp only
    rw [min_eq_left hlx, max_eq_right hlx]
    refine and_congr_right fun h1 => and_congr_right fun h2 => ?_
    rw [hpos]
    have hd : 0 < (G.rp k).x - (G.lp k).x := by linarith
    have e : (G.b k - G.a k) * (v.y - G.h k (G.time v)) =
        ((G.rp k).x - (G.lp k).x) * (v.y - ((G.lp k).y + (v.x - (G.lp k).x) * (((G.rp k).y - (G.lp k).y) / ((G.rp k).x - (G.lp k).x)))) := by
      rw [← har]
      field_simp
      ring
    have e1 : G.h k (G.time v) < v.y ↔ 0 < (G.b k - G.a k) * (v.y - G.h k (G.time v)) := by
      rw [mul_pos_iff_of_pos_left (by linarith), sub_pos]
    rw [e1, e, mul_pos_iff_of_pos_left hd, sub_pos]
  have e2 : ind (G.a k ≤ G.time v ∧ G.time v < G.b k ∧ G.h k (G.time v) < v.y) =
      ind (G.a k - G.time v ≤ 0 ∧ 0 < G.b k - G.time v ∧ 0 < ((G.lp k).x - v.x) * (G.b k - G.time v) - ((G.rp k).x - v.x) * (G.a k - G.time v)) := by
    apply ind_congr
    rw [hpos, sub_nonpos, sub_pos]
  have e3 : ind (v.x < (G.lp k).x ∧ G.time (G.lp k) ≤ G.time v) = ind (0 < (G.lp k).x - v.x ∧ G.a k - G.time v ≤ 0) := by
    apply ind_congr; rw [sub_nonpos, sub_pos]; rfl
  have e4 : ind (v.x < (G.rp k).x ∧ G.time (G.rp k) ≤ G.time v) = ind (0 < (G.rp k).x - v.x ∧ G.b k - G.time v ≤ 0) := by
    apply ind_congr; rw [sub_nonpos, sub_pos]; rfl
  rw [e1, e2, e3, e4]
  exact h

theorem sum_ind {α : Type} (P : α → Prop) [DecidablePred P] : ∀ l : List α, ((l.countP fun a => decide (P a) : ℕ) : ZMod 2) = (l.map fun a => ind (P a)).sum
  | [] => by simp
  | a :: l => by
    rw [List.countP_cons, Nat.cast_add, sum_ind P l, List.map_cons, List.sum_cons, add_comm]
    congr 1
    by_cases h : P a
    · rw [ind_true h]; simp [h]
    · rw [ind_false h]; simp [h]

/-- The even-odd rule, along the sweep line. -/
theorem evenOdd_under {polys : List (Polygon ℝ × PolygonMode)} {hP : Planar polys} {m : ℕ} {p : Polygon ℝ × PolygonMode} (hp : polys[m]? = some p) {v : Pt ℝ}
    (hv : ∀ k ∈ (ofPolys polys hP).S, ¬ OnSegment ((ofPolys polys hP).lp k, (ofPolys polys hP).rp k) v) :
    p.1.evenOdd v ↔ (ofPolys polys hP).under m ((ofPolys polys hP).time v) v.y = 1 := by
  classical
  set G := ofPolys polys hP with hG
  have he : 0 < G.eps := slant_pos polys
  have h1 := sum_range_listed (fun e => ind (CrossesBelow v e)) (fun p => ind_false (by
    rintro ⟨h1, h2, _⟩
    dsimp only at h1 h2
    rw [min_self] at h1
    rw [max_self] at h2
    linarith)) (fun e => ind_congr (crosses_swap v)) polys (0, (⟨0, 0⟩, ⟨0, 0⟩)) m
  rw [hp] at h1
  dsimp only at h1
  have h2 : ∑ k ∈ G.S with G.poly k = m, ind (CrossesBelow v (G.lp k, G.rp k)) = (p.1.edges.map fun e => ind (CrossesBelow v e)).sum := h1
  have h3 := G.even m fun q => ind (v.x < q.x ∧ G.time q ≤ G.time v)
  have h4 : ∑ k ∈ G.S with G.poly k = m, (ind (CrossesBelow v (G.lp k, G.rp k)) + ind (G.a k ≤ G.time v ∧ G.time v < G.b k ∧ G.h k (G.time v) < v.y)) = 0 := by
    rw [← h3]
    exact Finset.sum_congr rfl fun k hk => crosses_wedge he (Finset.mem_filter.1 hk).1 (hv k (Finset.mem_filter.1 hk).1)
  rw [Finset.sum_add_distrib, CharTwo.add_eq_zero] at h4
  unfold Polygon.evenOdd under
  rw [← h4, h2, ← sum_ind, ZMod.natCast_eq_one_iff_odd]

/-! ### Just beside an edge -/

/-- Away from a segment there is some room. -/
theorem room {e : Pt ℝ × Pt ℝ} {q : Pt ℝ} (h : ¬ OnSegment e q) : ∃ r : ℝ, 0 < r ∧ ∀ p : Pt ℝ, |p.x - q.x| < r → |p.y - q.y| < r → ¬ OnSegment e p := by
  have hc : IsClosed ((fun t : ℝ => (e.1.x + t * (e.2.x - e.1.x), e.1.y + t * (e.2.y - e.1.y))) '' Set.Icc 0 1) :=
    (isCompact_Icc.image (by fun_prop)).isClosed
  have hq : (q.x, q.y) ∈ ((fun t : ℝ => (e.1.x + t * (e.2.x - e.1.x), e.1.y + t * (e.2.y - e.1.y))) '' Set.Icc 0 1)ᶜ := by
    rintro ⟨t, ht, e1⟩
    exact h ⟨t, ht.1, ht.2, (congrArg Prod.fst e1).symm, (congrArg Prod.snd e1).symm⟩
  obtain ⟨r, hr, hb⟩ := Metric.isOpen_iff.1 hc.isOpen_compl _ hq
  refine ⟨r, hr, fun p h1 h2 => ?_⟩
  rintro ⟨t, t0, t1, hx, hy⟩
  have : (p.x, p.y) ∈ Metric.ball (q.x, q.y) r := by
    rw [Metric.mem_ball, Prod.dist_eq, max_lt_iff, Real.dist_eq, Real.dist_eq]
    exact ⟨h1, h2⟩
  exact hb this ⟨t, ⟨t0, t1⟩, by rw [hx, hy]⟩

theorem room_all {T : Finset ℕ} {f : ℕ → Pt ℝ × Pt ℝ} {q : Pt ℝ} (h : ∀ k ∈ T, ¬ OnSegment (f k) q) :
    ∃ r : ℝ, 0 < r ∧ ∀ k ∈ T, ∀ p : Pt ℝ, |p.x - q.x| < r → |p.y - q.y| < r → ¬ OnSegment (f k) p := by
  classical
  induction T using Finset.induction_on with
  | empty => exact ⟨1, one_pos, by simp⟩
  | insert k T _ ih =>
    obtain ⟨r, hr, h1⟩ := ih fun k hk => h k (Finset.mem_insert_of_mem hk)
    obtain ⟨r', hr', h2⟩ := room (h k (Finset.mem_insert_self k T))
    refine ⟨Min.min r r', lt_min hr hr', ?_⟩
    intro j hj p p1 p2
    rcases Finset.mem_insert.1 hj with rfl | hj
    · exact h2 p (lt_of_lt_of_le p1 (min_le_right _ _)) (lt_of_lt_of_le p2 (min_le_right _ _))
    · exact h1 j hj p (lt_of_lt_of_le p1 (min_le_left _ _)) (lt_of_lt_of_le p2 (min_le_left _ _))

/-- Nothing changes along a segment. -/
theorem under_eq {i : ℕ} (hi : i ∈ G.S) (m : ℕ) {t : ℝ} (h1 : G.a i < t) (h2 : t < G.b i) : G.under m t (G.h i t) = G.lo i m := by
  obtain ⟨t', h3, h4⟩ := G.exists_after t
  have hq : G.Quiet t' := fun k hk => ⟨fun e => by have := (h4 k hk).1 (by linarith); linarith, fun e => by have := (h4 k hk).2 (by linarith); linarith⟩
  rw [← lo_eq hi m hq (by linarith) ((h4 i hi).2 h2)]
  unfold under par
  refine Finset.sum_congr rfl fun k hk => ind_congr ?_
  have hk := (Finset.mem_filter.1 hk).1
  have e : (G.a k ≤ t ∧ t < G.b k) ↔ (G.a k < t' ∧ t' < G.b k) := by
    constructor
    · rintro ⟨k1, k2⟩
      exact ⟨by linarith, (h4 k hk).2 k2⟩
    · rintro ⟨k1, k2⟩
      refine ⟨?_, by linarith⟩
      by_contra hn
      have := (h4 k hk).1 (not_le.1 hn)
      linarith
  rw [← and_assoc, ← and_assoc, e]
  refine and_congr_right fun hal => ?_
  have hal' := e.2 hal
  have i4 := (h4 i hi).2 h2
  constructor
  · intro h
    exact G.order_lift hk hi hal'.1 hal'.2.le h1.le h2.le hal.1 hal.2 (by linarith) i4 h
  · intro h
    rcases lt_trichotomy (G.h k t) (G.h i t) with g | g | g
    · exact g
    · have hs := G.same_of_h hi hk h1 h2 hal'.1 hal'.2.le g.symm
      rw [hs.h] at h
      exact absurd h (lt_irrefl _)
    · have := G.order_lift hi hk h1.le h2.le hal'.1 hal'.2.le (by linarith) i4 hal.1 hal.2 g
      linarith

/-- The way along an endpoint's segment, away from it. -/
noncomputable def edge (G : Plan) (z : EndId) : Pt ℝ × Pt ℝ := (G.pt z, G.pt (opp z))

/-- `1` for segments from left to right, `-1` for segments from right to left. -/
noncomputable def side1 (z : EndId) : ℝ := match z.2 with
  | .left => 1
  | .right => -1

theorem F_sgn (z : EndId) (m : ℕ) : G.F z m = G.lo z.1 m + if 0 < side1 z then G.grp z.1 m else 0 := by
  obtain ⟨i, e⟩ := z
  cases e
  · have : (0 : ℝ) < side1 (i, .left) := by unfold side1; norm_num
    rw [if_pos this]; rfl
  · have : ¬ (0 : ℝ) < side1 (i, .right) := by unfold side1; norm_num
    rw [if_neg this, add_zero]; rfl

theorem left_point (z : EndId) (δ : ℝ) : leftPoint (G.edge z) δ =
    ⟨((G.lp z.1).x + (G.rp z.1).x) / 2 - side1 z * δ * ((G.rp z.1).y - (G.lp z.1).y), ((G.lp z.1).y + (G.rp z.1).y) / 2 + side1 z * δ * ((G.rp z.1).x - (G.lp z.1).x)⟩ := by
  obtain ⟨i, e⟩ := z
  cases e
  · unfold leftPoint edge side1 pt opp SegmentEnd.other
    dsimp only
    rw [one_mul]
  · unfold leftPoint edge side1 pt opp SegmentEnd.other
    dsimp only
    congr 1 <;> ring

theorem small (c : ℝ) {r : ℝ} (hr : 0 < r) : ∀ᶠ δ : ℝ in 𝓝 0, |δ * c| < r := by
  have hc : Continuous fun δ : ℝ => |δ * c| := by fun_prop
  have := hc.tendsto 0
  simp only [zero_mul, abs_zero] at this
  exact this.eventually (gt_mem_nhds hr)

/-- Just left of an edge the flags are those of the edge. -/
theorem under_left {z : EndId} (hz : G.Top z.1) : ∃ δ₀ : ℝ, 0 < δ₀ ∧ ∀ δ, 0 < δ → δ < δ₀ →
    (∀ k ∈ G.S, ¬ OnSegment (G.lp k, G.rp k) (leftPoint (G.edge z) δ)) ∧
    ∀ m, G.under m (G.time (leftPoint (G.edge z) δ)) (leftPoint (G.edge z) δ).y = G.F z m := by
  classical
  set i := z.1 with hi0
  have hi := hz.1
  have hab := G.a_lt_b hi
  set M : Pt ℝ := ⟨((G.lp i).x + (G.rp i).x) / 2, ((G.lp i).y + (G.rp i).y) / 2⟩ with hM
  have hMt : G.time M = (G.a i + G.b i) / 2 := by
    unfold Plan.a Plan.b Plan.time shearX; rw [hM]; ring
  have hsl := sl_mul hi
  have hMh : G.h i (G.time M) = M.y := by
    rw [G.h_eq, hMt, hM]
    dsimp only
    linear_combination (1 / 2) * hsl
  have hMon : OnSegment (G.lp i, G.rp i) M := on_of_h hi (by rw [hMt]; linarith) (by rw [hMt]; linarith) hMh
  obtain ⟨r, hr, hroom⟩ := room_all (T := G.S.filter fun k => ¬ G.Same k i) (f := fun k => (G.lp k, G.rp k)) (q := M) (by
    intro k hk hon
    obtain ⟨hk, hs⟩ := Finset.mem_filter.1 hk
    rcases (G.apart' hi hk (fun h => hs h.symm) ⟨hMon, hon⟩).1 with h | h
    · rw [h] at hMt
      have : G.a i = _ := hMt
      linarith
    · rw [h] at hMt
      have : G.b i = _ := hMt
      linarith)
  set dx := (G.rp i).x - (G.lp i).x with hdx
  set dy := (G.rp i).y - (G.lp i).y with hdy
  set σ := side1 z with hσ
  have hσ2 : σ * σ = 1 := by
    rw [hσ]; unfold side1; cases z.2 <;> norm_num
  set c := σ * (G.eps * dx - dy) with hcdef
  have ev := (((small (σ * dy) hr).and (small (σ * dx) hr)).and ((small (c * G.sl i) hr).and (small (c - G.eps * (c * G.sl i)) hr))).and
    (small c (r := (G.b i - G.a i) / 2) (by linarith))
  obtain ⟨δ₀, hδ₀, hev⟩ := Metric.eventually_nhds_iff.1 ev
  refine ⟨δ₀, hδ₀, fun δ d0 d1 => ?_⟩
  obtain ⟨⟨⟨v1, v2⟩, v3, v4⟩, v5⟩ := hev (y := δ) (by rw [Real.dist_eq, sub_zero, abs_of_pos d0]; exact d1)
  set P := leftPoint (G.edge z) δ with hP
  have hPl := left_point (G := G) z δ
  have hPx : P.x - M.x = - (δ * (σ * dy)) := by rw [hP, hPl]; dsimp only; ring
  have hPy : P.y - M.y = δ * (σ * dx) := by rw [hP, hPl]; dsimp only; ring
  have ht : G.time P = G.time M + δ * c := by
    unfold Plan.time shearX
    rw [hcdef]
    linear_combination hPx + G.eps * hPy
  have hh : G.h i (G.time P) = M.y + δ * (c * G.sl i) := by
    rw [ht]
    rw [G.h_eq] at hMh ⊢
    linear_combination hMh
  have hba : G.b i - G.a i = dx + G.eps * dy := by
    unfold Plan.a Plan.b Plan.time shearX; ring
  have hpos2 : 0 < dx ^ 2 + dy ^ 2 := by
    have : dx ≠ 0 ∨ dy ≠ 0 := by
      rcases G.wf i hi with h | h
      · left; intro e; linarith
      · right; intro e; linarith [h.2]
    rcases this with h | h
    · have := sq_pos_of_ne_zero h; nlinarith [sq_nonneg dy]
    · have := sq_pos_of_ne_zero h; nlinarith [sq_nonneg dx]
  have hdiff : (G.b i - G.a i) * (P.y - G.h i (G.time P)) = σ * δ * (dx ^ 2 + dy ^ 2) := by
    rw [hh, hcdef]
    have e1 : P.y = M.y + δ * (σ * dx) := by linarith
    rw [e1]
    have : (G.b i - G.a i) * (M.y + δ * (σ * dx) - (M.y + δ * (σ * (G.eps * dx - dy) * G.sl i))) =
        (G.b i - G.a i) * (δ * (σ * dx)) - δ * (σ * (G.eps * dx - dy)) * ((G.b i - G.a i) * G.sl i) := by ring
    rw [this, hsl, hba]
    ring
  have hab5 := abs_lt.1 v5
  have ta : G.a i < G.time P := by rw [ht, hMt]; linarith [hab5.1]
  have tb : G.time P < G.b i := by rw [ht, hMt]; linarith [hab5.2]
  have hab0 : 0 < G.b i - G.a i := by linarith
  have hup : G.h i (G.time P) < P.y ↔ 0 < σ := by
    rw [← sub_pos, ← mul_pos_iff_of_pos_left hab0, hdiff, mul_pos_iff_of_pos_right hpos2, mul_pos_iff_of_pos_right d0]
  have hne : G.h i (G.time P) ≠ P.y := by
    intro e
    rw [e, sub_self, mul_zero] at hdiff
    have : σ ≠ 0 := by intro h; rw [h] at hσ2; norm_num at hσ2
    exact mul_ne_zero (mul_ne_zero this d0.ne') hpos2.ne' hdiff.symm
  -- segments that do not coincide with `i` are not in between
  have hbetween : ∀ k ∈ G.S, ¬ G.Same k i → G.a k ≤ G.time P → G.time P < G.b k →
      (G.h k (G.time P) < P.y ↔ G.h k (G.time P) < G.h i (G.time P)) ∧ G.h k (G.time P) ≠ P.y := by
    intro k hk hs k1 k2
    have hon := G.at_on hk k1 k2.le
    have hno : ¬ (|G.h k (G.time P) - M.y| < r ∧ |G.time P - G.eps * G.h k (G.time P) - M.x| < r) := by
      rintro ⟨q1, q2⟩
      exact hroom k (Finset.mem_filter.2 ⟨hk, hs⟩) _ q2 q1 hon
    have y1 : |P.y - M.y| < r := by rw [hPy]; exact v2
    have y2 : |G.h i (G.time P) - M.y| < r := by rw [hh, add_sub_cancel_left]; exact v3
    have x1 : |G.time P - G.eps * P.y - M.x| < r := by
      have : G.time P - G.eps * P.y - M.x = - (δ * (σ * dy)) := by unfold Plan.time shearX; linarith
      rw [this, abs_neg]; exact v1
    have x2 : |G.time P - G.eps * G.h i (G.time P) - M.x| < r := by
      have : G.time P - G.eps * G.h i (G.time P) - M.x = δ * (c - G.eps * (c * G.sl i)) := by
        rw [hh, ht]; unfold Plan.time shearX; ring
      rw [this]; exact v4
    -- the box is convex
    have hbox : ∀ y : ℝ, (P.y ≤ y ∧ y ≤ G.h i (G.time P) ∨ G.h i (G.time P) ≤ y ∧ y ≤ P.y) → |y - M.y| < r ∧ |G.time P - G.eps * y - M.x| < r := by
      intro y hy
      rw [abs_lt] at y1 y2 x1 x2 ⊢
      rw [abs_lt]
      have key : ∀ {p q y : ℝ}, p ≤ y → y ≤ q → (G.time P - G.eps * p - M.x ≤ G.time P - G.eps * y - M.x ∧ G.time P - G.eps * y - M.x ≤ G.time P - G.eps * q - M.x) ∨
          (G.time P - G.eps * q - M.x ≤ G.time P - G.eps * y - M.x ∧ G.time P - G.eps * y - M.x ≤ G.time P - G.eps * p - M.x) := by
        intro p q y h1 h2
        rcases le_total 0 G.eps with h | h
        · right
          exact ⟨by linarith [mul_le_mul_of_nonneg_left h2 h], by linarith [mul_le_mul_of_nonneg_left h1 h]⟩
        · left
          exact ⟨by linarith [mul_le_mul_of_nonpos_left h1 h], by linarith [mul_le_mul_of_nonpos_left h2 h]⟩
      rcases hy with hy | hy <;> rcases key hy.1 hy.2 with g | g <;>
        exact ⟨⟨by linarith [hy.1, hy.2], by linarith [hy.1, hy.2]⟩, by linarith [g.1, g.2], by linarith [g.1, g.2]⟩
    constructor
    · constructor
      · intro h
        by_contra hn
        exact hno (hbox _ (Or.inr ⟨not_lt.1 hn, h.le⟩))
      · intro h
        by_contra hn
        exact hno (hbox _ (Or.inl ⟨not_lt.1 hn, h.le⟩))
    · intro e
      exact hno (hbox _ (by rw [e]; rcases le_total P.y (G.h i (G.time P)) with h | h; exacts [Or.inl ⟨le_rfl, h⟩, Or.inr ⟨h, le_rfl⟩]))
  refine ⟨fun k hk hon => ?_, fun m => ?_⟩
  · by_cases hs : G.Same k i
    · have := h_of_on hk hon
      rw [hs.h] at this
      exact hne this
    · refine hroom k (Finset.mem_filter.2 ⟨hk, hs⟩) P ?_ ?_ hon
      · rw [hPx, abs_neg]; exact v1
      · rw [hPy]; exact v2
  · rw [F_sgn, ← under_eq hi m ta tb]
    unfold under
    have hg : (if 0 < side1 z then G.grp z.1 m else 0) = ∑ k ∈ G.S with G.poly k = m, ind (G.Same k i ∧ 0 < σ) := by
      by_cases hs : 0 < σ
      · rw [if_pos hs]
        unfold grp
        refine Finset.sum_congr rfl fun k hk => ind_congr ⟨fun h => ⟨h.1, hs⟩, fun h => ⟨h.1, hz.2 k (Finset.mem_filter.1 hk).1 h.1.symm⟩⟩
      · rw [if_neg hs]
        exact (Finset.sum_eq_zero fun k _ => ind_false fun h => hs h.2).symm
    rw [hg, ← Finset.sum_add_distrib]
    refine Finset.sum_congr rfl fun k hk => ?_
    have hk := (Finset.mem_filter.1 hk).1
    by_cases hs : G.Same k i
    · rw [ind_false (P := _ ∧ _ ∧ G.h k (G.time P) < G.h i (G.time P)) (by rw [hs.h]; exact fun h => lt_irrefl _ h.2.2), zero_add]
      apply ind_congr
      rw [hs.a, hs.b, hs.h, hup]
      exact ⟨fun h => ⟨hs, h.2.2⟩, fun h => ⟨ta.le, tb, h.2⟩⟩
    · rw [ind_false (P := G.Same k i ∧ _) (fun h => hs h.1), add_zero]
      apply ind_congr
      refine and_congr_right fun h1 => and_congr_right fun h2 => (hbetween k hk hs h1 h2).1

/-- **The flags of an edge are those of the area just left of it.** -/
theorem areaLeft_flag {polys : List (Polygon ℝ × PolygonMode)} {hP : Planar polys} {z : EndId} (hz : (ofPolys polys hP).Top z.1) :
    AreaLeft polys ((ofPolys polys hP).edge z) ((ofPolys polys hP).flag ((ofPolys polys hP).F z)) := by
  obtain ⟨δ₀, h0, h⟩ := under_left hz
  refine ⟨flag_length _, δ₀, h0, fun δ d0 d1 j p hp => ?_⟩
  obtain ⟨h1, h2⟩ := h δ d0 d1
  have hj : j < polys.length := (List.getElem?_eq_some_iff.1 hp).1
  rw [evenOdd_under hp h1, h2, flag_get, if_pos (show j < (ofPolys polys hP).n from hj)]
  simp

end Plan

end Idc
