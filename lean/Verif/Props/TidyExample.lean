import Verif.Spec.TidyCheck
import Verif.Props.Tidy
/-!
# Outlines that do not touch: examples for C76
-/

namespace Idc

theorem cross_line (a b c d q : Pt ℝ) {t : ℝ} (hx : q.x = c.x + t * (d.x - c.x)) (hy : q.y = c.y + t * (d.y - c.y)) :
    (b.x - a.x) * (q.y - a.y) - (b.y - a.y) * (q.x - a.x) =
      (1 - t) * ((b.x - a.x) * (c.y - a.y) - (b.y - a.y) * (c.x - a.x)) + t * ((b.x - a.x) * (d.y - a.y) - (b.y - a.y) * (d.x - a.x)) := by
  rw [hx, hy]; ring

theorem cross_on {a b q : Pt ℝ} (h : OnSegment (a, b) q) : (b.x - a.x) * (q.y - a.y) - (b.y - a.y) * (q.x - a.x) = 0 := by
  obtain ⟨t, _, _, hx, hy⟩ := h
  dsimp only at hx hy
  rw [hx, hy]; ring

/-- Both ends strictly on one side. -/
theorem apart_side {a b c d : ZPt} (h : 0 < zcross a b c ∧ 0 < zcross a b d ∨ zcross a b c < 0 ∧ zcross a b d < 0) {q : Pt ℝ}
    (h1 : OnSegment (a.toPt, b.toPt) q) (h2 : OnSegment (c.toPt, d.toPt) q) : False := by
  have e := cross_on h1
  obtain ⟨t, t0, t1, hx, hy⟩ := h2
  dsimp only at hx hy
  rw [cross_line _ _ c.toPt d.toPt q hx hy] at e
  have ec : (b.toPt.x - a.toPt.x) * (c.toPt.y - a.toPt.y) - (b.toPt.y - a.toPt.y) * (c.toPt.x - a.toPt.x) = (zcross a b c : ℝ) := by
    unfold zcross ZPt.toPt; push_cast; ring
  have ed : (b.toPt.x - a.toPt.x) * (d.toPt.y - a.toPt.y) - (b.toPt.y - a.toPt.y) * (d.toPt.x - a.toPt.x) = (zcross a b d : ℝ) := by
    unfold zcross ZPt.toPt; push_cast; ring
  rw [ec, ed] at e
  rcases h with ⟨k1, k2⟩ | ⟨k1, k2⟩
  · have k1 : (0 : ℝ) < zcross a b c := by exact_mod_cast k1
    have k2 : (0 : ℝ) < zcross a b d := by exact_mod_cast k2
    rcases lt_or_eq_of_le t0 with t0 | t0
    · nlinarith [mul_pos t0 k2, mul_nonneg (by linarith : (0 : ℝ) ≤ 1 - t) k1.le]
    · rw [← t0] at e; linarith
  · have k1 : (zcross a b c : ℝ) < 0 := by exact_mod_cast k1
    have k2 : (zcross a b d : ℝ) < 0 := by exact_mod_cast k2
    rcases lt_or_eq_of_le t0 with t0 | t0
    · nlinarith [mul_neg_of_pos_of_neg t0 k2, mul_nonpos_of_nonneg_of_nonpos (by linarith : (0 : ℝ) ≤ 1 - t) k1.le]
    · rw [← t0] at e; linarith

/-- A common end and different directions. -/
theorem apart_shared {a b d : ZPt} (h : zcross a b d ≠ 0) {q : Pt ℝ} (h1 : OnSegment (a.toPt, b.toPt) q) (h2 : OnSegment (b.toPt, d.toPt) q) : q = b.toPt := by
  have e := cross_on h1
  obtain ⟨t, t0, t1, hx, hy⟩ := h2
  dsimp only at hx hy
  rw [cross_line _ _ b.toPt d.toPt q hx hy] at e
  have ed : (b.toPt.x - a.toPt.x) * (d.toPt.y - a.toPt.y) - (b.toPt.y - a.toPt.y) * (d.toPt.x - a.toPt.x) = (zcross a b d : ℝ) := by
    unfold zcross ZPt.toPt; push_cast; ring
  rw [ed] at e
  have h' : (zcross a b d : ℝ) ≠ 0 := by exact_mod_cast h
  have ht : t = 0 := by
    have : t * (zcross a b d : ℝ) = 0 := by linear_combination e
    exact (mul_eq_zero.1 this).resolve_right h'
  rw [ht] at hx hy
  exact pt_ext (by linarith) (by linarith)

theorem on_between {a b v : ℝ} {t lo hi : ℝ} (t0 : 0 ≤ t) (t1 : t ≤ 1) (h : v = a + t * (b - a)) (ha : lo ≤ a) (hb : lo ≤ b) (ha' : a ≤ hi) (hb' : b ≤ hi) : lo ≤ v ∧ v ≤ hi := by
  have e : v = (1 - t) * a + t * b := by rw [h]; ring
  constructor
  · have h1 := mul_le_mul_of_nonneg_left ha (by linarith : (0 : ℝ) ≤ 1 - t)
    have h2 := mul_le_mul_of_nonneg_left hb t0
    nlinarith
  · have h1 := mul_le_mul_of_nonneg_left ha' (by linarith : (0 : ℝ) ≤ 1 - t)
    have h2 := mul_le_mul_of_nonneg_left hb' t0
    nlinarith

/-- Segments in one coordinate. -/
theorem apart_box {a b c d v s t : ℝ} (s0 : 0 ≤ s) (s1 : s ≤ 1) (t0 : 0 ≤ t) (t1 : t ≤ 1) (h1 : v = a + s * (b - a)) (h2 : v = c + t * (d - c))
    (hac : a < c) (had : a < d) (hbc : b < c) (hbd : b < d) : False := by
  have k1 := on_between s0 s1 h1 (min_le_left a b) (min_le_right a b) (le_max_left a b) (le_max_right a b)
  have k2 := on_between t0 t1 h2 (min_le_left c d) (min_le_right c d) (le_max_left c d) (le_max_right c d)
  have : max a b < min c d := max_lt (lt_min hac had) (lt_min hbc hbd)
  linarith [k1.2, k2.1]

theorem apart_of_check {a b c d : ZPt} (h : apartCheck a b c d = true) {q : Pt ℝ} (hq : CommonPoint (a.toPt, b.toPt) (c.toPt, d.toPt) q) :
    EndOf (a.toPt, b.toPt) q ∧ EndOf (c.toPt, d.toPt) q := by
  obtain ⟨h1, h2⟩ := hq
  simp only [apartCheck, Bool.or_eq_true, decide_eq_true_iff] at h
  have h1' := h1
  have h2' := h2
  obtain ⟨s, s0, s1, sx, sy⟩ := h1'
  obtain ⟨t, t0, t1, tx, ty⟩ := h2'
  dsimp only [ZPt.toPt] at sx sy tx ty
  rcases h with ((((((((h | h) | h) | h) | h) | h) | h) | h) | h) | h
  · exact (apart_side (Or.inl h) h1 h2).elim
  · exact (apart_side (Or.inr h) h1 h2).elim
  · exact (apart_side (Or.inl h) h2 h1).elim
  · exact (apart_side (Or.inr h) h2 h1).elim
  · obtain ⟨rfl, h⟩ := h
    have := apart_shared h h1 h2
    exact ⟨Or.inr this, Or.inl this⟩
  · obtain ⟨rfl, h⟩ := h
    have := apart_shared h h2 h1
    exact ⟨Or.inl this, Or.inr this⟩
  · obtain ⟨k1, k2, k3, k4⟩ := h
    exact (apart_box s0 s1 t0 t1 sx tx (by exact_mod_cast k1) (by exact_mod_cast k2) (by exact_mod_cast k3) (by exact_mod_cast k4)).elim
  · obtain ⟨k1, k2, k3, k4⟩ := h
    exact (apart_box t0 t1 s0 s1 tx sx (by exact_mod_cast k1) (by exact_mod_cast k3) (by exact_mod_cast k2) (by exact_mod_cast k4)).elim
  · obtain ⟨k1, k2, k3, k4⟩ := h
    exact (apart_box s0 s1 t0 t1 sy ty (by exact_mod_cast k1) (by exact_mod_cast k2) (by exact_mod_cast k3) (by exact_mod_cast k4)).elim
  · obtain ⟨k1, k2, k3, k4⟩ := h
    exact (apart_box t0 t1 s0 s1 ty sy (by exact_mod_cast k1) (by exact_mod_cast k3) (by exact_mod_cast k2) (by exact_mod_cast k4)).elim

theorem dir_cast (a b c d : ZPt) : (b.toPt.x - a.toPt.x) * (d.toPt.y - c.toPt.y) - (b.toPt.y - a.toPt.y) * (d.toPt.x - c.toPt.x) = (zdir a b c d : ℝ) := by
  unfold zdir ZPt.toPt; push_cast; ring

theorem len_cast (a b : ZPt) : (b.toPt.x - a.toPt.x) ^ 2 + (b.toPt.y - a.toPt.y) ^ 2 = (zlen a b : ℝ) := by
  unfold zlen ZPt.toPt; push_cast; ring

theorem parallel_iff (a b c d : ZPt) : ParallelEdges (a.toPt, b.toPt) (c.toPt, d.toPt) ↔ zdir a b c d = 0 := by
  unfold ParallelEdges
  dsimp only
  rw [← sub_eq_zero, dir_cast]
  exact_mod_cast Iff.rfl

theorem angle_of_check {a b c d : ZPt} (h : angleCheck a b c d = true) :
    ParallelEdges (a.toPt, b.toPt) (c.toPt, d.toPt) ∨ ¬ NearlyParallel (a.toPt, b.toPt) (c.toPt, d.toPt) := by
  simp only [angleCheck, Bool.or_eq_true, decide_eq_true_iff] at h
  rcases h with h | h
  · left; exact (parallel_iff a b c d).2 h
  · right
    unfold NearlyParallel
    dsimp only
    rw [dir_cast, len_cast, len_cast]
    have h : ((zlen a b : ℝ) * zlen c d) < 10 ^ 7 * (zdir a b c d : ℝ) ^ 2 := by exact_mod_cast h
    rw [not_le]
    linarith

theorem off_of_check {a b p q : ZPt} (h : offCheck a b p q = true) : ClearlyOff (a.toPt, b.toPt) p.toPt q.toPt := by
  simp only [offCheck, decide_eq_true_iff] at h
  unfold ClearlyOff
  dsimp only
  rw [len_cast, len_cast]
  have h : ((zlen a b : ℝ) * zlen p q) < 10 ^ 7 * (((q.1 : ℝ) - p.1) * (b.2 - a.2) - (q.2 - p.2) * (b.1 - a.1)) ^ 2 := by exact_mod_cast h
  dsimp only [ZPt.toPt]
  linarith

theorem distance_of_check {a b c d : ZPt} (h : distanceCheck a b c d = true) (hp : ParallelEdges (a.toPt, b.toPt) (c.toPt, d.toPt)) :
    OnLine (a.toPt, b.toPt) c.toPt ∨ ∀ p q, EndOf (a.toPt, b.toPt) p → EndOf (c.toPt, d.toPt) q → ClearlyOff (a.toPt, b.toPt) p q := by
  simp only [distanceCheck, Bool.or_eq_true, Bool.and_eq_true, decide_eq_true_iff] at h
  rcases h with (h | h) | h
  · exact absurd ((parallel_iff a b c d).1 hp) h
  · left
    unfold OnLine
    dsimp only
    have h : ((zcross a b c : Int) : ℝ) = 0 := by exact_mod_cast h
    unfold zcross at h
    push_cast at h
    dsimp only [ZPt.toPt]
    linear_combination -h
  · right
    obtain ⟨⟨⟨h1, h2⟩, h3⟩, h4⟩ := h
    rintro p q (rfl | rfl) (rfl | rfl)
    · exact off_of_check h1
    · exact off_of_check h2
    · exact off_of_check h3
    · exact off_of_check h4

theorem toPt_inj {p q : ZPt} (h : p.toPt = q.toPt) : p = q := by
  obtain ⟨a, b⟩ := p
  obtain ⟨c, d⟩ := q
  unfold ZPt.toPt at h
  simp only [Pt.mk.injEq, Int.cast_inj] at h
  rw [h.1, h.2]

theorem closedEdges_map (ps : List ZPt) : closedEdges (ps.map ZPt.toPt) = (zEdges ps).map fun e => (e.1.toPt, e.2.toPt) := by
  unfold closedEdges zEdges
  rw [← List.map_rotate, List.zip_map]
  rfl

theorem allEdges_z (polys : List (List (List ZPt) × PolygonMode)) :
    allEdges (polys.map fun p => (zPolygon p.1, p.2)) = ((polys.flatMap fun p => p.1).flatMap zEdges).map fun e => (e.1.toPt, e.2.toPt) := by
  induction polys with
  | nil => rfl
  | cons p polys ih =>
    unfold allEdges at *
    rw [List.map_cons, List.flatMap_cons, ih, List.flatMap_cons, List.flatMap_append, List.map_append]
    congr 1
    unfold Polygon.edges zPolygon
    dsimp only
    rw [List.flatMap_map, List.map_flatMap]
    congr 1
    funext r
    exact closedEdges_map r

theorem allCorners_z (polys : List (List (List ZPt) × PolygonMode)) :
    allCorners (polys.map fun p => (zPolygon p.1, p.2)) = ((polys.flatMap fun p => p.1).flatMap fun r => r).map ZPt.toPt := by
  induction polys with
  | nil => rfl
  | cons p polys ih =>
    unfold allCorners at *
    rw [List.map_cons, List.flatMap_cons, ih, List.flatMap_cons, List.flatMap_append, List.map_append]
    congr 1
    unfold zPolygon
    dsimp only
    rw [List.flatMap_map, List.map_flatMap]

/-- The check is enough. -/
theorem tidy_of_check {polys : List (List (List ZPt) × PolygonMode)} (h : ringsCheck (polys.flatMap fun p => p.1) = true) :
    Tidy (polys.map fun p => (zPolygon p.1, p.2)) := by
  simp only [ringsCheck, Bool.and_eq_true, List.all_eq_true, decide_eq_true_iff, Bool.or_eq_true] at h
  obtain ⟨⟨h1, h2⟩, h3⟩ := h
  have hne : ∀ e e' : ZPt × ZPt, (e.1.toPt, e.2.toPt) ≠ (e'.1.toPt, e'.2.toPt) → ¬ e = e' := by
    rintro e e' h rfl; exact h rfl
  refine ⟨?_, ?_, ?_, ?_, ?_, ?_⟩
  · intro p hp c hc
    obtain ⟨p', hp', rfl⟩ := List.mem_map.1 hp
    unfold zPolygon at hc
    obtain ⟨r, hr, rfl⟩ := List.mem_map.1 hc
    show 3 ≤ (r.map ZPt.toPt).length
    rw [List.length_map]
    exact h1 r (List.mem_flatMap.2 ⟨p', hp', hr⟩)
  · intro q hq
    rw [allCorners_z] at hq
    obtain ⟨p, _, rfl⟩ := List.mem_map.1 hq
    exact ⟨p.1, p.2, rfl⟩
  · rw [allCorners_z]
    exact h2.map (fun _ _ => toPt_inj)
  · rw [allEdges_z]
    intro e he e' he' hee q hq
    obtain ⟨d, hd, rfl⟩ := List.mem_map.1 he
    obtain ⟨d', hd', rfl⟩ := List.mem_map.1 he'
    exact apart_of_check ((h3 d hd d' hd').resolve_left (hne _ _ hee)).1.1 hq
  · rw [allEdges_z]
    intro e he e' he' hee
    obtain ⟨d, hd, rfl⟩ := List.mem_map.1 he
    obtain ⟨d', hd', rfl⟩ := List.mem_map.1 he'
    exact angle_of_check ((h3 d hd d' hd').resolve_left (hne _ _ hee)).1.2
  · rw [allEdges_z]
    intro e he e' he' hee hp
    obtain ⟨d, hd, rfl⟩ := List.mem_map.1 he
    obtain ⟨d', hd', rfl⟩ := List.mem_map.1 he'
    exact distance_of_check ((h3 d hd d' hd').resolve_left (hne _ _ hee)).2 hp

/-- A square with a square hole, a triangle in the hole, and a diamond, whose interior is removed, next to it. -/
def tidySample : List (List (List ZPt) × PolygonMode) :=
  [([[(0, 0), (100, 0), (100, 100), (0, 100)], [(20, 20), (20, 80), (80, 80), (80, 20)]], .normal),
   ([[(30, 40), (70, 30), (50, 70)]], .normal),
   ([[(200, 50), (250, 0), (300, 50), (250, 100)]], .removeInterior)]

theorem C76_hypotheses_met : Tidy (tidySample.map fun p => (zPolygon p.1, p.2)) ∧ (∀ p ∈ tidySample.map fun p => (zPolygon p.1, p.2), p.2 ≠ .removeEdges) ∧
    listLib.Lawful := by
  refine ⟨tidy_of_check (by decide +kernel), ?_, listLib_lawful⟩
  intro p hp
  obtain ⟨q, hq, rfl⟩ := List.mem_map.1 hp
  simp only [tidySample, List.mem_cons, List.not_mem_nil, or_false] at hq
  rcases hq with rfl | rfl | rfl <;> simp

end Idc
