import Verif.Props.MovedDouble
import Verif.Props.RedrawnExample
/-!
# C87: samples
-/

namespace Idc

/-- Whole coordinates, scaled and moved. -/
def zMove (k : ℤ) (v : ZPt) (zs : List (List (List ZPt) × PolygonMode)) : List (List (List ZPt) × PolygonMode) :=
  zs.map fun p => (p.1.map fun r => r.map fun q => (k * q.1 + v.1, k * q.2 + v.2), p.2)

theorem moveAll_z (k : ℤ) (v : ZPt) (zs : List (List (List ZPt) × PolygonMode)) :
    moveAll k ⟨v.1, v.2⟩ (zs.map fun p => (wholePolygon p.1, p.2)) = (zMove k v zs).map fun p => (wholePolygon p.1, p.2) := by
  unfold moveAll zMove movePolygon wholePolygon
  rw [List.map_map, List.map_map]
  refine List.map_congr_left fun p _ => ?_
  simp only [Function.comp, List.map_map]
  congr 2
  refine List.map_congr_left fun r _ => ?_
  simp only [Function.comp, moveContour, Contour.ofPoints, List.map_map]
  congr 1

theorem whole_move (k : ℤ) (v : Pt ℤ) {polys : List (Polygon ℝ × PolygonMode)} (hP : ∀ q ∈ allCorners polys, WholePt q) :
    Separate (· ∈ allCorners (moveAll (k : ℝ) ⟨(v.x : ℝ), (v.y : ℝ)⟩ polys)) (Drawn (moveAll (k : ℝ) ⟨(v.x : ℝ), (v.y : ℝ)⟩ polys)) := by
  refine whole_separate (fun q hq => ?_) fun e he => Plan.drawn_corner he
  rw [allCorners_move] at hq
  obtain ⟨q, hq', rfl⟩ := List.mem_map.1 hq
  obtain ⟨m, n, rfl⟩ := hP q hq'
  exact ⟨k * m + v.x, k * n + v.y, by unfold movePt; push_cast; rfl⟩

/-- Points on a grid of width at least 1/3000 are told apart. -/
theorem grid_separate {k : ℕ} (h0 : 0 < k) (hk : k ≤ 3000) {V : Pt ℝ → Prop} {E : Pt ℝ × Pt ℝ → Prop} (hV : ∀ q, V q → ∃ m n : ℤ, q = ⟨m / k, n / k⟩)
    (hE : ∀ e, E e → V e.1 ∧ V e.2) : Separate V E := by
  have kp : (0 : ℝ) < k := by exact_mod_cast h0
  have kl : (k : ℝ) ≤ 3000 := by exact_mod_cast hk
  have k2 : (k : ℝ) ^ 2 ≤ 9000000 := by nlinarith
  have st : ∀ m : ℤ, Steady ((m : ℝ) / k) := by
    intro m z
    by_cases h : m = z * k
    · left
      rw [h]
      push_cast
      field_simp
    · right
      have h1 : 1 ≤ |m - z * k| := Int.one_le_abs (by omega)
      have h2 : (1 : ℝ) ≤ |(m : ℝ) - z * k| := by exact_mod_cast h1
      rw [show (m : ℝ) / k - z = (m - z * k) / k by field_simp, abs_div, abs_of_pos kp, le_div_iff₀ kp]
      linarith
  refine ⟨fun q hq => ?_, fun q q' hq hq' => ?_, fun e q he hq => ?_⟩
  · obtain ⟨m, n, rfl⟩ := hV q hq
    exact ⟨st m, st n⟩
  · obtain ⟨m, n, rfl⟩ := hV q hq
    obtain ⟨a, b, rfl⟩ := hV q' hq'
    by_cases h : m = a ∧ n = b
    · obtain ⟨rfl, rfl⟩ := h
      exact Or.inl rfl
    · right
      have h1 : (1 : ℤ) ≤ (m - a) ^ 2 + (n - b) ^ 2 := by
        by_contra hc
        have h2 : m = a := by nlinarith [sq_nonneg (m - a), sq_nonneg (n - b), sq_nonneg (m - a + 1), sq_nonneg (m - a - 1)]
        have h3 : n = b := by nlinarith [sq_nonneg (m - a), sq_nonneg (n - b), sq_nonneg (n - b + 1), sq_nonneg (n - b - 1)]
        exact h ⟨h2, h3⟩
      have h2 : (1 : ℝ) ≤ ((m : ℝ) - a) ^ 2 + (n - b) ^ 2 := by exact_mod_cast h1
      dsimp only
      rw [show ((m : ℝ) / k - a / k) ^ 2 + ((n : ℝ) / k - b / k) ^ 2 = (((m : ℝ) - a) ^ 2 + (n - b) ^ 2) / (k : ℝ) ^ 2 by field_simp, le_div_iff₀ (by positivity)]
      linarith
  · obtain ⟨m, n, rfl⟩ := hV q hq
    obtain ⟨⟨x1, y1⟩, ⟨x2, y2⟩⟩ := e
    obtain ⟨a, b, h1⟩ := hV _ (hE _ he).1
    obtain ⟨c, d, h2⟩ := hV _ (hE _ he).2
    dsimp only at h1 h2
    obtain ⟨rfl, rfl⟩ := Pt.mk.inj h1
    obtain ⟨rfl, rfl⟩ := Pt.mk.inj h2
    unfold OnLine
    dsimp only
    have e : ((c : ℝ) / k - a / k) * (n / k - b / k) - (d / k - b / k) * (m / k - a / k) = (((c : ℝ) - a) * (n - b) - (d - b) * (m - a)) / (k : ℝ) ^ 2 := by
      field_simp
    by_cases hz : (c - a) * (n - b) - (d - b) * (m - a) = 0
    · left
      have : ((c : ℝ) - a) * (n - b) - (d - b) * (m - a) = 0 := by exact_mod_cast hz
      rw [this, zero_div] at e
      linarith
    · right
      have h1 : 1 ≤ |(c - a) * (n - b) - (d - b) * (m - a)| := Int.one_le_abs hz
      have h2 : (1 : ℝ) ≤ |((c : ℝ) - a) * (n - b) - (d - b) * (m - a)| := by exact_mod_cast h1
      rw [e, abs_div, abs_of_pos (show (0 : ℝ) < (k : ℝ) ^ 2 by positivity), lt_div_iff₀ (by positivity)]
      linarith

/-- A square and a triangle, in thirds: the triangle with the corners (-1, 2), (2, 4) and (-1, 5) crosses the left edge of the square at (0, 8/3) and
(0, 14/3). -/
def thirdSample : List (List (List ZPt) × PolygonMode) :=
  [([[(0, 0), (30, 0), (30, 30), (0, 30)]], .normal), ([[(-3, 6), (6, 12), (-3, 15)]], .normal)]

def thirdSampleCut : List (List (List ZPt) × PolygonMode) :=
  [([[(0, 0), (30, 0), (30, 30), (0, 30), (0, 14), (0, 8)]], .normal), ([[(-3, 6), (0, 8), (6, 12), (0, 14), (-3, 15)]], .normal)]

/-- A sample for C84 in which the crossings are not at whole coordinates. -/
theorem C84_fractions_hypotheses_met : Crossed (moveAll ((1 : ℝ) / 3) ⟨0, 0⟩ (thirdSample.map fun p => (zPolygon p.1, p.2)))
    (moveAll ((1 : ℝ) / 3) ⟨0, 0⟩ (thirdSampleCut.map fun p => (zPolygon p.1, p.2))) := by
  refine Crossed.move (by norm_num) (crossed_of_check (by decide +kernel)) (grid_separate (k := 3) (by norm_num) (by norm_num) (fun q hq => ?_) fun e he => Plan.drawn_corner he)
  rw [allCorners_move] at hq
  obtain ⟨q, hq', rfl⟩ := List.mem_map.1 hq
  obtain ⟨m, n, rfl⟩ := z_whole hq'
  refine ⟨m, n, ?_⟩
  unfold movePt
  dsimp only
  push_cast
  refine pt_ext ?_ ?_ <;> dsimp only <;> ring

theorem C87_hypotheses_met : Planar (planSample.map fun p => (zPolygon p.1, p.2)) ∧ Removable (planSample.map fun p => (zPolygon p.1, p.2)) ∧
    Separate (· ∈ allCorners (moveAll ((3 : ℤ) : ℝ) ⟨((-100 : ℤ) : ℝ), ((7 : ℤ) : ℝ)⟩ (planSample.map fun p => (zPolygon p.1, p.2))))
      (Drawn (moveAll ((3 : ℤ) : ℝ) ⟨((-100 : ℤ) : ℝ), ((7 : ℤ) : ℝ)⟩ (planSample.map fun p => (zPolygon p.1, p.2)))) ∧
    Crossed (removeSample.map fun p => (zPolygon p.1, p.2)) (removeSampleCut.map fun p => (zPolygon p.1, p.2)) ∧ Removable (removeSampleCut.map fun p => (zPolygon p.1, p.2)) ∧
    Separate (· ∈ allCorners (moveAll ((3 : ℤ) : ℝ) ⟨((-100 : ℤ) : ℝ), ((7 : ℤ) : ℝ)⟩ (removeSampleCut.map fun p => (zPolygon p.1, p.2))))
      (Drawn (moveAll ((3 : ℤ) : ℝ) ⟨((-100 : ℤ) : ℝ), ((7 : ℤ) : ℝ)⟩ (removeSampleCut.map fun p => (zPolygon p.1, p.2)))) :=
  ⟨C86_hypotheses_met.1, C86_hypotheses_met.2.1, whole_move 3 ⟨-100, 7⟩ (fun _ hq => z_whole hq), C86_crossed_hypotheses_met.1, C86_crossed_hypotheses_met.2.1,
    whole_move 3 ⟨-100, 7⟩ (fun _ hq => z_whole hq)⟩

theorem C87_double_hypotheses_met : Planar (asPolygons ℝ (planSample.map fun p => (wholePolygon p.1, p.2))) ∧ SharpPlan (asPolygons ℝ (planSample.map fun p => (wholePolygon p.1, p.2))) ∧
    SharpPlan (asPolygons ℝ (moveAll 3 ⟨-100, 7⟩ (planSample.map fun p => (wholePolygon p.1, p.2)))) ∧
    Removable (asPolygons ℝ (planSample.map fun p => (wholePolygon p.1, p.2))) ∧ (∃ r, IsResult (asPolygons ℝ (planSample.map fun p => (wholePolygon p.1, p.2))) r) := by
  obtain ⟨h1, h2, h3, h4, -⟩ := C86_double_hypotheses_met
  refine ⟨h1, h2, ?_, h3, h4⟩
  have := moveAll_z 3 (-100, 7) planSample
  rw [this]
  exact sharpPlan_of_check (by decide +kernel)

/-- A sample, run: scaled by 3 and moved by (-100, 7). -/
theorem C87_sample :
    exView ((zMove 3 (-100, 7) removeSample).map fun p => (⟨p.1.map fun r => Contour.ofPoints (r.map fun q => ⟨(q.1 : Rat), q.2⟩)⟩, p.2)) .union =
      (exView (removeSample.map fun p => (⟨p.1.map fun r => Contour.ofPoints (r.map fun q => ⟨(q.1 : Rat), q.2⟩)⟩, p.2)) .union).map fun cs =>
        cs.map fun c => { c with points := c.points.map fun q => (3 * q.1 - 100, 3 * q.2 + 7) } := by
  decide +kernel

end Idc
