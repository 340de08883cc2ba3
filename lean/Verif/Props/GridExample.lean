import Verif.Props.GridCompute
import Verif.Spec.SharpCheck
import Verif.Spec.Lib
/-!
# C92: an example, three rectangles that share corners and parts of edges
-/

namespace Idc

/-- What `Grid` asks for, checked for finitely many coordinates. -/
def gridCheck (xs ys : List ℤ) (f g : ℤ → ℤ) : Bool :=
  (xs.all fun a => xs.all fun b => decide (a < b → f a < f b)) && (ys.all fun a => ys.all fun b => decide (a < b → g a < g b)) &&
    (xs.all fun a => xs.all fun a' => ys.all fun b => ys.all fun b' =>
      decide (a ≠ a' → |g b - g b'| ≤ 3162 * |f a - f a'|) && decide (b ≠ b' → |f a - f a'| ≤ 3162 * |g b - g b'|))

theorem grid_of_check {xs ys : List ℤ} {f g : ℤ → ℤ} (h : gridCheck xs ys f g = true) : Grid {x | x ∈ xs} {y | y ∈ ys} f g := by
  unfold gridCheck at h
  simp only [Bool.and_eq_true, List.all_eq_true, decide_eq_true_eq] at h
  exact ⟨fun a ha b hb => h.1.1 a ha b hb, fun a ha b hb => h.1.2 a ha b hb, fun a ha a' ha' hn b hb b' hb' => (h.2 a ha a' ha' b hb b' hb').1 hn,
    fun a ha a' ha' b hb b' hb' hn => (h.2 a ha a' ha' b hb b' hb').2 hn⟩

/-- What `OnLines` asks for. -/
def linesCheck (xs ys : List ℤ) (polys : List (Polygon ℤ × PolygonMode)) : Bool :=
  polys.all fun p => p.1.contours.all fun c => (c.points.all fun q => decide (q.x ∈ xs) && decide (q.y ∈ ys)) &&
    (c.points.zip (c.points.rotate 1)).all fun e => decide (e.1.x = e.2.x) || decide (e.1.y = e.2.y)

theorem onLines_of_check {xs ys : List ℤ} {polys : List (Polygon ℤ × PolygonMode)} (h : linesCheck xs ys polys = true) : OnLines {x | x ∈ xs} {y | y ∈ ys} polys := by
  unfold linesCheck at h
  simp only [Bool.and_eq_true, Bool.or_eq_true, List.all_eq_true, decide_eq_true_eq] at h
  exact ⟨fun p hp c hc q hq => (h p hp c hc).1 q hq, fun p hp c hc e he => (h p hp c hc).2 e he⟩

/-- A rectangle, one to the right of it, and one that overlaps both and ends where they end. -/
def touchSample : List (Polygon ℤ × PolygonMode) :=
  [(wholePolygon [[(0, 0), (10, 0), (10, 10), (0, 10)]], .normal), (wholePolygon [[(10, 0), (20, 0), (20, 10), (10, 10)]], .removeInterior),
    (wholePolygon [[(5, -5), (15, -5), (15, 10), (5, 10)]], .normal)]

/-- The result. -/
def touchResult : Polygon ℤ :=
  ⟨[⟨[⟨0, 0⟩, ⟨5, 0⟩, ⟨5, 10⟩, ⟨0, 10⟩], [], [true, false, false], [false, false, true], true, some false⟩,
    ⟨[⟨5, -5⟩, ⟨15, -5⟩, ⟨15, 0⟩, ⟨10, 0⟩, ⟨5, 0⟩], [], [false, false, true], [false, false, true], true, some false⟩,
    ⟨[⟨5, 0⟩, ⟨10, 0⟩, ⟨10, 10⟩, ⟨5, 10⟩], [], [true, false, true], [true, true, false], true, some false⟩]⟩

/-- Everything from 10 on moved up by a million. -/
def farOff (x : ℤ) : ℤ := if x < 10 then 1000 * x else 1000 * x + 1000000

theorem C92_hypotheses_met : OnLines {x | x ∈ [0, 5, 10, 15, 20]} {y | y ∈ [-5, 0, 10]} touchSample ∧ Grid {x : ℤ | x ∈ [0, 5, 10, 15, 20]} {y : ℤ | y ∈ [-5, 0, 10]} id id ∧
    Grid {x : ℤ | x ∈ [0, 5, 10, 15, 20]} {y : ℤ | y ∈ [-5, 0, 10]} farOff (· * 1000) ∧
    compute listLib 1000 (asPolygons ℚ touchSample) .union = .ok (asPolygon ℚ touchResult) ∧
    ∀ c ∈ touchResult.contours, (ptsArea (stretchContour farOff (· * 1000) c).points).sign = (ptsArea c.points).sign :=
  ⟨onLines_of_check (by decide +kernel), grid_of_check (by decide +kernel), grid_of_check (by decide +kernel), by decide +kernel, by decide +kernel⟩

/-- So the result of the stretched rectangles in real arithmetic is known. -/
theorem touch_stretched : compute listLib 1000 (asPolygons ℝ (stretchAll farOff (· * 1000) touchSample)) .union = .ok (asPolygon ℝ (stretchPolygon farOff (· * 1000) touchResult)) := by
  obtain ⟨h1, h2, h3, h4, h5⟩ := C92_hypotheses_met
  obtain ⟨z, hz, hr⟩ := C92_stretched_anyhow (F := ℝ) listLib 1000 touchSample .union h1 h2 h3 h4
  rw [ex_polygon_inj hz] at h5 ⊢
  exact hr h5

end Idc
