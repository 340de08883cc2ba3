import Verif.Props.DoubleCross
import Verif.Spec.Lib
import Verif.Spec.Sharp
import Verif.Model.Compute
/-!
# C83: crossings in double precision
-/

namespace Idc

/-- Coordinates of a map. -/
def MapRange (p : ℤ × ℤ) : Prop := |p.1| ≤ 2 ^ 15 ∧ |p.2| ≤ 2 ^ 15

section

variable {a b c d : ℤ × ℤ}

theorem sharp_data (h : SharpAngle ((ofIntPt a : Pt ℝ), ofIntPt b) (ofIntPt c, ofIntPt d)) :
    a ≠ b ∧ c ≠ d ∧ 11 * Double.zLen a b * Double.zLen c d < 10 ^ 8 * Double.zKross a b c d ^ 2 := by
  unfold SharpAngle ofIntPt at h
  dsimp only [FloatOps.ofInt] at h
  have h' : (11 : ℝ) * Double.zLen a b * Double.zLen c d < 10 ^ 8 * (Double.zKross a b c d) ^ 2 := by
    unfold Double.zLen Double.zKross
    push_cast
    norm_num at h ⊢
    linarith
  have h'' : 11 * Double.zLen a b * Double.zLen c d < 10 ^ 8 * Double.zKross a b c d ^ 2 := by exact_mod_cast h'
  refine ⟨?_, ?_, h''⟩
  · rintro rfl; simp [Double.zLen, Double.zKross] at h''
  · rintro rfl; simp [Double.zLen, Double.zKross] at h''

/-- **C83.** In double precision, two segments with whole coordinates that are not nearly parallel are found to cross exactly if they do; the point
reported is within 10⁻⁷ of the common point. -/
theorem C83_crossing (ha : MapRange a) (hb : MapRange b) (hc : MapRange c) (hd : MapRange d)
    (hang : SharpAngle ((ofIntPt a : Pt ℝ), ofIntPt b) (ofIntPt c, ofIntPt d)) :
    ((∀ p, ¬ CommonPoint ((ofIntPt a : Pt ℝ), ofIntPt b) (ofIntPt c, ofIntPt d) p) →
      intersectSegments ((ofIntPt a : Pt F64), ofIntPt b) (ofIntPt c, ofIntPt d) = .none) ∧
    (∀ p, CommonPoint ((ofIntPt a : Pt ℝ), ofIntPt b) (ofIntPt c, ofIntPt d) p → ∃ (s t : Bool) (x y : ℚ),
      intersectSegments ((ofIntPt a : Pt F64), ofIntPt b) (ofIntPt c, ofIntPt d) = .point ⟨.num s x, .num t y⟩ ∧
      |((F64.num s x).val : ℝ) - p.x| ≤ 1 / 10 ^ 7 ∧ |((F64.num t y).val : ℝ) - p.y| ≤ 1 / 10 ^ 7) := by
  obtain ⟨hab, hcd, hz⟩ := sharp_data hang
  have hK : Double.zKross a b c d ≠ 0 := by
    intro h
    rw [h] at hz
    have := mul_pos (lt_of_lt_of_le one_pos (Double.zLen_pos hab)) (lt_of_lt_of_le one_pos (Double.zLen_pos hcd))
    nlinarith
  have hKr : ((Double.zKross a b c d : ℤ) : ℝ) = (((ofIntPt b : Pt ℝ).x - (ofIntPt a : Pt ℝ).x) * ((ofIntPt d : Pt ℝ).y - (ofIntPt c : Pt ℝ).y) -
      ((ofIntPt b : Pt ℝ).y - (ofIntPt a : Pt ℝ).y) * ((ofIntPt d : Pt ℝ).x - (ofIntPt c : Pt ℝ).x)) := by
    unfold Double.zKross ofIntPt
    push_cast
    rfl
  have hcom := common_iff ((ofIntPt a : Pt ℝ), ofIntPt b) (ofIntPt c, ofIntPt d) (Double.zKross a b c d : ℤ) hKr (by exact_mod_cast hK)
  dsimp only at hcom
  have eA : ((ofIntPt c : Pt ℝ).x - (ofIntPt a : Pt ℝ).x) * ((ofIntPt d : Pt ℝ).y - (ofIntPt c : Pt ℝ).y) - ((ofIntPt c : Pt ℝ).y - (ofIntPt a : Pt ℝ).y) *
      ((ofIntPt d : Pt ℝ).x - (ofIntPt c : Pt ℝ).x) = (Double.zA a c d : ℤ) := by
    unfold Double.zA ofIntPt; push_cast; rfl
  have eB : ((ofIntPt c : Pt ℝ).x - (ofIntPt a : Pt ℝ).x) * ((ofIntPt b : Pt ℝ).y - (ofIntPt a : Pt ℝ).y) - ((ofIntPt c : Pt ℝ).y - (ofIntPt a : Pt ℝ).y) *
      ((ofIntPt b : Pt ℝ).x - (ofIntPt a : Pt ℝ).x) = (Double.zA a c b : ℤ) := by
    unfold Double.zA ofIntPt; dsimp only [FloatOps.ofInt]; push_cast; ring
  rw [eA, eB] at hcom
  have cast : (((0 ≤ (Double.zA a c d : ℚ) / Double.zKross a b c d ∧ (Double.zA a c d : ℚ) / Double.zKross a b c d ≤ 1) ∧
        (0 ≤ (Double.zA a c b : ℚ) / Double.zKross a b c d ∧ (Double.zA a c b : ℚ) / Double.zKross a b c d ≤ 1)) ↔
      ((0 ≤ (Double.zA a c d : ℝ) / Double.zKross a b c d ∧ (Double.zA a c d : ℝ) / Double.zKross a b c d ≤ 1) ∧
        (0 ≤ (Double.zA a c b : ℝ) / Double.zKross a b c d ∧ (Double.zA a c b : ℝ) / Double.zKross a b c d ≤ 1))) := by
    have key : ∀ n k : ℤ, ((0 : ℚ) ≤ (n : ℚ) / k ↔ (0 : ℝ) ≤ (n : ℝ) / k) ∧ ((n : ℚ) / k ≤ 1 ↔ (n : ℝ) / k ≤ 1) := fun n k =>
      ⟨⟨fun h => by exact_mod_cast h, fun h => by exact_mod_cast h⟩, ⟨fun h => by exact_mod_cast h, fun h => by exact_mod_cast h⟩⟩
    rw [(key _ _).1, (key _ _).2, (key _ _).1, (key _ _).2]
  have main := Double.intersect_cross (F := F64) (a := a) (b := b) (c := c) (d := d) ha hb hc hd F64.roundCoord_close hab hcd hz
  rw [cast] at main
  rcases main with ⟨h, i, h1, h2, h3, h4, h5⟩ | ⟨h, h1⟩
  · constructor
    · intro hno
      exact absurd ((hcom _).2 ⟨h.1, h.2, rfl⟩) (hno _)
    · intro p hp
      obtain ⟨_, _, rfl⟩ := (hcom p).1 hp
      obtain ⟨ix, iy⟩ := i
      obtain ⟨s, x, rfl, _⟩ := F64.Fin.num h2
      obtain ⟨t, y, rfl, _⟩ := F64.Fin.num h3
      refine ⟨s, t, x, y, h1, ?_, ?_⟩
      · have h4 : |(F64.num s x).val - (a.1 + (b.1 - a.1) * ((Double.zA a c d : ℚ) / Double.zKross a b c d))| ≤ 1 / 10 ^ 7 := h4
        unfold ofIntPt
        dsimp only [FloatOps.ofInt]
        have h6 := (Rat.cast_le (K := ℝ)).2 h4
        push_cast at h6
        exact h6
      · have h5 : |(F64.num t y).val - (a.2 + (b.2 - a.2) * ((Double.zA a c d : ℚ) / Double.zKross a b c d))| ≤ 1 / 10 ^ 7 := h5
        unfold ofIntPt
        dsimp only [FloatOps.ofInt]
        have h6 := (Rat.cast_le (K := ℝ)).2 h5
        push_cast at h6
        exact h6
  · constructor
    · intro _; exact h1
    · intro p hp
      obtain ⟨k1, k2, _⟩ := (hcom p).1 hp
      exact absurd ⟨k1, k2⟩ h

end

/-- The hypotheses are met by segments that cross at whole coordinates. -/
theorem C83_hypotheses_met : MapRange (1, 0) ∧ MapRange (1, 49) ∧ MapRange (0, 1) ∧ MapRange (20, 1) ∧
    SharpAngle ((ofIntPt (1, 0) : Pt ℝ), ofIntPt (1, 49)) (ofIntPt (0, 1), ofIntPt (20, 1)) ∧
    CommonPoint ((ofIntPt (1, 0) : Pt ℝ), ofIntPt (1, 49)) (ofIntPt (0, 1), ofIntPt (20, 1)) (ofIntPt (1, 1)) := by
  refine ⟨by unfold MapRange; norm_num, by unfold MapRange; norm_num, by unfold MapRange; norm_num, by unfold MapRange; norm_num, ?_, ⟨1 / 49, ?_⟩, ⟨1 / 20, ?_⟩⟩
  · unfold SharpAngle ofIntPt; dsimp only [FloatOps.ofInt]; norm_num
  · unfold ofIntPt; dsimp only [FloatOps.ofInt]; norm_num
  · unfold ofIntPt; dsimp only [FloatOps.ofInt]; norm_num

/-- **C83.** Not exactly, though, even if the coordinates of the common point are whole numbers: those two segments are said to meet in (1, 1 - 2⁻⁵³). -/
theorem C83_beside : intersectSegments ((ofIntPt (1, 0) : Pt F64), ofIntPt (1, 49)) (ofIntPt (0, 1), ofIntPt (20, 1)) =
    .point ⟨.num false 1, .num false (1 - 1 / 2 ^ 53)⟩ := by
  decide +kernel

/-- A rectangle, in double precision. -/
def rectF64 (x0 y0 x1 y1 : ℤ) : Polygon F64 :=
  ⟨[{ (Contour.new : Contour F64) with points := [ofIntPt (x0, y0), ofIntPt (x1, y0), ofIntPt (x1, y1), ofIntPt (x0, y1)] }]⟩

/-- The corners of the result's outlines. -/
def cornersF64 : Res (Polygon F64) → List (List (Pt F64))
  | .ok r => r.contours.map fun c => c.points
  | _ => []

/-- **C83.** So the outlines that `compute` returns for crossing rectangles with whole coordinates can have slanted edges. -/
theorem C83_slanted : cornersF64 (compute listLib 100 [(rectF64 0 1 20 60, .normal), (rectF64 1 0 10 49, .normal)] .union) =
    let p : Pt F64 := ⟨.num false 1, .num false (1 - 1 / 2 ^ 53)⟩
    let q : Pt F64 := ⟨.num false 10, .num false (1 - 1 / 2 ^ 52)⟩
    [[ofIntPt (0, 1), p, ofIntPt (1, 49), ofIntPt (10, 49), q, ofIntPt (20, 1), ofIntPt (20, 60), ofIntPt (0, 60)],
     [ofIntPt (1, 0), ofIntPt (10, 0), q, p],
     [p, q, ofIntPt (10, 49), ofIntPt (1, 49)]] := by
  decide +kernel

end Idc
