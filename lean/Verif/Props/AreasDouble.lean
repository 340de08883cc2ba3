import Verif.Props.Areas
import Verif.Props.RedrawnDouble
import Verif.Props.CrossedExample
import Verif.Props.RemovedExample
import Verif.Props.SharpPlan
/-!
# C88 in double precision, and samples
-/

namespace Idc

open Plan

/-- **C88 in double precision.** (`asPolygon ℝ z` is the result with its coordinates read as real numbers.) -/
theorem C88_double {F : Type} [FloatOps F] [Double F] {lib : Lib} (hl : lib.Lawful) {polys : List (Polygon ℤ × PolygonMode)} (hP : Planar (asPolygons ℝ polys))
    (hS : SharpPlan (asPolygons ℝ polys)) (hm : ∀ p ∈ polys, p.2 ≠ .removeEdges) (op : BooleanOpType) :
    ∃ z : Polygon ℤ, (∀ fuel, 2 * (allCorners (asPolygons ℝ polys)).length < fuel → compute lib fuel (asPolygons F polys) op = .ok (asPolygon F z)) ∧
      ∀ q, (∀ e ∈ allEdges (asPolygons ℝ polys), ¬ OnSegment e q) →
        (∀ f, PointFlags (asPolygons ℝ polys) q f → (FlagsOk (asPolygons ℝ polys) f → ∃! i, InArea (asPolygon ℝ z) i q) ∧
          (¬ FlagsOk (asPolygons ℝ polys) f → ∀ i, ¬ InArea (asPolygon ℝ z) i q)) ∧
        ∀ i c, InArea (asPolygon ℝ z) i q → (asPolygon ℝ z).contours[i]? = some c → PointFlags (asPolygons ℝ polys) q c.from_polygons := by
  obtain ⟨z, hz⟩ := C82_same (F := F) hl hP hS hm op
  have hm' : ∀ p ∈ asPolygons ℝ polys, p.2 ≠ .removeEdges := by
    intro p hp
    obtain ⟨p', h', rfl⟩ := List.mem_map.1 hp
    exact hm p' h'
  have hR := removable_of hm'
  have hlt : 2 * (allCorners (asPolygons ℝ polys)).length < 2 * (allCorners (asPolygons ℝ polys)).length + 1 := by omega
  have hr := (hz _ hlt).1
  exact ⟨z, fun fuel hf => (hz fuel hf).2, fun q hq => ⟨fun f hf => ⟨fun ho => C88_in_one_area hl hP hR hlt hr hq hf ho, fun ho i => C88_in_no_area hl hP hR hlt hr hq hf ho i⟩,
    fun i c hi hc => C88_whole_label hl hP hm' hlt hr hq hi hc⟩⟩

/-- **C88 in double precision,** with edges to be left out, unless exact arithmetic gives no result. -/
theorem C88_double_removed {F : Type} [FloatOps F] [Double F] {lib : Lib} (hl : lib.Lawful) {polys : List (Polygon ℤ × PolygonMode)} (hP : Planar (asPolygons ℝ polys))
    (hS : SharpPlan (asPolygons ℝ polys)) (hR : Removable (asPolygons ℝ polys)) (hex : ∃ r, IsResult (asPolygons ℝ polys) r) (op : BooleanOpType) {fuel : ℕ}
    (hfuel : 2 * (allCorners (asPolygons ℝ polys)).length < fuel) :
    ∃ z : Polygon ℤ, compute lib fuel (asPolygons F polys) op = .ok (asPolygon F z) ∧
      ∀ q, (∀ e ∈ allEdges (asPolygons ℝ polys), ¬ OnSegment e q) →
        (∀ f, PointFlags (asPolygons ℝ polys) q f → (FlagsOk (asPolygons ℝ polys) f → ∃! i, InArea (asPolygon ℝ z) i q) ∧
          (¬ FlagsOk (asPolygons ℝ polys) f → ∀ i, ¬ InArea (asPolygon ℝ z) i q)) ∧
        ∀ i c, InArea (asPolygon ℝ z) i q → (asPolygon ℝ z).contours[i]? = some c →
          ∀ (m : ℕ) p, (asPolygons ℝ polys)[m]? = some p → p.2 ≠ .removeEdges → (c.from_polygons[m]? = some true ↔ p.1.evenOdd q) := by
  obtain ⟨r, hr⟩ := hex
  obtain ⟨z, rfl, e⟩ := double_of_result (F := F) hl hP hS hR hr op hfuel
  have hr' := ((C86_exact hl hP hR op hfuel).1 _).2 hr
  exact ⟨z, e, fun q hq => ⟨fun f hf => ⟨fun ho => C88_in_one_area hl hP hR hfuel hr' hq hf ho, fun ho i => C88_in_no_area hl hP hR hfuel hr' hq hf ho i⟩,
    fun i c hi hc m p hp hm => C88_label hl hP hR hfuel hr' hq hi hc hp hm⟩⟩

/-! ### Samples -/

/-- Whether the line down from a point crosses an edge. -/
def zCrosses (v : ZPt) (e : ZPt × ZPt) : Bool :=
  decide ((e.1.1 ≤ v.1 ∧ v.1 < e.2.1 ∧ e.1.2 * (e.2.1 - e.1.1) + (v.1 - e.1.1) * (e.2.2 - e.1.2) < v.2 * (e.2.1 - e.1.1)) ∨
    (e.2.1 ≤ v.1 ∧ v.1 < e.1.1 ∧ v.2 * (e.2.1 - e.1.1) < e.1.2 * (e.2.1 - e.1.1) + (v.1 - e.1.1) * (e.2.2 - e.1.2)))

theorem zCrosses_iff (v : ZPt) (e : ZPt × ZPt) : CrossesBelow v.toPt (zEdge e) ↔ zCrosses v e = true := by
  obtain ⟨⟨a, b⟩, c, d⟩ := e
  obtain ⟨x, y⟩ := v
  unfold CrossesBelow zCrosses zEdge ZPt.toPt
  rw [decide_eq_true_iff]
  dsimp only
  rcases lt_trichotomy a c with h | h | h
  · have h' : (a : ℝ) < c := by exact_mod_cast h
    rw [min_eq_left h'.le, max_eq_right h'.le]
    have hd : (0 : ℝ) < c - a := by linarith
    have key : (b : ℝ) + (x - a) * ((d - b) / (c - a)) < y ↔ (b : ℝ) * (c - a) + (x - a) * (d - b) < y * (c - a) := by
      rw [show (b : ℝ) + (x - a) * ((d - b) / (c - a)) = (b * (c - a) + (x - a) * (d - b)) / (c - a) by field_simp, div_lt_iff₀ hd]
    rw [key]
    constructor
    · rintro ⟨h1, h2, h3⟩
      exact .inl ⟨by exact_mod_cast h1, by exact_mod_cast h2, by exact_mod_cast h3⟩
    · rintro (⟨h1, h2, h3⟩ | ⟨h1, h2, _⟩)
      · exact ⟨by exact_mod_cast h1, by exact_mod_cast h2, by exact_mod_cast h3⟩
      · omega
  · subst h
    rw [min_self, max_self]
    constructor
    · rintro ⟨h1, h2, _⟩
      linarith
    · rintro (⟨h1, h2, _⟩ | ⟨h1, h2, _⟩) <;> omega
  · have h' : (c : ℝ) < a := by exact_mod_cast h
    rw [min_eq_right h'.le, max_eq_left h'.le]
    have hd : (c : ℝ) - a < 0 := by linarith
    have key : (b : ℝ) + (x - a) * ((d - b) / (c - a)) < y ↔ (y : ℝ) * (c - a) < b * (c - a) + (x - a) * (d - b) := by
      rw [show (b : ℝ) + (x - a) * ((d - b) / (c - a)) = (b * (c - a) + (x - a) * (d - b)) / (c - a) by have := hd.ne; field_simp, div_lt_iff_of_neg hd]
    rw [key]
    constructor
    · rintro ⟨h1, h2, h3⟩
      exact .inr ⟨by exact_mod_cast h1, by exact_mod_cast h2, by exact_mod_cast h3⟩
    · rintro (⟨h1, h2, h3⟩ | ⟨h1, h2, h3⟩)
      · omega
      · exact ⟨by exact_mod_cast h1, by exact_mod_cast h2, by exact_mod_cast h3⟩

theorem zPolygon_edges (p : List (List ZPt)) : (zPolygon p).edges = (p.flatMap zEdges).map zEdge := by
  rw [List.map_flatMap]
  unfold Polygon.edges zPolygon
  rw [List.flatMap_map]
  simp only [closedEdges_map]

theorem zEven (p : List (List ZPt)) (q : ZPt) : (zPolygon p).evenOdd q.toPt ↔ ((p.flatMap zEdges).countP (zCrosses q)) % 2 = 1 := by
  classical
  unfold Polygon.evenOdd
  rw [zPolygon_edges, List.countP_map, Nat.odd_iff]
  have : ((fun e => decide (CrossesBelow q.toPt e)) ∘ zEdge) = zCrosses q := by
    funext e
    rw [Function.comp_apply, Bool.eq_iff_iff, decide_eq_true_iff]
    exact zCrosses_iff q e
  rw [this]

/-- The flags of a point. -/
def zFlags (polys : List (List (List ZPt) × PolygonMode)) (q : ZPt) : List Bool := polys.map fun p => (p.1.flatMap zEdges).countP (zCrosses q) % 2 == 1

theorem zFlags_point (polys : List (List (List ZPt) × PolygonMode)) (q : ZPt) : PointFlags (polys.map fun p => (zPolygon p.1, p.2)) q.toPt (zFlags polys q) := by
  refine ⟨by simp [zFlags], fun j p hp => ?_⟩
  rw [List.getElem?_map] at hp
  obtain ⟨p', h1, rfl⟩ := Option.map_eq_some_iff.1 hp
  unfold zFlags
  rw [List.getElem?_map, h1, zEven]
  simp

/-- The point is on none of the edges. -/
def zOff (polys : List (List (List ZPt) × PolygonMode)) (q : ZPt) : Bool := (polys.flatMap fun p => p.1.flatMap zEdges).all fun e => !zOn e.1 e.2 q

theorem zOff_point {polys : List (List (List ZPt) × PolygonMode)} {q : ZPt} (h : zOff polys q = true) :
    ∀ e ∈ allEdges (polys.map fun p => (zPolygon p.1, p.2)), ¬ OnSegment e q.toPt := by
  intro e he hon
  unfold allEdges at he
  rw [List.flatMap_map] at he
  obtain ⟨p, hp, he⟩ := List.mem_flatMap.1 he
  rw [zPolygon_edges] at he
  obtain ⟨d, hd, rfl⟩ := List.mem_map.1 he
  unfold zOff at h
  rw [List.all_eq_true] at h
  have := h d (List.mem_flatMap.2 ⟨p, hp, hd⟩)
  rw [Bool.not_eq_true', ← Bool.not_eq_true] at this
  exact this (zOn_iff.2 hon)

/-- A square with two holes, one above the other, and a smaller square, which removes interior, between them. -/
def areaSample : List (List (List ZPt) × PolygonMode) :=
  [([[(0, 0), (100, 0), (100, 100), (0, 100)], [(40, 20), (60, 20), (60, 40), (40, 40)], [(40, 60), (60, 60), (60, 80), (40, 80)]], .normal),
   ([[(70, 45), (80, 45), (80, 55), (70, 55)]], .removeInterior)]

theorem flagsOk_of {polys : List (List (List ZPt) × PolygonMode)} {f : List Bool} (h1 : f.length = polys.length) (h2 : true ∈ f)
    (h3 : ∀ x ∈ polys.zip f, x.2 = true → x.1.2 ≠ .removeInterior) : FlagsOk (polys.map fun p => (zPolygon p.1, p.2)) f := by
  refine ⟨by rw [h1, List.length_map], h2, fun i poly mode hp hf => ?_⟩
  rw [List.getElem?_map] at hp
  obtain ⟨p, hp', e⟩ := Option.map_eq_some_iff.1 hp
  cases e
  refine h3 (p, true) (List.mem_iff_getElem?.2 ⟨i, ?_⟩) rfl
  rw [List.getElem?_zip_eq_some]
  exact ⟨hp', hf⟩

/-- A point between the holes is in one area, and it is inside of the first polygon alone. -/
theorem C88_hypotheses_met : Planar (areaSample.map fun p => (zPolygon p.1, p.2)) ∧ Removable (areaSample.map fun p => (zPolygon p.1, p.2)) ∧ listLib.Lawful ∧
    (∃ r, ∀ fuel, 2 * (allCorners (areaSample.map fun p => (zPolygon p.1, p.2))).length < fuel → compute listLib fuel (areaSample.map fun p => (zPolygon p.1, p.2)) .union = .ok r) ∧
    (∀ e ∈ allEdges (areaSample.map fun p => (zPolygon p.1, p.2)), ¬ OnSegment e (ZPt.toPt (50, 50))) ∧
    PointFlags (areaSample.map fun p => (zPolygon p.1, p.2)) (ZPt.toPt (50, 50)) [true, false] ∧ FlagsOk (areaSample.map fun p => (zPolygon p.1, p.2)) [true, false] := by
  have hP : Planar (areaSample.map fun p => (zPolygon p.1, p.2)) := planar_of_check (by decide +kernel)
  have hm : ∀ p ∈ areaSample.map fun p => (zPolygon p.1, p.2), p.2 ≠ .removeEdges := by
    intro p hp
    obtain ⟨p', h, rfl⟩ := List.mem_map.1 hp
    clear hp
    revert p' h
    decide
  obtain ⟨r, hr, _⟩ := C81_outlines listLib_lawful hP hm .union
  have e : zFlags areaSample (50, 50) = [true, false] := by decide +kernel
  exact ⟨hP, removable_of hm, listLib_lawful, ⟨r, hr⟩, zOff_point (by decide +kernel), e ▸ zFlags_point areaSample (50, 50), flagsOk_of rfl (by decide) (by decide)⟩

/-- A point in the square in the middle is in none. -/
theorem C88_none_hypotheses_met : (∀ e ∈ allEdges (areaSample.map fun p => (zPolygon p.1, p.2)), ¬ OnSegment e (ZPt.toPt (75, 50))) ∧
    PointFlags (areaSample.map fun p => (zPolygon p.1, p.2)) (ZPt.toPt (75, 50)) [true, true] ∧ ¬ FlagsOk (areaSample.map fun p => (zPolygon p.1, p.2)) [true, true] := by
  have e : zFlags areaSample (75, 50) = [true, true] := by decide +kernel
  refine ⟨zOff_point (by decide +kernel), e ▸ zFlags_point areaSample (75, 50), fun h => ?_⟩
  exact h.2.2 1 _ _ rfl rfl rfl

/-- In an area whose label lists the first polygon alone. -/
theorem C88_between_holes : ∃ r, compute listLib 1000 (areaSample.map fun p => (zPolygon p.1, p.2)) .union = .ok r ∧
    ∃ i c, InArea r i (ZPt.toPt (50, 50)) ∧ r.contours[i]? = some c ∧ c.from_polygons = [true, false] := by
  obtain ⟨hP, hR, hl, ⟨r, hr⟩, hq, hf, ho⟩ := C88_hypotheses_met
  have hn : 2 * (allCorners (areaSample.map fun p => (zPolygon p.1, p.2))).length < 1000 := by
    unfold allCorners areaSample zPolygon
    simp
  obtain ⟨i, hi, _⟩ := C88_in_one_area hl hP hR hn (hr _ hn) hq hf ho
  obtain ⟨c, hc, _⟩ := hi.inside
  have hm : ∀ p ∈ areaSample.map fun p => (zPolygon p.1, p.2), p.2 ≠ .removeEdges := by
    intro p hp
    obtain ⟨p', h, rfl⟩ := List.mem_map.1 hp
    clear hp
    revert p' h
    decide
  refine ⟨r, hr _ hn, i, c, hi, hc, ?_⟩
  have h1 := C88_whole_label hl hP hm hn (hr _ hn) hq hi hc
  refine flags_eq (h1.1.trans hf.1.symm) fun m => ?_
  by_cases hmm : m < (areaSample.map fun p => (zPolygon p.1, p.2)).length
  · have hp := List.getElem?_eq_getElem hmm
    rw [h1.2 m _ hp, hf.2 m _ hp]
  · rw [List.getElem?_eq_none (by rw [h1.1]; omega), List.getElem?_eq_none (by rw [hf.1]; omega)]

/-- Where edges are removed, too. -/
theorem C88_removed_hypotheses_met : Planar (removeSampleCut.map fun p => (zPolygon p.1, p.2)) ∧ Removable (removeSampleCut.map fun p => (zPolygon p.1, p.2)) ∧
    (∀ e ∈ allEdges (removeSampleCut.map fun p => (zPolygon p.1, p.2)), ¬ OnSegment e (ZPt.toPt (350, 350))) ∧
    PointFlags (removeSampleCut.map fun p => (zPolygon p.1, p.2)) (ZPt.toPt (350, 350)) [true, true, true, false] ∧
    FlagsOk (removeSampleCut.map fun p => (zPolygon p.1, p.2)) [true, true, true, false] := by
  have e : zFlags removeSampleCut (350, 350) = [true, true, true, false] := by decide +kernel
  exact ⟨C85_hypotheses_met.1, C85_hypotheses_met.2.1, zOff_point (by decide +kernel), e ▸ zFlags_point removeSampleCut (350, 350), flagsOk_of rfl (by decide) (by decide)⟩

/-- Where polygons cross, too. -/
theorem C88_crossed_hypotheses_met : Crossed (crossSample.map fun p => (zPolygon p.1, p.2)) (crossSampleCut.map fun p => (zPolygon p.1, p.2)) ∧
    (∀ p ∈ crossSample, p.2 ≠ .removeEdges) ∧ listLib.Lawful ∧ listLib.SearchHonest ∧
    (∀ e ∈ allEdges (crossSample.map fun p => (zPolygon p.1, p.2)), ¬ OnSegment e (ZPt.toPt (60, 55))) ∧
    PointFlags (crossSample.map fun p => (zPolygon p.1, p.2)) (ZPt.toPt (60, 55)) [true, true, false, false, false] ∧
    FlagsOk (crossSample.map fun p => (zPolygon p.1, p.2)) [true, true, false, false, false] := by
  have e : zFlags crossSample (60, 55) = [true, true, false, false, false] := by decide +kernel
  exact ⟨C84_hypotheses_met.1, by decide, listLib_lawful, listLib_honest, zOff_point (by decide +kernel), e ▸ zFlags_point crossSample (60, 55), flagsOk_of rfl (by decide) (by decide)⟩

end Idc
