import Verif.Props.StretchedResult
import Verif.Props.RedrawnExample
import Verif.Props.CrossedExample
/-!
# C90: the hypotheses are met
-/

namespace Idc

open Plan

/-- Whole coordinates, replaced. -/
def zStretch (i j : ℤ → ℤ) (zs : List (List (List ZPt) × PolygonMode)) : List (List (List ZPt) × PolygonMode) :=
  zs.map fun p => (p.1.map fun r => r.map fun q => (i q.1, j q.2), p.2)

theorem stretchAll_z {f g : ℝ → ℝ} (i j : ℤ → ℤ) (hi : ∀ z : ℤ, f z = i z) (hj : ∀ z : ℤ, g z = j z) (zs : List (List (List ZPt) × PolygonMode)) :
    stretchAll f g (zs.map fun p => (zPolygon p.1, p.2)) = (zStretch i j zs).map fun p => (zPolygon p.1, p.2) := by
  unfold stretchAll zStretch stretchPolygon zPolygon
  rw [List.map_map, List.map_map]
  refine List.map_congr_left fun p _ => ?_
  simp only [Function.comp, List.map_map]
  congr 2
  refine List.map_congr_left fun r _ => ?_
  simp only [Function.comp, stretchContour, Contour.ofPoints, List.map_map]
  congr 1
  refine List.map_congr_left fun q _ => ?_
  exact pt_ext (hi q.1) (hj q.2)

theorem stretchAll_whole (i j : ℤ → ℤ) (zs : List (List (List ZPt) × PolygonMode)) :
    stretchAll i j (zs.map fun p => (wholePolygon p.1, p.2)) = (zStretch i j zs).map fun p => (wholePolygon p.1, p.2) := by
  unfold stretchAll zStretch stretchPolygon wholePolygon
  rw [List.map_map, List.map_map]
  refine List.map_congr_left fun p _ => ?_
  simp only [Function.comp, List.map_map]
  congr 2
  refine List.map_congr_left fun r _ => ?_
  simp only [Function.comp, stretchContour, Contour.ofPoints, List.map_map]
  congr 1

theorem keepOrder_of {f g : ℝ → ℝ} (hf : StrictMono f) (hg : StrictMono g) (polys : List (Polygon ℝ × PolygonMode)) : KeepOrder f g polys :=
  ⟨hf.strictMonoOn _, hg.strictMonoOn _⟩

/-- Coordinates above `t` get `d` more. -/
noncomputable def widen (t d x : ℝ) : ℝ := if x ≤ t then x else x + d

/-- `widen` on whole numbers. -/
def zWiden (t d x : ℤ) : ℤ := if x ≤ t then x else x + d

theorem widen_mono {t d : ℝ} (hd : 0 ≤ d) : StrictMono (widen t d) := by
  intro x y h
  unfold widen
  split <;> split <;> linarith

theorem zWiden_mono {t d : ℤ} (hd : 0 ≤ d) : StrictMono (zWiden t d) := by
  intro x y h
  unfold zWiden
  split <;> split <;> omega

theorem widen_cast (t d z : ℤ) : widen t d z = zWiden t d z := by
  unfold widen zWiden
  by_cases h : z ≤ t
  · rw [if_pos h, if_pos (by exact_mod_cast h)]
  · rw [if_neg h, if_neg (by exact_mod_cast h)]; push_cast; rfl

def straightCheck (zs : List (List (List ZPt) × PolygonMode)) : Bool :=
  zs.all fun p => p.1.all fun r => (zEdges r).all fun e => e.1.1 == e.2.1 || e.1.2 == e.2.2

theorem axisParallel_of_check {zs : List (List (List ZPt) × PolygonMode)} (h : straightCheck zs = true) : AxisParallel (zs.map fun p => (zPolygon p.1, p.2)) := by
  intro e he
  unfold allEdges at he
  obtain ⟨p, hp, he⟩ := List.mem_flatMap.1 he
  obtain ⟨p, hp0, rfl⟩ := List.mem_map.1 hp
  obtain ⟨r, hr, he⟩ := List.mem_flatMap.1 he
  obtain ⟨r, hr0, rfl⟩ := List.mem_map.1 hr
  dsimp only [Contour.ofPoints] at he
  rw [closedEdges_map] at he
  obtain ⟨d, hd, rfl⟩ := List.mem_map.1 he
  have := List.all_eq_true.1 (List.all_eq_true.1 (List.all_eq_true.1 h p hp0) r hr0) d hd
  rw [Bool.or_eq_true, beq_iff_eq, beq_iff_eq] at this
  rcases this with h | h
  · exact Or.inl (by show (d.1.1 : ℝ) = d.2.1; rw [h])
  · exact Or.inr (by show (d.1.2 : ℝ) = d.2.2; rw [h])

/-- A room with a pillar, and a second room that shares part of a wall. -/
def roomSample : List (List (List ZPt) × PolygonMode) :=
  [([[(0, 0), (100, 0), (100, 40), (100, 80), (100, 100), (0, 100)], [(40, 40), (60, 40), (60, 60), (40, 60)]], .normal), ([[(100, 40), (130, 40), (130, 80), (100, 80)]], .normal)]

/-- Two rooms that overlap. -/
def roomsSample : List (List (List ZPt) × PolygonMode) :=
  [([[(0, 0), (100, 0), (100, 100), (0, 100)]], .normal), ([[(60, 30), (160, 30), (160, 130), (60, 130)]], .removeInterior)]

def roomsSampleCut : List (List (List ZPt) × PolygonMode) :=
  [([[(0, 0), (100, 0), (100, 30), (100, 100), (60, 100), (0, 100)]], .normal), ([[(60, 30), (100, 30), (160, 30), (160, 130), (60, 130), (60, 100)]], .removeInterior)]

theorem no_edges_removed {zs : List (List (List ZPt) × PolygonMode)} (h : zs.all (fun p => p.2 != .removeEdges) = true) :
    ∀ p ∈ zs.map fun p => (zPolygon p.1, p.2), p.2 ≠ .removeEdges := by
  intro p hp
  obtain ⟨q, hq, rfl⟩ := List.mem_map.1 hp
  simpa using List.all_eq_true.1 h q hq

theorem C90_hypotheses_met : Planar (roomSample.map fun p => (zPolygon p.1, p.2)) ∧ AxisParallel (roomSample.map fun p => (zPolygon p.1, p.2)) ∧
    Removable (roomSample.map fun p => (zPolygon p.1, p.2)) ∧
    KeepOrder (widen ((50 : ℤ) : ℝ) ((900 : ℤ) : ℝ)) (widen ((10 : ℤ) : ℝ) ((7 : ℤ) : ℝ)) (roomSample.map fun p => (zPolygon p.1, p.2)) ∧
    Planar (stretchAll (widen ((50 : ℤ) : ℝ) ((900 : ℤ) : ℝ)) (widen ((10 : ℤ) : ℝ) ((7 : ℤ) : ℝ)) (roomSample.map fun p => (zPolygon p.1, p.2))) ∧ listLib.Lawful := by
  refine ⟨planar_of_check (by decide +kernel), axisParallel_of_check (by decide +kernel), removable_of (no_edges_removed (by decide)),
    keepOrder_of (widen_mono (by norm_num)) (widen_mono (by norm_num)) _, ?_, listLib_lawful⟩
  rw [stretchAll_z (zWiden 50 900) (zWiden 10 7) (widen_cast _ _) (widen_cast _ _)]
  exact planar_of_check (by decide +kernel)

theorem C90_crossed_hypotheses_met : Crossed (roomsSample.map fun p => (zPolygon p.1, p.2)) (roomsSampleCut.map fun p => (zPolygon p.1, p.2)) ∧
    AxisParallel (roomsSample.map fun p => (zPolygon p.1, p.2)) ∧ Removable (roomsSampleCut.map fun p => (zPolygon p.1, p.2)) ∧
    KeepOrder (widen ((50 : ℤ) : ℝ) ((900 : ℤ) : ℝ)) (widen ((10 : ℤ) : ℝ) ((7 : ℤ) : ℝ)) (roomsSampleCut.map fun p => (zPolygon p.1, p.2)) ∧
    Planar (stretchAll (widen ((50 : ℤ) : ℝ) ((900 : ℤ) : ℝ)) (widen ((10 : ℤ) : ℝ) ((7 : ℤ) : ℝ)) (roomsSampleCut.map fun p => (zPolygon p.1, p.2))) ∧
    listLib.Lawful ∧ listLib.SearchHonest := by
  refine ⟨crossed_of_check (by decide +kernel), axisParallel_of_check (by decide +kernel), removable_of (no_edges_removed (by decide)),
    keepOrder_of (widen_mono (by norm_num)) (widen_mono (by norm_num)) _, ?_, listLib_lawful, listLib_honest⟩
  rw [stretchAll_z (zWiden 50 900) (zWiden 10 7) (widen_cast _ _) (widen_cast _ _)]
  exact planar_of_check (by decide +kernel)

theorem C90_double_hypotheses_met : StrictMono (zWiden 50 900) ∧ StrictMono (zWiden 10 7) ∧
    Planar (asPolygons ℝ (roomSample.map fun p => (wholePolygon p.1, p.2))) ∧ AxisParallel (asPolygons ℝ (roomSample.map fun p => (wholePolygon p.1, p.2))) ∧
    SharpPlan (asPolygons ℝ (roomSample.map fun p => (wholePolygon p.1, p.2))) ∧
    Planar (asPolygons ℝ (stretchAll (zWiden 50 900) (zWiden 10 7) (roomSample.map fun p => (wholePolygon p.1, p.2)))) ∧
    SharpPlan (asPolygons ℝ (stretchAll (zWiden 50 900) (zWiden 10 7) (roomSample.map fun p => (wholePolygon p.1, p.2)))) ∧
    Removable (asPolygons ℝ (roomSample.map fun p => (wholePolygon p.1, p.2))) ∧ (∃ r, IsResult (asPolygons ℝ (roomSample.map fun p => (wholePolygon p.1, p.2))) r) := by
  obtain ⟨h1, h2, h3, _, _, h6⟩ := C90_hypotheses_met
  rw [stretchAll_whole]
  simp only [asPolygons_whole]
  refine ⟨zWiden_mono (by norm_num), zWiden_mono (by norm_num), h1, h2, ?_, planar_of_check (by decide +kernel), ?_, h3, ?_⟩
  · rw [← asPolygons_whole]; exact sharpPlan_of_check (by decide +kernel)
  · rw [← asPolygons_whole]; exact sharpPlan_of_check (by decide +kernel)
  · obtain ⟨o, k1, _, k2⟩ := C85_outlines h6 h1 h3 .union
    obtain ⟨r, _, hr⟩ := k2 fun ⟨ps, _, ho⟩ => no_orphan (no_edges_removed (by decide)) ps ho
    exact ⟨r, compute_isResult h6 h1 h3 (Nat.lt_succ_self _) (hr _ (Nat.lt_succ_self _))⟩

/-- A sample, run: stretched. -/
theorem C90_sample :
    exView ((zStretch (zWiden 50 900) (zWiden 10 7) roomsSample).map fun p => (⟨p.1.map fun r => Contour.ofPoints (r.map fun q => ⟨(q.1 : Rat), q.2⟩)⟩, p.2)) .union =
      (exView (roomsSample.map fun p => (⟨p.1.map fun r => Contour.ofPoints (r.map fun q => ⟨(q.1 : Rat), q.2⟩)⟩, p.2)) .union).map fun cs =>
        cs.map fun c => { c with points := c.points.map fun q => (if q.1 ≤ 50 then q.1 else q.1 + 900, if q.2 ≤ 10 then q.2 else q.2 + 7) } := by
  decide +kernel

end Idc
