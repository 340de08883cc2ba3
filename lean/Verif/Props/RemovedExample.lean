import Verif.Props.Removed
import Verif.Props.SharpPlanExample
import Verif.Props.CrossedExample
import Verif.Props.ComputeExamples
/-!
# C85: what meets the hypotheses, and what goes wrong without them
-/

namespace Idc

/-! ### A sample -/

/-- A square; within it two polygons whose edges are to be left out and cross; and a triangle with an edge in common with one of them. -/
def removeSample : List (List (List ZPt) × PolygonMode) :=
  [([[(0, 0), (600, 0), (600, 600), (0, 600)]], .normal),
   ([[(200, 200), (240, 200), (400, 200), (400, 400), (200, 400)]], .removeEdges),
   ([[(300, 300), (500, 300), (500, 500), (300, 500)]], .removeEdges),
   ([[(200, 200), (220, 100), (240, 200)]], .normal)]

/-- The same with the crossings as corners. -/
def removeSampleCut : List (List (List ZPt) × PolygonMode) :=
  [([[(0, 0), (600, 0), (600, 600), (0, 600)]], .normal),
   ([[(200, 200), (240, 200), (400, 200), (400, 300), (400, 400), (300, 400), (200, 400)]], .removeEdges),
   ([[(300, 300), (400, 300), (500, 300), (500, 500), (300, 500), (300, 400)]], .removeEdges),
   ([[(200, 200), (220, 100), (240, 200)]], .normal)]

/-- The edges of a polygon, in both directions. -/
def zBoth (rs : List (List ZPt)) : List (ZPt × ZPt) := rs.flatMap zEdges ++ (rs.flatMap zEdges).map Prod.swap

theorem both_z {rs : List (List ZPt)} {d : Pt ℝ × Pt ℝ} : d ∈ (zPolygon rs).edges ∨ d.swap ∈ (zPolygon rs).edges ↔ ∃ e ∈ zBoth rs, d = (e.1.toPt, e.2.toPt) := by
  have he : (zPolygon rs).edges = (rs.flatMap zEdges).map fun e => (e.1.toPt, e.2.toPt) := by
    have := allEdges_z [(rs, .normal)]
    simpa [allEdges] using this
  rw [he]
  unfold zBoth
  constructor
  · rintro (h | h) <;> obtain ⟨e, h1, h2⟩ := List.mem_map.1 h
    · exact ⟨e, List.mem_append_left _ h1, h2.symm⟩
    · exact ⟨e.swap, List.mem_append_right _ (List.mem_map_of_mem h1), by rw [← Prod.swap_swap d, ← h2]; rfl⟩
  · rintro ⟨e, h, rfl⟩
    rcases List.mem_append.1 h with h | h
    · exact Or.inl (List.mem_map.2 ⟨e, h, rfl⟩)
    · obtain ⟨e', h', rfl⟩ := List.mem_map.1 h
      exact Or.inr (List.mem_map.2 ⟨e', h', rfl⟩)

/-- The first condition of `Removable`, by calculation. -/
def hidesCheck (polys : List (List (List ZPt) × PolygonMode)) : Bool :=
  polys.zipIdx.all fun p => decide (p.1.2 ≠ .removeEdges) || (zBoth p.1.1).all fun e =>
    !(polys.any fun q => decide (q.2 ≠ .removeEdges) && decide (e ∈ zBoth q.1)) ||
      polys.zipIdx.any fun q => decide (p.2 < q.2) && decide (q.1.2 ≠ .removeEdges) && decide (e ∈ zBoth q.1.1)

theorem hides_of_check {polys : List (List (List ZPt) × PolygonMode)} (h : hidesCheck polys = true) (k : Nat) (p : Polygon ℝ × PolygonMode) (d : Pt ℝ × Pt ℝ)
    (hp : (polys.map fun p => (zPolygon p.1, p.2))[k]? = some p) (hm : p.2 = .removeEdges) (hd : d ∈ p.1.edges ∨ d.swap ∈ p.1.edges)
    (hk : Drawn (keptPolygons (polys.map fun p => (zPolygon p.1, p.2))) d) :
    ∃ (k' : Nat) (p' : Polygon ℝ × PolygonMode), k < k' ∧ (polys.map fun p => (zPolygon p.1, p.2))[k']? = some p' ∧ p'.2 ≠ .removeEdges ∧
      (d ∈ p'.1.edges ∨ d.swap ∈ p'.1.edges) := by
  rw [List.getElem?_map] at hp
  obtain ⟨z, hz, rfl⟩ := Option.map_eq_some_iff.1 hp
  obtain ⟨e, he, rfl⟩ := both_z.1 hd
  simp only [hidesCheck, List.all_eq_true, Bool.or_eq_true, decide_eq_true_iff, Bool.not_eq_true', List.any_eq_true, Bool.and_eq_true] at h
  rcases (h (z, k) (List.mk_mem_zipIdx_iff_getElem?.2 hz)).resolve_left (fun k => k hm) e he with h | h
  · exfalso
    rw [← Bool.not_eq_true, List.any_eq_true] at h
    apply h
    obtain ⟨_, hk⟩ := hk
    have : ∃ q ∈ keptPolygons (polys.map fun p => (zPolygon p.1, p.2)), (e.1.toPt, e.2.toPt) ∈ q.1.edges ∨ (e.1.toPt, e.2.toPt).swap ∈ q.1.edges := by
      rcases hk with hk | hk <;> obtain ⟨q, h1, h2⟩ := List.mem_flatMap.1 hk
      · exact ⟨q, h1, Or.inl h2⟩
      · exact ⟨q, h1, Or.inr h2⟩
    obtain ⟨q, h1, h2⟩ := this
    unfold keptPolygons at h1
    rw [List.mem_filter, decide_eq_true_iff] at h1
    obtain ⟨w, hw, rfl⟩ := List.mem_map.1 h1.1
    obtain ⟨e', he', e2⟩ := both_z.1 h2
    rw [Prod.mk.injEq] at e2
    have : e = e' := Prod.ext (toPt_inj e2.1) (toPt_inj e2.2)
    exact ⟨w, hw, by simp [h1.2, this, he']⟩
  · obtain ⟨⟨w, k'⟩, h1, ⟨h2, h3⟩, h4⟩ := h
    refine ⟨k', (zPolygon w.1, w.2), h2, ?_, h3, both_z.2 ⟨e, h4, rfl⟩⟩
    rw [List.getElem?_map, List.mk_mem_zipIdx_iff_getElem?.1 h1]
    rfl

theorem inside_square {v : Pt ℝ} (h1 : 0 < v.x) (h2 : v.x < 600) (h3 : 0 < v.y) (h4 : v.y < 600) :
    (zPolygon [[(0, 0), (600, 0), (600, 600), (0, 600)]]).evenOdd v := by
  have he : (zPolygon [[(0, 0), (600, 0), (600, 600), (0, 600)]]).edges =
      [(⟨0, 0⟩, ⟨600, 0⟩), (⟨600, 0⟩, ⟨600, 600⟩), (⟨600, 600⟩, ⟨0, 600⟩), (⟨0, 600⟩, ⟨0, 0⟩)] := by
    simp [Polygon.edges, zPolygon, closedEdges, List.rotate, ZPt.toPt]
  unfold Polygon.evenOdd
  rw [he]
  have c1 : CrossesBelow v (⟨0, 0⟩, ⟨600, 0⟩) := by refine ⟨?_, ?_, ?_⟩ <;> norm_num <;> linarith
  have c2 : ¬ CrossesBelow v (⟨600, 0⟩, ⟨600, 600⟩) := by rintro ⟨h, h', _⟩; norm_num at h h'; linarith
  have c3 : ¬ CrossesBelow v (⟨600, 600⟩, ⟨0, 600⟩) := by rintro ⟨_, _, h⟩; norm_num at h; linarith
  have c4 : ¬ CrossesBelow v (⟨0, 600⟩, ⟨0, 0⟩) := by rintro ⟨h, h', _⟩; norm_num at h h'; linarith
  simp [List.countP_cons, c1, c2, c3, c4]

/-- All edges that are left out are well within the square. -/
def withinCheck (polys : List (List (List ZPt) × PolygonMode)) : Bool :=
  polys.all fun p => decide (p.2 ≠ .removeEdges) || (zBoth p.1).all fun e => decide (100 ≤ e.1.1 ∧ e.1.1 ≤ 500 ∧ 100 ≤ e.1.2 ∧ e.1.2 ≤ 500 ∧
    100 ≤ e.2.1 ∧ e.2.1 ≤ 500 ∧ 100 ≤ e.2.2 ∧ e.2.2 ≤ 500)

theorem blind_of_check {polys : List (List (List ZPt) × PolygonMode)} (h0 : polys[0]? = some ([[(0, 0), (600, 0), (600, 600), (0, 600)]], .normal))
    (hm : ∀ p ∈ polys, p.2 ≠ .removeInterior) (h : withinCheck polys = true) (d : Pt ℝ × Pt ℝ) (f f' : List Bool)
    (hd : Drawn (polys.map fun p => (zPolygon p.1, p.2)) d) (hk : ¬ Drawn (keptPolygons (polys.map fun p => (zPolygon p.1, p.2))) d)
    (hf : AreaLeft (polys.map fun p => (zPolygon p.1, p.2)) d f) (hf' : AreaLeft (polys.map fun p => (zPolygon p.1, p.2)) d.swap f') :
    FlagsOk (polys.map fun p => (zPolygon p.1, p.2)) f ↔ FlagsOk (polys.map fun p => (zPolygon p.1, p.2)) f' := by
  have hin : 100 ≤ d.1.x ∧ d.1.x ≤ 500 ∧ 100 ≤ d.1.y ∧ d.1.y ≤ 500 ∧ 100 ≤ d.2.x ∧ d.2.x ≤ 500 ∧ 100 ≤ d.2.y ∧ d.2.y ≤ 500 := by
    have : ∃ q ∈ polys, ∃ e ∈ zBoth q.1, d = (e.1.toPt, e.2.toPt) := by
      obtain ⟨_, hd⟩ := hd
      rcases hd with hd | hd <;> obtain ⟨q, h1, h2⟩ := List.mem_flatMap.1 hd <;> obtain ⟨w, hw, rfl⟩ := List.mem_map.1 h1
      · exact ⟨w, hw, both_z.1 (Or.inl h2)⟩
      · exact ⟨w, hw, both_z.1 (Or.inr h2)⟩
    obtain ⟨q, hq, e, he, rfl⟩ := this
    have hr : q.2 = .removeEdges := by
      by_contra hr
      apply hk
      refine ⟨hd.1, ?_⟩
      have hmem : (zPolygon q.1, q.2) ∈ keptPolygons (polys.map fun p => (zPolygon p.1, p.2)) := by
        unfold keptPolygons
        rw [List.mem_filter, decide_eq_true_iff]
        exact ⟨List.mem_map.2 ⟨q, hq, rfl⟩, hr⟩
      rcases both_z.2 ⟨e, he, rfl⟩ with h | h
      · exact Or.inl (List.mem_flatMap.2 ⟨_, hmem, h⟩)
      · exact Or.inr (List.mem_flatMap.2 ⟨_, hmem, h⟩)
    simp only [withinCheck, List.all_eq_true, Bool.or_eq_true, decide_eq_true_iff] at h
    have := (h q hq).resolve_left (fun k => k hr) e he
    dsimp only [ZPt.toPt]
    exact_mod_cast this
  have key : ∀ (d : Pt ℝ × Pt ℝ) (f : List Bool),
      100 ≤ d.1.x ∧ d.1.x ≤ 500 ∧ 100 ≤ d.1.y ∧ d.1.y ≤ 500 ∧ 100 ≤ d.2.x ∧ d.2.x ≤ 500 ∧ 100 ≤ d.2.y ∧ d.2.y ≤ 500 →
      AreaLeft (polys.map fun p => (zPolygon p.1, p.2)) d f → FlagsOk (polys.map fun p => (zPolygon p.1, p.2)) f := by
    intro d f hin hf
    obtain ⟨hlen, δ₀, hδ, hf⟩ := hf
    refine ⟨hlen, ?_, ?_⟩
    · have e0 : (polys.map fun p => (zPolygon p.1, p.2))[0]? = some (zPolygon [[(0, 0), (600, 0), (600, 600), (0, 600)]], .normal) := by
        rw [List.getElem?_map, h0]; rfl
      have hpos : 0 < min δ₀ (1 / 10) / 2 := by positivity
      have hlt : min δ₀ (1 / 10) / 2 < δ₀ := by have := min_le_left δ₀ (1 / 10); linarith
      have hle : min δ₀ (1 / 10) / 2 ≤ 1 / 20 := by have := min_le_right δ₀ (1 / 10); linarith
      set δ := min δ₀ (1 / 10) / 2 with hδe
      refine List.mem_of_getElem? ((hf δ hpos hlt 0 _ e0).2 ?_)
      obtain ⟨a1, a2, a3, a4, a5, a6, a7, a8⟩ := hin
      have b1 : δ * (d.2.y - d.1.y) ≤ 20 := by nlinarith
      have b2 : -20 ≤ δ * (d.2.y - d.1.y) := by nlinarith
      have b3 : δ * (d.2.x - d.1.x) ≤ 20 := by nlinarith
      have b4 : -20 ≤ δ * (d.2.x - d.1.x) := by nlinarith
      apply inside_square <;> dsimp only [leftPoint] <;> linarith
    · intro i poly mode hp _ he
      rw [List.getElem?_map] at hp
      obtain ⟨q, hq, e⟩ := Option.map_eq_some_iff.1 hp
      rw [Prod.mk.injEq] at e
      exact hm q (List.mem_of_getElem? hq) (by rw [e.2, he])
  exact ⟨fun _ => key d.swap f' ⟨hin.2.2.2.2.1, hin.2.2.2.2.2.1, hin.2.2.2.2.2.2.1, hin.2.2.2.2.2.2.2, hin.1, hin.2.1, hin.2.2.1, hin.2.2.2.1⟩ hf', fun _ => key d f hin hf⟩

theorem C85_hypotheses_met : Planar (removeSampleCut.map fun p => (zPolygon p.1, p.2)) ∧ Removable (removeSampleCut.map fun p => (zPolygon p.1, p.2)) ∧
    listLib.Lawful :=
  ⟨planar_of_check (by decide +kernel), ⟨hides_of_check (by decide +kernel), blind_of_check rfl (by decide +kernel) (by decide +kernel)⟩, listLib_lawful⟩

theorem C85_crossed_hypotheses_met : Crossed (removeSample.map fun p => (zPolygon p.1, p.2)) (removeSampleCut.map fun p => (zPolygon p.1, p.2)) ∧
    Removable (removeSampleCut.map fun p => (zPolygon p.1, p.2)) ∧ listLib.Lawful ∧ listLib.SearchHonest :=
  ⟨crossed_of_check (by decide +kernel), C85_hypotheses_met.2.1, listLib_lawful, listLib_honest⟩

theorem C85_double_hypotheses_met : Planar (asPolygons ℝ (removeSampleCut.map fun p => (wholePolygon p.1, p.2))) ∧
    SharpPlan (asPolygons ℝ (removeSampleCut.map fun p => (wholePolygon p.1, p.2))) ∧ Removable (asPolygons ℝ (removeSampleCut.map fun p => (wholePolygon p.1, p.2))) := by
  refine ⟨?_, sharpPlan_of_check (by decide +kernel), ?_⟩
  · rw [asPolygons_whole]; exact C85_hypotheses_met.1
  · rw [asPolygons_whole]; exact C85_hypotheses_met.2.1

/-- The sample, run: three outlines, the square and the triangle from both sides. -/
theorem C85_sample : exView (removeSample.map fun p => (⟨p.1.map fun r => Contour.ofPoints (r.map fun q => ⟨(q.1 : Rat), q.2⟩)⟩, p.2)) .union =
    .ok [⟨[(0, 0), (600, 0), (600, 600), (0, 600)], [true, false, false, false], [false, false, false], [2], true⟩,
      ⟨[(200, 200), (220, 100), (240, 200)], [true, false, false, true], [false, false, true], [], true⟩,
      ⟨[(200, 200), (240, 200), (220, 100)], [true, true, false, false], [false, true, false], [], false⟩] := by
  decide +kernel

/-! ### What goes wrong -/

/-- A clockwise outline above an edge that is left out: a square, within it a square whose edges are left out, within that a square. -/
theorem C85_panics : compute listLib 200 [((⟨[exRect 0 0 60 60]⟩ : Polygon Rat), .normal), (⟨[exRect 10 10 40 40]⟩, .removeEdges),
    (⟨[exRect 20 20 10 10]⟩, .normal)] .union = .panic .unwrap := by
  decide +kernel

/-- It depends on the order of the polygons whether an edge that one leaves out and another does not is left out (`hides`). -/
theorem C85_hidden : (exView [(⟨[exRect 0 0 60 60]⟩, .normal), (⟨[exRect 0 0 60 60]⟩, .removeEdges)] .union).map (List.map fun c => c.points) = .ok [] ∧
    (exView [(⟨[exRect 0 0 60 60]⟩, .removeEdges), (⟨[exRect 0 0 60 60]⟩, .normal)] .union).map (List.map fun c => c.points) =
      .ok [[(0, 0), (60, 0), (60, 60), (0, 60)]] := by
  decide +kernel

/-- Edges left out between an area of the result and one that is not (`blind`): `compute` panics on a square with an edge in common with a
square whose edges are left out, and on a square within a square whose edges are left out. -/
theorem C85_unbounded :
    compute listLib 200 [((⟨[exRect 10 0 10 10]⟩ : Polygon Rat), .removeEdges), (⟨[exRect 0 0 10 10]⟩, .normal)] .union = .panic .explicit ∧
    compute listLib 200 [((⟨[exRect 0 0 20 20]⟩ : Polygon Rat), .removeEdges), (⟨[exRect 5 5 10 10]⟩, .normal)] .union = .panic .unwrap := by
  decide +kernel

end Idc
