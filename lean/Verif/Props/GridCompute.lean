import Verif.Props.GridDraws
/-!
# C92: polygons with horizontal and vertical edges, stretched, whatever they do to each other
-/

namespace Idc

open FloatOps

/-! ### The area -/

section

variable {F : Type} [FloatOps F] [Exact F]

theorem ex_areaLoop : ∀ (l : List (Pt ℤ × Pt ℤ)) (n : ℤ), areaLoop (ofInt n : F) (l.map fun e => (asPt F e.1, asPt F e.2)) = ofInt (n + (l.map fun e => e.1.x * e.2.y - e.1.y * e.2.x).sum)
  | [], n => by simp [areaLoop]
  | (p, q) :: l, n => by
    simp only [List.map_cons, areaLoop, List.sum_cons]
    rw [ex_cross, ex_add, ex_areaLoop l, add_assoc]

theorem zip_snoc {A : Type} : ∀ (t : List A) (p q : A), (p :: t).zip (t ++ [q]) = (p :: t).zip t ++ [((p :: t).getLast (List.cons_ne_nil _ _), q)]
  | [], p, q => rfl
  | a :: t, p, q => by
    rw [List.cons_append, List.zip_cons_cons, zip_snoc t a q, List.zip_cons_cons, List.cons_append, List.getLast_cons_cons]

theorem ex_areaOf {l : List (Pt ℤ)} (h : l ≠ []) : areaOf (l.map (asPt F)) = .ok (ofInt (ptsArea l) : F) := by
  obtain ⟨p, t, rfl⟩ := List.exists_cons_of_ne_nil h
  unfold areaOf ptsArea
  have hl : ((p :: t).map (asPt F)).getLast? = some (asPt F ((p :: t).getLast h)) := by
    rw [List.getLast?_map, List.getLast?_eq_some_getLast h]; rfl
  rw [hl]
  have hz : ((p :: t).map (asPt F)).zip (((p :: t).map (asPt F)).drop 1) = ((p :: t).zip t).map fun e => (asPt F e.1, asPt F e.2) := by
    rw [List.map_cons, List.drop_succ_cons, List.drop_zero, ← List.map_cons, List.zip_map]
    rfl
  rw [hz]
  simp only [unwrap, Res.bind_ok, List.map_cons, index, List.getElem?_cons_zero, Res.pure_eq]
  rw [ex_cross, ex_areaLoop]
  congr 2
  have hr : (p :: t).zip ((p :: t).rotate 1) = (p :: t).zip t ++ [((p :: t).getLast h, p)] := by
    rw [List.rotate_cons_succ, List.rotate_zero]
    exact zip_snoc t p p
  rw [hr]
  simp only [List.map_append, List.sum_append, List.map_cons, List.map_nil, List.sum_cons, List.sum_nil]
  ring

theorem ex_pt_inj : Function.Injective (asPt F) := by
  intro p q h
  unfold asPt at h
  have h1 := congrArg (fun p : Pt F => Exact.val p.x) h
  have h2 := congrArg (fun p : Pt F => Exact.val p.y) h
  dsimp only at h1 h2
  rw [Exact.ofInt, Exact.ofInt, Int.cast_inj] at h1 h2
  cases p; cases q; simp_all

theorem ex_polygon_inj {z w : Polygon ℤ} (h : asPolygon F z = asPolygon F w) : z = w := by
  cases z; cases w
  simp only [asPolygon, Polygon.mk.injEq] at h ⊢
  refine List.map_injective_iff.2 (fun c d hcd => ?_) h
  cases c; cases d
  simp only [asContour, Contour.mk.injEq] at hcd ⊢
  exact ⟨List.map_injective_iff.2 ex_pt_inj hcd.1, hcd.2⟩

theorem draw_contour (i j : ℤ → ℤ) (c : Contour ℤ) : drawContour (place F i j) c = asContour F (stretchContour i j c) := by
  simp only [drawContour, asContour, stretchContour, List.map_map]
  rfl

theorem draw_polygon (i j : ℤ → ℤ) (p : Polygon ℤ) : drawPolygon (place F i j) p = asPolygon F (stretchPolygon i j p) := by
  simp only [drawPolygon, asPolygon, stretchPolygon, List.map_map, Polygon.mk.injEq]
  exact List.map_congr_left fun c _ => draw_contour i j c

theorem draw_polygons (i j : ℤ → ℤ) (polys : List (Polygon ℤ × PolygonMode)) : polys.map (fun p => (drawPolygon (place F i j) p.1, p.2)) = asPolygons F (stretchAll i j polys) := by
  simp only [asPolygons, stretchAll, List.map_map]
  exact List.map_congr_left fun p _ => by simp only [Function.comp_apply, draw_polygon]

theorem stretch_id (p : Polygon ℤ) : stretchPolygon id id p = p := by
  cases p with
  | mk cs =>
    simp only [stretchPolygon, Polygon.mk.injEq]
    conv_rhs => rw [← List.map_id cs]
    refine List.map_congr_left fun c _ => ?_
    have : c.points.map (stretchPt id id) = c.points := by
      conv_rhs => rw [← List.map_id c.points]
      rfl
    unfold stretchContour
    rw [this]
    rfl

theorem stretchAll_id (polys : List (Polygon ℤ × PolygonMode)) : stretchAll id id polys = polys := by
  unfold stretchAll
  conv_rhs => rw [← List.map_id polys]
  exact List.map_congr_left fun p _ => by rw [stretch_id]; rfl

end

section

variable {E F : Type} [FloatOps E] [Exact E] [FloatOps F] [Exact F] {X Y : Set ℤ} {i j : ℤ → ℤ}

/-- Polygons with horizontal and vertical edges, however they overlap, touch or cross, can be stretched: if `compute` succeeds, it succeeds for the stretched
polygons, and gives the same, stretched — contours, holes, labels and neighbors. It is the order of the coordinates that matters, as long as the curves
of the result keep their orientation. The two arithmetics may be different. -/
theorem C92_stretched_anyhow (lib : Lib) (fuel : Nat) (polys : List (Polygon ℤ × PolygonMode)) (op : BooleanOpType) (ho : OnLines X Y polys) (hg : Grid X Y id id) (hs : Grid X Y i j)
    {r : Polygon E} (hr : compute lib fuel (asPolygons E polys) op = .ok r) :
    ∃ z : Polygon ℤ, r = asPolygon E z ∧
      ((∀ c ∈ z.contours, (ptsArea (stretchContour i j c).points).sign = (ptsArea c.points).sign) →
        compute lib fuel (asPolygons F (stretchAll i j polys)) op = .ok (asPolygon F (stretchPolygon i j z))) := by
  have D1 : Draws X Y (place E id id) := hg.draws
  have D2 : Draws X Y (place F i j) := hs.draws
  have hc : ∀ p ∈ polys, ∀ c ∈ p.1.contours, GridC X Y c := fun p hp c hc => ⟨ho.corners p hp c hc, fun e he => (ho.straight p hp c hc e he).symm⟩
  have hr' : compute lib fuel (polys.map fun p => (drawPolygon (place E id id) p.1, p.2)) op = .ok r := by
    rw [draw_polygons, stretchAll_id]; exact hr
  obtain ⟨z, -, hz, -⟩ := sim_draw D1 D1 lib fuel polys op hc (fun _ _ pts _ a ha => ⟨a, ha, rfl⟩) r hr'
  have hz' : r = asPolygon E z := by rw [hz, draw_polygon, stretch_id]
  refine ⟨z, hz', fun ha => ?_⟩
  obtain ⟨z2, -, h1, h2⟩ := sim_draw D1 D2 lib fuel polys op hc (fun r2 hr2 pts hpts a haa => by
    rw [hr', Res.ok.injEq] at hr2
    subst hr2
    rw [hz', asPolygon] at hpts
    simp only [List.map_map, List.mem_map, Function.comp_apply, asContour] at hpts
    obtain ⟨c, hcz, hcp⟩ := hpts
    have hpe : pts = c.points := by
      have : pts.map (asPt E) = c.points.map (asPt E) := hcp.symm
      exact List.map_injective_iff.2 ex_pt_inj this
    subst hpe
    by_cases hnil : c.points = []
    · rw [hnil] at haa; cases haa
    · have e1 : areaOf (c.points.map (place E id id)) = .ok (ofInt (ptsArea c.points) : E) := ex_areaOf hnil
      have e2 : areaOf (c.points.map (place F i j)) = .ok (ofInt (ptsArea (stretchContour i j c).points) : F) := by
        have := ex_areaOf (F := F) (l := (stretchContour i j c).points) (by simpa [stretchContour] using hnil)
        rw [← this]
        simp only [stretchContour, List.map_map]
        rfl
      rw [e1, Res.ok.injEq] at haa
      subst haa
      refine ⟨_, e2, ?_⟩
      rw [ex_lt, ex_lt]
      refine decide_eq_decide.2 ?_
      have hk := ha c hcz
      rw [← Int.sign_eq_neg_one_iff_neg, ← hk, Int.sign_eq_neg_one_iff_neg]) r hr'
  have : z2 = z := by
    have h3 : drawPolygon (place E id id) z2 = drawPolygon (place E id id) z := by rw [← h1, hz]
    rw [draw_polygon, draw_polygon, stretch_id, stretch_id] at h3
    exact ex_polygon_inj h3
  rw [← draw_polygons, h2, draw_polygon, this]

theorem corners_off (lib : Lib) (fuel : Nat) (polys : List (Polygon ℤ × PolygonMode)) (op : BooleanOpType) (ho : OnLines X Y polys) (hg : Grid X Y id id) {z : Polygon ℤ}
    (hr : compute lib fuel (asPolygons E polys) op = .ok (asPolygon E z)) (u : ℤ) : ∀ c ∈ z.contours, ∀ q ∈ c.points, (q.x ∈ X ∨ q.x = u) ∧ (q.y ∈ Y ∨ q.y = u) := by
  classical
  set i : ℤ → ℤ := fun x => if x ∈ X then x else u with hi
  set j : ℤ → ℤ := fun y => if y ∈ Y then y else u with hj
  have hf : Grid X Y i j := by
    constructor
    · intro a ha b hb h; simpa [hi, ha, hb] using h
    · intro a ha b hb h; simpa [hj, ha, hb] using h
    · intro a ha a' ha' h b hb b' hb'; simpa [hi, hj, ha, ha', hb, hb'] using hg.apartX a ha a' ha' h b hb b' hb'
    · intro a ha a' ha' b hb b' hb' h; simpa [hi, hj, ha, ha', hb, hb'] using hg.apartY a ha a' ha' b hb b' hb' h
  have D2 : Draws X Y (place E i j) := hf.draws
  have hc : ∀ p ∈ polys, ∀ c ∈ p.1.contours, GridC X Y c := fun p hp c hc => ⟨ho.corners p hp c hc, fun e he => (ho.straight p hp c hc e he).symm⟩
  have hsame : ∀ q, OnGrid X Y q → place E i j q = place E id id q := by
    intro q hq
    unfold place stretchPt
    simp only [hi, hj, hq.1, hq.2, if_true, id]
  have hin : (polys.map fun p => (drawPolygon (place E i j) p.1, p.2)) = polys.map fun p => (drawPolygon (place E id id) p.1, p.2) := by
    refine List.map_congr_left fun p hp => ?_
    simp only [drawPolygon, Prod.mk.injEq, Polygon.mk.injEq, and_true]
    refine List.map_congr_left fun c hcp => ?_
    unfold drawContour
    rw [List.map_congr_left fun q hq => hsame q (ho.corners p hp c hcp q hq)]
  have hr' : compute lib fuel (polys.map fun p => (drawPolygon (place E i j) p.1, p.2)) op = .ok (asPolygon E z) := by
    rw [hin, draw_polygons, stretchAll_id]; exact hr
  obtain ⟨w, -, hw, -⟩ := sim_draw D2 D2 lib fuel polys op hc (fun _ _ pts _ a ha => ⟨a, ha, rfl⟩) _ hr'
  rw [draw_polygon] at hw
  have hw := ex_polygon_inj hw
  subst hw
  intro c hcz q hq
  simp only [stretchPolygon, List.mem_map] at hcz
  obtain ⟨d, -, rfl⟩ := hcz
  simp only [stretchContour, List.mem_map] at hq
  obtain ⟨a, -, rfl⟩ := hq
  simp only [stretchPt, hi, hj]
  constructor <;> split_ifs <;> simp_all

/-- There are no new coordinates: each corner of the result has the first coordinate of a corner of a polygon, and the second coordinate of a corner of a polygon. -/
theorem C92_corners (lib : Lib) (fuel : Nat) (polys : List (Polygon ℤ × PolygonMode)) (op : BooleanOpType) (ho : OnLines X Y polys) (hg : Grid X Y id id) {r : Polygon E}
    (hr : compute lib fuel (asPolygons E polys) op = .ok r) : ∃ z : Polygon ℤ, r = asPolygon E z ∧ ∀ c ∈ z.contours, ∀ q ∈ c.points, OnGrid X Y q := by
  obtain ⟨z, hz, -⟩ := C92_stretched_anyhow (F := E) lib fuel polys op ho hg hg hr
  refine ⟨z, hz, fun c hc q hq => ?_⟩
  rw [hz] at hr
  have h0 := corners_off lib fuel polys op ho hg hr 0 c hc q hq
  have h1 := corners_off lib fuel polys op ho hg hr 1 c hc q hq
  constructor
  · rcases h0.1 with h | h
    · exact h
    · rcases h1.1 with h' | h'
      · exact h'
      · omega
  · rcases h0.2 with h | h
    · exact h
    · rcases h1.2 with h' | h'
      · exact h'
      · omega

end

end Idc
