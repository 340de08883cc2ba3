import Verif.Props.StretchedBox
import Verif.Props.AreasOutline
import Verif.Props.AreasResult
/-!
# C90: stretching polygons with horizontal and vertical edges
-/

namespace Idc

variable {φ ψ : ℝ ≃o ℝ} {polys : List (Polygon ℝ × PolygonMode)}

/-- An edge, stretched. -/
def stretchEdge (f g : ℝ → ℝ) (e : Pt ℝ × Pt ℝ) : Pt ℝ × Pt ℝ := (stretchPt f g e.1, stretchPt f g e.2)

theorem stretch_inj : Function.Injective (stretchPt φ ψ) := by
  intro p q h
  exact pt_ext (φ.injective (congrArg Pt.x h)) (ψ.injective (congrArg Pt.y h))

theorem stretch_back (q : Pt ℝ) : stretchPt φ ψ (stretchPt φ.symm ψ.symm q) = q := by
  unfold stretchPt
  exact pt_ext (φ.apply_symm_apply _) (ψ.apply_symm_apply _)

theorem stretch_surj (q : Pt ℝ) : ∃ p, stretchPt φ ψ p = q := ⟨_, stretch_back q⟩

theorem stretchEdge_inj : Function.Injective (stretchEdge φ ψ) := by
  rintro ⟨a, b⟩ ⟨c, d⟩ h
  have h1 : stretchPt φ ψ a = stretchPt φ ψ c := congrArg Prod.fst h
  have h2 : stretchPt φ ψ b = stretchPt φ ψ d := congrArg Prod.snd h
  rw [stretch_inj h1, stretch_inj h2]

theorem stretchEdge_surj (d : Pt ℝ × Pt ℝ) : ∃ e, stretchEdge φ ψ e = d :=
  ⟨(stretchPt φ.symm ψ.symm d.1, stretchPt φ.symm ψ.symm d.2), Prod.ext (stretch_back _) (stretch_back _)⟩

theorem forall_stretch {P : Pt ℝ × Pt ℝ → Prop} : (∀ u, P u) ↔ ∀ u, P (stretchEdge φ ψ u) := ⟨fun h u => h _, fun h u => by
  obtain ⟨u, rfl⟩ := stretchEdge_surj (φ := φ) (ψ := ψ) u
  exact h u⟩

section
variable {f g : ℝ → ℝ}

theorem closedEdges_stretch (ps : List (Pt ℝ)) : closedEdges (ps.map (stretchPt f g)) = (closedEdges ps).map (stretchEdge f g) := by
  unfold closedEdges stretchEdge
  rw [← List.map_rotate, List.zip_map]
  rfl

theorem edges_stretch (p : Polygon ℝ) : (stretchPolygon f g p).edges = p.edges.map (stretchEdge f g) := by
  unfold Polygon.edges stretchPolygon stretchContour
  rw [List.flatMap_map, List.map_flatMap]
  congr 1
  funext c
  exact closedEdges_stretch _

theorem allEdges_stretch : allEdges (stretchAll f g polys) = (allEdges polys).map (stretchEdge f g) := by
  unfold allEdges stretchAll
  rw [List.flatMap_map, List.map_flatMap]
  congr 1
  funext c
  exact edges_stretch _

theorem allCorners_stretch : allCorners (stretchAll f g polys) = (allCorners polys).map (stretchPt f g) := by
  unfold allCorners stretchAll stretchPolygon stretchContour
  rw [List.flatMap_map, List.map_flatMap]
  congr 1
  funext c
  dsimp only
  rw [List.flatMap_map, List.map_flatMap]

theorem kept_stretch : keptPolygons (stretchAll f g polys) = stretchAll f g (keptPolygons polys) := by
  unfold keptPolygons stretchAll
  rw [List.filter_map]
  rfl

theorem swap_stretch (d : Pt ℝ × Pt ℝ) : (stretchEdge f g d).swap = stretchEdge f g d.swap := rfl

theorem get_stretch {j : ℕ} {p : Polygon ℝ × PolygonMode} : (stretchAll f g polys)[j]? = some p ↔ ∃ q, polys[j]? = some q ∧ (stretchPolygon f g q.1, q.2) = p := by
  unfold stretchAll
  rw [List.getElem?_map, Option.map_eq_some_iff]

theorem Straight.stretch {e : Pt ℝ × Pt ℝ} (h : Straight e) : Straight (stretchEdge f g e) := h.imp (congrArg f) (congrArg g)

theorem AxisParallel.stretch (h : AxisParallel polys) : AxisParallel (stretchAll f g polys) := by
  unfold AxisParallel
  rw [allEdges_stretch]
  exact List.forall_mem_map.2 fun e he => (h e he).stretch

theorem flagsOk_stretch {fl : List Bool} : FlagsOk (stretchAll f g polys) fl ↔ FlagsOk polys fl := by
  unfold FlagsOk
  rw [show (stretchAll f g polys).length = polys.length from List.length_map ..]
  refine and_congr_right fun _ => and_congr_right fun _ => forall_congr' fun i => ?_
  constructor
  · intro h p m hp
    exact h _ m (get_stretch.2 ⟨(p, m), hp, rfl⟩)
  · intro h p m hp
    obtain ⟨q, hq, e⟩ := get_stretch.1 hp
    cases e
    exact h q.1 q.2 hq

end

theorem mem_stretch {l : List (Pt ℝ × Pt ℝ)} {d : Pt ℝ × Pt ℝ} : stretchEdge φ ψ d ∈ l.map (stretchEdge φ ψ) ↔ d ∈ l :=
  List.mem_map_of_injective stretchEdge_inj

theorem drawn_stretch {d : Pt ℝ × Pt ℝ} : Drawn (stretchAll φ ψ polys) (stretchEdge φ ψ d) ↔ Drawn polys d := by
  unfold Drawn
  rw [allEdges_stretch, swap_stretch, mem_stretch, mem_stretch]
  exact and_congr_left fun _ => not_congr ⟨fun h => stretch_inj h, fun h => by unfold stretchEdge; rw [h]⟩

theorem leftOf_stretch {p q : Pt ℝ} : LeftOf (stretchPt φ ψ p) (stretchPt φ ψ q) ↔ LeftOf p q := by
  unfold LeftOf stretchPt
  dsimp only
  rw [φ.lt_iff_lt, ψ.lt_iff_lt, φ.injective.eq_iff]

theorem mul_pos_stretch (χ ω : ℝ ≃o ℝ) (a b c d : ℝ) : 0 < (χ a - χ b) * (ω c - ω d) ↔ 0 < (a - b) * (c - d) := by
  rw [mul_pos_iff, mul_pos_iff, sub_pos, sub_pos, sub_neg, sub_neg, sub_pos, sub_pos, sub_neg, sub_neg, χ.lt_iff_lt, χ.lt_iff_lt, ω.lt_iff_lt, ω.lt_iff_lt]

theorem mul_neg_stretch (χ ω : ℝ ≃o ℝ) (a b c d : ℝ) : 0 < -((χ a - χ b) * (ω c - ω d)) ↔ 0 < -((a - b) * (c - d)) := by
  rw [← mul_neg, ← mul_neg, neg_sub, neg_sub]
  exact mul_pos_stretch χ ω a b d c

theorem cross2_pos_stretch {d e : Pt ℝ × Pt ℝ} (hd : Straight d) (he : Straight e) : 0 < cross2 (stretchEdge φ ψ d) (stretchEdge φ ψ e) ↔ 0 < cross2 d e := by
  unfold cross2 stretchEdge stretchPt
  dsimp only
  rcases hd with hd | hd <;> rcases he with he | he
  · rw [hd, he]; simp
  · rw [hd, he]
    simp only [sub_self, zero_mul, zero_sub]
    exact mul_neg_stretch _ _ _ _ _ _
  · rw [hd, he]
    simp only [sub_self, zero_mul, sub_zero]
    exact mul_pos_stretch _ _ _ _ _ _
  · rw [hd, he]; simp

theorem cross2_swap (d e : Pt ℝ × Pt ℝ) : cross2 d e = -cross2 e d := by
  unfold cross2
  ring

theorem cross2_nonneg_stretch {d e : Pt ℝ × Pt ℝ} (hd : Straight d) (he : Straight e) : 0 ≤ cross2 (stretchEdge φ ψ d) (stretchEdge φ ψ e) ↔ 0 ≤ cross2 d e := by
  rw [cross2_swap, cross2_swap d e, neg_nonneg, neg_nonneg, ← not_lt, ← not_lt, cross2_pos_stretch he hd]

theorem turns_stretch {a b c : Pt ℝ × Pt ℝ} (ha : Straight a) (hb : Straight b) (hc : Straight c) :
    TurnsThrough (stretchEdge φ ψ a) (stretchEdge φ ψ b) (stretchEdge φ ψ c) ↔ TurnsThrough a b c := by
  unfold TurnsThrough
  rw [cross2_pos_stretch ha hb, cross2_pos_stretch hb hc, cross2_pos_stretch hc ha]

theorem min_stretch (χ : ℝ ≃o ℝ) (a b : ℝ) : Min.min (χ a) (χ b) = χ (Min.min a b) := (χ.monotone.map_min).symm

theorem max_stretch (χ : ℝ ≃o ℝ) (a b : ℝ) : Max.max (χ a) (χ b) = χ (Max.max a b) := (χ.monotone.map_max).symm

theorem over_stretch {e : Pt ℝ × Pt ℝ} {x : ℝ} : Over (stretchEdge φ ψ e) (φ x) ↔ Over e x := by
  unfold Over stretchEdge stretchPt
  dsimp only
  rw [min_stretch, max_stretch, φ.le_iff_le, φ.le_iff_le]

theorem crosses_stretch {q : Pt ℝ} {e : Pt ℝ × Pt ℝ} (he : Straight e) : CrossesBelow (stretchPt φ ψ q) (stretchEdge φ ψ e) ↔ CrossesBelow q e := by
  rw [crosses_straight he, crosses_straight he.stretch]
  unfold stretchEdge stretchPt
  dsimp only
  rw [min_stretch, max_stretch, φ.le_iff_le, φ.lt_iff_lt, ψ.lt_iff_lt]

theorem onSegment_stretch {e : Pt ℝ × Pt ℝ} {q : Pt ℝ} (he : Straight e) : OnSegment (stretchEdge φ ψ e) (stretchPt φ ψ q) ↔ OnSegment e q := by
  rw [on_straight he, on_straight he.stretch]
  unfold stretchEdge stretchPt
  dsimp only
  rw [min_stretch, max_stretch, min_stretch, max_stretch, φ.le_iff_le, φ.le_iff_le, ψ.le_iff_le, ψ.le_iff_le]

open Classical in
theorem evenOdd_stretch {p : Polygon ℝ} (hp : ∀ e ∈ p.edges, Straight e) (q : Pt ℝ) : (stretchPolygon φ ψ p).evenOdd (stretchPt φ ψ q) ↔ p.evenOdd q := by
  unfold Polygon.evenOdd
  rw [edges_stretch, List.countP_map]
  have : p.edges.countP ((fun e => decide (CrossesBelow (stretchPt φ ψ q) e)) ∘ stretchEdge φ ψ) = p.edges.countP fun e => decide (CrossesBelow q e) :=
    List.countP_congr fun e he => by
      simp only [Function.comp, crosses_stretch (hp e he)]
  rw [this]

/-! ### The area beside an edge -/

/-- Points close to the middle of the stretched edge come from points beside the edge. -/
theorem left_near (φ ψ : ℝ ≃o ℝ) {d : Pt ℝ × Pt ℝ} (hd : Straight d) (hne : d.1 ≠ d.2) {η : ℝ} (h0 : 0 < η) : ∃ δ₀ : ℝ, 0 < δ₀ ∧ ∀ δ, 0 < δ → δ < δ₀ →
    Left η d (stretchPt φ.symm ψ.symm (leftPoint (stretchEdge φ ψ d) δ)) := by
  have lt_symm : ∀ (χ : ℝ ≃o ℝ) {x y : ℝ}, χ x < y → x < χ.symm y := fun χ {x y} h => by
    rw [← χ.lt_iff_lt, χ.apply_symm_apply]; exact h
  have symm_lt : ∀ (χ : ℝ ≃o ℝ) {x y : ℝ}, y < χ x → χ.symm y < x := fun χ {x y} h => by
    rw [← χ.lt_iff_lt, χ.apply_symm_apply]; exact h
  by_cases hy : d.1.y = d.2.y
  · have hx : d.1.x ≠ d.2.x := fun h => hne (pt_ext h hy)
    rcases lt_or_gt_of_ne hx with hlt | hlt
    · have e1 : φ d.1.x < φ d.2.x := φ.lt_iff_lt.2 hlt
      have e2 : ψ d.1.y < ψ (d.1.y + η) := ψ.lt_iff_lt.2 (by linarith)
      refine ⟨(ψ (d.1.y + η) - ψ d.1.y) / (φ d.2.x - φ d.1.x), div_pos (by linarith) (by linarith), fun δ h1 h2 => .inl ⟨hy, lt_symm φ ?_, symm_lt φ ?_, lt_symm ψ ?_, symm_lt ψ ?_⟩⟩
      all_goals
        rw [lt_div_iff₀ (by linarith)] at h2
        have := mul_pos h1 (sub_pos.2 e1)
        unfold leftPoint stretchEdge stretchPt
        dsimp only
        rw [← hy]
        linarith
    · have e1 : φ d.2.x < φ d.1.x := φ.lt_iff_lt.2 hlt
      have e2 : ψ (d.1.y - η) < ψ d.1.y := ψ.lt_iff_lt.2 (by linarith)
      refine ⟨(ψ d.1.y - ψ (d.1.y - η)) / (φ d.1.x - φ d.2.x), div_pos (by linarith) (by linarith), fun δ h1 h2 => .inr (.inl ⟨hy, lt_symm φ ?_, symm_lt φ ?_, lt_symm ψ ?_, symm_lt ψ ?_⟩)⟩
      all_goals
        rw [lt_div_iff₀ (by linarith)] at h2
        have := mul_pos h1 (sub_pos.2 e1)
        unfold leftPoint stretchEdge stretchPt
        dsimp only
        rw [← hy]
        linarith
  · have hx : d.1.x = d.2.x := hd.resolve_right hy
    rcases lt_or_gt_of_ne hy with hlt | hlt
    · have e1 : ψ d.1.y < ψ d.2.y := ψ.lt_iff_lt.2 hlt
      have e2 : φ (d.1.x - η) < φ d.1.x := φ.lt_iff_lt.2 (by linarith)
      refine ⟨(φ d.1.x - φ (d.1.x - η)) / (ψ d.2.y - ψ d.1.y), div_pos (by linarith) (by linarith), fun δ h1 h2 => .inr (.inr (.inl ⟨hx, lt_symm ψ ?_, symm_lt ψ ?_, lt_symm φ ?_, symm_lt φ ?_⟩))⟩
      all_goals
        rw [lt_div_iff₀ (by linarith)] at h2
        have := mul_pos h1 (sub_pos.2 e1)
        unfold leftPoint stretchEdge stretchPt
        dsimp only
        rw [← hx]
        linarith
    · have e1 : ψ d.2.y < ψ d.1.y := ψ.lt_iff_lt.2 hlt
      have e2 : φ d.1.x < φ (d.1.x + η) := φ.lt_iff_lt.2 (by linarith)
      refine ⟨(φ (d.1.x + η) - φ d.1.x) / (ψ d.1.y - ψ d.2.y), div_pos (by linarith) (by linarith), fun δ h1 h2 => .inr (.inr (.inr ⟨hx, lt_symm ψ ?_, symm_lt ψ ?_, lt_symm φ ?_, symm_lt φ ?_⟩))⟩
      all_goals
        rw [lt_div_iff₀ (by linarith)] at h2
        have := mul_pos h1 (sub_pos.2 e1)
        unfold leftPoint stretchEdge stretchPt
        dsimp only
        rw [← hx]
        linarith

/-- There is a point beside the edge, such that the even-odd rule gives the same there as to the left of the edge, and of the stretched edge. -/
theorem beside_point (φ ψ : ℝ ≃o ℝ) (hP : Planar polys) (hA : AxisParallel polys) {d : Pt ℝ × Pt ℝ} (hd : Drawn polys d) : ∃ q, ∃ δ₀ : ℝ, 0 < δ₀ ∧
    ∀ X : Polygon ℝ, (∀ e ∈ X.edges, e.1 ≠ e.2 → Drawn polys e) → ∀ δ, 0 < δ → δ < δ₀ →
      (X.evenOdd (leftPoint d δ) ↔ X.evenOdd q) ∧ ((stretchPolygon φ ψ X).evenOdd (leftPoint (stretchEdge φ ψ d) δ) ↔ X.evenOdd q) := by
  obtain ⟨η, h0, h⟩ := left_const hP hA hd
  obtain ⟨a, a0, ha⟩ := left_near (OrderIso.refl ℝ) (OrderIso.refl ℝ) (drawn_straight hA hd) hd.1 h0
  obtain ⟨b, b0, hb⟩ := left_near φ ψ (drawn_straight hA hd) hd.1 h0
  have ha' : ∀ δ, 0 < δ → δ < a → Left η d (leftPoint d δ) := ha
  refine ⟨leftPoint d (a / 2), Min.min a b, lt_min a0 b0, fun X hX δ h1 h2 => ⟨?_, ?_⟩⟩
  · exact h X hX _ _ (ha' δ h1 (h2.trans_le (min_le_left _ _))) (ha' _ (by linarith) (by linarith))
  · have hs : ∀ e ∈ X.edges, Straight e := fun e he => by
      by_cases hne : e.1 = e.2
      · exact .inl (congrArg Pt.x hne)
      · exact drawn_straight hA (hX e he hne)
    rw [← stretch_back (φ := φ) (ψ := ψ) (leftPoint (stretchEdge φ ψ d) δ), evenOdd_stretch hs]
    exact h X hX _ _ (hb δ h1 (h2.trans_le (min_le_right _ _))) (ha' _ (by linarith) (by linarith))

theorem areaLeft_stretch (hP : Planar polys) (hA : AxisParallel polys) {d : Pt ℝ × Pt ℝ} (hd : Drawn polys d) {f : List Bool} :
    AreaLeft (stretchAll φ ψ polys) (stretchEdge φ ψ d) f ↔ AreaLeft polys d f := by
  obtain ⟨q, δ₀, h0, h⟩ := beside_point φ ψ hP hA hd
  have hX : ∀ {j : ℕ} {p : Polygon ℝ × PolygonMode}, polys[j]? = some p → ∀ e ∈ p.1.edges, e.1 ≠ e.2 → Drawn polys e := fun hp e he hne =>
    (fits_self hP (List.mem_of_getElem? hp)).drawn e he hne
  unfold AreaLeft
  rw [show (stretchAll φ ψ polys).length = polys.length from List.length_map ..]
  refine and_congr_right fun _ => ⟨?_, ?_⟩
  · rintro ⟨δ₁, h1, hh⟩
    refine ⟨δ₀, h0, fun δ l1 l2 j p hp => ?_⟩
    have m0 : 0 < Min.min δ₀ δ₁ / 2 := half_pos (lt_min h0 h1)
    have m1 : Min.min δ₀ δ₁ / 2 < δ₀ := (half_lt_self (lt_min h0 h1)).trans_le (min_le_left _ _)
    have m2 : Min.min δ₀ δ₁ / 2 < δ₁ := (half_lt_self (lt_min h0 h1)).trans_le (min_le_right _ _)
    rw [hh _ m0 m2 j _ (get_stretch.2 ⟨p, hp, rfl⟩), (h p.1 (hX hp) _ m0 m1).2, (h p.1 (hX hp) δ l1 l2).1]
  · rintro ⟨δ₁, h1, hh⟩
    refine ⟨δ₀, h0, fun δ l1 l2 j p hp' => ?_⟩
    obtain ⟨p, hp, rfl⟩ := get_stretch.1 hp'
    have m0 : 0 < Min.min δ₀ δ₁ / 2 := half_pos (lt_min h0 h1)
    have m1 : Min.min δ₀ δ₁ / 2 < δ₀ := (half_lt_self (lt_min h0 h1)).trans_le (min_le_left _ _)
    have m2 : Min.min δ₀ δ₁ / 2 < δ₁ := (half_lt_self (lt_min h0 h1)).trans_le (min_le_right _ _)
    rw [hh _ m0 m2 j _ hp, (h p.1 (hX hp) _ m0 m1).1, (h p.1 (hX hp) δ l1 l2).2]

theorem insideLeft_stretch (hP : Planar polys) (hA : AxisParallel polys) {d : Pt ℝ × Pt ℝ} (hd : Drawn polys d) {X : Polygon ℝ} (hX : ∀ e ∈ X.edges, e.1 ≠ e.2 → Drawn polys e) :
    InsideLeft (stretchPolygon φ ψ X) (stretchEdge φ ψ d) ↔ InsideLeft X d := by
  obtain ⟨q, δ₀, h0, h⟩ := beside_point φ ψ hP hA hd
  unfold InsideLeft
  constructor
  · rintro ⟨δ₁, h1, hh⟩
    refine ⟨δ₀, h0, fun δ l1 l2 => ?_⟩
    have m0 : 0 < Min.min δ₀ δ₁ / 2 := half_pos (lt_min h0 h1)
    have m1 : Min.min δ₀ δ₁ / 2 < δ₀ := (half_lt_self (lt_min h0 h1)).trans_le (min_le_left _ _)
    have m2 : Min.min δ₀ δ₁ / 2 < δ₁ := (half_lt_self (lt_min h0 h1)).trans_le (min_le_right _ _)
    exact (h X hX δ l1 l2).1.2 ((h X hX _ m0 m1).2.1 (hh _ m0 m2))
  · rintro ⟨δ₁, h1, hh⟩
    refine ⟨δ₀, h0, fun δ l1 l2 => ?_⟩
    have m0 : 0 < Min.min δ₀ δ₁ / 2 := half_pos (lt_min h0 h1)
    have m1 : Min.min δ₀ δ₁ / 2 < δ₀ := (half_lt_self (lt_min h0 h1)).trans_le (min_le_left _ _)
    have m2 : Min.min δ₀ δ₁ / 2 < δ₁ := (half_lt_self (lt_min h0 h1)).trans_le (min_le_right _ _)
    exact (h X hX δ l1 l2).2.2 ((h X hX _ m0 m1).1.1 (hh _ m0 m2))

/-! ### The next edge below -/

theorem heightAt_straight {e : Pt ℝ × Pt ℝ} (h : e.1.y = e.2.y) (x : ℝ) : heightAt e x = e.1.y := by
  unfold heightAt
  rw [h, sub_self, zero_div, mul_zero, add_zero]

theorem crosses_level {e : Pt ℝ × Pt ℝ} (h : Straight e) {q : Pt ℝ} (hc : CrossesBelow q e) : e.1.y = e.2.y := by
  refine h.resolve_left fun hx => ?_
  have := ((crosses_straight h q).1 hc).1
  rw [hx, min_self, max_self] at this
  exact absurd this.2 (not_lt.2 this.1)

theorem firstBelow_stretch {l : List (Pt ℝ × Pt ℝ)} (hl : ∀ u ∈ l, Straight u) {q : Pt ℝ} {e : Pt ℝ × Pt ℝ} (he : Straight e) :
    FirstBelow (l.map (stretchEdge φ ψ)) (stretchPt φ ψ q) (stretchEdge φ ψ e) ↔ FirstBelow l q e := by
  unfold FirstBelow
  rw [crosses_stretch he]
  refine and_congr_right fun hc => ?_
  have hy := crosses_level he hc
  rw [List.forall_mem_map]
  refine forall_congr' fun u => forall_congr' fun hu => ?_
  rw [crosses_stretch (hl u hu)]
  refine forall_congr' fun hcu => ?_
  have hyu := crosses_level (hl u hu) hcu
  have k1 : ∀ x, heightAt (stretchEdge φ ψ u) x = ψ u.1.y := fun x => heightAt_straight (congrArg ψ hyu) x
  have k2 : ∀ x, heightAt (stretchEdge φ ψ e) x = ψ e.1.y := fun x => heightAt_straight (congrArg ψ hy) x
  constructor
  · intro h x h1 h2
    have := h _ (over_stretch.2 h1) (over_stretch.2 h2)
    rw [k1, k2, ψ.le_iff_le] at this
    rw [heightAt_straight hyu, heightAt_straight hy]
    exact this
  · intro h x h1 h2
    rw [← φ.apply_symm_apply x] at h1 h2
    have := h _ (over_stretch.1 h1) (over_stretch.1 h2)
    rw [heightAt_straight hyu, heightAt_straight hy] at this
    rw [k1, k2, ψ.le_iff_le]
    exact this

theorem nextBelow_stretch (hA : AxisParallel polys) {e d : Pt ℝ × Pt ℝ} (he : Straight e) :
    NextBelow (stretchAll φ ψ polys) (stretchEdge φ ψ e) (stretchEdge φ ψ d) ↔ NextBelow polys e d := by
  have hfst : ∀ {a b : Pt ℝ × Pt ℝ}, (stretchEdge φ ψ a).1 = (stretchEdge φ ψ b).1 ↔ a.1 = b.1 := stretch_inj.eq_iff
  have hl : ∀ {a : Pt ℝ × Pt ℝ}, LeftOf (stretchEdge φ ψ a).1 (stretchEdge φ ψ a).2 ↔ LeftOf a.1 a.2 := leftOf_stretch
  have key : Drawn polys d → (((stretchEdge φ ψ d).1 = (stretchEdge φ ψ e).1 ∧ 0 < cross2 (stretchEdge φ ψ d) (stretchEdge φ ψ e) ∧
      ∀ u, Drawn (stretchAll φ ψ polys) u → LeftOf u.1 u.2 → u.1 = (stretchEdge φ ψ e).1 → 0 < cross2 u (stretchEdge φ ψ e) → 0 ≤ cross2 u (stretchEdge φ ψ d)) ∨
      ((∀ u, Drawn (stretchAll φ ψ polys) u → LeftOf u.1 u.2 → u.1 = (stretchEdge φ ψ e).1 → ¬ 0 < cross2 u (stretchEdge φ ψ e)) ∧
        FirstBelow (allEdges (stretchAll φ ψ polys)) (stretchEdge φ ψ e).1 (stretchEdge φ ψ d)) ↔
      (d.1 = e.1 ∧ 0 < cross2 d e ∧ ∀ u, Drawn polys u → LeftOf u.1 u.2 → u.1 = e.1 → 0 < cross2 u e → 0 ≤ cross2 u d) ∨
        ((∀ u, Drawn polys u → LeftOf u.1 u.2 → u.1 = e.1 → ¬ 0 < cross2 u e) ∧ FirstBelow (allEdges polys) e.1 d)) := by
    intro hd
    have hds := drawn_straight hA hd
    refine or_congr (and_congr hfst (and_congr (cross2_pos_stretch hds he) ?_)) (and_congr ?_ ?_)
    · rw [forall_stretch (φ := φ) (ψ := ψ)]
      refine forall_congr' fun u => ?_
      rw [drawn_stretch, hl, hfst]
      refine forall_congr' fun hu => ?_
      rw [cross2_pos_stretch (drawn_straight hA hu) he, cross2_nonneg_stretch (drawn_straight hA hu) hds]
    · rw [forall_stretch (φ := φ) (ψ := ψ)]
      refine forall_congr' fun u => ?_
      rw [drawn_stretch, hl, hfst]
      refine forall_congr' fun hu => ?_
      rw [cross2_pos_stretch (drawn_straight hA hu) he]
    · rw [allEdges_stretch]
      exact firstBelow_stretch hA hds
  constructor
  · rintro ⟨h1, h2, h3⟩
    exact ⟨drawn_stretch.1 h1, hl.1 h2, (key (drawn_stretch.1 h1)).1 h3⟩
  · rintro ⟨h1, h2, h3⟩
    exact ⟨drawn_stretch.2 h1, hl.2 h2, (key h1).2 h3⟩

/-! ### The plan -/

theorem endOf_stretch {e : Pt ℝ × Pt ℝ} {q : Pt ℝ} : EndOf (stretchEdge φ ψ e) (stretchPt φ ψ q) ↔ EndOf e q :=
  or_congr stretch_inj.eq_iff stretch_inj.eq_iff

theorem straight_angles {e e' : Pt ℝ × Pt ℝ} (h : Straight e) (h' : Straight e') (hne : e.1 ≠ e.2) (hne' : e'.1 ≠ e'.2) : ParallelEdges e e' ∨ ¬ NearlyParallel e e' := by
  have pos : ∀ a b : ℝ, a ≠ b → 0 < (b - a) ^ 2 := fun a b hab => by
    have := sub_ne_zero.2 hab.symm
    positivity
  unfold ParallelEdges NearlyParallel
  rcases h with hx | hy <;> rcases h' with hx' | hy'
  · left; rw [hx, hx']; ring
  · right
    have h1 := pos _ _ fun k : e.1.y = e.2.y => hne (pt_ext hx k)
    have h2 := pos _ _ fun k : e'.1.x = e'.2.x => hne' (pt_ext k hy')
    have := mul_pos h1 h2
    rw [hx, hy', not_le]
    nlinarith
  · right
    have h1 := pos _ _ fun k : e.1.x = e.2.x => hne (pt_ext k hy)
    have h2 := pos _ _ fun k : e'.1.y = e'.2.y => hne' (pt_ext hx' k)
    have := mul_pos h1 h2
    rw [hy, hx', not_le]
    nlinarith
  · left; rw [hy, hy']; ring

/-- Stretched polygons do not cross, either. -/
theorem Planar.stretch (hP : Planar polys) (hA : AxisParallel polys) (hw : Separate (· ∈ allCorners (stretchAll φ ψ polys)) (Drawn (stretchAll φ ψ polys)))
    (hd : ∀ e e', Drawn (stretchAll φ ψ polys) e → Drawn (stretchAll φ ψ polys) e' → ParallelEdges e e' → OnLine e e'.1 ∨ ClearlyOff e e.1 e'.1) :
    Planar (stretchAll φ ψ polys) := by
  refine ⟨hw, ?_, ?_, ?_, hd⟩
  · unfold stretchAll
    refine List.forall_mem_map.2 fun p hp => ?_
    dsimp only
    rw [edges_stretch, List.pairwise_map]
    refine (hP.once p hp).imp fun {a b} h hne => ?_
    rw [swap_stretch, stretchEdge_inj.ne_iff, stretchEdge_inj.ne_iff]
    exact h fun e => hne (by unfold stretchEdge; rw [e])
  · rw [forall_stretch (φ := φ) (ψ := ψ)]
    intro e
    rw [forall_stretch (φ := φ) (ψ := ψ)]
    intro e' he he' h1 h2 q hq
    obtain ⟨q, rfl⟩ := stretch_surj (φ := φ) (ψ := ψ) q
    rw [endOf_stretch, endOf_stretch]
    rw [swap_stretch] at h2
    have he := drawn_stretch.1 he
    have he' := drawn_stretch.1 he'
    exact hP.apart e e' he he' (fun h => h1 (by rw [h])) (fun h => h2 (by rw [h])) q
      ⟨(onSegment_stretch (drawn_straight hA he)).1 hq.1, (onSegment_stretch (drawn_straight hA he')).1 hq.2⟩
  · intro e e' he he'
    exact straight_angles (drawn_straight hA.stretch he) (drawn_straight hA.stretch he') he.1 he'.1

theorem Removable.stretch (hP : Planar polys) (hA : AxisParallel polys) (hR : Removable polys) : Removable (stretchAll φ ψ polys) := by
  constructor
  · intro j p d hp hm hd hD
    obtain ⟨q, hq, rfl⟩ := get_stretch.1 hp
    obtain ⟨d, rfl⟩ := stretchEdge_surj (φ := φ) (ψ := ψ) d
    rw [edges_stretch, swap_stretch, mem_stretch, mem_stretch] at hd
    rw [kept_stretch, drawn_stretch] at hD
    obtain ⟨j', p', h1, h2, h3, h4⟩ := hR.hides j q d hq hm hd hD
    refine ⟨j', _, h1, get_stretch.2 ⟨p', h2, rfl⟩, h3, ?_⟩
    rw [edges_stretch, swap_stretch, mem_stretch, mem_stretch]
    exact h4
  · rw [forall_stretch (φ := φ) (ψ := ψ)]
    intro d f f' h1 h2 h3 h4
    have h1 := drawn_stretch.1 h1
    rw [kept_stretch, drawn_stretch] at h2
    rw [swap_stretch, areaLeft_stretch hP hA (Plan.Drawn.swap h1)] at h4
    rw [flagsOk_stretch, flagsOk_stretch]
    exact hR.blind d f f' h1 h2 ((areaLeft_stretch hP hA h1).1 h3) h4

/-! ### The result -/

theorem drawn_kept_straight (hA : AxisParallel polys) {d : Pt ℝ × Pt ℝ} (h : Drawn (keptPolygons polys) d) : Straight d := drawn_straight hA (drawn_kept h)

theorem KeptOutlines.stretch (hP : Planar polys) (hA : AxisParallel polys) {o : List (List (Pt ℝ))} (h : KeptOutlines polys o) :
    KeptOutlines (stretchAll φ ψ polys) (o.map fun ps => ps.map (stretchPt φ ψ)) := by
  have he : (o.map fun ps => ps.map (stretchPt φ ψ)).flatMap closedEdges = (o.flatMap closedEdges).map (stretchEdge φ ψ) := by
    rw [List.flatMap_map, List.map_flatMap]
    congr 1
    funext ps
    exact closedEdges_stretch ps
  have hd : ∀ ps ∈ o, ∀ d ∈ closedEdges ps, Straight d := fun ps hps d hd => drawn_straight hA (h.drawn d (List.mem_flatMap.2 ⟨ps, hps, hd⟩))
  refine ⟨?_, ?_, ?_, ?_, ?_, ?_⟩
  · rw [forall_stretch (φ := φ) (ψ := ψ)]
    intro d f h1 h2
    have h1 := drawn_stretch.1 h1
    rw [he, mem_stretch, kept_stretch, drawn_stretch, flagsOk_stretch]
    exact h.edges d f h1 ((areaLeft_stretch hP hA h1).1 h2)
  · rw [he]
    exact List.forall_mem_map.2 fun d hd => drawn_stretch.2 (h.drawn d hd)
  · rw [he]
    exact h.once.map stretchEdge_inj
  · refine List.forall_mem_map.2 fun ps hps j d d' hj hj' => ?_
    rw [closedEdges_stretch, List.getElem?_map, Option.map_eq_some_iff] at hj hj'
    obtain ⟨a, ha, rfl⟩ := hj
    obtain ⟨b, hb, rfl⟩ := hj'
    obtain ⟨h1, h2, h3⟩ := h.turns ps hps j a b ha hb
    refine ⟨congrArg (stretchPt φ ψ) h1, ?_, ?_⟩
    · rw [swap_stretch]
      exact stretchEdge_inj.ne h2
    · rw [forall_stretch (φ := φ) (ψ := ψ)]
      intro u k1 k2 k3 k4
      rw [kept_stretch, drawn_stretch] at k1
      rw [swap_stretch] at k4 ⊢
      rw [turns_stretch (drawn_kept_straight hA k1) (hd ps hps _ (List.mem_of_getElem? hb)) (hd ps hps _ (List.mem_of_getElem? ha)).swap]
      exact h3 u k1 (stretch_inj k2) (fun e => k3 (by rw [e])) (fun e => k4 (by rw [e]))
  · refine List.forall_mem_map.2 fun ps hps => ?_
    obtain ⟨c, rest, rfl, h2⟩ := h.start ps hps
    exact ⟨_, _, List.map_cons, List.forall_mem_map.2 fun q hq => leftOf_stretch.2 (h2 q hq)⟩
  · refine List.pairwise_map.2 (List.Pairwise.imp_of_mem ?_ h.order)
    rintro ps ps' hps hps' ⟨d, d', h1, h2, h3⟩
    refine ⟨stretchEdge φ ψ d, stretchEdge φ ψ d', ?_, ?_, ?_⟩
    · rw [closedEdges_stretch, List.head?_map, h1]; rfl
    · rw [closedEdges_stretch, List.head?_map, h2]; rfl
    · rw [cross2_pos_stretch (hd ps hps _ (List.mem_of_head? h1)) (hd ps' hps' _ (List.mem_of_head? h2))]
      exact h3.imp leftOf_stretch.2 (And.imp_left (congrArg (stretchPt φ ψ)))

theorem kept_wellDrawn (hP : Planar polys) {o : List (List (Pt ℝ))} (h : KeptOutlines polys o) {ps : List (Pt ℝ)} (hps : ps ∈ o) : WellDrawn (keptPolygons polys) ps where
  drawn d hd := by
    have hm := List.mem_flatMap.2 ⟨ps, hps, hd⟩
    have hdr := h.drawn d hm
    obtain ⟨f, hf⟩ := EdgesAlike.exists_area hP hdr
    exact ((h.edges d f hdr hf).1 hm).1
  nodup := (List.nodup_flatMap.1 h.once).1 _ hps
  turns j d d' hd hd' := h.turns _ hps j d d' hd hd'
  start := h.start _ hps

/-- Stretching does not turn an outline around. -/
theorem area_stretch (hP : Planar polys) (hA : AxisParallel polys) (hP' : Planar (stretchAll φ ψ polys)) {o : List (List (Pt ℝ))} (h : KeptOutlines polys o) {ps : List (Pt ℝ)}
    (hps : ps ∈ o) : (0 < signedArea2 (ps.map (stretchPt φ ψ)) ↔ 0 < signedArea2 ps) ∧ (signedArea2 (ps.map (stretchPt φ ψ)) < 0 ↔ signedArea2 ps < 0) := by
  let c : Contour ℝ := { (Contour.new : Contour ℝ) with points := ps }
  have w : WellDrawn (keptPolygons polys) c.points := kept_wellDrawn hP h hps
  have w' : WellDrawn (keptPolygons (stretchAll φ ψ polys)) (stretchContour φ ψ c).points := kept_wellDrawn hP' (h.stretch hP hA) (List.mem_map_of_mem hps)
  have hK := planar_kept hP
  have hK' := planar_kept hP'
  obtain ⟨d, hd⟩ : ∃ d, d ∈ closedEdges c.points := by
    obtain ⟨v, rest, hv, _⟩ := w.start
    have : (closedEdges c.points).length = c.points.length := closedEdges_length _
    refine List.exists_mem_of_length_pos ?_
    rw [this, hv]
    exact Nat.succ_pos _
  have hd' : stretchEdge φ ψ d ∈ closedEdges (stretchContour φ ψ c).points := by
    show _ ∈ closedEdges (ps.map (stretchPt φ ψ))
    rw [closedEdges_stretch]
    exact List.mem_map_of_mem hd
  have hi : InsideLeft (only (stretchContour φ ψ c)) (stretchEdge φ ψ d) ↔ InsideLeft (only c) d := by
    refine insideLeft_stretch hP hA (X := only c) (drawn_kept (w.drawn d hd)) fun e he hne => drawn_kept ?_
    rw [only_edges] at he
    exact w.drawn e he
  have s1 := w.sign hK hd
  have s2 := w'.sign hK' hd'
  rw [hi] at s2
  show (0 < signedArea2 (stretchContour φ ψ c).points ↔ 0 < signedArea2 c.points) ∧ (signedArea2 (stretchContour φ ψ c).points < 0 ↔ signedArea2 c.points < 0)
  rcases s1 with ⟨a1, a2⟩ | ⟨a1, a2⟩ <;> rcases s2 with ⟨b1, b2⟩ | ⟨b1, b2⟩
  · exact ⟨⟨fun _ => a2, fun _ => b2⟩, ⟨fun k => absurd k (by linarith), fun k => absurd k (by linarith)⟩⟩
  · exact absurd a1 b1
  · exact absurd b1 a1
  · exact ⟨⟨fun k => absurd k (by linarith), fun k => absurd k (by linarith)⟩, ⟨fun _ => a2, fun _ => b2⟩⟩

end Idc
