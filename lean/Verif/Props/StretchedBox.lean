import Verif.Spec.Stretched
import Verif.Props.Result
/-!
# C90: the area beside a horizontal or vertical edge
-/

namespace Idc

theorem Straight.swap {e : Pt ℝ × Pt ℝ} (h : Straight e) : Straight e.swap := h.imp Eq.symm Eq.symm

/-- An edge crossed by a vertical line is not vertical. -/
theorem crosses_straight {e : Pt ℝ × Pt ℝ} (h : Straight e) (q : Pt ℝ) :
    CrossesBelow q e ↔ (Min.min e.1.x e.2.x ≤ q.x ∧ q.x < Max.max e.1.x e.2.x) ∧ e.1.y < q.y := by
  unfold CrossesBelow
  rw [and_assoc]
  refine and_congr_right fun h1 => and_congr_right fun h2 => ?_
  rcases h with h | h
  · rw [h, min_self] at h1
    rw [h, max_self] at h2
    exact absurd h2 (not_lt.2 h1)
  · rw [h, sub_self, zero_div, mul_zero, add_zero]

/-- No edge has points in the box. -/
def Misses (a b c d : ℝ) (e : Pt ℝ × Pt ℝ) : Prop :=
  (e.1.x = e.2.x → a < e.1.x → e.1.x < b → (e.1.y ≤ c ∧ e.2.y ≤ c) ∨ (d ≤ e.1.y ∧ d ≤ e.2.y)) ∧
  (e.1.y = e.2.y → c < e.1.y → e.1.y < d → (e.1.x ≤ a ∧ e.2.x ≤ a) ∨ (b ≤ e.1.x ∧ b ≤ e.2.x))

open Classical in
theorem ind_prop {P : Prop} : ind P = if P then 1 else 0 := rfl

theorem sum_map_add' {α : Type} (l : List α) (f g : α → ZMod 2) : (l.map fun a => f a + g a).sum = (l.map f).sum + (l.map g).sum := List.sum_map_add

theorem closed_two (w : Pt ℝ → ZMod 2) (ps : List (Pt ℝ)) : ((closedEdges ps).map fun e => w e.1 + w e.2).sum = 0 := by
  unfold closedEdges
  have h1 : ((ps.zip (ps.rotate 1)).map fun e => w e.1) = ps.map w := by
    rw [show (fun e : Pt ℝ × Pt ℝ => w e.1) = w ∘ Prod.fst from rfl, ← List.map_map, List.map_fst_zip (by simp)]
  have h2 : ((ps.zip (ps.rotate 1)).map fun e => w e.2) = (ps.rotate 1).map w := by
    rw [show (fun e : Pt ℝ × Pt ℝ => w e.2) = w ∘ Prod.snd from rfl, ← List.map_map, List.map_snd_zip (by simp)]
  rw [sum_map_add', h1, h2, ((List.rotate_perm ps 1).map w).sum_eq]
  exact two_eq _

theorem edges_two (w : Pt ℝ → ZMod 2) (p : Polygon ℝ) : (p.edges.map fun e => w e.1 + w e.2).sum = 0 := by
  unfold Polygon.edges
  induction p.contours with
  | nil => rfl
  | cons c l ih => rw [List.flatMap_cons, List.map_append, List.sum_append, ih, closed_two, add_zero]

theorem evenOdd_total (p : Polygon ℝ) (q : Pt ℝ) : p.evenOdd q ↔ (p.edges.map fun e => ind (CrossesBelow q e)).sum = 1 := by
  classical
  unfold Polygon.evenOdd
  rw [← Plan.sum_ind, ZMod.natCast_eq_one_iff_odd]

theorem crosses_ind {e : Pt ℝ × Pt ℝ} (h : Straight e) (q : Pt ℝ) :
    ind (CrossesBelow q e) = ind (e.1.x ≤ q.x ∧ e.1.y < q.y) + ind (e.2.x ≤ q.x ∧ e.2.y < q.y) ∨ e.1.x = e.2.x := by
  by_cases hx : e.1.x = e.2.x
  · exact .inr hx
  · refine .inl ?_
    have hy := h.resolve_left hx
    rw [← hy]
    by_cases hq : e.1.y < q.y
    · have e1 : CrossesBelow q e ↔ (Min.min e.1.x e.2.x ≤ q.x ∧ q.x < Max.max e.1.x e.2.x) := by rw [crosses_straight h]; exact and_iff_left hq
      by_cases h1 : e.1.x ≤ q.x <;> by_cases h2 : e.2.x ≤ q.x
      · rw [show ind (CrossesBelow q e) = 0 from ind_false fun hh => absurd (e1.1 hh).2 (not_lt.2 (max_le h1 h2)), ind_true ⟨h1, hq⟩, ind_true ⟨h2, hq⟩]
        rfl
      · rw [show ind (CrossesBelow q e) = 1 from ind_true (e1.2 ⟨min_le_of_left_le h1, lt_max_of_lt_right (not_le.1 h2)⟩), ind_true ⟨h1, hq⟩,
          ind_false (fun hh => h2 hh.1)]
        rfl
      · rw [show ind (CrossesBelow q e) = 1 from ind_true (e1.2 ⟨min_le_of_right_le h2, lt_max_of_lt_left (not_le.1 h1)⟩), ind_false (fun hh => h1 hh.1),
          ind_true ⟨h2, hq⟩]
        rfl
      · rw [show ind (CrossesBelow q e) = 0 from ind_false fun hh => absurd (e1.1 hh).1 (not_le.2 (lt_min (not_le.1 h1) (not_le.1 h2))),
          ind_false (fun hh => h1 hh.1), ind_false (fun hh => h2 hh.1)]
        rfl
    · rw [show ind (CrossesBelow q e) = 0 from ind_false fun hh => hq ((crosses_straight h q).1 hh).2, ind_false (fun hh => hq hh.2), ind_false (fun hh => hq hh.2)]
      rfl

theorem vertical_ind {e : Pt ℝ × Pt ℝ} (hx : e.1.x = e.2.x) (q : Pt ℝ) : ind (CrossesBelow q e) = 0 := by
  refine ind_false ?_
  rw [crosses_straight (.inl hx), hx, min_self, max_self]
  exact fun h => absurd h.1.2 (not_lt.2 h.1.1)

/-- In a box without edges, the even-odd rule gives the same everywhere. -/
theorem box_const {p : Polygon ℝ} (hs : ∀ e ∈ p.edges, Straight e) {a b c d : ℝ} (hm : ∀ e ∈ p.edges, e.1 ≠ e.2 → Misses a b c d e) {q q' : Pt ℝ}
    (h1 : a < q.x) (h2 : q.x < b) (h3 : c < q.y) (h4 : q.y < d) (h1' : a < q'.x) (h2' : q'.x < b) (h3' : c < q'.y) (h4' : q'.y < d) :
    p.evenOdd q ↔ p.evenOdd q' := by
  have step : (p.edges.map fun e => ind (CrossesBelow q e)).sum = (p.edges.map fun e => ind (CrossesBelow ⟨q'.x, q.y⟩ e)).sum := by
    have := edges_two (fun v => ind (v.x ≤ q.x ∧ v.y < q.y) + ind (v.x ≤ q'.x ∧ v.y < q.y)) p
    have key : ∀ e ∈ p.edges, (ind (e.1.x ≤ q.x ∧ e.1.y < q.y) + ind (e.1.x ≤ q'.x ∧ e.1.y < q.y)) + (ind (e.2.x ≤ q.x ∧ e.2.y < q.y) + ind (e.2.x ≤ q'.x ∧ e.2.y < q.y)) =
        ind (CrossesBelow q e) + ind (CrossesBelow ⟨q'.x, q.y⟩ e) := by
      intro e he
      by_cases hx : e.1.x = e.2.x
      · rw [vertical_ind hx, vertical_ind hx, ← hx]
        by_cases hy : e.1.y < q.y ↔ e.2.y < q.y
        · simp only [hy]
          rw [two_eq, add_zero]
        · have hM := (hm e he fun h => hy (by rw [h])).1 hx
          have ho : e.1.x ≤ a ∨ b ≤ e.1.x := by
            by_contra hcon
            push Not at hcon
            rcases hM hcon.1 hcon.2 with ⟨k1, k2⟩ | ⟨k1, k2⟩
            · exact hy ⟨fun _ => by linarith, fun _ => by linarith⟩
            · exact hy ⟨fun _ => by linarith, fun _ => by linarith⟩
          have hi : e.1.x ≤ q.x ↔ e.1.x ≤ q'.x := by
            rcases ho with ho | ho
            · exact ⟨fun _ => by linarith, fun _ => by linarith⟩
            · exact ⟨fun _ => by linarith, fun _ => by linarith⟩
          simp only [hi]
          rw [two_eq, two_eq, add_zero]
      · rw [(crosses_ind (hs e he) q).resolve_right hx, (crosses_ind (hs e he) ⟨q'.x, q.y⟩).resolve_right hx]
        dsimp only
        ring
    rw [List.map_congr_left key, sum_map_add'] at this
    exact (by decide : ∀ x y : ZMod 2, x + y = 0 → x = y) _ _ this
  have step2 : ∀ e ∈ p.edges, CrossesBelow ⟨q'.x, q.y⟩ e ↔ CrossesBelow q' e := by
    intro e he
    rw [crosses_straight (hs e he), crosses_straight (hs e he)]
    dsimp only
    refine and_congr_right fun hh => ?_
    have hx : e.1.x ≠ e.2.x := fun hx => by
      rw [hx, min_self, max_self] at hh
      exact absurd hh.2 (not_lt.2 hh.1)
    have hy : e.1.y = e.2.y := (hs e he).resolve_left hx
    have ho : e.1.y ≤ c ∨ d ≤ e.1.y := by
      by_contra hcon
      push Not at hcon
      rcases (hm e he fun h => hx (by rw [h])).2 hy hcon.1 hcon.2 with ⟨k1, k2⟩ | ⟨k1, k2⟩
      · exact absurd (hh.2.trans_le (max_le k1 k2)) (not_lt.2 h1'.le)
      · exact absurd ((le_min k1 k2).trans hh.1) (not_le.2 h2')
    rcases ho with ho | ho
    · exact ⟨fun _ => by linarith, fun _ => by linarith⟩
    · exact ⟨fun _ => by linarith, fun _ => by linarith⟩
  rw [evenOdd_total, evenOdd_total, step, List.map_congr_left fun e he => congrArg ind (propext (step2 e he))]

/-! ### The box beside an edge -/

/-- The box to the left of an edge, of width `η`. -/
def Left (η : ℝ) (d : Pt ℝ × Pt ℝ) (q : Pt ℝ) : Prop :=
  (d.1.y = d.2.y ∧ d.1.x < q.x ∧ q.x < d.2.x ∧ d.1.y < q.y ∧ q.y < d.1.y + η) ∨
  (d.1.y = d.2.y ∧ d.2.x < q.x ∧ q.x < d.1.x ∧ d.1.y - η < q.y ∧ q.y < d.1.y) ∨
  (d.1.x = d.2.x ∧ d.1.y < q.y ∧ q.y < d.2.y ∧ d.1.x - η < q.x ∧ q.x < d.1.x) ∨
  (d.1.x = d.2.x ∧ d.2.y < q.y ∧ q.y < d.1.y ∧ d.1.x < q.x ∧ q.x < d.1.x + η)

/-- No coordinate is very close to another. -/
theorem gap : ∀ (l : List ℝ) (y : ℝ), ∃ η : ℝ, 0 < η ∧ ∀ c ∈ l, c ≤ y - η ∨ c = y ∨ y + η ≤ c
  | [], _ => ⟨1, one_pos, fun _ h => nomatch h⟩
  | x :: l, y => by
    obtain ⟨η, h1, h2⟩ := gap l y
    rcases eq_or_ne x y with rfl | hne
    · exact ⟨η, h1, fun c hc => (List.mem_cons.1 hc).elim (fun e => .inr (.inl e)) (h2 c)⟩
    · refine ⟨Min.min η |x - y|, lt_min h1 (abs_pos.2 (sub_ne_zero.2 hne)), fun c hc => ?_⟩
      rcases List.mem_cons.1 hc with rfl | hc
      · rcases lt_or_gt_of_ne hne with h | h
        · left
          have := min_le_right η |c - y|
          rw [abs_of_neg (by linarith : c - y < 0)] at this ⊢
          linarith
        · right; right
          have := min_le_right η |c - y|
          rw [abs_of_pos (by linarith : 0 < c - y)] at this ⊢
          linarith
      · have := min_le_left η |x - y|
        rcases h2 c hc with h | h | h
        · left; linarith
        · exact .inr (.inl h)
        · right; right; linarith

variable {polys : List (Polygon ℝ × PolygonMode)}

theorem drawn_straight (hA : AxisParallel polys) {d : Pt ℝ × Pt ℝ} (hd : Drawn polys d) : Straight d := by
  rcases hd.2 with h | h
  · exact hA _ h
  · exact (hA _ h).swap

theorem between {a b x t : ℝ} (h0 : 0 ≤ t) (h1 : t ≤ 1) (hx : x = a + t * (b - a)) : Min.min a b ≤ x ∧ x ≤ Max.max a b := by
  rcases le_total a b with h | h
  · rw [min_eq_left h, max_eq_right h]
    constructor <;> nlinarith
  · rw [min_eq_right h, max_eq_left h]
    constructor <;> nlinarith

theorem between_param {a b x : ℝ} (hne : a ≠ b) (h1 : Min.min a b ≤ x) (h2 : x ≤ Max.max a b) : ∃ t : ℝ, 0 ≤ t ∧ t ≤ 1 ∧ x = a + t * (b - a) := by
  refine ⟨(x - a) / (b - a), ?_, ?_, ?_⟩
  · rcases lt_or_gt_of_ne hne with h | h
    · rw [min_eq_left h.le] at h1
      exact div_nonneg (by linarith) (by linarith)
    · rw [max_eq_left (le_of_lt h)] at h2
      exact div_nonneg_of_nonpos (by linarith) (by linarith)
  · rcases lt_or_gt_of_ne hne with h | h
    · rw [max_eq_right h.le] at h2
      rw [div_le_one (by linarith)]; linarith
    · rw [min_eq_right (le_of_lt h)] at h1
      rw [div_le_one_of_neg (by linarith)]; linarith
  · rw [div_mul_cancel₀ _ (sub_ne_zero.2 hne.symm)]; ring

/-- The points of a horizontal or vertical edge. -/
theorem on_straight {e : Pt ℝ × Pt ℝ} (h : Straight e) {q : Pt ℝ} : OnSegment e q ↔
    (Min.min e.1.x e.2.x ≤ q.x ∧ q.x ≤ Max.max e.1.x e.2.x) ∧ Min.min e.1.y e.2.y ≤ q.y ∧ q.y ≤ Max.max e.1.y e.2.y := by
  constructor
  · rintro ⟨t, h0, h1, hx, hy⟩
    exact ⟨between h0 h1 hx, between h0 h1 hy⟩
  · rintro ⟨⟨h1, h2⟩, h3, h4⟩
    by_cases hx : e.1.x = e.2.x
    · rw [hx, min_self] at h1
      rw [hx, max_self] at h2
      by_cases hy : e.1.y = e.2.y
      · rw [hy, min_self] at h3
        rw [hy, max_self] at h4
        exact ⟨0, le_rfl, zero_le_one, by rw [hx]; linarith, by rw [hy]; linarith⟩
      · obtain ⟨t, k1, k2, k3⟩ := between_param hy h3 h4
        exact ⟨t, k1, k2, by rw [hx]; linarith, k3⟩
    · obtain ⟨t, k1, k2, k3⟩ := between_param hx h1 h2
      have hy := h.resolve_left hx
      rw [hy, min_self] at h3
      rw [hy, max_self] at h4
      exact ⟨t, k1, k2, k3, by rw [hy]; linarith⟩

/-- The width of the boxes that no edge gets into. -/
theorem box_misses (hP : Planar polys) (hA : AxisParallel polys) {d : Pt ℝ × Pt ℝ} (hd : Drawn polys d) : ∃ η : ℝ, 0 < η ∧
    (d.1.y = d.2.y → ∀ e, Drawn polys e → Misses (Min.min d.1.x d.2.x) (Max.max d.1.x d.2.x) d.1.y (d.1.y + η) e ∧
      Misses (Min.min d.1.x d.2.x) (Max.max d.1.x d.2.x) (d.1.y - η) d.1.y e) ∧
    (d.1.x = d.2.x → ∀ e, Drawn polys e → Misses d.1.x (d.1.x + η) (Min.min d.1.y d.2.y) (Max.max d.1.y d.2.y) e ∧
      Misses (d.1.x - η) d.1.x (Min.min d.1.y d.2.y) (Max.max d.1.y d.2.y) e) := by
  obtain ⟨η, h0, hη⟩ := gap ((allCorners polys).map Pt.x) d.1.x
  obtain ⟨ζ, k0, hζ⟩ := gap ((allCorners polys).map Pt.y) d.1.y
  have gx : ∀ e, Drawn polys e → (e.1.x ≤ d.1.x - η ∨ e.1.x = d.1.x ∨ d.1.x + η ≤ e.1.x) ∧ (e.2.x ≤ d.1.x - η ∨ e.2.x = d.1.x ∨ d.1.x + η ≤ e.2.x) := fun e he =>
    ⟨hη _ (List.mem_map_of_mem (Plan.drawn_corner he).1), hη _ (List.mem_map_of_mem (Plan.drawn_corner he).2)⟩
  have gy : ∀ e, Drawn polys e → (e.1.y ≤ d.1.y - ζ ∨ e.1.y = d.1.y ∨ d.1.y + ζ ≤ e.1.y) ∧ (e.2.y ≤ d.1.y - ζ ∨ e.2.y = d.1.y ∨ d.1.y + ζ ≤ e.2.y) := fun e he =>
    ⟨hζ _ (List.mem_map_of_mem (Plan.drawn_corner he).1), hζ _ (List.mem_map_of_mem (Plan.drawn_corner he).2)⟩
  have hmin : Min.min η ζ ≤ η := min_le_left _ _
  have hmin' : Min.min η ζ ≤ ζ := min_le_right _ _
  have hds := drawn_straight hA hd
  refine ⟨Min.min η ζ, lt_min h0 k0, fun hdy e he => ?_, fun hdx e he => ?_⟩
  · obtain ⟨g1, g2⟩ := gy e he
    have key : e.1.x = e.2.x → Min.min d.1.x d.2.x < e.1.x → e.1.x < Max.max d.1.x d.2.x → ¬ (Min.min e.1.y e.2.y ≤ d.1.y ∧ d.1.y ≤ Max.max e.1.y e.2.y) := by
      intro hx l1 l2 hh
      have hne : ∀ u : Pt ℝ × Pt ℝ, u = d ∨ u = d.swap → e ≠ u := by
        rintro u hu rfl
        rcases hu with rfl | rfl
        · rw [← hx, min_self] at l1; exact lt_irrefl _ l1
        · have : d.2.x = d.1.x := hx
          rw [this, min_self] at l1; exact lt_irrefl _ (l1.trans_eq this)
      have := (hP.apart d e hd he (hne d (.inl rfl)) (hne _ (.inr rfl)) ⟨e.1.x, d.1.y⟩ ⟨(on_straight hds).2 ⟨⟨l1.le, l2.le⟩, by rw [← hdy, min_self, max_self]; exact ⟨le_rfl, le_rfl⟩⟩,
        (on_straight (.inl hx)).2 ⟨by rw [← hx, min_self, max_self]; exact ⟨le_rfl, le_rfl⟩, hh⟩⟩).1
      rcases this with h | h
      · have hx' : e.1.x = d.1.x := by have := congrArg Pt.x h; exact this
        rw [hx'] at l1 l2
        rcases le_total d.1.x d.2.x with hl | hl
        · rw [min_eq_left hl] at l1; exact lt_irrefl _ l1
        · rw [max_eq_left hl] at l2; exact lt_irrefl _ l2
      · have hx' : e.1.x = d.2.x := by have := congrArg Pt.x h; exact this
        rw [hx'] at l1 l2
        rcases le_total d.1.x d.2.x with hl | hl
        · rw [max_eq_right hl] at l2; exact lt_irrefl _ l2
        · rw [min_eq_right hl] at l1; exact lt_irrefl _ l1
    have key' : e.1.x = e.2.x → Min.min d.1.x d.2.x < e.1.x → e.1.x < Max.max d.1.x d.2.x → (e.1.y < d.1.y ∧ e.2.y < d.1.y) ∨ (d.1.y < e.1.y ∧ d.1.y < e.2.y) := by
      intro hx l1 l2
      have := key hx l1 l2
      by_contra hcon
      refine this ⟨?_, ?_⟩
      · by_contra h'
        exact hcon (.inr (lt_min_iff.1 (not_le.1 h')))
      · by_contra h'
        exact hcon (.inl (max_lt_iff.1 (not_le.1 h')))
    refine ⟨⟨fun hx l1 l2 => ?_, fun _ l1 l2 => ?_⟩, ⟨fun hx l1 l2 => ?_, fun _ l1 l2 => ?_⟩⟩
    · rcases key' hx l1 l2 with ⟨m1, m2⟩ | ⟨m1, m2⟩
      · exact .inl ⟨m1.le, m2.le⟩
      · refine .inr ⟨?_, ?_⟩
        · rcases g1 with g | g | g <;> linarith
        · rcases g2 with g | g | g <;> linarith
    · exfalso
      rcases g1 with g | g | g <;> linarith
    · rcases key' hx l1 l2 with ⟨m1, m2⟩ | ⟨m1, m2⟩
      · refine .inl ⟨?_, ?_⟩
        · rcases g1 with g | g | g <;> linarith
        · rcases g2 with g | g | g <;> linarith
      · exact .inr ⟨m1.le, m2.le⟩
    · exfalso
      rcases g1 with g | g | g <;> linarith
  · obtain ⟨g1, g2⟩ := gx e he
    have key : e.1.y = e.2.y → Min.min d.1.y d.2.y < e.1.y → e.1.y < Max.max d.1.y d.2.y → ¬ (Min.min e.1.x e.2.x ≤ d.1.x ∧ d.1.x ≤ Max.max e.1.x e.2.x) := by
      intro hx l1 l2 hh
      have hne : ∀ u : Pt ℝ × Pt ℝ, u = d ∨ u = d.swap → e ≠ u := by
        rintro u hu rfl
        rcases hu with rfl | rfl
        · rw [← hx, min_self] at l1; exact lt_irrefl _ l1
        · have : d.2.y = d.1.y := hx
          rw [this, min_self] at l1; exact lt_irrefl _ (l1.trans_eq this)
      have := (hP.apart d e hd he (hne d (.inl rfl)) (hne _ (.inr rfl)) ⟨d.1.x, e.1.y⟩ ⟨(on_straight hds).2 ⟨by rw [← hdx, min_self, max_self]; exact ⟨le_rfl, le_rfl⟩, ⟨l1.le, l2.le⟩⟩,
        (on_straight (.inr hx)).2 ⟨hh, by rw [← hx, min_self, max_self]; exact ⟨le_rfl, le_rfl⟩⟩⟩).1
      rcases this with h | h
      · have hx' : e.1.y = d.1.y := by have := congrArg Pt.y h; exact this
        rw [hx'] at l1 l2
        rcases le_total d.1.y d.2.y with hl | hl
        · rw [min_eq_left hl] at l1; exact lt_irrefl _ l1
        · rw [max_eq_left hl] at l2; exact lt_irrefl _ l2
      · have hx' : e.1.y = d.2.y := by have := congrArg Pt.y h; exact this
        rw [hx'] at l1 l2
        rcases le_total d.1.y d.2.y with hl | hl
        · rw [max_eq_right hl] at l2; exact lt_irrefl _ l2
        · rw [min_eq_right hl] at l1; exact lt_irrefl _ l1
    have key' : e.1.y = e.2.y → Min.min d.1.y d.2.y < e.1.y → e.1.y < Max.max d.1.y d.2.y → (e.1.x < d.1.x ∧ e.2.x < d.1.x) ∨ (d.1.x < e.1.x ∧ d.1.x < e.2.x) := by
      intro hx l1 l2
      have := key hx l1 l2
      by_contra hcon
      refine this ⟨?_, ?_⟩
      · by_contra h'
        exact hcon (.inr (lt_min_iff.1 (not_le.1 h')))
      · by_contra h'
        exact hcon (.inl (max_lt_iff.1 (not_le.1 h')))
    refine ⟨⟨fun _ l1 l2 => ?_, fun hx l1 l2 => ?_⟩, ⟨fun _ l1 l2 => ?_, fun hx l1 l2 => ?_⟩⟩
    · exfalso
      rcases g1 with g | g | g <;> linarith
    · rcases key' hx l1 l2 with ⟨m1, m2⟩ | ⟨m1, m2⟩
      · exact .inl ⟨m1.le, m2.le⟩
      · refine .inr ⟨?_, ?_⟩
        · rcases g1 with g | g | g <;> linarith
        · rcases g2 with g | g | g <;> linarith
    · exfalso
      rcases g1 with g | g | g <;> linarith
    · rcases key' hx l1 l2 with ⟨m1, m2⟩ | ⟨m1, m2⟩
      · refine .inl ⟨?_, ?_⟩
        · rcases g1 with g | g | g <;> linarith
        · rcases g2 with g | g | g <;> linarith
      · exact .inr ⟨m1.le, m2.le⟩

/-- Close to an edge, on its left, the even-odd rule gives the same everywhere. -/
theorem left_const (hP : Planar polys) (hA : AxisParallel polys) {d : Pt ℝ × Pt ℝ} (hd : Drawn polys d) : ∃ η : ℝ, 0 < η ∧
    ∀ X : Polygon ℝ, (∀ e ∈ X.edges, e.1 ≠ e.2 → Drawn polys e) → ∀ q q', Left η d q → Left η d q' → (X.evenOdd q ↔ X.evenOdd q') := by
  obtain ⟨η, h0, hy, hx⟩ := box_misses hP hA hd
  refine ⟨η, h0, fun X hX q q' hq hq' => ?_⟩
  have hs : ∀ e ∈ X.edges, Straight e := fun e he => by
    by_cases hne : e.1 = e.2
    · exact .inl (congrArg Pt.x hne)
    · exact drawn_straight hA (hX e he hne)
  have hm : ∀ {a b c d'}, (∀ e, Drawn polys e → Misses a b c d' e) → ∀ e ∈ X.edges, e.1 ≠ e.2 → Misses a b c d' e := fun h e he hne => h e (hX e he hne)
  by_cases hdy : d.1.y = d.2.y
  · have hdx : d.1.x ≠ d.2.x := fun h => hd.1 (pt_ext h hdy)
    rcases lt_or_gt_of_ne hdx with hlt | hlt
    · have key : ∀ q, Left η d q → d.1.x < q.x ∧ q.x < d.2.x ∧ d.1.y < q.y ∧ q.y < d.1.y + η := by
        rintro q (h | h | h | h)
        · exact h.2
        · linarith [h.2.1, h.2.2.1]
        · exact absurd h.1 hdx
        · exact absurd h.1 hdx
      obtain ⟨a1, a2, a3, a4⟩ := key q hq
      obtain ⟨b1, b2, b3, b4⟩ := key q' hq'
      have := hm fun e he => (hy hdy e he).1
      rw [min_eq_left hlt.le, max_eq_right hlt.le] at this
      exact box_const hs this a1 a2 a3 a4 b1 b2 b3 b4
    · have key : ∀ q, Left η d q → d.2.x < q.x ∧ q.x < d.1.x ∧ d.1.y - η < q.y ∧ q.y < d.1.y := by
        rintro q (h | h | h | h)
        · linarith [h.2.1, h.2.2.1]
        · exact h.2
        · exact absurd h.1 hdx
        · exact absurd h.1 hdx
      obtain ⟨a1, a2, a3, a4⟩ := key q hq
      obtain ⟨b1, b2, b3, b4⟩ := key q' hq'
      have := hm fun e he => (hy hdy e he).2
      rw [min_eq_right (le_of_lt hlt), max_eq_left (le_of_lt hlt)] at this
      exact box_const hs this a1 a2 a3 a4 b1 b2 b3 b4
  · have hdx : d.1.x = d.2.x := (drawn_straight hA hd).resolve_right hdy
    rcases lt_or_gt_of_ne hdy with hlt | hlt
    · have key : ∀ q, Left η d q → d.1.x - η < q.x ∧ q.x < d.1.x ∧ d.1.y < q.y ∧ q.y < d.2.y := by
        rintro q (h | h | h | h)
        · exact absurd h.1 hdy
        · exact absurd h.1 hdy
        · exact ⟨h.2.2.2.1, h.2.2.2.2, h.2.1, h.2.2.1⟩
        · linarith [h.2.1, h.2.2.1]
      obtain ⟨a1, a2, a3, a4⟩ := key q hq
      obtain ⟨b1, b2, b3, b4⟩ := key q' hq'
      have := hm fun e he => (hx hdx e he).2
      rw [min_eq_left hlt.le, max_eq_right hlt.le] at this
      exact box_const hs this a1 a2 a3 a4 b1 b2 b3 b4
    · have key : ∀ q, Left η d q → d.1.x < q.x ∧ q.x < d.1.x + η ∧ d.2.y < q.y ∧ q.y < d.1.y := by
        rintro q (h | h | h | h)
        · exact absurd h.1 hdy
        · exact absurd h.1 hdy
        · linarith [h.2.1, h.2.2.1]
        · exact ⟨h.2.2.2.1, h.2.2.2.2, h.2.1, h.2.2.1⟩
      obtain ⟨a1, a2, a3, a4⟩ := key q hq
      obtain ⟨b1, b2, b3, b4⟩ := key q' hq'
      have := hm fun e he => (hx hdx e he).1
      rw [min_eq_right (le_of_lt hlt), max_eq_left (le_of_lt hlt)] at this
      exact box_const hs this a1 a2 a3 a4 b1 b2 b3 b4

end Idc
