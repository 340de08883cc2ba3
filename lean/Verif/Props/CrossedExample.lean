import Verif.Spec.CrossedCheck
import Verif.Props.Crossed
import Verif.Props.PlanExample
/-!
# A sample for C84
-/

namespace Idc

/-! ### The check -/

theorem zOn_iff {a b q : ZPt} : zOn a b q = true ↔ OnSegment (a.toPt, b.toPt) q.toPt := by
  obtain ⟨a1, a2⟩ := a
  obtain ⟨b1, b2⟩ := b
  obtain ⟨q1, q2⟩ := q
  unfold zOn zcross OnSegment ZPt.toPt
  rw [decide_eq_true_iff]
  dsimp only
  constructor
  · rintro ⟨h, h1, h2, h3, h4⟩
    have hR : ((b1 : ℝ) - a1) * (q2 - a2) - (b2 - a2) * (q1 - a1) = 0 := by exact_mod_cast h
    rcases lt_trichotomy a1 b1 with k | k | k
    · rw [min_eq_left k.le] at h1
      rw [max_eq_right k.le] at h2
      have kR : (0 : ℝ) < b1 - a1 := by have : (a1 : ℝ) < b1 := by exact_mod_cast k
                                        linarith
      have r1 : (a1 : ℝ) ≤ q1 := by exact_mod_cast h1
      have r2 : (q1 : ℝ) ≤ b1 := by exact_mod_cast h2
      refine ⟨(q1 - a1) / (b1 - a1), div_nonneg (by linarith) kR.le, (div_le_one kR).2 (by linarith), ?_, ?_⟩
      · field_simp; ring
      · field_simp; linear_combination hR
    · subst k
      rw [min_self] at h1
      rw [max_self] at h2
      obtain rfl : q1 = a1 := by omega
      rcases lt_trichotomy a2 b2 with k | k | k
      · rw [min_eq_left k.le] at h3
        rw [max_eq_right k.le] at h4
        have kR : (0 : ℝ) < b2 - a2 := by have : (a2 : ℝ) < b2 := by exact_mod_cast k
                                          linarith
        have r1 : (a2 : ℝ) ≤ q2 := by exact_mod_cast h3
        have r2 : (q2 : ℝ) ≤ b2 := by exact_mod_cast h4
        refine ⟨(q2 - a2) / (b2 - a2), div_nonneg (by linarith) kR.le, (div_le_one kR).2 (by linarith), ?_, ?_⟩
        · ring
        · field_simp; ring
      · subst k
        rw [min_self] at h3
        rw [max_self] at h4
        obtain rfl : q2 = a2 := by omega
        exact ⟨0, le_refl _, by norm_num, by ring, by ring⟩
      · rw [min_eq_right k.le] at h3
        rw [max_eq_left k.le] at h4
        have kR : (0 : ℝ) < a2 - b2 := by have : (b2 : ℝ) < a2 := by exact_mod_cast k
                                          linarith
        have r1 : (b2 : ℝ) ≤ q2 := by exact_mod_cast h3
        have r2 : (q2 : ℝ) ≤ a2 := by exact_mod_cast h4
        refine ⟨(a2 - q2) / (a2 - b2), div_nonneg (by linarith) kR.le, (div_le_one kR).2 (by linarith), ?_, ?_⟩
        · ring
        · field_simp; ring
    · rw [min_eq_right k.le] at h1
      rw [max_eq_left k.le] at h2
      have kR : (0 : ℝ) < a1 - b1 := by have : (b1 : ℝ) < a1 := by exact_mod_cast k
                                        linarith
      have r1 : (b1 : ℝ) ≤ q1 := by exact_mod_cast h1
      have r2 : (q1 : ℝ) ≤ a1 := by exact_mod_cast h2
      refine ⟨(a1 - q1) / (a1 - b1), div_nonneg (by linarith) kR.le, (div_le_one kR).2 (by linarith), ?_, ?_⟩
      · field_simp; ring
      · field_simp; linear_combination (-1 : ℝ) * hR
  · rintro ⟨t, t0, t1, hx, hy⟩
    have bx := on_between t0 t1 hx (min_le_left _ _) (min_le_right _ _) (le_max_left _ _) (le_max_right _ _)
    have by' := on_between t0 t1 hy (min_le_left _ _) (min_le_right _ _) (le_max_left _ _) (le_max_right _ _)
    refine ⟨?_, ?_, ?_, ?_, ?_⟩
    · have : ((b1 : ℝ) - a1) * (q2 - a2) - (b2 - a2) * (q1 - a1) = 0 := by rw [hx, hy]; ring
      exact_mod_cast this
    · exact_mod_cast bx.1
    · exact_mod_cast bx.2
    · exact_mod_cast by'.1
    · exact_mod_cast by'.2

/-- The edge over the reals. -/
noncomputable abbrev zEdge (e : ZPt × ZPt) : Pt ℝ × Pt ℝ := (e.1.toPt, e.2.toPt)

theorem pieces_of_check : ∀ (ds es : List (ZPt × ZPt)), piecesCheck es ds = true →
    ∃ dss, List.Forall₂ (fun e d => Pieces e.1 e.2 d) (es.map zEdge) dss ∧ ds.map zEdge = dss.flatten
  | [], [], _ => ⟨[], List.Forall₂.nil, rfl⟩
  | [], _ :: _, h => by simp [piecesCheck] at h
  | _ :: _, [], h => by simp [piecesCheck] at h
  | (c, d) :: ds, (a, b) :: es, h => by
    rw [piecesCheck, Bool.and_eq_true, decide_eq_true_iff] at h
    obtain ⟨rfl, h⟩ := h
    by_cases hd : d = b
    · subst hd
      rw [if_pos rfl] at h
      obtain ⟨dss, h1, h2⟩ := pieces_of_check ds es h
      exact ⟨[zEdge (c, d)] :: dss, List.Forall₂.cons (Pieces.whole _ _) h1, by rw [List.map_cons, h2]; rfl⟩
    · rw [if_neg hd, Bool.and_eq_true, Bool.and_eq_true, decide_eq_true_iff, zOn_iff] at h
      obtain ⟨⟨h1, h2⟩, h3⟩ := h
      obtain ⟨dss, k1, k2⟩ := pieces_of_check ds ((d, b) :: es) h3
      rw [List.map_cons] at k1
      cases k1 with
      | @cons _ l _ dss' k3 k4 =>
        refine ⟨(zEdge (c, d) :: l) :: dss', List.Forall₂.cons (Pieces.step h1 (fun e => h2 (toPt_inj e)) (fun e => hd (toPt_inj e)) k3) k4, ?_⟩
        rw [List.map_cons, k2]
        rfl

theorem refine_of_check : ∀ (cs ds : List (List ZPt)), refineCheck cs ds = true →
    List.Forall₂ (fun c c' : Contour ℝ => Subdivided c.points c'.points) (zPolygon cs).contours (zPolygon ds).contours
  | [], [], _ => List.Forall₂.nil
  | [], _ :: _, h => by simp [refineCheck] at h
  | _ :: _, [], h => by simp [refineCheck] at h
  | c :: cs, d :: ds, h => by
    rw [refineCheck, Bool.and_eq_true] at h
    refine List.Forall₂.cons ?_ (refine_of_check cs ds h.2)
    obtain ⟨dss, h1, h2⟩ := pieces_of_check _ _ h.1
    exact ⟨dss, by rw [closedEdges_map]; exact h1, by rw [closedEdges_map]; exact h2⟩

theorem refines_of_check : ∀ (ps qs : List (List (List ZPt) × PolygonMode)), refinesCheck ps qs = true →
    List.Forall₂ (fun p p' : Polygon ℝ × PolygonMode => p'.2 = p.2 ∧ List.Forall₂ (fun c c' => Subdivided c.points c'.points) p.1.contours p'.1.contours)
      (ps.map fun p => (zPolygon p.1, p.2)) (qs.map fun p => (zPolygon p.1, p.2))
  | [], [], _ => List.Forall₂.nil
  | [], _ :: _, h => by simp [refinesCheck] at h
  | _ :: _, [], h => by simp [refinesCheck] at h
  | p :: ps, q :: qs, h => by
    rw [refinesCheck, Bool.and_eq_true, Bool.and_eq_true, decide_eq_true_iff] at h
    exact List.Forall₂.cons ⟨h.1.1, refine_of_check _ _ h.1.2⟩ (refines_of_check ps qs h.2)

theorem leftOf_of_check {a q : ZPt} (h : zLeft a q = true) : LeftOf a.toPt q.toPt := by
  unfold zLeft at h
  rw [decide_eq_true_iff] at h
  unfold LeftOf ZPt.toPt
  dsimp only
  exact h.imp (fun h => by exact_mod_cast h) fun h => ⟨by exact_mod_cast h.1, by exact_mod_cast h.2⟩

theorem end_iff {d : ZPt × ZPt} {q : ZPt} : EndOf (zEdge d) q.toPt ↔ q = d.1 ∨ q = d.2 :=
  or_congr ⟨fun k => toPt_inj k, fun k => by rw [k]⟩ ⟨fun k => toPt_inj k, fun k => by rw [k]⟩

theorem notAbove_of_check {e : ZPt × ZPt} {q b : ZPt} (h : zNotAbove e q b = true) :
    LeftOf q.toPt b.toPt ∧ ∃ r, EndOf (zEdge e) r ∧ LeftOf q.toPt r ∧ cross2 (q.toPt, r) (q.toPt, b.toPt) ≤ 0 := by
  unfold zNotAbove at h
  rw [Bool.and_eq_true, Bool.or_eq_true, Bool.and_eq_true, Bool.and_eq_true, decide_eq_true_iff, decide_eq_true_iff] at h
  have key : ∀ {r : ZPt}, zdir q r q b ≤ 0 → cross2 (q.toPt, r.toPt) (q.toPt, b.toPt) ≤ 0 := by
    intro r hr
    unfold zdir at hr
    unfold cross2 ZPt.toPt
    dsimp only
    exact_mod_cast hr
  refine ⟨leftOf_of_check h.1, ?_⟩
  rcases h.2 with k | k
  · exact ⟨_, Or.inl rfl, leftOf_of_check k.1, key k.2⟩
  · exact ⟨_, Or.inr rfl, leftOf_of_check k.1, key k.2⟩

theorem met_of_check {polys : List (List (List ZPt) × PolygonMode)} {e : ZPt × ZPt} {q : ZPt} (h : metCheck ((polys.flatMap fun p => p.1).flatMap zEdges) e q = true) :
    Met (polys.map fun p => (zPolygon p.1, p.2)) (zEdge e) q.toPt := by
  unfold metCheck at h
  rw [Bool.and_eq_true, decide_eq_true_iff] at h
  obtain ⟨h1, h2⟩ := h
  have hmem : ∀ {d : ZPt × ZPt}, d ∈ (polys.flatMap fun p => p.1).flatMap zEdges → zEdge d ∈ allEdges (polys.map fun p => (zPolygon p.1, p.2)) :=
    fun hd => by rw [allEdges_z]; exact List.mem_map_of_mem hd
  constructor
  · classical
    rw [allEdges_z, List.filter_map, List.length_map, ← h1]
    congr 1
    refine List.filter_congr fun d _ => ?_
    simp only [Function.comp]
    rw [Bool.eq_iff_iff, Bool.and_eq_true, Bool.and_eq_true, decide_eq_true_iff, decide_eq_true_iff, Bool.not_eq_true', decide_eq_false_iff_not, zOn_iff, ← parallel_iff,
      ← end_iff]
  · rcases Bool.or_eq_true _ _ ▸ h2 with h2 | h2
    · left
      obtain ⟨d, hd, h3⟩ := List.any_eq_true.1 h2
      rw [Bool.and_eq_true, Bool.and_eq_true, Bool.or_eq_true, decide_eq_true_iff, decide_eq_true_iff, zOn_iff, ne_eq, ← parallel_iff, Bool.or_eq_true, ← end_iff] at h3
      refine ⟨zEdge d, hmem hd, h3.1, h3.2.1, ?_⟩
      rcases h3.2.2 with k | k
      · exact ⟨_, Or.inl rfl, leftOf_of_check k⟩
      · exact ⟨_, Or.inr rfl, leftOf_of_check k⟩
    · right
      obtain ⟨d, hd, h3⟩ := List.any_eq_true.1 h2
      rw [Bool.or_eq_true, Bool.and_eq_true, Bool.and_eq_true, decide_eq_true_iff, decide_eq_true_iff] at h3
      rcases h3 with ⟨k, k'⟩ | ⟨k, k'⟩ <;> obtain ⟨l, r, hr, hl, hc⟩ := notAbove_of_check k'
      · exact ⟨r, hr, hl, zEdge d, hmem hd, end_iff.2 (Or.inl k), _, Or.inr rfl, l, hc⟩
      · exact ⟨r, hr, hl, zEdge d, hmem hd, end_iff.2 (Or.inr k), _, Or.inl rfl, l, hc⟩

/-- The check is enough. -/
theorem crossed_of_check {polys polys' : List (List (List ZPt) × PolygonMode)} (h : crossedCheck polys polys' = true) :
    Crossed (polys.map fun p => (zPolygon p.1, p.2)) (polys'.map fun p => (zPolygon p.1, p.2)) := by
  unfold crossedCheck at h
  rw [Bool.and_eq_true, Bool.and_eq_true] at h
  obtain ⟨⟨h1, h2⟩, h3⟩ := h
  refine ⟨refines_of_check _ _ h1, planar_of_check h2, ?_⟩
  intro e he q hq hon hn
  rw [allEdges_z] at he
  rw [allCorners_z] at hq
  obtain ⟨e, he', rfl⟩ := List.mem_map.1 he
  obtain ⟨q, hq', rfl⟩ := List.mem_map.1 hq
  have := List.all_eq_true.1 (List.all_eq_true.1 h3 e he') q hq'
  rw [zOn_iff.2 hon] at this
  simp only [Bool.not_true, Bool.false_or, Bool.or_eq_true, decide_eq_true_iff] at this
  rcases this with (rfl | rfl) | k
  · exact absurd (Or.inl rfl) hn
  · exact absurd (Or.inr rfl) hn
  · exact met_of_check k

/-! ### The library -/

theorem listLib_honest : listLib.SearchHonest := by
  intro α cmp x l h
  have key : ∀ (l : List α) (i : ℕ), (∀ y ∈ l, ∃ o, cmp y x = .ok o ∧ o ≠ .eq) →
      ∃ k, k ≤ i + l.length ∧ linearSearch cmp x i l = .ok (false, k) := by
    intro l
    induction l with
    | nil => intro i _; exact ⟨i, by simp, rfl⟩
    | cons y l ih =>
      intro i h
      obtain ⟨o, h1, h2⟩ := h y (by simp)
      rw [linearSearch, h1]
      simp only [Res.bind_ok]
      cases o with
      | lt =>
        obtain ⟨k, k1, k2⟩ := ih (i + 1) fun z hz => h z (by simp [hz])
        exact ⟨k, by rw [List.length_cons]; omega, k2⟩
      | eq => exact absurd rfl h2
      | gt => exact ⟨i, by omega, rfl⟩
  obtain ⟨k, h1, h2⟩ := key l 0 h
  exact ⟨k, by omega, h2⟩

/-! ### A sample -/

/-- Two rectangles that cross, a polygon that crosses itself and both, whose interior is removed, a triangle with an edge through the point where
that polygon crosses itself, and a square that touches the first rectangle with a corner. -/
def crossSample : List (List (List ZPt) × PolygonMode) :=
  [([[(0, 0), (100, 0), (100, 60), (0, 60)]], .normal),
   ([[(40, 20), (140, 20), (140, 100), (40, 100)]], .normal),
   ([[(20, -30), (130, 80), (130, -20), (20, 90)]], .removeInterior),
   ([[(70, 30), (90, 30), (80, 40)]], .normal),
   ([[(-20, 30), (-10, 20), (0, 30), (-10, 40)]], .normal)]

/-- The same with corners where edges cross and where the square touches the rectangle. -/
def crossSampleCut : List (List (List ZPt) × PolygonMode) :=
  [([[(0, 0), (20, 0), (50, 0), (100, 0), (100, 10), (100, 20), (100, 50), (100, 60), (50, 60), (40, 60), (20, 60), (0, 60), (0, 30)]], .normal),
   ([[(40, 20), (70, 20), (90, 20), (100, 20), (130, 20), (140, 20), (140, 100), (40, 100), (40, 70), (40, 60)]], .normal),
   ([[(20, -30), (50, 0), (70, 20), (80, 30), (85, 35), (100, 50), (130, 80), (130, 20), (130, -20), (100, 10), (90, 20), (80, 30), (75, 35), (50, 60), (40, 70),
      (20, 90), (20, 60), (20, 0)]], .removeInterior),
   ([[(70, 30), (80, 30), (90, 30), (85, 35), (80, 40), (75, 35)]], .normal),
   ([[(-20, 30), (-10, 20), (0, 30), (-10, 40)]], .normal)]

theorem C84_hypotheses_met : Crossed (crossSample.map fun p => (zPolygon p.1, p.2)) (crossSampleCut.map fun p => (zPolygon p.1, p.2)) ∧
    (∀ p ∈ crossSample.map fun p => (zPolygon p.1, p.2), p.2 ≠ .removeEdges) ∧ listLib.Lawful ∧ listLib.SearchHonest := by
  refine ⟨crossed_of_check (by decide +kernel), ?_, listLib_lawful, listLib_honest⟩
  intro p hp
  obtain ⟨q, hq, rfl⟩ := List.mem_map.1 hp
  simp only [crossSample, List.mem_cons, List.not_mem_nil, or_false] at hq
  rcases hq with rfl | rfl | rfl | rfl | rfl <;> simp

/-- A square; one that stands on a part of its upper edge; a triangle with a corner on the upper edge of that one, below; and a wide one below the first square,
along its whole lower edge. -/
def overlapSample : List (List (List ZPt) × PolygonMode) :=
  [([[(0, 0), (100, 0), (100, 60), (0, 60)]], .normal),
   ([[(20, 60), (70, 60), (70, 100), (20, 100)]], .normal),
   ([[(40, 100), (50, 70), (60, 70)]], .normal),
   ([[(-20, -40), (120, -40), (120, 0), (-20, 0)]], .normal)]

def overlapSampleCut : List (List (List ZPt) × PolygonMode) :=
  [([[(0, 0), (100, 0), (100, 60), (70, 60), (20, 60), (0, 60)]], .normal),
   ([[(20, 60), (70, 60), (70, 100), (40, 100), (20, 100)]], .normal),
   ([[(40, 100), (50, 70), (60, 70)]], .normal),
   ([[(-20, -40), (120, -40), (120, 0), (100, 0), (0, 0), (-20, 0)]], .normal)]

/-- Edges that run along others, and corners from which all edges go to the right. -/
theorem C84_overlap_hypotheses_met : Crossed (overlapSample.map fun p => (zPolygon p.1, p.2)) (overlapSampleCut.map fun p => (zPolygon p.1, p.2)) ∧
    ∀ p ∈ overlapSample.map fun p => (zPolygon p.1, p.2), p.2 = .normal := by
  refine ⟨crossed_of_check (by decide +kernel), ?_⟩
  intro p hp
  obtain ⟨q, hq, rfl⟩ := List.mem_map.1 hp
  simp only [overlapSample, List.mem_cons, List.not_mem_nil, or_false] at hq
  rcases hq with rfl | rfl | rfl | rfl <;> simp

/-- The two rectangles alone: all polygons are normal ones. -/
theorem C84_edges_kept_hypotheses_met :
    Crossed ((crossSample.take 2).map fun p => (zPolygon p.1, p.2))
      (([([[(0, 0), (100, 0), (100, 20), (100, 60), (40, 60), (0, 60)]], .normal),
        ([[(40, 20), (100, 20), (140, 20), (140, 100), (40, 100), (40, 60)]], .normal)] : List (List (List ZPt) × PolygonMode)).map
          fun p => (zPolygon p.1, p.2)) ∧
    ∀ p ∈ (crossSample.take 2).map fun p => (zPolygon p.1, p.2), p.2 = .normal := by
  refine ⟨crossed_of_check (by decide +kernel), ?_⟩
  intro p hp
  obtain ⟨q, hq, rfl⟩ := List.mem_map.1 hp
  simp only [crossSample, List.take, List.mem_cons, List.not_mem_nil, or_false] at hq
  rcases hq with rfl | rfl <;> simp

end Idc
