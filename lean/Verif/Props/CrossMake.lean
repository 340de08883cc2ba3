import Verif.Props.CrossLine
import Verif.Props.PlanExample
import Mathlib.Data.Finset.Sort
/-!
# The crossings of outlines, made corners, for C84
-/

namespace Idc

/-! ### Chains -/

/-- The pairs of neighbors in a list, the last element with `z`. -/
def link {α : Type} : List α → α → List (α × α)
  | [], _ => []
  | [x], z => [(x, z)]
  | x :: y :: l, z => (x, y) :: link (y :: l) z

theorem link_zip {α : Type} (x : α) (l : List α) (z : α) : (x :: l).zip (l ++ [z]) = link (x :: l) z := by
  induction l generalizing x with
  | nil => rfl
  | cons y l ih =>
    show (x, y) :: (y :: l).zip (l ++ [z]) = _
    rw [ih]; rfl

theorem closedEdges_link (x : Pt ℝ) (l : List (Pt ℝ)) : closedEdges (x :: l) = link (x :: l) x := by
  unfold closedEdges
  rw [← link_zip]
  simp

theorem link_append {α : Type} (l : List α) (y : α) (m : List α) (z : α) : link (l ++ y :: m) z = link l y ++ link (y :: m) z := by
  induction l with
  | nil => rfl
  | cons x l ih =>
    cases l with
    | nil => rfl
    | cons w l => 
      show (x, w) :: link (w :: l ++ y :: m) z = _
      rw [ih]; rfl

theorem link_map {α β : Type} (f : α → β) (l : List α) (z : α) : link (l.map f) (f z) = (link l z).map fun p => (f p.1, f p.2) := by
  induction l with
  | nil => rfl
  | cons x l ih =>
    cases l with
    | nil => rfl
    | cons w l =>
      show (f x, f w) :: link ((w :: l).map f) (f z) = _
      rw [ih]; rfl

theorem link_blocks {α : Type} (g : α × α → List α) (l : List α) (z : α) :
    link ((link l z).flatMap fun e => e.1 :: g e) z = (link l z).flatMap fun e => link (e.1 :: g e) e.2 := by
  induction l with
  | nil => rfl
  | cons x l ih =>
    cases l with
    | nil => simp [link]
    | cons w l =>
      have : ∃ m, ((link (w :: l) z).flatMap fun e => e.1 :: g e) = w :: m := by
        cases l <;> exact ⟨_, rfl⟩
      obtain ⟨m, hm⟩ := this
      show link (((x, w) :: link (w :: l) z).flatMap fun e => e.1 :: g e) z = ((x, w) :: link (w :: l) z).flatMap fun e => link (e.1 :: g e) e.2
      rw [List.flatMap_cons, List.flatMap_cons, ← ih, hm, link_append]

/-- What is true of the links of a growing list. -/
theorem link_mem {l : List ℝ} {z : ℝ} (hl : l.Pairwise (· < ·)) (hz : ∀ w ∈ l, w < z) :
    (∀ p ∈ link l z, p.1 < p.2 ∧ p.1 ∈ l ∧ (p.2 ∈ l ∨ p.2 = z) ∧ ∀ w ∈ l, w ≤ p.1 ∨ p.2 ≤ w) ∧ (link l z).Pairwise fun p p' => p.2 ≤ p'.1 := by
  induction l with
  | nil => exact ⟨fun p hp => by simp [link] at hp, List.Pairwise.nil⟩
  | cons x l ih =>
    cases l with
    | nil =>
      refine ⟨?_, List.pairwise_singleton _ _⟩
      intro p hp
      have : p = (x, z) := by simpa [link] using hp
      subst this
      refine ⟨hz x (by simp), by simp, Or.inr rfl, ?_⟩
      intro w hw
      rw [List.mem_singleton] at hw
      exact Or.inl hw.le
    | cons y l =>
      obtain ⟨i1, i2⟩ := ih hl.of_cons fun w hw => hz w (List.mem_cons_of_mem _ hw)
      have hx := (List.pairwise_cons.1 hl).1
      have hy := (List.pairwise_cons.1 hl.of_cons).1
      constructor
      · intro p hp
        rcases List.mem_cons.1 (show p ∈ (x, y) :: link (y :: l) z from hp) with rfl | hp
        · refine ⟨hx y (by simp), by simp, Or.inl (by simp), ?_⟩
          intro w hw
          rcases List.mem_cons.1 hw with rfl | hw
          · exact Or.inl le_rfl
          · rcases List.mem_cons.1 hw with rfl | hw
            · exact Or.inr le_rfl
            · exact Or.inr (hy w hw).le
        · obtain ⟨a, b, c, d⟩ := i1 p hp
          refine ⟨a, List.mem_cons_of_mem _ b, c.imp (List.mem_cons_of_mem _) id, ?_⟩
          intro w hw
          rcases List.mem_cons.1 hw with rfl | hw
          · exact Or.inl (hx _ b).le
          · exact d w hw
      · refine List.pairwise_cons.2 ⟨?_, i2⟩
        intro p hp
        have := (i1 p hp).2.1
        rcases List.mem_cons.1 this with e | e
        · exact e.ge
        · exact (hy _ e).le

theorem link_pieces {e : Pt ℝ × Pt ℝ} (he : e.1 ≠ e.2) {l : List ℝ} {x z : ℝ} (hl : (x :: l).Pairwise (· < ·)) (hz : ∀ w ∈ x :: l, w < z) :
    Pieces (along e x) (along e z) ((link (x :: l) z).map fun p => (along e p.1, along e p.2)) := by
  induction l generalizing x with
  | nil => exact Pieces.whole _ _
  | cons y l ih =>
    have hxy : x < y := (List.pairwise_cons.1 hl).1 y (by simp)
    have hyz : y < z := hz y (by simp)
    refine Pieces.step ?_ ?_ ?_ (ih hl.of_cons fun w hw => hz w (List.mem_cons_of_mem _ hw))
    · exact on_within rfl rfl (Or.inl ⟨hxy.trans hyz, hxy.le, hyz.le⟩)
    · exact fun h => hxy.ne' (along_inj he h)
    · exact fun h => hyz.ne (along_inj he h)

/-! ### Parallel edges -/

theorem parallel_symm {e e' : Pt ℝ × Pt ℝ} (h : ParallelEdges e e') : ParallelEdges e' e := by
  unfold ParallelEdges at h ⊢; linarith

theorem parallel_trans {e e₁ e₂ : Pt ℝ × Pt ℝ} (he : e.1 ≠ e.2) (h1 : ParallelEdges e e₁) (h2 : ParallelEdges e e₂) : ParallelEdges e₁ e₂ := by
  unfold ParallelEdges at *
  by_cases hx : e.2.x - e.1.x = 0
  · have hy : e.2.y - e.1.y ≠ 0 := fun hy => he (pt_ext (by linarith) (by linarith))
    apply mul_left_cancel₀ hy
    linear_combination (e₁.2.y - e₁.1.y) * h2 - (e₂.2.y - e₂.1.y) * h1
  · apply mul_left_cancel₀ hx
    linear_combination (e₁.2.x - e₁.1.x) * h2 - (e₂.2.x - e₂.1.x) * h1

/-- The direction of a part of an edge. -/
theorem part_dir {e d : Pt ℝ × Pt ℝ} (h1 : OnSegment e d.1) (h2 : OnSegment e d.2) (hd : d.1 ≠ d.2) :
    ∃ k : ℝ, k ≠ 0 ∧ d.2.x - d.1.x = k * (e.2.x - e.1.x) ∧ d.2.y - d.1.y = k * (e.2.y - e.1.y) := by
  obtain ⟨s, _, _, hs⟩ := on_along.1 h1
  obtain ⟨t, _, _, ht⟩ := on_along.1 h2
  refine ⟨t - s, ?_, ?_, ?_⟩
  · intro h
    apply hd
    rw [hs, ht, sub_eq_zero.1 h]
  · rw [hs, ht]; simp only [along]; ring
  · rw [hs, ht]; simp only [along]; ring

theorem part_proper {e d : Pt ℝ × Pt ℝ} (h1 : OnSegment e d.1) (h2 : OnSegment e d.2) (hd : d.1 ≠ d.2) : e.1 ≠ e.2 := by
  intro h
  obtain ⟨k, _, hx, hy⟩ := part_dir h1 h2 hd
  rw [h] at hx hy
  exact hd (pt_ext (by linarith) (by linarith))

theorem part_parallel {e d : Pt ℝ × Pt ℝ} (h1 : OnSegment e d.1) (h2 : OnSegment e d.2) (hd : d.1 ≠ d.2) : ParallelEdges e d := by
  obtain ⟨k, _, hx, hy⟩ := part_dir h1 h2 hd
  unfold ParallelEdges
  rw [hx, hy]; ring

theorem end_of_on {d : Pt ℝ × Pt ℝ} : OnSegment d d.1 ∧ OnSegment d d.2 :=
  ⟨on_along.2 ⟨0, le_rfl, zero_le_one, (along_zero d).symm⟩, on_along.2 ⟨1, zero_le_one, le_rfl, (along_one d).symm⟩⟩

theorem on_swap {d : Pt ℝ × Pt ℝ} {q : Pt ℝ} (h : OnSegment d q) : OnSegment d.swap q := by
  obtain ⟨t, h0, h1, hx, hy⟩ := h
  refine ⟨1 - t, by linarith, by linarith, ?_, ?_⟩
  · rw [hx]; simp only [Prod.fst_swap, Prod.snd_swap]; ring
  · rw [hy]; simp only [Prod.fst_swap, Prod.snd_swap]; ring

/-- A point of a part is a point of the whole. -/
theorem on_part {e d : Pt ℝ × Pt ℝ} (h1 : OnSegment e d.1) (h2 : OnSegment e d.2) {q : Pt ℝ} (hq : OnSegment d q) : OnSegment e q := by
  obtain ⟨s, s0, s1, hs⟩ := on_along.1 h1
  obtain ⟨t, t0, t1, ht⟩ := on_along.1 h2
  obtain ⟨r, r0, r1, hr⟩ := on_along.1 hq
  refine on_along.2 ⟨s + r * (t - s), by nlinarith, by nlinarith, ?_⟩
  rw [hr]
  unfold along
  rw [hs, ht]
  simp only [along]
  refine pt_ext ?_ ?_ <;> ring

/-! ### Pieces of edges -/

variable {polys : List (Polygon ℝ × PolygonMode)}

theorem mem_corners {e : Pt ℝ × Pt ℝ} (h : e ∈ allEdges polys) : e.1 ∈ allCorners polys ∧ e.2 ∈ allCorners polys := by
  unfold allEdges Polygon.edges at h
  obtain ⟨p, hp, h⟩ := List.mem_flatMap.1 h
  obtain ⟨c, hc, h⟩ := List.mem_flatMap.1 h
  have := closed_fst h
  exact ⟨List.mem_flatMap.2 ⟨p, hp, List.mem_flatMap.2 ⟨c, hc, this.1⟩⟩, List.mem_flatMap.2 ⟨p, hp, List.mem_flatMap.2 ⟨c, hc, this.2⟩⟩⟩

theorem corner_edge {q : Pt ℝ} (h : q ∈ allCorners polys) : ∃ e ∈ allEdges polys, e.1 = q := by
  obtain ⟨p, hp, h⟩ := List.mem_flatMap.1 h
  obtain ⟨c, hc, h⟩ := List.mem_flatMap.1 h
  obtain ⟨i, hi, e⟩ := List.getElem_of_mem h
  have hl : i < (closedEdges c.points).length := by unfold closedEdges; simpa using hi
  refine ⟨(closedEdges c.points)[i], List.mem_flatMap.2 ⟨p, hp, List.mem_flatMap.2 ⟨c, hc, List.getElem_mem hl⟩⟩, ?_⟩
  rw [← e]
  exact congrArg Prod.fst (List.getElem_zip (l := c.points) (l' := c.points.rotate 1) (h := hl))

theorem EdgePiece.swap {d : Pt ℝ × Pt ℝ} (h : EdgePiece polys d) : EdgePiece polys d.swap := by
  refine ⟨h.ne.symm, h.ends.symm, ?_, fun q hq hon => (h.clear q hq ?_).symm⟩
  · obtain ⟨e, he, h1, h2⟩ := h.on
    exact ⟨e, he, h2, h1⟩
  · have := on_swap hon
    rwa [Prod.swap_swap] at this

/-- Pieces that share a point that is no corner or crossing are the same. -/
theorem EdgePiece.same {d d' : Pt ℝ × Pt ℝ} (h : EdgePiece polys d) (h' : EdgePiece polys d') {m : Pt ℝ} (hm : OnSegment d m) (hm' : OnSegment d' m) (hv : ¬ Vertex polys m) :
    d' = d ∨ d' = d.swap := by
  have hn : ¬ EndOf d m := by rintro (rfl | rfl) <;> [exact hv h.ends.1; exact hv h.ends.2]
  have hn' : ¬ EndOf d' m := by rintro (rfl | rfl) <;> [exact hv h'.ends.1; exact hv h'.ends.2]
  obtain ⟨e, he, e1, e2⟩ := h.on
  obtain ⟨e', he', e1', e2'⟩ := h'.on
  have hp : ParallelEdges e e' := by
    by_contra hc
    exact hv (Or.inr ⟨fun k => hv (Or.inl k), e, he, e', he', on_part e1 e2 hm, on_part e1' e2' hm', hc⟩)
  have hp' : ParallelEdges d d' := by
    refine parallel_trans (part_proper e1 e2 h.ne) (part_parallel e1 e2 h.ne) ?_
    exact parallel_trans (part_proper e1' e2' h'.ne) (parallel_symm hp) (part_parallel e1' e2' h'.ne)
  refine same_of_overlap h.ne h'.ne hm hm' hp' ?_ ?_ hn hn'
  · rintro q (rfl | rfl) hq
    · exact h.clear _ h'.ends.1 hq
    · exact h.clear _ h'.ends.2 hq
  · rintro q (rfl | rfl) hq
    · exact h'.clear _ h.ends.1 hq
    · exact h'.clear _ h.ends.2 hq

/-! ### The cut polygons -/

/-- The positions of the corners and crossings along an edge, without its ends. -/
def spots (polys : List (Polygon ℝ × PolygonMode)) (e : Pt ℝ × Pt ℝ) : Set ℝ := {t | e.1 ≠ e.2 ∧ 0 < t ∧ t < 1 ∧ Vertex polys (along e t)}

theorem spots_improper {e : Pt ℝ × Pt ℝ} (h : e.1 = e.2) : spots polys e = ∅ := by
  ext t
  exact ⟨fun k => k.1 h, fun h => h.elim⟩

theorem spots_finite {e : Pt ℝ × Pt ℝ} : (spots polys e).Finite := by
  by_cases hne : e.1 = e.2
  · rw [spots_improper hne]; exact Set.finite_empty
  have h1 : (⋃ f ∈ {f | f ∈ allEdges polys}, {t : ℝ | 0 ≤ t ∧ t ≤ 1 ∧ OnSegment f (along e t) ∧ ¬ ParallelEdges e f}).Finite := by
    refine Set.Finite.biUnion (List.finite_toSet _) ?_
    intro f _
    refine Set.Subsingleton.finite ?_
    intro s hs t ht
    by_contra hst
    refine hs.2.2.2 (parallel_of_two (u := along e s) (v := along e t) ?_ ?_ hs.2.2.1 ht.2.2.1 fun h => hst (along_inj hne h))
    · exact on_along.2 ⟨s, hs.1, hs.2.1, rfl⟩
    · exact on_along.2 ⟨t, ht.1, ht.2.1, rfl⟩
  have h2 : {t : ℝ | along e t ∈ allCorners polys}.Finite :=
    (List.finite_toSet (allCorners polys)).preimage fun s _ t _ h => along_inj hne h
  refine (h1.union h2).subset ?_
  rintro t ⟨_, t0, t1, hv | ⟨_, f, hf, f', hf', o, o', hp⟩⟩
  · exact Or.inr hv
  left
  by_cases hpf : ParallelEdges e f
  · have : ¬ ParallelEdges e f' := fun k => hp (parallel_trans hne hpf k)
    exact Set.mem_biUnion (x := f') hf' ⟨t0.le, t1.le, o', this⟩
  · exact Set.mem_biUnion (x := f) hf ⟨t0.le, t1.le, o, hpf⟩

open Classical in
/-- The positions of the crossings along an edge, in order. -/
noncomputable def marks (polys : List (Polygon ℝ × PolygonMode)) (e : Pt ℝ × Pt ℝ) : List ℝ :=
  if h : (spots polys e).Finite then h.toFinset.sort else []

theorem mem_marks {e : Pt ℝ × Pt ℝ} {t : ℝ} : t ∈ marks polys e ↔ e.1 ≠ e.2 ∧ 0 < t ∧ t < 1 ∧ Vertex polys (along e t) := by
  unfold marks
  rw [dif_pos (spots_finite), Finset.mem_sort, Set.Finite.mem_toFinset]
  rfl

theorem marks_sorted (e : Pt ℝ × Pt ℝ) : (marks polys e).Pairwise (· < ·) := by
  unfold marks
  split
  · exact (Finset.sortedLT_sort _).pairwise
  · exact List.Pairwise.nil

theorem marks_link (e : Pt ℝ × Pt ℝ) : (0 :: marks polys e).Pairwise (· < ·) ∧ ∀ w ∈ 0 :: marks polys e, w < 1 := by
  refine ⟨List.pairwise_cons.2 ⟨fun w hw => (mem_marks.1 hw).2.1, marks_sorted e⟩, ?_⟩
  intro w hw
  rcases List.mem_cons.1 hw with rfl | hw
  · exact zero_lt_one
  · exact (mem_marks.1 hw).2.2.1

/-- The pieces of an edge. -/
noncomputable def cutEdge (polys : List (Polygon ℝ × PolygonMode)) (e : Pt ℝ × Pt ℝ) : List (Pt ℝ × Pt ℝ) :=
  link (e.1 :: (marks polys e).map (along e)) e.2

theorem cutEdge_map (e : Pt ℝ × Pt ℝ) : cutEdge polys e = (link (0 :: marks polys e) 1).map fun p => (along e p.1, along e p.2) := by
  unfold cutEdge
  rw [← link_map, List.map_cons, along_zero, along_one]

theorem marks_improper {e : Pt ℝ × Pt ℝ} (h : e.1 = e.2) : marks polys e = [] := by
  rw [List.eq_nil_iff_forall_not_mem]
  intro t ht
  have : t ∈ spots polys e := mem_marks.1 ht
  rw [spots_improper h] at this
  exact this

theorem cutEdge_improper {e : Pt ℝ × Pt ℝ} (h : e.1 = e.2) : cutEdge polys e = [e] := by
  unfold cutEdge
  rw [marks_improper h]
  rfl

theorem cutEdge_pieces (e : Pt ℝ × Pt ℝ) : Pieces e.1 e.2 (cutEdge polys e) := by
  by_cases hne : e.1 = e.2
  · rw [cutEdge_improper hne]; exact Pieces.whole _ _
  · obtain ⟨h1, h2⟩ := marks_link e
    have := link_pieces hne h1 h2
    rw [along_zero, along_one, ← cutEdge_map] at this
    exact this

/-- The outline with the crossings. -/
noncomputable def cutRing (polys : List (Polygon ℝ × PolygonMode)) (ps : List (Pt ℝ)) : List (Pt ℝ) :=
  (closedEdges ps).flatMap fun e => e.1 :: (marks polys e).map (along e)

theorem closed_cutRing (ps : List (Pt ℝ)) : closedEdges (cutRing polys ps) = (closedEdges ps).flatMap (cutEdge polys) := by
  cases ps with
  | nil => rfl
  | cons x l =>
    have h : ∃ m, cutRing polys (x :: l) = x :: m := by
      unfold cutRing
      rw [closedEdges_link]
      cases l <;> exact ⟨_, rfl⟩
    obtain ⟨m, hm⟩ := h
    rw [hm, closedEdges_link, ← hm]
    unfold cutRing
    rw [closedEdges_link]
    exact link_blocks (fun e => (marks polys e).map (along e)) (x :: l) x

/-- The polygons with the crossings as corners. -/
noncomputable def cutAll (polys : List (Polygon ℝ × PolygonMode)) : List (Polygon ℝ × PolygonMode) :=
  polys.map fun p => (⟨p.1.contours.map fun c => { c with points := cutRing polys c.points }⟩, p.2)

theorem cut_edges (p : Polygon ℝ) : (⟨p.contours.map fun c => { c with points := cutRing polys c.points }⟩ : Polygon ℝ).edges = p.edges.flatMap (cutEdge polys) := by
  unfold Polygon.edges
  dsimp only
  rw [List.flatMap_map, List.flatMap_assoc]
  congr 1
  funext c
  exact closed_cutRing c.points

theorem cutAll_edges : allEdges (cutAll polys) = (allEdges polys).flatMap (cutEdge polys) := by
  unfold cutAll allEdges
  rw [List.flatMap_map, List.flatMap_assoc]
  congr 1
  funext p
  exact cut_edges p.1

theorem mem_cutAll_corners {q : Pt ℝ} : q ∈ allCorners (cutAll polys) ↔ Vertex polys q := by
  have h1 : q ∈ allCorners (cutAll polys) ↔ ∃ e ∈ allEdges polys, q ∈ e.1 :: (marks polys e).map (along e) := by
    unfold cutAll allCorners allEdges Polygon.edges cutRing
    simp only [List.mem_flatMap, List.mem_map]
    constructor
    · rintro ⟨_, ⟨p, hp, rfl⟩, c', hc', hq⟩
      obtain ⟨c, hc, rfl⟩ := List.mem_map.1 hc'
      obtain ⟨e, he, hq⟩ := List.mem_flatMap.1 hq
      exact ⟨e, ⟨p, hp, c, hc, he⟩, hq⟩
    · rintro ⟨e, ⟨p, hp, c, hc, he⟩, hq⟩
      exact ⟨_, ⟨p, hp, rfl⟩, _, List.mem_map.2 ⟨c, hc, rfl⟩, List.mem_flatMap.2 ⟨e, he, hq⟩⟩
  rw [h1]
  constructor
  · rintro ⟨e, he, hq⟩
    rcases List.mem_cons.1 hq with rfl | hq
    · exact Or.inl (mem_corners he).1
    · obtain ⟨t, ht, rfl⟩ := List.mem_map.1 hq
      exact (mem_marks.1 ht).2.2.2
  · rintro (hq | hq)
    · obtain ⟨e, he, rfl⟩ := corner_edge hq
      exact ⟨e, he, by simp⟩
    · obtain ⟨hn, e, he, e', he', o, o', hp⟩ := hq
      refine ⟨e, he, List.mem_cons_of_mem _ ?_⟩
      obtain ⟨t, t0, t1, rfl⟩ := on_along.1 o
      refine List.mem_map.2 ⟨t, mem_marks.2 ⟨?_, lt_of_le_of_ne t0 ?_, lt_of_le_of_ne t1 ?_, Or.inr ⟨hn, e, he, e', he', o, o', hp⟩⟩, rfl⟩
      · intro k
        refine hp ?_
        unfold ParallelEdges
        rw [k, sub_self, sub_self, zero_mul, zero_mul]
      · rintro rfl
        exact hn (by rw [along_zero]; exact (mem_corners he).1)
      · rintro rfl
        exact hn (by rw [along_one]; exact (mem_corners he).2)

/-- The pieces of edges are pieces. -/
theorem cutEdge_piece {e : Pt ℝ × Pt ℝ} (he : e ∈ allEdges polys) (hne : e.1 ≠ e.2) {d : Pt ℝ × Pt ℝ} (hd : d ∈ cutEdge polys e) : EdgePiece polys d := by
  have hP := cutEdge_pieces (polys := polys) e
  have hon := hP.on d hd
  refine ⟨hP.proper hne d hd, ?_, ⟨e, he, hon⟩, ?_⟩
  all_goals
    rw [cutEdge_map] at hd
    obtain ⟨p, hp, rfl⟩ := List.mem_map.1 hd
    obtain ⟨k1, k2⟩ := marks_link e
    obtain ⟨a1, a2, a3, a4⟩ := (link_mem k1 k2).1 p hp
  · have ver : ∀ w, w ∈ 0 :: marks polys e → Vertex polys (along e w) := by
      intro w hw
      rcases List.mem_cons.1 hw with rfl | hw
      · rw [along_zero]; exact Or.inl (mem_corners he).1
      · exact (mem_marks.1 hw).2.2.2
    refine ⟨ver _ a2, ?_⟩
    rcases a3 with a3 | a3
    · exact ver _ a3
    · dsimp only; rw [a3, along_one]; exact Or.inl (mem_corners he).2
  · intro q hq hon'
    obtain ⟨r, r0, r1, hr⟩ := on_along.1 hon'
    have hqe : q = along e (p.1 + r * (p.2 - p.1)) := by
      rw [hr]; simp only [along]; refine pt_ext ?_ ?_ <;> ring
    generalize hw : p.1 + r * (p.2 - p.1) = w at hqe
    have w1 : p.1 ≤ w := by nlinarith
    have w2 : w ≤ p.2 := by nlinarith
    have p0 : 0 ≤ p.1 := by
      rcases List.mem_cons.1 a2 with k | k
      · exact k.ge
      · exact (mem_marks.1 k).2.1.le
    have p1 : p.2 ≤ 1 := by
      rcases a3 with k | k
      · exact (k2 _ k).le
      · exact k.le
    have fin : w ≤ p.1 ∨ p.2 ≤ w → EndOf (along e p.1, along e p.2) q := by
      rintro (k | k)
      · left; rw [hqe, le_antisymm k w1]
      · right; rw [hqe, le_antisymm w2 k]
    rw [hqe] at hq
    by_cases w0 : w = 0
    · exact fin (Or.inl (by linarith))
    by_cases w1' : w = 1
    · exact fin (Or.inr (by linarith))
    have : w ∈ marks polys e := mem_marks.2 ⟨hne, lt_of_le_of_ne (by linarith) (Ne.symm w0), lt_of_le_of_ne (by linarith) w1', hq⟩
    exact fin (a4 w (List.mem_cons_of_mem _ this))

theorem cutAll_drawn {d : Pt ℝ × Pt ℝ} : Drawn (cutAll polys) d ↔ EdgePiece polys d := by
  constructor
  · rintro ⟨hne, hd⟩
    rw [cutAll_edges] at hd
    have key : ∀ {u : Pt ℝ × Pt ℝ}, u.1 ≠ u.2 → u ∈ (allEdges polys).flatMap (cutEdge polys) → EdgePiece polys u := by
      intro u hu h
      obtain ⟨e, he, h⟩ := List.mem_flatMap.1 h
      have := (cutEdge_pieces e).on u h
      exact cutEdge_piece he (part_proper this.1 this.2 hu) h
    rcases hd with hd | hd
    · exact key hne hd
    · have := (key (u := d.swap) hne.symm hd).swap
      rwa [Prod.swap_swap] at this
  · intro h
    refine ⟨h.ne, ?_⟩
    obtain ⟨e, he, e1, e2⟩ := h.on
    obtain ⟨m1, m2⟩ := middle_on (end_of_on (d := d)).1 end_of_on.2 h.ne
    have mv : ¬ Vertex polys ⟨(d.1.x + d.2.x) / 2, (d.1.y + d.2.y) / 2⟩ := fun k => m2 (h.clear _ k m1)
    obtain ⟨d', hd', o⟩ := (cutEdge_pieces e).cover _ (on_part e1 e2 m1)
    have h' := cutEdge_piece he (part_proper e1 e2 h.ne) hd'
    have hd' : d' ∈ allEdges (cutAll polys) := by rw [cutAll_edges]; exact List.mem_flatMap.2 ⟨e, he, hd'⟩
    rcases h.same h' m1 o mv with rfl | rfl
    · exact Or.inl hd'
    · exact Or.inr hd'

theorem nearly_scale {e e' d d' : Pt ℝ × Pt ℝ} {k k' : ℝ} (hk : k ≠ 0) (hk' : k' ≠ 0) (hx : d.2.x - d.1.x = k * (e.2.x - e.1.x)) (hy : d.2.y - d.1.y = k * (e.2.y - e.1.y))
    (hx' : d'.2.x - d'.1.x = k' * (e'.2.x - e'.1.x)) (hy' : d'.2.y - d'.1.y = k' * (e'.2.y - e'.1.y)) :
    (ParallelEdges d d' ↔ ParallelEdges e e') ∧ (NearlyParallel d d' ↔ NearlyParallel e e') := by
  constructor
  · unfold ParallelEdges
    rw [hx, hy, hx', hy']
    constructor
    · intro h
      apply mul_left_cancel₀ (mul_ne_zero hk hk')
      linear_combination h
    · intro h
      linear_combination (k * k') * h
  · unfold NearlyParallel
    rw [hx, hy, hx', hy']
    have hp : 0 < (k * k') ^ 2 := by positivity
    rw [← mul_le_mul_iff_right₀ hp (b := ((e.2.x - e.1.x) * (e'.2.y - e'.1.y) - (e.2.y - e.1.y) * (e'.2.x - e'.1.x)) ^ 2)]
    constructor <;> intro h <;> linarith

theorem clearly_scale {e d : Pt ℝ × Pt ℝ} {k : ℝ} (hk : k ≠ 0) (hx : d.2.x - d.1.x = k * (e.2.x - e.1.x)) (hy : d.2.y - d.1.y = k * (e.2.y - e.1.y)) {a b : Pt ℝ} :
    ClearlyOff d a b ↔ ClearlyOff e a b := by
  unfold ClearlyOff
  rw [hx, hy]
  have hp : 0 < k ^ 2 := by positivity
  rw [← mul_lt_mul_iff_right₀ hp (c := ((b.x - a.x) * (e.2.y - e.1.y) - (b.y - a.y) * (e.2.x - e.1.x)) ^ 2)]
  constructor <;> intro h <;> linarith

/-- The polygons with the crossings as corners do not cross. -/
theorem cutAll_planar (hC : Crossing polys) : Planar (cutAll polys) := by
  refine ⟨hC.separate.mono (fun q hq => mem_cutAll_corners.1 hq) fun e he => cutAll_drawn.1 he, ?_, ?_, ?_, ?_⟩
  · intro p' hp'
    obtain ⟨p, hp, rfl⟩ := List.mem_map.1 hp'
    dsimp only
    rw [cut_edges, List.pairwise_flatMap]
    have mem : ∀ e ∈ p.1.edges, e ∈ allEdges polys := fun e he => List.mem_flatMap.2 ⟨p, hp, he⟩
    constructor
    · intro e he
      by_cases hne : e.1 = e.2
      · rw [cutEdge_improper hne]; exact List.pairwise_singleton _ _
      · rw [cutEdge_map, List.pairwise_map]
        obtain ⟨k1, k2⟩ := marks_link e
        refine ((link_mem k1 k2).2.imp_of_mem ?_)
        intro a b ha hb hab _
        have la := ((link_mem k1 k2).1 a ha).1
        have lb := ((link_mem k1 k2).1 b hb).1
        constructor
        · intro h
          have := along_inj hne (congrArg Prod.fst h)
          linarith
        · intro h
          have h1 := along_inj hne (congrArg Prod.fst h)
          have h2 := along_inj hne (congrArg Prod.snd h)
          linarith
    · refine (hC.once p hp).imp_of_mem ?_
      intro e e' he he' hee d hd d' hd' hne
      have o := (cutEdge_pieces e).on d hd
      have o' := (cutEdge_pieces e').on d' hd'
      have hp := part_proper o.1 o.2 hne
      have key : ¬ (OnSegment e' d.1 ∧ OnSegment e' d.2) := by
        rintro ⟨q1, q2⟩
        exact hne (hee _ _ o.1 o.2 q1 q2)
      constructor
      · rintro rfl; exact key o'
      · rintro rfl; exact key o'.symm
  · intro d d' hd hd' h1 h2 q hq
    rw [cutAll_drawn] at hd hd'
    have hv : Vertex polys q := by
      by_contra hv
      rcases hd.same hd' hq.1 hq.2 hv with k | k
      · exact h1 k
      · exact h2 k
    exact ⟨hd.clear q hv hq.1, hd'.clear q hv hq.2⟩
  · intro d d' hd hd'
    rw [cutAll_drawn] at hd hd'
    obtain ⟨e, he, o1, o2⟩ := hd.on
    obtain ⟨e', he', o1', o2'⟩ := hd'.on
    obtain ⟨k, hk, hx, hy⟩ := part_dir o1 o2 hd.ne
    obtain ⟨k', hk', hx', hy'⟩ := part_dir o1' o2' hd'.ne
    obtain ⟨a, b⟩ := nearly_scale hk hk' hx hy hx' hy'
    rw [a, b]
    exact hC.angles e e' ⟨part_proper o1 o2 hd.ne, Or.inl he⟩ ⟨part_proper o1' o2' hd'.ne, Or.inl he'⟩
  · intro d d' hd hd' hpar
    rw [cutAll_drawn] at hd hd'
    obtain ⟨e, he, o1, o2⟩ := hd.on
    obtain ⟨e', he', o1', o2'⟩ := hd'.on
    obtain ⟨k, hk, hx, hy⟩ := part_dir o1 o2 hd.ne
    obtain ⟨k', hk', hx', hy'⟩ := part_dir o1' o2' hd'.ne
    have hp := (nearly_scale hk hk' hx hy hx' hy').1.1 hpar
    rcases hC.distances e e' ⟨part_proper o1 o2 hd.ne, Or.inl he⟩ ⟨part_proper o1' o2' hd'.ne, Or.inl he'⟩ hp with h | h
    · left
      obtain ⟨s, _, _, hs⟩ := on_along.1 o1
      obtain ⟨s', _, _, hs'⟩ := on_along.1 o1'
      unfold OnLine at h ⊢
      unfold ParallelEdges at hp
      rw [hx, hy, hs, hs']
      simp only [along]
      linear_combination k * h - k * s' * hp
    · right
      exact (clearly_scale hk hx hy).2 (h _ _ hd.ends.1 o1 hd'.ends.1 o1')

theorem forall₂_map {α β : Type} {R : α → β → Prop} {f : α → β} (l : List α) (h : ∀ a ∈ l, R a (f a)) : List.Forall₂ R l (l.map f) := by
  induction l with
  | nil => exact List.Forall₂.nil
  | cons a l ih => exact List.Forall₂.cons (h a (by simp)) (ih fun b hb => h b (by simp [hb]))

theorem cutAll_crossed (hC : Crossing polys) : Crossed polys (cutAll polys) := by
  refine ⟨?_, cutAll_planar hC, fun e he q hq => hC.met e he q (mem_cutAll_corners.1 hq)⟩
  · refine forall₂_map _ fun p hp => ⟨rfl, forall₂_map _ fun c hc => ⟨(closedEdges c.points).map (cutEdge polys), ?_, ?_⟩⟩
    · exact forall₂_map _ fun e _ => cutEdge_pieces e
    · dsimp only
      rw [closed_cutRing, List.flatMap_def]

end Idc
