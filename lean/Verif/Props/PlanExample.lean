import Verif.Spec.PlanCheck
import Verif.Props.PlanHoles
import Verif.Props.TidyExample
/-!
# Outlines that share corners and edges: what meets the hypotheses of C81
-/

namespace Idc

open Plan

/-! ### Calculation -/

theorem drawn_z {polys : List (List (List ZPt) × PolygonMode)} {d : Pt ℝ × Pt ℝ} (h : Drawn (polys.map fun p => (zPolygon p.1, p.2)) d) :
    ∃ e ∈ zDrawn ((polys.map fun p => p.1).flatMap fun rs => rs), d = (e.1.toPt, e.2.toPt) := by
  obtain ⟨hne, h⟩ := h
  rw [allEdges_z] at h
  have hfm : (polys.map fun p => p.1).flatMap (fun rs => rs) = polys.flatMap fun p => p.1 := by rw [List.flatMap_map]
  rw [hfm]
  rcases h with h | h <;> obtain ⟨e, he, hd⟩ := List.mem_map.1 h
  · refine ⟨e, ?_, hd.symm⟩
    unfold zDrawn
    rw [List.mem_filter, decide_eq_true_iff]
    refine ⟨List.mem_append_left _ he, ?_⟩
    intro k
    rw [← hd] at hne
    exact hne (by dsimp only; rw [k])
  · have hd' : d = (e.2.toPt, e.1.toPt) := by
      obtain ⟨a, b⟩ := d
      simp only [Prod.swap, Prod.mk.injEq] at hd
      rw [hd.1, hd.2]
    refine ⟨e.swap, ?_, hd'⟩
    unfold zDrawn
    rw [List.mem_filter, decide_eq_true_iff]
    refine ⟨List.mem_append_right _ (List.mem_map_of_mem he), ?_⟩
    intro k
    rw [hd'] at hne
    exact hne (by dsimp only [Prod.swap] at k ⊢; rw [k])

theorem common_swap {e e' : Pt ℝ × Pt ℝ} {q : Pt ℝ} (h : CommonPoint e e' q) : CommonPoint e.swap e' q := by
  obtain ⟨⟨t, t0, t1, hx, hy⟩, h2⟩ := h
  refine ⟨⟨1 - t, by linarith, by linarith, ?_, ?_⟩, h2⟩
  · show q.x = e.2.x + (1 - t) * (e.1.x - e.2.x); rw [hx]; ring
  · show q.y = e.2.y + (1 - t) * (e.1.y - e.2.y); rw [hy]; ring

theorem onwards_of_check {a b c d : ZPt} (h : onwards a b c d = true) {q : Pt ℝ} (hq : CommonPoint (a.toPt, b.toPt) (c.toPt, d.toPt) q) :
    EndOf (a.toPt, b.toPt) q ∧ EndOf (c.toPt, d.toPt) q := by
  obtain ⟨⟨s, s0, s1, sx, sy⟩, t, t0, t1, tx, ty⟩ := hq
  simp only [onwards, decide_eq_true_iff] at h
  obtain ⟨rfl, h⟩ := h
  dsimp only [ZPt.toPt] at sx sy tx ty
  have h : (0 : ℝ) < ((b.1 : ℝ) - a.1) * (d.1 - b.1) + (b.2 - a.2) * (d.2 - b.2) := by exact_mod_cast h
  set D := ((b.1 : ℝ) - a.1) * (d.1 - b.1) + (b.2 - a.2) * (d.2 - b.2) with hD
  have e : t * D + (1 - s) * (((b.1 : ℝ) - a.1) ^ 2 + (b.2 - a.2) ^ 2) = 0 := by
    rw [hD]
    linear_combination ((b.1 : ℝ) - a.1) * (sx - tx) + ((b.2 : ℝ) - a.2) * (sy - ty)
  have p1 := mul_nonneg t0 h.le
  have p2 := mul_nonneg (by linarith : (0 : ℝ) ≤ 1 - s) (by positivity : (0 : ℝ) ≤ ((b.1 : ℝ) - a.1) ^ 2 + (b.2 - a.2) ^ 2)
  have ht : t = 0 := (mul_eq_zero.1 (by linarith : t * D = 0)).resolve_right h.ne'
  rw [ht] at tx ty
  have : q = b.toPt := pt_ext (by show q.x = (b.1 : ℝ); linarith) (by show q.y = (b.2 : ℝ); linarith)
  exact ⟨Or.inr this, Or.inl this⟩

theorem planApart_of_check {a b c d : ZPt} (h : planApart a b c d = true) {q : Pt ℝ} (hq : CommonPoint (a.toPt, b.toPt) (c.toPt, d.toPt) q) :
    EndOf (a.toPt, b.toPt) q ∧ EndOf (c.toPt, d.toPt) q := by
  have h1 : CommonPoint (b.toPt, a.toPt) (c.toPt, d.toPt) q := common_swap hq
  have h2 : CommonPoint (a.toPt, b.toPt) (d.toPt, c.toPt) q := (common_swap hq.symm).symm
  have h3 : CommonPoint (b.toPt, a.toPt) (d.toPt, c.toPt) q := (common_swap h1.symm).symm
  simp only [planApart, Bool.or_eq_true] at h
  rcases h with ((((((h | h) | h) | h) | h) | h) | h) | h
  · exact apart_of_check h hq
  · obtain ⟨k1, k2⟩ := apart_of_check h h1
    exact ⟨k1.symm, k2⟩
  · obtain ⟨k1, k2⟩ := apart_of_check h h2
    exact ⟨k1, k2.symm⟩
  · obtain ⟨k1, k2⟩ := apart_of_check h h3
    exact ⟨k1.symm, k2.symm⟩
  · exact onwards_of_check h hq
  · obtain ⟨k1, k2⟩ := onwards_of_check h h1
    exact ⟨k1.symm, k2⟩
  · obtain ⟨k1, k2⟩ := onwards_of_check h h2
    exact ⟨k1, k2.symm⟩
  · obtain ⟨k1, k2⟩ := onwards_of_check h h3
    exact ⟨k1.symm, k2.symm⟩

theorem once_of_check : ∀ {es : List (ZPt × ZPt)}, onceCheck es = true →
    (es.map fun e => (e.1.toPt, e.2.toPt)).Pairwise fun e e' : Pt ℝ × Pt ℝ => e.1 ≠ e.2 → e' ≠ e ∧ e' ≠ e.swap
  | [], _ => List.Pairwise.nil
  | e :: es, h => by
    simp only [onceCheck, Bool.and_eq_true, Bool.or_eq_true, decide_eq_true_iff, List.all_eq_true] at h
    rw [List.map_cons, List.pairwise_cons]
    refine ⟨?_, once_of_check h.2⟩
    intro d hd hne
    obtain ⟨e', he', rfl⟩ := List.mem_map.1 hd
    have h1 := h.1.resolve_left (fun k => hne (by dsimp only; rw [k]))
    obtain ⟨k1, k2⟩ := h1 e' he'
    constructor
    · intro k
      rw [Prod.mk.injEq] at k
      exact k1 (Prod.ext (toPt_inj k.1) (toPt_inj k.2))
    · intro k
      simp only [Prod.swap, Prod.mk.injEq] at k
      exact k2 (Prod.ext (toPt_inj k.1) (toPt_inj k.2))

theorem z_whole {polys : List (List (List ZPt) × PolygonMode)} {q : Pt ℝ} (hq : q ∈ allCorners (polys.map fun p => (zPolygon p.1, p.2))) : WholePt q := by
  rw [allCorners_z] at hq
  obtain ⟨p, _, rfl⟩ := List.mem_map.1 hq
  exact ⟨p.1, p.2, rfl⟩

/-- The check is enough. -/
theorem planar_of_check {polys : List (List (List ZPt) × PolygonMode)} (h : planarCheck (polys.map fun p => p.1) = true) :
    Planar (polys.map fun p => (zPolygon p.1, p.2)) := by
  simp only [planarCheck, Bool.and_eq_true, List.all_eq_true, decide_eq_true_iff, Bool.or_eq_true] at h
  obtain ⟨h1, h2⟩ := h
  refine ⟨?_, ?_, ?_, ?_, ?_⟩
  · exact whole_separate (fun q hq => z_whole hq) fun e he => drawn_corner he
  · intro p hp
    obtain ⟨p', hp', rfl⟩ := List.mem_map.1 hp
    have := once_of_check (h1 p'.1 (List.mem_map_of_mem hp'))
    rw [List.map_flatMap] at this
    show List.Pairwise _ (zPolygon p'.1).edges
    unfold Polygon.edges zPolygon
    rw [List.flatMap_map]
    simp only [closedEdges_map]
    exact this
  · intro d d' hd hd' hne hne' q hq
    obtain ⟨e, he, rfl⟩ := drawn_z hd
    obtain ⟨e', he', rfl⟩ := drawn_z hd'
    refine planApart_of_check (((h2 e he e' he').1.1).resolve_left ?_) hq
    rintro (rfl | rfl)
    · exact hne rfl
    · exact hne' rfl
  · intro d d' hd hd'
    obtain ⟨e, he, rfl⟩ := drawn_z hd
    obtain ⟨e', he', rfl⟩ := drawn_z hd'
    exact angle_of_check (h2 e he e' he').1.2
  · intro d d' hd hd' hp
    obtain ⟨e, he, rfl⟩ := drawn_z hd
    obtain ⟨e', he', rfl⟩ := drawn_z hd'
    rcases distance_of_check (h2 e he e' he').2 hp with h | h
    · exact Or.inl h
    · exact Or.inr (h _ _ (Or.inl rfl) (Or.inl rfl))

/-- A square with a hole that touches one of its corners, a square beside it with an edge in common, a triangle that touches a
corner of the latter, and once more the same triangle, whose interior is removed. -/
def planSample : List (List (List ZPt) × PolygonMode) :=
  [([[(0, 0), (100, 0), (100, 100), (0, 100)], [(0, 0), (50, 20), (20, 50)]], .normal),
   ([[(100, 0), (200, 0), (200, 100), (100, 100)]], .normal),
   ([[(200, 100), (300, 150), (250, 200)]], .normal),
   ([[(200, 100), (300, 150), (250, 200)]], .removeInterior)]

theorem C81_hypotheses_met : Planar (planSample.map fun p => (zPolygon p.1, p.2)) ∧ (∀ p ∈ planSample.map fun p => (zPolygon p.1, p.2), p.2 ≠ .removeEdges) ∧
    listLib.Lawful := by
  refine ⟨planar_of_check (by decide +kernel), ?_, listLib_lawful⟩
  intro p hp
  obtain ⟨q, hq, rfl⟩ := List.mem_map.1 hp
  simp only [planSample, List.mem_cons, List.not_mem_nil, or_false] at hq
  rcases hq with rfl | rfl | rfl | rfl <;> simp

/-- The same without the polygon whose interior is removed: all polygons are normal ones. -/
theorem C81_edges_kept_hypotheses_met : Planar ((planSample.take 3).map fun p => (zPolygon p.1, p.2)) ∧
    (∀ p ∈ (planSample.take 3).map fun p => (zPolygon p.1, p.2), p.2 = .normal) ∧
    ∃ d ∈ allEdges ((planSample.take 3).map fun p => (zPolygon p.1, p.2)), d.1 ≠ d.2 := by
  refine ⟨planar_of_check (by decide +kernel), ?_, ?_⟩
  · intro p hp
    obtain ⟨q, hq, rfl⟩ := List.mem_map.1 hp
    simp only [planSample, List.take, List.mem_cons, List.not_mem_nil, or_false] at hq
    rcases hq with rfl | rfl | rfl <;> simp
  · rw [allEdges_z]
    refine ⟨_, List.mem_map_of_mem (a := ((0, 0), (100, 0))) (by decide +kernel), ?_⟩
    intro h
    have := toPt_inj h
    exact absurd this (by decide)

/-! ### Outlines that do not touch -/

theorem closed_once {ps : List (Pt ℝ)} (h3 : 3 ≤ ps.length) (hn : ps.Nodup) : (closedEdges ps).Pairwise fun e e' => e' ≠ e ∧ e' ≠ e.swap := by
  rw [List.pairwise_iff_getElem]
  intro i j hi hj hij
  have hl := closedEdges_length ps
  have hi' : i < ps.length := by omega
  have hj' : j < ps.length := by omega
  have mi : (i + 1) % ps.length < ps.length := Nat.mod_lt _ (by omega)
  have mj : (j + 1) % ps.length < ps.length := Nat.mod_lt _ (by omega)
  rw [closedEdges_getElem ps i hi hi' mi, closedEdges_getElem ps j hj hj' mj]
  constructor
  · intro e
    rw [Prod.mk.injEq] at e
    have := (List.Nodup.getElem_inj_iff hn).1 e.1
    omega
  · intro e
    simp only [Prod.swap, Prod.mk.injEq] at e
    have h1 := (List.Nodup.getElem_inj_iff hn).1 e.1
    have h2 := (List.Nodup.getElem_inj_iff hn).1 e.2
    rw [Nat.mod_eq_of_lt (show i + 1 < ps.length by omega)] at h1
    subst h1
    by_cases hlt : i + 1 + 1 < ps.length
    · rw [Nat.mod_eq_of_lt hlt] at h2; omega
    · have : i + 1 + 1 = ps.length := by omega
      rw [this, Nat.mod_self] at h2
      omega

theorem closed_fst {ps : List (Pt ℝ)} {e : Pt ℝ × Pt ℝ} (h : e ∈ closedEdges ps) : e.1 ∈ ps ∧ e.2 ∈ ps := by
  obtain ⟨a, b⟩ := e
  have := List.of_mem_zip h
  rw [List.mem_rotate] at this
  exact this

/-- Outlines that do not touch do not cross: what is shown in C81 is true of them as well. -/
theorem Tidy.planar {polys : List (Polygon ℝ × PolygonMode)} (h : Tidy polys) : Planar polys := by
  have hswap : ∀ {e : Pt ℝ × Pt ℝ} {q}, EndOf e.swap q ↔ EndOf e q := fun {e q} => ⟨Or.symm, Or.symm⟩
  -- of a drawn edge, the edge of the polygon
  have edge : ∀ {d}, Drawn polys d → ∃ e ∈ allEdges polys, (d = e ∨ d = e.swap) := by
    rintro d ⟨_, hd | hd⟩
    · exact ⟨d, hd, Or.inl rfl⟩
    · exact ⟨_, hd, Or.inr (Prod.swap_swap d).symm⟩
  refine ⟨whole_separate h.whole fun e he => drawn_corner he, ?_, ?_, ?_, ?_⟩
  · intro p hp
    have hnd : (p.1.contours.flatMap fun c => c.points).Nodup := (List.nodup_flatMap.1 h.distinct).1 p hp
    obtain ⟨n1, n2⟩ := List.nodup_flatMap.1 hnd
    unfold Polygon.edges
    rw [List.pairwise_flatMap]
    constructor
    · intro c hc
      refine (closed_once (h.corners p hp c hc) (n1 c hc)).imp ?_
      intro e e' h _
      exact h
    · refine n2.imp ?_
      intro c c' hd e he e' he' _
      have f1 := closed_fst he
      have f2 := closed_fst he'
      constructor
      · rintro rfl; exact hd f1.1 f2.1
      · rintro rfl; exact hd f1.2 f2.1
  · intro d d' hd hd' hne hne' q hq
    obtain ⟨e, he, hde⟩ := edge hd
    obtain ⟨e', he', hde'⟩ := edge hd'
    have hee : e ≠ e' := by
      rintro rfl
      rcases hde with rfl | rfl <;> rcases hde' with rfl | rfl
      · exact hne rfl
      · exact hne' rfl
      · exact hne' (Prod.swap_swap _).symm
      · exact hne rfl
    have hq' : CommonPoint e e' q := by
      have s1 : CommonPoint e d' q := by
        rcases hde with rfl | rfl
        · exact hq
        · have := common_swap hq; rwa [Prod.swap_swap] at this
      rcases hde' with rfl | rfl
      · exact s1
      · have := (common_swap s1.symm).symm
        rwa [Prod.swap_swap] at this
    obtain ⟨k1, k2⟩ := h.apart e he e' he' hee q hq'
    constructor
    · rcases hde with rfl | rfl
      · exact k1
      · exact hswap.2 k1
    · rcases hde' with rfl | rfl
      · exact k2
      · exact hswap.2 k2
  · intro d d' hd hd'
    obtain ⟨e, he, hde⟩ := edge hd
    obtain ⟨e', he', hde'⟩ := edge hd'
    have par : ∀ {a b : Pt ℝ × Pt ℝ}, (d = a ∨ d = a.swap) → (d' = b ∨ d' = b.swap) → (ParallelEdges d d' ↔ ParallelEdges a b) ∧ (NearlyParallel d d' ↔ NearlyParallel a b) := by
      intro a b ha hb
      have sg : ∀ {x y : ℝ}, x = -y → (x = 0 ↔ y = 0) := fun {x y} h => by rw [h, neg_eq_zero]
      rcases ha with rfl | rfl <;> rcases hb with rfl | rfl <;> unfold ParallelEdges NearlyParallel <;> try dsimp only [Prod.swap]
      · simp
      · constructor
        · rw [← sub_eq_zero, ← sub_eq_zero (a := (d.2.x - d.1.x) * (b.2.y - b.1.y))]
          exact sg (by ring)
        · ring_nf
      · constructor
        · rw [← sub_eq_zero, ← sub_eq_zero (a := (a.2.x - a.1.x) * (d'.2.y - d'.1.y))]
          exact sg (by ring)
        · ring_nf
      · constructor
        · ring_nf
        · ring_nf
    obtain ⟨p1, p2⟩ := par hde hde'
    rw [p1, p2]
    by_cases hee : e = e'
    · left; subst hee; unfold ParallelEdges; ring
    · exact h.angles e he e' he' hee
  · intro d d' hd hd' hp
    obtain ⟨e, he, hde⟩ := edge hd
    obtain ⟨e', he', hde'⟩ := edge hd'
    have hp' : ParallelEdges e e' := by
      unfold ParallelEdges at hp ⊢
      rcases hde with rfl | rfl <;> rcases hde' with rfl | rfl <;> (try dsimp only [Prod.swap] at hp) <;> linarith
    have onl : OnLine e e'.1 → OnLine d d'.1 := by
      intro ho
      unfold OnLine at ho ⊢
      unfold ParallelEdges at hp'
      rcases hde with rfl | rfl <;> rcases hde' with rfl | rfl <;> (try dsimp only [Prod.swap] at ho ⊢) <;> linarith
    by_cases hee : e = e'
    · left; apply onl; subst hee; unfold OnLine; ring
    · rcases h.distances e he e' he' hee hp' with k | k
      · exact Or.inl (onl k)
      · right
        have e1 : EndOf e d.1 := by rcases hde with rfl | rfl; exacts [Or.inl rfl, Or.inr rfl]
        have e2 : EndOf e' d'.1 := by rcases hde' with rfl | rfl; exacts [Or.inl rfl, Or.inr rfl]
        have := k d.1 d'.1 e1 e2
        rcases hde with rfl | rfl
        · exact this
        · unfold ClearlyOff at this ⊢
          dsimp only [Prod.swap] at this ⊢
          ring_nf at this ⊢
          exact this

end Idc
