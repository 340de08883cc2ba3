import Verif.Props.AreasLeft
import Verif.Props.Walks
/-!
# What is inside of an outline, for C88
-/

namespace Idc

open Plan

variable {polys : List (Polygon ℝ × PolygonMode)} {X : Polygon ℝ} {ps : List (Pt ℝ)}

/-- An outline as they have to be drawn. -/
structure WellDrawn (polys : List (Polygon ℝ × PolygonMode)) (ps : List (Pt ℝ)) : Prop where
  drawn : ∀ d ∈ closedEdges ps, Drawn polys d
  nodup : (closedEdges ps).Nodup
  turns : ∀ (j : Nat) d d', (closedEdges ps)[j]? = some d → (closedEdges ps)[j + 1]? = some d' →
    d'.1 = d.2 ∧ d' ≠ d.swap ∧ ∀ u, Drawn polys u → u.1 = d.2 → u ≠ d' → u ≠ d.swap → TurnsThrough u d' d.swap
  start : ∃ v rest, ps = v :: rest ∧ ∀ q ∈ rest, LeftOf v q

/-- All along an outline the area on the left is the same. -/
theorem WellDrawn.const (h : WellDrawn polys ps) (hP : Planar polys) (hX : Fits polys X) {d d' : Pt ℝ × Pt ℝ} (hd : d ∈ closedEdges ps) (hd' : d' ∈ closedEdges ps) :
    InsideLeft X d ↔ InsideLeft X d' := by
  have key : ∀ (j : ℕ) d d0, (closedEdges ps)[j]? = some d → (closedEdges ps)[0]? = some d0 → (InsideLeft X d ↔ InsideLeft X d0) := by
    intro j
    induction j with
    | zero =>
      intro d d0 h1 h2
      rw [h1] at h2
      cases h2
      rfl
    | succ j ih =>
      intro d d0 h1 h2
      have hl := (List.getElem?_eq_some_iff.1 h1).1
      have hj : (closedEdges ps)[j]? = some ((closedEdges ps)[j]'(by omega)) := List.getElem?_eq_getElem (by omega)
      obtain ⟨g1, g2, g3⟩ := h.turns j _ _ hj h1
      exact (InsideLeft.turn hP hX (h.drawn _ (List.mem_of_getElem? hj)) (h.drawn _ (List.mem_of_getElem? h1)) g1 g2 g3).trans (ih _ _ hj h2)
  obtain ⟨j, hj⟩ := List.mem_iff_getElem?.1 hd
  obtain ⟨j', hj'⟩ := List.mem_iff_getElem?.1 hd'
  have h0 : (closedEdges ps)[0]? = some ((closedEdges ps)[0]'(by have := (List.getElem?_eq_some_iff.1 hj).1; omega)) := List.getElem?_eq_getElem _
  exact (key j _ _ hj h0).trans (key j' _ _ hj' h0).symm

/-- On the two sides of an edge the areas are different. -/
theorem sides_differ (hP : Planar polys) {d : Pt ℝ × Pt ℝ} (hd : Drawn polys d) : ∃ p ∈ polys, ¬ (InsideLeft p.1 d.swap ↔ InsideLeft p.1 d) := by
  obtain ⟨z, hz, rfl⟩ := drawn_top (hP := hP) hd
  have hne := F_ne hz
  set m := (ofPolys polys hP).poly z.1 with hm
  obtain ⟨p, hp, _⟩ := poly_edge hz.1
  refine ⟨p, List.mem_of_getElem? hp, fun h => hne ?_⟩
  rw [← edge_opp, insideLeft_iff hp (z := opp z) hz, insideLeft_iff hp hz] at h
  exact (by decide : ∀ a b : ZMod 2, (a = 1 ↔ b = 1) → a = b) _ _ h

theorem WellDrawn.swap (h : WellDrawn polys ps) (hP : Planar polys) {d : Pt ℝ × Pt ℝ} (hd : d ∈ closedEdges ps) : d.swap ∉ closedEdges ps := by
  intro hs
  obtain ⟨p, hp, hn⟩ := sides_differ hP (h.drawn d hd)
  exact hn (h.const hP (fits_self hP hp) hs hd)

/-- Every corner is the end of an edge. -/
theorem corner_drawn (hd : ∀ d ∈ closedEdges ps, Drawn polys d) {q : Pt ℝ} (hq : q ∈ ps) : q ∈ allCorners polys := by
  rw [← closedEdges_fst ps] at hq
  obtain ⟨d, hd', rfl⟩ := List.mem_map.1 hq
  exact (Plan.drawn_corner (hd d hd')).1

/-- An outline alone. -/
def only (c : Contour ℝ) : Polygon ℝ := ⟨[c]⟩

theorem only_edges (c : Contour ℝ) : (only c).edges = closedEdges c.points := by
  unfold only Polygon.edges
  simp

/-- Outlines, together a polygon. -/
theorem fits_of (cs : List (Contour ℝ)) (hd : ∀ c ∈ cs, ∀ d ∈ closedEdges c.points, Drawn polys d) (hn : ((cs.map fun c => c.points).flatMap closedEdges).Nodup)
    (hs : ∀ c ∈ cs, ∀ c' ∈ cs, ∀ d ∈ closedEdges c.points, d.swap ∉ closedEdges c'.points) : Fits polys ⟨cs⟩ where
  drawn d h _ := by
    unfold Polygon.edges at h
    obtain ⟨c, hc, h⟩ := List.mem_flatMap.1 h
    exact hd c hc d h
  corners c hc q hq := corner_drawn (hd c hc) hq
  once := by
    have e : (⟨cs⟩ : Polygon ℝ).edges = (cs.map fun c => c.points).flatMap closedEdges := by
      unfold Polygon.edges
      rw [List.flatMap_map]
    rw [e]
    refine hn.imp_of_mem ?_
    intro d d' h1 h2 hne _
    refine ⟨Ne.symm hne, ?_⟩
    rintro rfl
    rw [List.flatMap_map] at h1 h2
    obtain ⟨c, hc, h1⟩ := List.mem_flatMap.1 h1
    obtain ⟨c', hc', h2⟩ := List.mem_flatMap.1 h2
    exact hs c hc c' hc' d h1 h2

theorem WellDrawn.fits {c : Contour ℝ} (h : WellDrawn polys c.points) (hP : Planar polys) : Fits polys (only c) := by
  refine fits_of [c] ?_ ?_ ?_
  · intro c' hc
    rw [List.mem_singleton.1 hc]
    exact h.drawn
  · simpa using h.nodup
  · intro c1 h1 c2 h2 d hd
    rw [List.mem_singleton.1 h1] at hd
    rw [List.mem_singleton.1 h2]
    exact h.swap hP hd

/-! ### Which way an outline goes around its area -/

theorem closed_sum (w : Pt ℝ → ℝ) (ps : List (Pt ℝ)) : ((closedEdges ps).map fun e => w e.1 - w e.2).sum = 0 := by
  have h : ∀ l l' : List (Pt ℝ), l.length = l'.length → ((l.zip l').map fun e : Pt ℝ × Pt ℝ => w e.1 - w e.2).sum = (l.map w).sum - (l'.map w).sum := by
    intro l
    induction l with
    | nil => intro l' h; cases l' with
      | nil => simp
      | cons => simp at h
    | cons a l ih =>
      intro l' h
      cases l' with
      | nil => simp at h
      | cons b l' =>
        rw [List.zip_cons_cons, List.map_cons, List.sum_cons, ih l' (by simpa using h), List.map_cons, List.map_cons, List.sum_cons, List.sum_cons]
        ring
  unfold closedEdges
  rw [h _ _ (by simp), ((List.rotate_perm ps 1).map w).sum_eq, sub_self]

theorem planar_only (hP : Planar polys) {c : Contour ℝ} (h : WellDrawn polys c.points) : Planar [(only c, PolygonMode.normal)] := by
  have hd : ∀ e, Drawn [(only c, PolygonMode.normal)] e → Drawn polys e := by
    intro e he
    obtain ⟨hne, p, hp, he⟩ := drawn_iff.1 he
    rw [List.mem_singleton.1 hp] at he
    rcases he with he | he
    · exact (h.fits hP).drawn e he hne
    · have := Plan.Drawn.swap ((h.fits hP).drawn e.swap he (Ne.symm hne))
      rwa [Prod.swap_swap] at this
  refine ⟨hP.separate.mono ?_ hd, ?_, fun e e' he he' => hP.apart e e' (hd e he) (hd e' he'), fun e e' he he' => hP.angles e e' (hd e he) (hd e' he'),
    fun e e' he he' => hP.distances e e' (hd e he) (hd e' he')⟩
  · intro q hq
    unfold allCorners at hq
    obtain ⟨p, hp, hq⟩ := List.mem_flatMap.1 hq
    rw [List.mem_singleton.1 hp] at hq
    obtain ⟨c', hc, hq'⟩ := List.mem_flatMap.1 hq
    exact (h.fits hP).corners c' hc q hq'
  · intro p hp
    rw [List.mem_singleton.1 hp]
    exact (h.fits hP).once

theorem sum_getD_real {α : Type} (f : α → ℝ) (d : α) : ∀ l : List α, ∑ k ∈ Finset.range l.length, f (l.getD k d) = (l.map f).sum
  | [] => rfl
  | a :: l => by
    rw [List.length_cons, Finset.sum_range_succ', List.map_cons, List.sum_cons, ← sum_getD_real f d l, add_comm]
    rfl

/-- Counterclockwise outlines have the area inside on their left, clockwise ones the area outside. -/
theorem WellDrawn.sign {c : Contour ℝ} (h : WellDrawn polys c.points) (hP : Planar polys) {d : Pt ℝ × Pt ℝ} (hd : d ∈ closedEdges c.points) :
    InsideLeft (only c) d ∧ 0 < signedArea2 c.points ∨ ¬ InsideLeft (only c) d ∧ signedArea2 c.points < 0 := by
  classical
  have hQ := planar_only hP h
  set Q := [(only c, PolygonMode.normal)] with hQd
  have hQ0 : Q[0]? = some (only c, PolygonMode.normal) := rfl
  set A := ofPolys Q hQ with hA
  have hlist : listed 0 Q = (closedEdges c.points).map fun e => (0, e) := by
    rw [hQd, listed, listed, List.append_nil, only_edges, List.filter_eq_self.2]
    intro e he
    rw [decide_eq_true_iff]
    exact (h.drawn e he).1
  have hmem : ∀ i ∈ A.S, (nth Q i).2 ∈ closedEdges c.points := by
    intro i hi
    have := nth_mem (Finset.mem_range.1 hi)
    rw [hlist] at this
    obtain ⟨e, he, hh⟩ := List.mem_map.1 this
    rw [← hh]
    exact he
  have hp : ∀ i ∈ A.S, A.poly i = 0 := fun i hi => by
    have := A.poly_lt i hi
    have : A.n = 1 := rfl
    omega
  have hTop : ∀ i ∈ A.S, A.Top i := fun i hi => one_top hp hi
  let dir : ℕ → SegmentEnd := fun i => if LeftOf (nth Q i).2.1 (nth Q i).2.2 then .left else .right
  have hedge : ∀ i, A.edge (i, dir i) = (nth Q i).2 := by
    intro i
    by_cases hl : LeftOf (nth Q i).2.1 (nth Q i).2.2
    · have e1 : dir i = .left := if_pos hl
      rw [e1]
      show ((toRight (nth Q i).2).1, (toRight (nth Q i).2).2) = _
      unfold toRight
      rw [if_pos hl]
    · have e1 : dir i = .right := if_neg hl
      rw [e1]
      show ((toRight (nth Q i).2).2, (toRight (nth Q i).2).1) = _
      unfold toRight
      rw [if_neg hl]
      rfl
  have hF : ∀ i ∈ A.S, (A.F (i, dir i) 0 = 1 ↔ InsideLeft (only c) d) := by
    intro i hi
    rw [← insideLeft_iff (hP := hQ) hQ0 (z := (i, dir i)) (hTop i hi)]
    show InsideLeft (only c) (A.edge (i, dir i)) ↔ _
    rw [hedge]
    exact h.const hP (h.fits hP) (hmem i hi) hd
  set f : ZMod 2 := if InsideLeft (only c) d then 1 else 0 with hf
  have hF' : ∀ i ∈ A.S, A.F (i, dir i) 0 = f := by
    intro i hi
    apply (by decide : ∀ a b : ZMod 2, (a = 1 ↔ b = 1) → a = b)
    rw [hF i hi, hf]
    by_cases hI : InsideLeft (only c) d
    · rw [if_pos hI]; exact ⟨fun _ => rfl, fun _ => hI⟩
    · rw [if_neg hI]; exact ⟨fun g => absurd g hI, fun g => absurd g (by decide)⟩
  have hne : A.S.Nonempty := by
    refine ⟨0, Finset.mem_range.2 ?_⟩
    rw [hlist, List.length_map]
    exact List.length_pos_of_mem hd
  have hs := area_sign hp hne hF'
  -- the area
  have harea : A.area2 dir = signedArea2 c.points := by
    have hterm : ∀ i ∈ A.S, sgn (dir i) * ((A.b i - A.a i) * ((A.lp i).y + (A.rp i).y)) =
        -((A.time (nth Q i).2.2 - A.time (nth Q i).2.1) * ((nth Q i).2.1.y + (nth Q i).2.2.y)) := by
      intro i _
      have he := hedge i
      rw [← he]
      cases hdir : dir i
      · show sgn .left * ((A.time (A.rp i) - A.time (A.lp i)) * ((A.lp i).y + (A.rp i).y)) = -((A.time (A.rp i) - A.time (A.lp i)) * ((A.lp i).y + (A.rp i).y))
        unfold Plan.sgn
        rw [if_pos rfl]
        ring
      · show sgn .right * ((A.time (A.rp i) - A.time (A.lp i)) * ((A.lp i).y + (A.rp i).y)) = -((A.time (A.lp i) - A.time (A.rp i)) * ((A.rp i).y + (A.lp i).y))
        unfold Plan.sgn
        rw [if_neg (by decide)]
        ring
    unfold area2
    rw [Finset.sum_congr rfl hterm]
    have h1 := sum_getD_real (fun t : ℕ × (Pt ℝ × Pt ℝ) => -((A.time t.2.2 - A.time t.2.1) * (t.2.1.y + t.2.2.y))) (0, (⟨0, 0⟩, ⟨0, 0⟩)) (listed 0 Q)
    refine h1.trans ?_
    rw [hlist, List.map_map]
    have h2 := closed_sum (fun q => q.x * q.y + A.eps * (q.y * q.y)) c.points
    have hadd : ∀ l : List (Pt ℝ × Pt ℝ), (l.map ((fun t : ℕ × (Pt ℝ × Pt ℝ) => -((A.time t.2.2 - A.time t.2.1) * (t.2.1.y + t.2.2.y))) ∘ fun e => (0, e))).sum =
        (l.map fun e => e.1.x * e.2.y - e.1.y * e.2.x).sum +
          (l.map fun e => (fun q : Pt ℝ => q.x * q.y + A.eps * (q.y * q.y)) e.1 - (fun q : Pt ℝ => q.x * q.y + A.eps * (q.y * q.y)) e.2).sum := by
      intro l
      induction l with
      | nil => simp
      | cons e l ih =>
        rw [List.map_cons, List.map_cons, List.map_cons, List.sum_cons, List.sum_cons, List.sum_cons, ih]
        dsimp only [Function.comp]
        unfold Plan.time shearX
        ring
    rw [hadd, h2, add_zero]
    rfl
  rw [harea] at hs
  by_cases hI : InsideLeft (only c) d
  · rw [hf, if_pos hI, if_pos rfl, one_mul] at hs
    exact .inl ⟨hI, hs⟩
  · rw [hf, if_neg hI, if_neg (by decide), neg_one_mul] at hs
    exact .inr ⟨hI, by linarith⟩

theorem WellDrawn.inside {c : Contour ℝ} (h : WellDrawn polys c.points) (hP : Planar polys) {d : Pt ℝ × Pt ℝ} (hd : d ∈ closedEdges c.points) :
    InsideLeft (only c) d ↔ 0 < signedArea2 c.points := by
  rcases h.sign hP hd with ⟨h1, h2⟩ | ⟨h1, h2⟩
  · exact ⟨fun _ => h2, fun _ => h1⟩
  · exact ⟨fun g => absurd g h1, fun g => by linarith⟩

end Idc
