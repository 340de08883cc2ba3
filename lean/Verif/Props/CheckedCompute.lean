import Verif.Props.CheckedLoop
import Verif.Props.GridCompute
import Verif.Props.TraceEnds
import Verif.Props.Endpoint
/-!
# C93: a checked run speaks for all implementations of the containers, and for all sizes of the layout
-/

namespace Idc

open FloatOps

/-! ### The order of the endpoints -/

theorem ordered_real {X Y : Set ℤ} {h : Pt ℤ → Pt ℝ} {A : Arena ℤ} (hw : ∀ s ∈ drawArena h A, s.WellFormed) : Ordered (drawArena h A) := by
  have key : ∀ x : EndId, x.1 < (drawArena h A).length → ∃ s, (drawArena h A)[x.1]? = some s ∧ s.WellFormed := by
    intro x hx
    exact ⟨_, List.getElem?_eq_getElem hx, hw _ (List.getElem_mem hx)⟩
  have ev : ∀ {x y : EndId} {s t : BoolSegment ℝ}, (drawArena h A)[x.1]? = some s → (drawArena h A)[y.1]? = some t → (drawArena h A).endCmp x y = endpointCmp s x.2 t y.2 := by
    intro x y s t h1 h2
    unfold Arena.endCmp index
    rw [h1, h2]
    rfl
  have T := C55_total_preorder (T := SegmentPacket)
  constructor
  · intro a b ha hb
    obtain ⟨s, h1, h2⟩ := key a ha
    obtain ⟨t, h3, h4⟩ := key b hb
    rw [ev h1 h3, ev h3 h1]
    exact T.total (s, a.2) (t, b.2) h2 h4
  · intro a b c o₁ o₂ o₃ ha hb hc
    obtain ⟨s, h1, h2⟩ := key a ha
    obtain ⟨t, h3, h4⟩ := key b hb
    obtain ⟨u, h5, h6⟩ := key c hc
    rw [ev h1 h3, ev h3 h5, ev h1 h5]
    exact T.trans (s, a.2) (t, b.2) (u, c.2) o₁ o₂ o₃ h2 h4 h6

section

variable {F : Type} [FloatOps F] {X Y : Set ℤ} {h : Pt ℤ → Pt F}

theorem ordered_draw (D : Draws X Y h) (hg : Grid X Y id id) {A : Arena ℤ} (hA : GridA X Y A) : Ordered (drawArena h A) := by
  have D2 : Draws X Y (place ℝ id id) := hg.draws
  have e := endCmp_same D D2 hA
  have hr : Ordered (drawArena (place ℝ id id) A) := by
    refine ordered_real (X := X) (Y := Y) fun s hs => ?_
    unfold drawArena at hs
    obtain ⟨t, ht, rfl⟩ := List.mem_map.1 hs
    have := (hA t ht).forth
    unfold SweepSegment.WellFormed drawSeg place stretchPt asPt
    dsimp only [id]
    simp only [FloatOps.ofInt, Int.cast_lt, Int.cast_inj]
    rcases this with h | h
    · exact .inl h.2
    · exact .inr h
  unfold Ordered at hr ⊢
  rw [e]
  have hl : (drawArena h A).length = (drawArena (place ℝ id id) A).length := by simp [drawArena]
  rw [hl]
  exact hr

theorem grid_end (D : Draws X Y h) {z : SweepState ℤ} (hz : GridSt X Y z) {lib : Lib} {n i : Nat} {e : SegmentEnd} {st : SweepState F} (hs : sweepEnd lib n (drawState h z) i e = .ok st) :
    ∃ z2, st = drawState h z2 ∧ GridSt X Y z2 := by
  cases e with
  | left =>
    obtain ⟨z2, h1, h2, -⟩ := sim_left D D lib n hz i st hs
    exact ⟨z2, h2, h1⟩
  | right =>
    obtain ⟨z2, h1, h2, -⟩ := sim_right D D lib n hz i st hs
    exact ⟨z2, h2, h1⟩

theorem grid_loop (D : Draws X Y h) {n : Nat} : ∀ (fuel : Nat) {z : SweepState ℤ} {st : SweepState F} {S : List EndId}, GridSt X Y z → checkedLoop n fuel (drawState h z) S = .ok st →
    ∃ z2, st = drawState h z2 ∧ GridSt X Y z2
  | 0, z, st, S, _, hs => by cases hs
  | fuel + 1, z, st, S, hz, hs => by
    unfold checkedLoop at hs
    split at hs
    · split at hs
      · cases hs; exact ⟨z, rfl, hz⟩
      · rename_i x q _
        split at hs
        · exact grid_loop D fuel (z := { z with queue := q }) hz hs
        · split at hs
          · obtain ⟨st', h1, hs⟩ := Res.bind_eq_ok hs
            obtain ⟨z2, rfl, hz2⟩ := grid_end D (z := { z with queue := q }) hz h1
            exact grid_loop D fuel hz2 hs
          · cases hs
    · cases hs

end

section

variable {F : Type} [FloatOps F]

theorem include_range {modes : List PolygonMode} {A : Arena F} : ∀ {l segs : List Nat} {ends : List EndId} {r : List Nat × List EndId}, includeSegments modes A l segs ends = .ok r →
    (∀ i ∈ segs, i < A.length) → (∀ x ∈ ends, x.1 < A.length) → (∀ i ∈ r.1, i < A.length) ∧ ∀ x ∈ r.2, x.1 < A.length
  | [], segs, ends, r, h, h1, h2 => by cases h; exact ⟨h1, h2⟩
  | i :: l, segs, ends, r, h, h1, h2 => by
    unfold includeSegments at h
    obtain ⟨s, hs, h⟩ := Res.bind_eq_ok h
    have hi : i < A.length := (List.getElem?_eq_some_iff.1 (index_eq_ok hs)).1
    split at h
    · exact include_range h h1 h2
    · obtain ⟨a, -, h⟩ := Res.bind_eq_ok h
      obtain ⟨b, -, h⟩ := Res.bind_eq_ok h
      split at h
      · exact include_range h h1 h2
      · refine include_range h ?_ ?_
        · intro k hk
          rcases List.mem_append.1 hk with hk | hk
          · exact h1 k hk
          · rw [List.mem_singleton.1 hk]; exact hi
        · intro x hx
          rcases List.mem_append.1 hx with hx | hx
          · rcases List.mem_append.1 hx with hx | hx
            · exact h2 x hx
            · split at hx
              · simp at hx
              · rw [List.mem_singleton.1 hx]; exact hi
          · split at hx
            · simp at hx
            · rw [List.mem_singleton.1 hx]; exact hi

theorem strictlySorted_pairwise {α : Type} {cmp : α → α → Res Ordering} : ∀ {l : List α}, strictlySorted cmp l = true → l.Pairwise fun a b => cmp a b = .ok .lt
  | [], _ => List.Pairwise.nil
  | x :: l, h => by
    unfold strictlySorted at h
    simp only [Bool.and_eq_true, List.all_eq_true, decide_eq_true_eq] at h
    exact List.Pairwise.cons h.1 (strictlySorted_pairwise h.2)

/-- Sorting can only be done in one way. -/
theorem run_sort {lib : Lib} (hl : lib.Lawful) {α : Type} {cmp : α → α → Res Ordering} {l s : List α} (ho : TotalPreorderOn (· ∈ l) cmp) (hs : insertionSort cmp l [] = .ok s)
    (hc : strictlySorted cmp s = true) : lib.sort cmp l = .ok s := by
  obtain ⟨t, h1, h2, h3⟩ := hl.sort_sorts cmp l ho
  have hp : s.Perm l := listLib_ok.sort_perm cmp l s hs
  have hw := strictlySorted_pairwise hc
  rw [h1]
  congr 1
  -- the two agree, by induction
  have key : ∀ (s t : List α), s.Perm t → (∀ x ∈ s, x ∈ l) → s.Pairwise (fun a b => cmp a b = .ok .lt) → t.Pairwise (fun a b => cmp a b ≠ .ok .gt) → t = s := by
    intro s
    induction s with
    | nil => intro t hp _ _ _; exact hp.nil_eq.symm
    | cons x s ih =>
      intro t hp hm hs ht
      cases t with
      | nil => exact absurd hp.symm.nil_eq (by simp)
      | cons y t =>
        have hx := List.pairwise_cons.1 hs
        have hy := List.pairwise_cons.1 ht
        have hyx : y = x := by
          rcases List.mem_cons.1 (hp.mem_iff.2 (List.mem_cons_self ..) : y ∈ x :: s) with h | h
          · exact h
          · by_contra hne
            have hxt : x ∈ t := by
              rcases List.mem_cons.1 (hp.mem_iff.1 (List.mem_cons_self ..) : x ∈ y :: t) with h' | h'
              · exact absurd h'.symm hne
              · exact h'
            obtain ⟨o, e1, e2⟩ := ho.total x y (hm x (List.mem_cons_self ..)) (hm y (List.mem_cons_of_mem _ h))
            rw [hx.1 y h, Res.ok.injEq] at e1
            subst e1
            exact hy.1 x hxt e2
        subst hyx
        rw [ih t hp.cons_inv (fun z hz => hm z (List.mem_cons_of_mem _ hz)) hx.2 hy.2]
  exact key s t (hp.trans h2.symm) (fun x hx => hp.mem_iff.1 hx) hw h3

/-- A checked run speaks for all implementations. -/
theorem checked_any {lib : Lib} (hl : lib.Lawful) (hs : lib.SearchHonest) {fuel : Nat} {polys : List (Polygon F × PolygonMode)} (op : BooleanOpType) {r : Polygon F}
    (hc : checkedCompute fuel polys = .ok r)
    (ho : ∀ st st2, addPolygons checkedLib polys.length 0 polys ⟨[], [], [], []⟩ = .ok st → checkedLoop polys.length fuel st [] = .ok st2 →
      Ordered st2.arena ∧ ∀ a b, a < st2.arena.length → b < st2.arena.length → ∃ o, st2.arena.segCmp a b = .ok o) :
    ∃ N, ∀ fuel, N ≤ fuel → compute lib fuel polys op = .ok r := by
  unfold checkedCompute at hc
  obtain ⟨st, h1, hc⟩ := Res.bind_eq_ok hc
  obtain ⟨st2, h2, hc⟩ := Res.bind_eq_ok hc
  obtain ⟨⟨segs, ends⟩, h3, hc⟩ := Res.bind_eq_ok hc
  obtain ⟨inc, h4, hc⟩ := Res.bind_eq_ok hc
  obtain ⟨o1, o2⟩ := ho st st2 h1 h2
  obtain ⟨Heap, hh⟩ := hl.heapOk
  have hq : SameQueue Heap [] ([] : Arena F) [] [] := ⟨List.Perm.refl _, hh.nil _, by simp, List.Pairwise.nil⟩
  obtain ⟨q1, e1, hq1⟩ := run_addPolygons hh (st := ⟨[], [], [], []⟩) h1 (o1.ext (loop_ext _ h2).1) hq
  obtain ⟨N, hN⟩ := run_loop hl hs hh fuel h2 o1 (List.Subperm.refl _) hq1
  obtain ⟨r1, r2⟩ := include_range h3 (by simp) (by simp)
  dsimp only at hc r1 r2
  split at hc
  · rename_i hst
    obtain ⟨A, h5, hc⟩ := Res.bind_eq_ok hc
    obtain ⟨⟨A2, cs⟩, h6, hc⟩ := Res.bind_eq_ok hc
    obtain ⟨l', h7⟩ := hl.sort_returns st2.arena.segCmp segs fun a ha b hb => o2 a b (r1 a ha) (r1 b hb)
    refine ⟨max N fuel, fun fuel' hf => ?_⟩
    unfold compute
    dsimp only at e1 ⊢
    rw [e1, Res.bind_ok, hN fuel' (le_trans (le_max_left ..) hf), Res.bind_ok, h3, Res.bind_ok]
    dsimp only
    rw [h7, Res.bind_ok, run_sort hl (o1.mono r2) h4 hst, Res.bind_ok, h5, Res.bind_ok,
      traceAll_mono (le_trans (le_max_right ..) hf) (by rw [h6]; intro hn; cases hn), h6, Res.bind_ok]
    exact hc
  · cases hc

end

section

variable {E F : Type} [FloatOps E] [Exact E] [FloatOps F] [Exact F] {X Y : Set ℤ} {i j : ℤ → ℤ}

theorem checked_grid {lib : Lib} (hl : lib.Lawful) (hs : lib.SearchHonest) {fuel : Nat} {polys : List (Polygon ℤ × PolygonMode)} (op : BooleanOpType) (ho : OnLines X Y polys) (hg : Grid X Y id id)
    {r : Polygon E} (hc : checkedCompute fuel (asPolygons E polys) = .ok r) : ∃ N, ∀ fuel, N ≤ fuel → compute lib fuel (asPolygons E polys) op = .ok r := by
  have D : Draws X Y (place E id id) := hg.draws
  have hgc : ∀ p ∈ polys, ∀ c ∈ p.1.contours, GridC X Y c := fun p hp c hc => ⟨ho.corners p hp c hc, fun e he => (ho.straight p hp c hc e he).symm⟩
  refine checked_any hl hs op hc fun st st2 h1 h2 => ?_
  rw [← stretchAll_id polys, ← draw_polygons] at h1
  have hnil : GridSt X Y (⟨[], [], [], []⟩ : SweepState ℤ) := fun s hs => by simp at hs
  obtain ⟨z, g1, rfl, -⟩ := sim_addPolygons D D checkedLib _ polys 0 ⟨[], [], [], []⟩ hgc hnil st h1
  obtain ⟨z2, rfl, g2⟩ := grid_loop D fuel g1 h2
  refine ⟨ordered_draw D hg g2, fun a b ha hb => ?_⟩
  have la : a < z2.arena.length := by simpa [drawState, drawArena] using ha
  have lb : b < z2.arena.length := by simpa [drawState, drawArena] using hb
  unfold Arena.segCmp index drawState drawArena
  dsimp only
  rw [List.getElem?_map, List.getElem?_map, List.getElem?_eq_getElem la, List.getElem?_eq_getElem lb]
  exact ⟨_, D.segs (g2 _ (List.getElem_mem la)) (g2 _ (List.getElem_mem lb))⟩

/-- One checked run of a layout with horizontal and vertical edges gives the result of all stretched layouts, for every lawful implementation of the containers. -/
theorem C93_layout {lib : Lib} (hl : lib.Lawful) (hs : lib.SearchHonest) {fuel : Nat} {polys : List (Polygon ℤ × PolygonMode)} (op : BooleanOpType) (ho : OnLines X Y polys) (hg : Grid X Y id id)
    (hi : Grid X Y i j) {z : Polygon ℤ} (hc : checkedCompute fuel (asPolygons E polys) = .ok (asPolygon E z))
    (ha : ∀ c ∈ z.contours, (ptsArea (stretchContour i j c).points).sign = (ptsArea c.points).sign) :
    ∃ N, ∀ fuel, N ≤ fuel → compute lib fuel (asPolygons F (stretchAll i j polys)) op = .ok (asPolygon F (stretchPolygon i j z)) := by
  obtain ⟨N, hN⟩ := checked_grid hl hs op ho hg hc
  refine ⟨N, fun fuel' hf => ?_⟩
  obtain ⟨w, hw, hr⟩ := C92_stretched_anyhow (F := F) lib fuel' polys op ho hg hi (hN fuel' hf)
  have hw := ex_polygon_inj hw
  subst hw
  exact hr ha

end

end Idc
