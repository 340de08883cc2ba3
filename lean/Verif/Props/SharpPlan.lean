import Verif.Spec.SharpPlan
import Verif.Props.Sharp
import Verif.Props.DoubleSame
import Verif.Props.DoubleTurn
import Verif.Props.PlanHoles
/-!
# C82: outlines that share corners and edges, in double precision
-/

namespace Idc

open FloatOps

section

variable {F : Type} [FloatOps F] [Double F]

/-- Of two parallel edges at a corner, of which one goes to the right and one to the left. -/
theorem opposite {u v : ℤ × ℤ} (hu : 0 < u.1 ∨ (u.1 = 0 ∧ 0 < u.2)) (hv : v.1 < 0 ∨ (v.1 = 0 ∧ v.2 < 0)) (h : u.1 * v.2 - u.2 * v.1 = 0) :
    u.1 * v.1 + u.2 * v.2 < 0 := by
  rcases hu with hu | ⟨hu, hu'⟩
  · rcases hv with hv | ⟨hv, hv'⟩
    · have e : u.1 * (u.1 * v.1 + u.2 * v.2) = (u.1 * u.1 + u.2 * u.2) * v.1 := by linear_combination u.2 * h
      have : (u.1 * u.1 + u.2 * u.2) * v.1 < 0 := mul_neg_of_pos_of_neg (by nlinarith [mul_self_nonneg u.2]) hv
      rw [← e] at this
      exact (pos_iff_neg_of_mul_neg this).1 hu
    · rw [hv] at h
      have : u.1 * v.2 < 0 := mul_neg_of_pos_of_neg hu hv'
      linarith
  · rw [hu] at h ⊢
    rcases hv with hv | ⟨hv, hv'⟩
    · have := mul_neg_of_pos_of_neg hu' hv
      linarith
    · rw [hv]
      have := mul_neg_of_pos_of_neg hu' hv'
      linarith

/-- Comparing cosines gives the same in exact arithmetic and in double precision. -/
theorem cosOf_lt {p q a b a' b' : Pt ℤ} (hp : Small (sPt p)) (hq : Small (sPt q)) (ha : Small (sPt a)) (hb : Small (sPt b)) (ha' : Small (sPt a')) (hb' : Small (sPt b'))
    (hside : 0 < zTurn p q a b ↔ 0 < zTurn p q a' b') (ht : Double.zTell (a.x - b.x, a.y - b.y) (a'.x - b'.x, a'.y - b'.y)) :
    lt (cosOf ℝ p q a b) (cosOf ℝ p q a' b') = lt (cosOf F p q a b) (cosOf F p q a' b') := by
  have hc : PtB ((asPt F p).sub (asPt F q)) (p.x - q.x, p.y - q.y) (2 ^ 15 + 2 ^ 15) := (lf_ptB (F := F) hp).sub (lf_ptB hq) (by norm_num)
  have hu : PtB ((asPt F a).sub (asPt F b)) (a.x - b.x, a.y - b.y) (2 ^ 15 + 2 ^ 15) := (lf_ptB (F := F) ha).sub (lf_ptB hb) (by norm_num)
  have hv : PtB ((asPt F a').sub (asPt F b')) (a'.x - b'.x, a'.y - b'.y) (2 ^ 15 + 2 ^ 15) := (lf_ptB (F := F) ha').sub (lf_ptB hb') (by norm_num)
  have := Double.cos_lt hc hu hv hside ht
  unfold cosOf
  rw [this]
  have real : ∀ a b : Pt ℤ, div (((asPt ℝ p).sub (asPt ℝ q)).dot ((asPt ℝ a).sub (asPt ℝ b))) ((asPt ℝ a).sub (asPt ℝ b)).length =
      (((p.x - q.x) * (a.x - b.x) + (p.y - q.y) * (a.y - b.y) : ℤ) : ℝ) / √((((a.x - b.x) * (a.x - b.x) + (a.y - b.y) * (a.y - b.y) : ℤ)) : ℝ) := by
    intro a b
    push_cast
    rfl
  rw [real a b, real a' b']
  rfl

open Plan in
/-- Planar, sharp outlines are handled in the same way by the two arithmetics. -/
theorem quiet_plan {G : Plan} {A : Arena ℤ} (hin : ∀ i (s : BoolSegment ℤ), A[i]? = some s → i ∈ G.S) (his : ∀ i (s : BoolSegment ℤ), A[i]? = some s → G.Is i (asSeg ℝ s)) (hs : SmallA A)
    (hang : ∀ i ∈ G.S, ∀ j ∈ G.S, ParallelEdges (G.lp i, G.rp i) (G.lp j, G.rp j) ∨ SharpAngle (G.lp i, G.rp i) (G.lp j, G.rp j))
    (hoff : ∀ i ∈ G.S, ∀ j ∈ G.S, ParallelEdges (G.lp i, G.rp i) (G.lp j, G.rp j) → OnLine (G.lp i, G.rp i) (G.lp j) ∨ SharpAngle (G.lp i, G.rp i) (G.lp i, G.lp j)) :
    Quiet ℝ F A := by
  have hl : ∀ {i : Nat} {s : BoolSegment ℤ}, A[i]? = some s → G.lp i = asPt ℝ s.left_point := fun h => (his _ _ h).left.symm
  have hr : ∀ {i : Nat} {s : BoolSegment ℤ}, A[i]? = some s → G.rp i = asPt ℝ s.right_point := fun h => (his _ _ h).right.symm
  have sm : ∀ {i : Nat} {s : BoolSegment ℤ}, A[i]? = some s → SmallS s := fun h => hs _ (List.mem_of_getElem? h)
  have pt : ∀ {i : Nat} {s : BoolSegment ℤ} (e : SegmentEnd), A[i]? = some s → G.pt (i, e) = asPt ℝ (s.pointAt e) := by
    intro i s e h
    rw [← (his i s h).pointAt e]
    cases e <;> rfl
  have pt' : ∀ {i : Nat} {s : BoolSegment ℤ} (e : SegmentEnd), A[i]? = some s → G.pt (opp (i, e)) = asPt ℝ (s.otherPointAt e) := by
    intro i s e h
    rw [← (his i s h).otherPointAt e]
    cases e <;> rfl
  refine ⟨hs, ?_, ?_, ?_, ?_⟩
  · intro i j s t h h' hij
    by_cases hsm : G.Same i j
    · right
      have hne : s.left_point ≠ s.right_point := by
        intro e
        have w := (G.wf i (hin i s h)).ne
        rw [hl h, hr h, e] at w
        exact w rfl
      have e1 : s.left_point = t.left_point := by
        have := hsm.1
        rw [hl h, hl h'] at this
        exact asPt_real_inj this
      have e2 : s.right_point = t.right_point := by
        have := hsm.2
        rw [hr h, hr h'] at this
        exact asPt_real_inj this
      refine ⟨⟨e1, e2, ?_⟩, ⟨e1, e2, ?_⟩⟩
      · have := intersect_same (hin i s h) hsm
        rw [hl h, hr h, hl h', hr h'] at this
        exact this
      · rw [← e1, ← e2]
        exact Double.intersect_same (F := F) (sm h).left (sm h).right fun e => hne (sPt_inj e)
    · left
      refine ⟨?_, ?_⟩
      · have := intersect_plan (hin i s h) (hin j t h') hsm
        rw [hl h, hr h, hl h', hr h'] at this
        unfold EndTouch
        rcases this with e | ⟨p, e, e1, e2⟩
        · left; exact e
        · right
          obtain ⟨z, rfl, hz⟩ : ∃ z, p = asPt ℝ z ∧ (z = s.left_point ∨ z = s.right_point) := by
            rcases e1 with e1 | e1
            · exact ⟨_, e1, Or.inl rfl⟩
            · exact ⟨_, e1, Or.inr rfl⟩
          refine ⟨asPt ℝ z, z, e, ?_, hz, ?_⟩
          · have hsm : Small (sPt z) := by
              rcases hz with rfl | rfl
              · exact (sm h).left
              · exact (sm h).right
            have := hsm.pt (F := ℝ)
            exact ⟨⟨this.1.1, this.1.2.trans (by norm_num)⟩, ⟨this.2.1, this.2.2.trans (by norm_num)⟩⟩
          · rcases e2 with e2 | e2
            · left; exact asPt_real_inj e2
            · right; exact asPt_real_inj e2
      · have w := G.wf i (hin i s h)
        have w' := G.wf j (hin j t h')
        have ap : ∀ q, CommonPoint (G.lp i, G.rp i) (G.lp j, G.rp j) q → EndOf (G.lp i, G.rp i) q ∧ EndOf (G.lp j, G.rp j) q :=
          fun q => G.apart' (hin i s h) (hin j t h') hsm
        have an := hang i (hin i s h) j (hin j t h')
        have o := hoff i (hin i s h) j (hin j t h')
        rw [hl h, hr h] at w
        rw [hl h', hr h'] at w'
        rw [hl h, hr h, hl h', hr h'] at ap an o
        have := touch_of (F := F) (sm h).left (sm h).right (sm h').left (sm h').right w w' ap an o
        unfold EndTouch
        rcases this with e | ⟨p, z, e, hp, h1, h2⟩
        · left; exact e
        · right
          refine ⟨p, ⟨z.1, z.2⟩, e, hp, ?_, ?_⟩
          · rcases h1 with rfl | rfl
            · left; rfl
            · right; rfl
          · rcases h2 with e | e
            · left; exact sPt_inj e
            · right; exact sPt_inj e
  · intro s hsA
    obtain ⟨i, h⟩ := List.getElem?_of_mem hsA
    have := intersect_same (hin i s h) (Same.refl G i)
    rw [hl h, hr h] at this
    exact this
  · intro i s h
    exact (his i s h).index
  · intro i j k c s u d e e' h h' h'' hij hik h1 h2 hside
    by_cases heq : s.otherPointAt e = u.otherPointAt e'
    · rw [← h1, ← h2, heq, IntVal.lt_self, IntVal.lt_self]
    · refine cosOf_lt ((sm h).otherPointAt d) ((sm h).pointAt d) ((sm h').otherPointAt e) ((sm h').pointAt e) ((sm h'').otherPointAt e') ((sm h'').pointAt e') hside ?_
      have hsu : s.pointAt e = u.pointAt e' := h1.symm.trans h2
      have hpe : G.pt (j, e) = G.pt (k, e') := by rw [pt e h', pt e' h'', hsu]
      rcases hang j (hin j s h') k (hin k u h'') with hpar | hsh
      · -- parallel: they go in opposite directions
        left

        rw [hl h', hr h', hl h'', hr h''] at hpar
        have hpar : ((s.right_point.x : ℝ) - s.left_point.x) * (u.right_point.y - u.left_point.y) = (s.right_point.y - s.left_point.y) * (u.right_point.x - u.left_point.x) := hpar
        have hpar : (s.right_point.x - s.left_point.x) * (u.right_point.y - u.left_point.y) = (s.right_point.y - s.left_point.y) * (u.right_point.x - u.left_point.x) := by exact_mod_cast hpar
        have w := G.wf j (hin j s h')
        have w' := G.wf k (hin k u h'')
        rw [hl h', hr h'] at w
        rw [hl h'', hr h''] at w'
        have left : ∀ {p q : Pt ℤ}, LeftOf (asPt ℝ p) (asPt ℝ q) → 0 < q.x - p.x ∨ (q.x - p.x = 0 ∧ 0 < q.y - p.y) := by
          intro p q h
          rcases h with h | ⟨h, h'⟩
          · left
            have : (p.x : ℝ) < q.x := h
            have : p.x < q.x := by exact_mod_cast this
            omega
          · right
            have h1 : (p.x : ℝ) = q.x := h
            have h2 : (p.y : ℝ) < q.y := h'
            have h1 : p.x = q.x := by exact_mod_cast h1
            have h2 : p.y < q.y := by exact_mod_cast h2
            omega
        have w := left w
        have w' := left w'
        have hsame : e = e' → False := by
          rintro rfl
          have hcr : G.crs (j, e) (k, e) = 0 := by
            show ((G.pt (opp (j, e))).x - (G.pt (j, e)).x) * ((G.pt (opp (k, e))).y - (G.pt (k, e)).y) -
              ((G.pt (opp (j, e))).y - (G.pt (j, e)).y) * ((G.pt (opp (k, e))).x - (G.pt (k, e)).x) = 0
            have hp := hang j (hin j s h') k (hin k u h'')
            have hparR : ((s.right_point.x : ℝ) - s.left_point.x) * (u.right_point.y - u.left_point.y) = (s.right_point.y - s.left_point.y) * (u.right_point.x - u.left_point.x) := by
              exact_mod_cast hpar
            rw [pt e h', pt e h'', pt' e h', pt' e h'']
            cases e
            · show ((s.right_point.x : ℝ) - s.left_point.x) * (u.right_point.y - u.left_point.y) - (s.right_point.y - s.left_point.y) * (u.right_point.x - u.left_point.x) = 0
              linarith
            · show ((s.left_point.x : ℝ) - s.right_point.x) * (u.left_point.y - u.right_point.y) - (s.left_point.y - s.right_point.y) * (u.left_point.x - u.right_point.x) = 0
              linarith
          have hS := same_of_crs (hin j s h') (hin k u h'') hpe hcr
          have := pt_same (G := G) e.other hS
          apply heq
          apply asPt_real_inj (p := s.otherPointAt e) (q := u.otherPointAt e)
          rw [← pt' e h', ← pt' e h'']
          exact this
        cases e <;> cases e'
        · exact absurd rfl hsame
        · refine ⟨?_, opposite w ?_ ?_⟩
          · show (s.right_point.x - s.left_point.x) * (u.left_point.y - u.right_point.y) - (s.right_point.y - s.left_point.y) * (u.left_point.x - u.right_point.x) = 0
            linarith
          · show u.left_point.x - u.right_point.x < 0 ∨ (u.left_point.x - u.right_point.x = 0 ∧ u.left_point.y - u.right_point.y < 0)
            omega
          · show (s.right_point.x - s.left_point.x) * (u.left_point.y - u.right_point.y) - (s.right_point.y - s.left_point.y) * (u.left_point.x - u.right_point.x) = 0
            linarith
        · have hx : (s.left_point.x - s.right_point.x) * (u.right_point.y - u.left_point.y) - (s.left_point.y - s.right_point.y) * (u.right_point.x - u.left_point.x) = 0 := by linarith
          refine ⟨hx, ?_⟩
          have := opposite (u := (u.right_point.x - u.left_point.x, u.right_point.y - u.left_point.y)) (v := (s.left_point.x - s.right_point.x, s.left_point.y - s.right_point.y)) w'
            (by dsimp only; omega) (by dsimp only; linarith)
          show (s.left_point.x - s.right_point.x) * (u.right_point.x - u.left_point.x) + (s.left_point.y - s.right_point.y) * (u.right_point.y - u.left_point.y) < 0
          dsimp only at this
          linarith
        · exact absurd rfl hsame
      · right
        rw [hl h', hr h', hl h'', hr h''] at hsh
        have hsh : 11 / 10 ^ 8 * (((s.right_point.x : ℝ) - s.left_point.x) ^ 2 + (s.right_point.y - s.left_point.y) ^ 2) * ((u.right_point.x - u.left_point.x) ^ 2 + (u.right_point.y - u.left_point.y) ^ 2) <
          ((s.right_point.x - s.left_point.x) * (u.right_point.y - u.left_point.y) - (s.right_point.y - s.left_point.y) * (u.right_point.x - u.left_point.x)) ^ 2 := hsh
        have hsh : (11 : ℝ) * (((s.right_point.x : ℝ) - s.left_point.x) * (s.right_point.x - s.left_point.x) + (s.right_point.y - s.left_point.y) * (s.right_point.y - s.left_point.y)) *
            ((u.right_point.x - u.left_point.x) * (u.right_point.x - u.left_point.x) + (u.right_point.y - u.left_point.y) * (u.right_point.y - u.left_point.y)) <
          10 ^ 8 * ((s.right_point.x - s.left_point.x) * (u.right_point.y - u.left_point.y) - (s.right_point.y - s.left_point.y) * (u.right_point.x - u.left_point.x)) ^ 2 := by
          linarith
        have hsh : 11 * ((s.right_point.x - s.left_point.x) * (s.right_point.x - s.left_point.x) + (s.right_point.y - s.left_point.y) * (s.right_point.y - s.left_point.y)) *
            ((u.right_point.x - u.left_point.x) * (u.right_point.x - u.left_point.x) + (u.right_point.y - u.left_point.y) * (u.right_point.y - u.left_point.y)) <
          10 ^ 8 * ((s.right_point.x - s.left_point.x) * (u.right_point.y - u.left_point.y) - (s.right_point.y - s.left_point.y) * (u.right_point.x - u.left_point.x)) ^ 2 := by
          exact_mod_cast hsh
        cases e <;> cases e' <;> simp only [SweepSegment.otherPointAt, SweepSegment.pointAt] <;> linarith

open Plan in
theorem SharpPlan.quiet {lib : Lib} (hl : lib.Lawful) {polys : List (Polygon ℤ × PolygonMode)} (hP : Planar (asPolygons ℝ polys)) (hS : SharpPlan (asPolygons ℝ polys))
    (st : SweepState ℤ)
    (hst : addPolygons lib polys.length 0 (asPolygons ℝ polys) ⟨[], [], [], []⟩ = .ok (asState ℝ st)) (hs : SmallSt st) : Quiet ℝ F st.arena := by
  have hlen : (asPolygons ℝ polys).length = polys.length := List.length_map ..
  obtain ⟨Heap, hh⟩ := hl.heapOk
  obtain ⟨st', e1, h1⟩ := addPolygons_plan (hP := hP) hh (asPolygons ℝ polys) 0 [] ⟨[], [], [], []⟩ (fun k => by rw [Nat.zero_add]) rfl (Plan.loaded_nil hh)
  rw [hlen, hst] at e1
  cases e1
  have hA : st.arena.length = (listed 0 (asPolygons ℝ polys)).length := by
    rw [← h1.length]
    exact (List.length_map ..).symm
  have hlt : ∀ (i : Nat) (s : BoolSegment ℤ), st.arena[i]? = some s → i < (listed 0 (asPolygons ℝ polys)).length := fun i s h => hA ▸ (List.getElem?_eq_some_iff.1 h).1
  refine quiet_plan (G := ofPolys _ hP) (fun i s h => Finset.mem_range.2 (hlt i s h)) ?_ hs ?_ ?_
  · intro i s h
    obtain ⟨s', mode, e, his, _⟩ := h1.seg i (hlt i s h)
    have e' : (st.arena.map (asSeg ℝ))[i]? = some s' := e
    rw [List.getElem?_map, h] at e'
    cases e'
    exact his
  · intro i hi j hj
    exact hS.angles _ _ (drawn_toRight (nth_mem (Finset.mem_range.1 hi))) (drawn_toRight (nth_mem (Finset.mem_range.1 hj)))
  · intro i hi j hj
    exact hS.distances _ _ (drawn_toRight (nth_mem (Finset.mem_range.1 hi))) (drawn_toRight (nth_mem (Finset.mem_range.1 hj)))

theorem SharpPlan.smallC {polys : List (Polygon ℤ × PolygonMode)} (hS : SharpPlan (asPolygons ℝ polys)) : ∀ p ∈ polys, ∀ c ∈ p.1.contours, SmallC c := by
  intro p hp c hc q hq
  have h := hS.box _ (mem_allCorners hp hc hq)
  have h1 : |(q.x : ℝ)| ≤ 2 ^ 15 := h.1
  have h2 : |(q.y : ℝ)| ≤ 2 ^ 15 := h.2
  exact ⟨by exact_mod_cast h1, by exact_mod_cast h2⟩

theorem edges_le : ∀ polys : List (Polygon ℝ × PolygonMode), (allEdges polys).length = (allCorners polys).length
  | [] => rfl
  | p :: rest => by
    have ih := edges_le rest
    unfold allCorners allEdges at ih ⊢
    rw [List.flatMap_cons, List.flatMap_cons, List.length_append, List.length_append, ih]
    congr 1
    unfold Polygon.edges
    rw [List.length_flatMap, List.length_flatMap]
    simp only [Rings.closedEdges_length]

/-- An outline has at most twice as many corners as all polygons together. -/
theorem outline_length {polys : List (Polygon ℝ × PolygonMode)} {r : Polygon ℝ} (hd : ∀ c ∈ r.contours, ∀ d ∈ closedEdges c.points, Drawn polys d)
    (hn : (outlineEdges r).Nodup) {c : Contour ℝ} (hc : c ∈ r.contours) : c.points.length ≤ 2 * (allCorners polys).length := by
  have h1 : (closedEdges c.points).Nodup := (List.nodup_flatMap.1 hn).1 c hc
  have h2 : (closedEdges c.points) ⊆ allEdges polys ++ (allEdges polys).map Prod.swap := by
    intro d hd'
    rw [List.mem_append]
    rcases (hd c hc d hd').2 with h | h
    · exact Or.inl h
    · exact Or.inr (List.mem_map.2 ⟨_, h, Prod.swap_swap d⟩)
  have := (h1.subperm h2).length_le
  rw [List.length_append, List.length_map, edges_le, Rings.closedEdges_length] at this
  omega

theorem double_of_ok {lib : Lib} (hl : lib.Lawful) {polys : List (Polygon ℤ × PolygonMode)} (hP : Planar (asPolygons ℝ polys)) (hS : SharpPlan (asPolygons ℝ polys))
    {op : BooleanOpType} {r : Polygon ℝ} (hr : ∀ fuel, 2 * (allCorners (asPolygons ℝ polys)).length < fuel → compute lib fuel (asPolygons ℝ polys) op = .ok r)
    (hd : ∀ c ∈ r.contours, ∀ d ∈ closedEdges c.points, Drawn (asPolygons ℝ polys) d) (hn : (outlineEdges r).Nodup) :
    ∃ z : Polygon ℤ, ∀ fuel, 2 * (allCorners (asPolygons ℝ polys)).length < fuel →
      compute lib fuel (asPolygons ℝ polys) op = .ok (asPolygon ℝ z) ∧ compute lib fuel (asPolygons F polys) op = .ok (asPolygon F z) := by
  have key : ∀ fuel, 2 * (allCorners (asPolygons ℝ polys)).length < fuel →
      ∃ z, r = asPolygon ℝ z ∧ compute lib fuel (asPolygons F polys) op = .ok (asPolygon F z) := by
    intro fuel hf
    have := sim_compute (E := ℝ) (F := F) lib fuel polys op hS.smallC (fun st hst hs => hS.quiet hl hP st hst hs) (by
      intro r' hr' c hc
      have hr' : compute lib fuel (asPolygons ℝ polys) op = .ok r' := hr'
      rw [hr fuel hf] at hr'
      cases hr'
      have h1 := outline_length hd hn hc
      have h2 := hS.count
      have : (2 : ℕ) ^ 21 = 2 * 2 ^ 20 := by norm_num
      omega)
    obtain ⟨z, _, e1, e2⟩ := this r (hr fuel hf)
    exact ⟨z, e1, e2⟩
  obtain ⟨z, e, _⟩ := key (2 * (allCorners (asPolygons ℝ polys)).length + 1) (Nat.lt_succ_self _)
  refine ⟨z, fun fuel hf => ⟨by rw [hr fuel hf, e], ?_⟩⟩
  obtain ⟨z', e', h⟩ := key fuel hf
  rw [asPolygon_real_inj (e.symm.trans e')]
  exact h

/-- **C82.** For polygons whose outlines may share corners and edges but do not cross, with whole coordinates as in a map and a
bit of room at their angles, `compute` in double precision returns, bit by bit, the very result that exact arithmetic gives: the
same contours in the same order, with the same corners, holes, neighbors and flags. -/
theorem C82_same {lib : Lib} (hl : lib.Lawful) {polys : List (Polygon ℤ × PolygonMode)} (hP : Planar (asPolygons ℝ polys)) (hS : SharpPlan (asPolygons ℝ polys))
    (hm : ∀ p ∈ polys, p.2 ≠ .removeEdges) (op : BooleanOpType) :
    ∃ z : Polygon ℤ, ∀ fuel, 2 * (allCorners (asPolygons ℝ polys)).length < fuel →
      compute lib fuel (asPolygons ℝ polys) op = .ok (asPolygon ℝ z) ∧ compute lib fuel (asPolygons F polys) op = .ok (asPolygon F z) := by
  have hm' : ∀ p ∈ asPolygons ℝ polys, p.2 ≠ .removeEdges := by
    intro p hp
    obtain ⟨p', h', rfl⟩ := List.mem_map.1 hp
    exact hm p' h'
  obtain ⟨r, hr, hd, _, hn⟩ := C81_outlines hl hP hm' op
  exact double_of_ok hl hP hS hr (fun c hc d h => ((hd c hc).2 d h).1) hn

/-- **C82, C81 in double precision.** `compute` ends without a panic; the outlines of its result consist of exactly the edges that
have an area in the result on their left, each once; and an outline has the same area on its left all along, the one it is labelled
with.  (`asPolygon ℝ z` is the result with its coordinates read as real numbers.) -/
theorem C82_outlines {lib : Lib} (hl : lib.Lawful) {polys : List (Polygon ℤ × PolygonMode)} (hP : Planar (asPolygons ℝ polys)) (hS : SharpPlan (asPolygons ℝ polys))
    (hm : ∀ p ∈ polys, p.2 ≠ .removeEdges) (op : BooleanOpType) :
    ∃ z : Polygon ℤ, (∀ fuel, 2 * (allCorners (asPolygons ℝ polys)).length < fuel → compute lib fuel (asPolygons F polys) op = .ok (asPolygon F z)) ∧
      (∀ c ∈ (asPolygon ℝ z).contours, FlagsOk (asPolygons ℝ polys) c.from_polygons ∧
        ∀ d ∈ closedEdges c.points, Drawn (asPolygons ℝ polys) d ∧ AreaLeft (asPolygons ℝ polys) d c.from_polygons) ∧
      (∀ d flags, Drawn (asPolygons ℝ polys) d → AreaLeft (asPolygons ℝ polys) d flags → (d ∈ outlineEdges (asPolygon ℝ z) ↔ FlagsOk (asPolygons ℝ polys) flags)) ∧
      (outlineEdges (asPolygon ℝ z)).Nodup := by
  obtain ⟨z, hz⟩ := C82_same (F := F) hl hP hS hm op
  have hm' : ∀ p ∈ asPolygons ℝ polys, p.2 ≠ .removeEdges := by
    intro p hp
    obtain ⟨p', h', rfl⟩ := List.mem_map.1 hp
    exact hm p' h'
  obtain ⟨r, hr, h1, h2, h3⟩ := C81_outlines hl hP hm' op
  have e := hr _ (Nat.lt_succ_self _)
  rw [(hz _ (Nat.lt_succ_self _)).1] at e
  cases e
  exact ⟨z, fun fuel hf => (hz fuel hf).2, h1, h2, h3⟩

/-- **C82, C81 in double precision.** Counterclockwise outlines are recorded as outer ones; clockwise outlines as holes, with the
outline that goes from left to right along the next edge below, at their leftmost corner. -/
theorem C82_holes {lib : Lib} (hl : lib.Lawful) {polys : List (Polygon ℤ × PolygonMode)} (hP : Planar (asPolygons ℝ polys)) (hS : SharpPlan (asPolygons ℝ polys))
    (hm : ∀ p ∈ polys, p.2 ≠ .removeEdges) (op : BooleanOpType) :
    ∃ z : Polygon ℤ, (∀ fuel, 2 * (allCorners (asPolygons ℝ polys)).length < fuel → compute lib fuel (asPolygons F polys) op = .ok (asPolygon F z)) ∧
      (∀ c ∈ (asPolygon ℝ z).contours, (c.external = true ↔ 0 < signedArea2 c.points) ∧ (c.external = false ↔ signedArea2 c.points < 0)) ∧
      ∀ (i j : Nat) (c h : Contour ℝ), (asPolygon ℝ z).contours[i]? = some c → (asPolygon ℝ z).contours[j]? = some h →
        (j ∈ c.holes ↔ signedArea2 h.points < 0 ∧ ∃ v b d, h.points.head? = some v ∧ h.points.getLast? = some b ∧ d ∈ closedEdges c.points ∧
          NextBelow (asPolygons ℝ polys) (v, b) d) := by
  obtain ⟨z, hz⟩ := C82_same (F := F) hl hP hS hm op
  have hm' : ∀ p ∈ asPolygons ℝ polys, p.2 ≠ .removeEdges := by
    intro p hp
    obtain ⟨p', h', rfl⟩ := List.mem_map.1 hp
    exact hm p' h'
  have hr := (hz _ (Nat.lt_succ_self _)).1
  exact ⟨z, fun fuel hf => (hz fuel hf).2, fun c hc => C81_external hl hP hm' (Nat.lt_succ_self _) hr hc,
    fun i j c h hc hh => C81_holes hl hP hm' (Nat.lt_succ_self _) hr hc hh⟩

/-- **C69, the part that is true.** On outlines that may share corners and edges but neither cross nor touch elsewhere, `compute`
does not panic, neither in exact arithmetic nor in double precision.  Missing: outlines that cross, outlines with a corner on an
edge of another (where it does panic: `C69_panics`), and edges that are nearly parallel. -/
theorem C69_no_panic_partial {lib : Lib} (hl : lib.Lawful) {polys : List (Polygon ℤ × PolygonMode)} (hP : Planar (asPolygons ℝ polys)) (hS : SharpPlan (asPolygons ℝ polys))
    (hm : ∀ p ∈ polys, p.2 ≠ .removeEdges) (op : BooleanOpType) :
    (∃ r, ∀ fuel, 2 * (allCorners (asPolygons ℝ polys)).length < fuel → compute lib fuel (asPolygons ℝ polys) op = .ok r) ∧
    ∃ r, ∀ fuel, 2 * (allCorners (asPolygons ℝ polys)).length < fuel → compute lib fuel (asPolygons F polys) op = .ok r := by
  obtain ⟨z, hz⟩ := C82_same (F := F) hl hP hS hm op
  exact ⟨⟨_, fun fuel hf => (hz fuel hf).1⟩, _, fun fuel hf => (hz fuel hf).2⟩

end

end Idc
