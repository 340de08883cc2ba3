import Verif.Lemmas.Outline
import Verif.Props.FullMap
/-!
# C41, C42, C44: outlines of a full map
-/

set_option linter.unusedSectionVars false

namespace Idc

open FloatOps

variable {F : Type} [FloatOps F]

/-! ### Building the table -/

theorem side_get {m : FullMap F} {o : Option Nat} (h : ∀ i, o = some i → i < m.sides.length) :
    o = none ∨ ∃ i side, o = some i ∧ m.sides[i]? = some side ∧ facing m o = some side.sector := by
  rcases o with _ | i
  · exact Or.inl rfl
  · right
    have hi := h i rfl
    refine ⟨i, m.sides[i], rfl, List.getElem?_eq_getElem hi, ?_⟩
    simp [facing, List.getElem?_eq_getElem hi]

theorem pushSideEdge_hit {m : FullMap F} {s : Nat} {l : Line} {t : EdgeTable} {bl : List (Nat × Nat)} {i : Nat} {side : Side}
    (h1 : l.start < m.vertices.length) (h2 : l.stop < m.vertices.length) (ht : TableOk t bl)
    (hs : m.sides[i]? = some side) (he : side.sector = s) :
    ∃ t', pushSideEdge m s l t (some i) = .ok t' ∧ TableOk t' (bl ++ [(l.start, l.stop)]) := by
  refine ⟨_, ?_, tableOk_push ht l.start l.stop⟩
  simp only [pushSideEdge, index_ok hs, Res.bind_ok, if_pos he, index_ok (List.getElem?_eq_getElem h1),
    index_ok (List.getElem?_eq_getElem h2), Res.pure_eq]

theorem pushSideEdge_miss {m : FullMap F} {s : Nat} {l : Line} {t : EdgeTable} {i : Nat} {side : Side}
    (hs : m.sides[i]? = some side) (he : side.sector ≠ s) : pushSideEdge m s l t (some i) = .ok t := by
  simp only [pushSideEdge, index_ok hs, Res.bind_ok, if_neg he, Res.pure_eq]

/-- What one line adds to the boundary. -/
def bndLine (m : FullMap F) (s : Nat) (l : Line) : List (Nat × Nat) :=
  if (facing m l.front == some s) != (facing m l.back == some s) then [(l.start, l.stop)] else []

theorem pushLineEdges_ok {m : FullMap F} {s : Nat} {l : Line} {t : EdgeTable} {bl : List (Nat × Nat)}
    (h1 : l.start < m.vertices.length) (h2 : l.stop < m.vertices.length)
    (h3 : ∀ h, l.front = some h → h < m.sides.length) (h4 : ∀ h, l.back = some h → h < m.sides.length)
    (ht : TableOk t bl) : ∃ t', pushLineEdges m s t l = .ok t' ∧ TableOk t' (bl ++ bndLine m s l) := by
  unfold bndLine pushLineEdges
  rcases side_get h3 with hf | ⟨i, f, hi, hf, gf⟩ <;> rcases side_get h4 with hb | ⟨j, b, hj, hb, gb⟩
  · have e1 : facing m none = none := rfl
    simp [hf, hb, e1, Res.mapOption, pushSideEdge, ht]
  · have e1 : facing m none = none := rfl
    rw [hj] at gb
    simp only [hf, hj, e1, gb, Res.mapOption, Res.bind_ok, Res.pure_eq]
    by_cases hs : b.sector = s
    · obtain ⟨t', e, h⟩ := pushSideEdge_hit h1 h2 ht hb hs
      refine ⟨t', ?_, ?_⟩
      · simpa [pushSideEdge] using e
      · simpa [hs] using h
    · refine ⟨t, ?_, ?_⟩
      · have := pushSideEdge_miss (l := l) (t := t) hb hs
        simpa [pushSideEdge] using this
      · simpa [hs] using ht
  · have e1 : facing m none = none := rfl
    rw [hi] at gf
    simp only [hb, hi, e1, gf, Res.mapOption, index_ok hf, Res.bind_ok, Res.pure_eq]
    by_cases hs : f.sector = s
    · obtain ⟨t', e, h⟩ := pushSideEdge_hit h1 h2 ht hf hs
      refine ⟨t', ?_, ?_⟩
      · rw [if_neg (by simp), e]; rfl
      · simpa [hs] using h
    · refine ⟨t, ?_, ?_⟩
      · rw [if_neg (by simp), pushSideEdge_miss hf hs]; rfl
      · simpa [hs] using ht
  · rw [hi] at gf
    rw [hj] at gb
    simp only [hj, hi, gf, gb, Res.mapOption, index_ok hf, index_ok hb, Res.bind_ok, Res.pure_eq]
    by_cases hfb : f.sector = b.sector
    · refine ⟨t, ?_, ?_⟩
      · rw [if_pos (by simpa using hfb)]
      · simpa [hfb] using ht
    · rw [if_neg (by simpa using hfb)]
      by_cases hs : f.sector = s
      · have hs' : b.sector ≠ s := fun h => hfb (hs.trans h.symm)
        obtain ⟨t', e, h⟩ := pushSideEdge_hit h1 h2 ht hf hs
        refine ⟨t', ?_, ?_⟩
        · rw [e, Res.bind_ok, pushSideEdge_miss hb hs']
        · simpa [hs, hs'] using h
      · by_cases hs' : b.sector = s
        · obtain ⟨t', e, h⟩ := pushSideEdge_hit h1 h2 ht hb hs'
          refine ⟨t', ?_, ?_⟩
          · rw [pushSideEdge_miss hf hs, Res.bind_ok, e]
          · simpa [hs, hs'] using h
        · refine ⟨t, ?_, ?_⟩
          · rw [pushSideEdge_miss hf hs, Res.bind_ok, pushSideEdge_miss hb hs']
          · simpa [hs, hs'] using ht

theorem boundary_flatMap (m : FullMap F) (s : Nat) : boundary m s = m.lines.flatMap (bndLine m s) := by
  unfold boundary
  induction m.lines with
  | nil => rfl
  | cons l ls ih =>
    rw [List.filter_cons, List.flatMap_cons, ← ih]
    unfold bndLine
    split_ifs <;> simp

theorem sectorEdges_ok (m : FullMap F) (s : Nat) (hm : RefsInRange m) :
    ∃ t, sectorEdges m s = .ok t ∧ TableOk t (boundary m s) := by
  have key : ∀ (ls : List Line) (t : EdgeTable) (bl : List (Nat × Nat)), (∀ l ∈ ls, l ∈ m.lines) → TableOk t bl →
      ∃ t', forEach (pushLineEdges m s) ls t = .ok t' ∧ TableOk t' (bl ++ ls.flatMap (bndLine m s)) := by
    intro ls
    induction ls with
    | nil => intro t bl _ ht; exact ⟨t, rfl, by simpa using ht⟩
    | cons l ls ih =>
      intro t bl hls ht
      have hl := hls l (by simp)
      obtain ⟨t1, e1, ht1⟩ := pushLineEdges_ok (s := s) (hm.starts l hl) (hm.stops l hl) (hm.fronts l hl) (hm.backs l hl) ht
      obtain ⟨t2, e2, ht2⟩ := ih t1 _ (fun x hx => hls x (List.mem_cons_of_mem _ hx)) ht1
      refine ⟨t2, ?_, ?_⟩
      · rw [forEach, e1, Res.bind_ok, e2]
      · simpa using ht2
  obtain ⟨t, h1, h2⟩ := key m.lines _ [] (fun _ h => h) tableOk_nil
  refine ⟨t, h1, ?_⟩
  rw [boundary_flatMap]
  simpa using h2

theorem boundary_vertices {m : FullMap F} {s : Nat} (hm : RefsInRange m) {v : Nat} (h : IsEnd (boundary m s) v) :
    v < m.vertices.length := by
  obtain ⟨p, hp, hv⟩ := h
  unfold boundary at hp
  obtain ⟨l, hl, rfl⟩ := List.mem_map.mp hp
  have hl := (List.mem_filter.mp hl).1
  rcases hv with rfl | rfl
  · exact hm.starts l hl
  · exact hm.stops l hl

/-! ### One walk -/

/-- A counterclockwise candidate is remembered. -/
def Closest.Inv (c : Closest F) : Prop := c.seenCcw = true → c.best ≠ none

theorem considerEdge_ok (m : FullMap F) (bl : List (Nat × Nat)) (U : List Nat) (i w : Nat) (nextP current : Pt F)
    (hi : i ∈ U) (hv : ∀ v, IsEnd bl v → v < m.vertices.length) (c : Closest F) (hc : c.Inv) (e x : Nat) (hj : Joins bl e w x) :
    ∃ c', considerEdge m.vertices (edgesWith bl U) i w nextP current c e = .ok c' ∧ c'.Inv ∧
      (c'.best = none → c.best = none ∧ e ∈ U) ∧
      (∀ e' v, c'.best = some (e', v) → c.best = some (e', v) ∨ (e' = e ∧ e ∉ U ∧ Joins bl e w v)) := by
  unfold considerEdge
  by_cases hie : i = e
  · subst hie
    exact ⟨c, by simp, hc, fun h => ⟨h, hi⟩, fun _ _ h => Or.inl h⟩
  · rw [if_neg hie]
    obtain ⟨p, hp⟩ : ∃ p, bl[e]? = some p := by rcases hj with h | h <;> exact ⟨_, h⟩
    rw [index_edgesWith hp, Res.bind_ok]
    dsimp only
    by_cases hd : e ∈ U
    · refine ⟨c, ?_, hc, fun h => ⟨h, hd⟩, fun _ _ h => Or.inl h⟩
      rw [if_pos (by simpa using hd)]
    · rw [if_neg (by simpa using hd)]
      have hother : Joins bl e w (if p.1 = w then p.2 else p.1) := by
        obtain ⟨a, b⟩ := p
        unfold Joins at hj ⊢
        rw [hp] at hj ⊢
        simp only [Option.some.injEq, Prod.mk.injEq] at hj ⊢
        rcases hj with ⟨h1, h2⟩ | ⟨h1, h2⟩
        · left; subst h1; simp
        · by_cases h : a = w
          · left; exact ⟨h, by rw [if_pos h]⟩
          · right; exact ⟨by rw [if_neg h], h2⟩
      have hlt := hv _ (joins_isEnd hother)
      rw [index_ok (List.getElem?_eq_getElem hlt), Res.bind_ok]
      generalize (if p.1 = w then p.2 else p.1) = o at *
      split_ifs
      · exact ⟨_, rfl, by simp [Closest.Inv], by simp,
          fun e' v h => by simp at h; obtain ⟨rfl, rfl⟩ := h; exact Or.inr ⟨rfl, hd, hother⟩⟩
      · refine ⟨_, rfl, hc, fun h => ?_, fun _ _ h => Or.inl h⟩
        rename_i h1 h2
        simp only [Bool.and_eq_true] at h2
        exact absurd h (hc h2.2)
      · exact ⟨_, rfl, by simp [Closest.Inv], by simp,
          fun e' v h => by simp at h; obtain ⟨rfl, rfl⟩ := h; exact Or.inr ⟨rfl, hd, hother⟩⟩
      · rename_i h1 h2 h3
        refine ⟨_, rfl, hc, fun h => ?_, fun _ _ h => Or.inl h⟩
        simp [h] at h3

theorem considerAll_ok (m : FullMap F) (bl : List (Nat × Nat)) (U : List Nat) (i w : Nat) (nextP current : Pt F)
    (hi : i ∈ U) (hv : ∀ v, IsEnd bl v → v < m.vertices.length) (es : List Nat) (hes : ∀ e ∈ es, ∃ x, Joins bl e w x)
    (c : Closest F) (hc : c.Inv) :
    ∃ c', forEach (considerEdge m.vertices (edgesWith bl U) i w nextP current) es c = .ok c' ∧
      (c'.best = none → c.best = none ∧ ∀ e ∈ es, e ∈ U) ∧
      (∀ e' v, c'.best = some (e', v) → c.best = some (e', v) ∨ (e' ∉ U ∧ Joins bl e' w v)) := by
  induction es generalizing c with
  | nil => exact ⟨c, rfl, fun h => ⟨h, by simp⟩, fun _ _ h => Or.inl h⟩
  | cons e es ih =>
    obtain ⟨x, hx⟩ := hes e (by simp)
    obtain ⟨c1, e1, i1, n1, s1⟩ := considerEdge_ok m bl U i w nextP current hi hv c hc e x hx
    obtain ⟨c2, e2, n2, s2⟩ := ih (fun e he => hes e (List.mem_cons_of_mem _ he)) c1 i1
    refine ⟨c2, by rw [forEach, e1, Res.bind_ok, e2], ?_, ?_⟩
    · intro h
      obtain ⟨h1, h2⟩ := n2 h
      obtain ⟨h3, h4⟩ := n1 h1
      refine ⟨h3, ?_⟩
      intro e' he'
      rcases List.mem_cons.mp he' with rfl | he'
      · exact h4
      · exact h2 e' he'
    · intro e' v h
      rcases s2 e' v h with h | h
      · rcases s1 e' v h with h | ⟨rfl, h1, h2⟩
        · exact Or.inl h
        · exact Or.inr ⟨h1, h2⟩
      · exact Or.inr h

theorem nodup_length_le {l : List Nat} {n : Nat} (h : l.Nodup) (hl : ∀ x ∈ l, x < n) : l.length ≤ n := by
  have h1 : l.Subperm (List.range n) := List.Nodup.subperm h fun x hx => List.mem_range.mpr (hl x hx)
  simpa using h1.length_le

theorem walk_last_end {bl : List (Nat × Nat)} {vs es : List Nat} {w : Nat} (h : Walk bl vs es w) :
    ∃ e a, Joins bl e a w ∧ vs.getLast? = some a ∧ IsEnd bl a := by
  cases h with
  | first h => exact ⟨_, _, h, rfl, joins_isEnd (joins_symm h)⟩
  | step h hj => exact ⟨_, _, hj, by simp, joins_isEnd (joins_symm hj)⟩

theorem positions_append {m : FullMap F} {vs : List Nat} {ps : List (Pt F)} {v : Nat} {p : Pt F}
    (h : Positions m vs ps) (hv : m.vertices[v]? = some p) : Positions m (vs ++ [v]) (ps ++ [p]) := by
  unfold Positions at h ⊢
  rw [List.map_append, List.map_append, h]
  simp [hv]

theorem walk_step (m : FullMap F) (bl : List (Nat × Nat)) (t : EdgeTable) (ht : TableOk t bl)
    (hv : ∀ v, IsEnd bl v → v < m.vertices.length) (i : Nat) (used : List Nat)
    (v : Nat) (vs es : List Nat) (w prevV : Nat) (ps : List (Pt F)) (hi : i ∈ used ++ es) (hw : Walk bl (v :: vs) es w)
    (hps : Positions m (v :: vs) ps) (hprev : IsEnd bl prevV) :
    (∃ ps', (∀ fuel, walkOutline m.vertices t.byVertex i (fuel + 1) (edgesWith bl (used ++ es)) ps prevV w =
        .ok (edgesWith bl (used ++ es), ps')) ∧ Outline m bl used es ps') ∨
    (∃ e x ps', e ∉ used ++ es ∧ Joins bl e w x ∧ Positions m (v :: (vs ++ [w])) ps' ∧
      ∀ fuel, walkOutline m.vertices t.byVertex i (fuel + 1) (edgesWith bl (used ++ es)) ps prevV w =
        walkOutline m.vertices t.byVertex i fuel (edgesWith bl (used ++ (es ++ [e]))) ps' w x) := by
  obtain ⟨e0, a0, hj0, _, _⟩ := walk_last_end hw
  have hwlt := hv w (joins_isEnd hj0)
  have hw' := List.getElem?_eq_getElem hwlt
  have hprev' := List.getElem?_eq_getElem (hv prevV hprev)
  obtain ⟨p, ps0, hp0, hvp⟩ : ∃ p ps0, ps = p :: ps0 ∧ m.vertices[v]? = some p := by
    unfold Positions at hps
    rcases ps with _ | ⟨p, ps0⟩
    · simp at hps
    · simp only [List.map_cons, List.cons.injEq] at hps
      exact ⟨p, ps0, rfl, hps.1⟩
  have hfirst : index ps 0 = .ok p := by rw [hp0]; rfl
  obtain ⟨cs, hcs, hcs'⟩ := entryGet_isSome ht (joins_symm hj0)
  obtain ⟨c, hc1, hc2, hc3⟩ := considerAll_ok m bl (used ++ es) i w m.vertices[w] (m.vertices[w].sub (m.vertices[prevV]'(hv _ hprev)))
    hi hv cs (fun e he => (hcs' e).mp he) { dot := nan, best := none, seenCcw := false } (by simp [Closest.Inv])
  have hps2 : Positions m (v :: (vs ++ [w])) (ps ++ [m.vertices[w]]) := positions_append hps hw'
  by_cases hbeq : m.vertices[w].beq p = true
  · left
    refine ⟨ps, ?_, Outline.closed hw hvp hw' hbeq hps⟩
    intro fuel
    simp only [walkOutline, index_ok hw', Res.bind_ok, hfirst, if_pos hbeq]
  · rcases hbest : c.best with _ | ⟨e, x⟩
    · left
      refine ⟨ps ++ [m.vertices[w]], ?_, Outline.stuck hw hvp hw' (by simpa using hbeq) ?_ hps2⟩
      · intro fuel
        simp only [walkOutline, index_ok hw', index_ok hprev', Res.bind_ok, hfirst, if_neg hbeq, hcs, unwrap, hc1, hbest]
      · intro e x hj
        have := (hc2 hbest).2 e ((hcs' e).mpr ⟨x, hj⟩)
        exact List.mem_append.mp this
    · right
      rcases hc3 e x hbest with h | ⟨h1, h2⟩
      · simp at h
      · refine ⟨e, x, _, h1, h2, hps2, ?_⟩
        intro fuel
        simp only [walkOutline, index_ok hw', index_ok hprev', Res.bind_ok, hfirst, if_neg hbeq, hcs, unwrap, hc1, hbest,
          edgesWith_done _ _ _ (joins_lt h2), List.append_assoc]

theorem walk_ok (m : FullMap F) (bl : List (Nat × Nat)) (t : EdgeTable) (ht : TableOk t bl)
    (hv : ∀ v, IsEnd bl v → v < m.vertices.length) (i : Nat) (used : List Nat) (k : Nat) :
    ∀ (v : Nat) (vs es : List Nat) (w prevV : Nat) (ps : List (Pt F)), bl.length ≤ k + (used ++ es).length →
      (used ++ es).Nodup → (∀ e ∈ used ++ es, e < bl.length) → i ∈ used ++ es → Walk bl (v :: vs) es w →
      Positions m (v :: vs) ps → IsEnd bl prevV →
      ∃ es' ps', (∀ fuel, k + 1 ≤ fuel →
          walkOutline m.vertices t.byVertex i fuel (edgesWith bl (used ++ es)) ps prevV w = .ok (edgesWith bl (used ++ (es ++ es')), ps')) ∧
        (used ++ (es ++ es')).Nodup ∧ (∀ e ∈ used ++ (es ++ es'), e < bl.length) ∧ Outline m bl used (es ++ es') ps' := by
  induction k with
  | zero =>
    intro v vs es w prevV ps hlen hnd hlt hi hw hps hprev
    have hall : ∀ e, e < bl.length → e ∈ used ++ es := by
      intro e he
      by_contra hne
      have hnd' : (e :: (used ++ es)).Nodup := List.nodup_cons.mpr ⟨hne, hnd⟩
      have := nodup_length_le (n := bl.length) hnd' (by
        intro x hx
        rcases List.mem_cons.mp hx with rfl | hx
        · exact he
        · exact hlt x hx)
      simp only [List.length_cons] at this
      omega
    rcases walk_step m bl t ht hv i used v vs es w prevV ps hi hw hps hprev with ⟨ps', h1, h2⟩ | ⟨e, x, ps', h1, h2, _⟩
    · refine ⟨[], ps', ?_, by simpa using hnd, by simpa using hlt, by simpa using h2⟩
      intro fuel hf
      obtain ⟨f, rfl⟩ : ∃ f, fuel = f + 1 := ⟨fuel - 1, by omega⟩
      simpa using h1 f
    · exact absurd (hall e (joins_lt h2)) h1
  | succ k ih =>
    intro v vs es w prevV ps hlen hnd hlt hi hw hps hprev
    rcases walk_step m bl t ht hv i used v vs es w prevV ps hi hw hps hprev with ⟨ps', h1, h2⟩ | ⟨e, x, ps', h1, h2, h3, h4⟩
    · refine ⟨[], ps', ?_, by simpa using hnd, by simpa using hlt, by simpa using h2⟩
      intro fuel hf
      obtain ⟨f, rfl⟩ : ∃ f, fuel = f + 1 := ⟨fuel - 1, by omega⟩
      simpa using h1 f
    · have hnd' : (used ++ (es ++ [e])).Nodup := by
        rw [← List.append_assoc]
        exact List.nodup_append.mpr ⟨hnd, by simp, fun a ha b hb => by simp at hb; subst hb; exact fun h => h1 (h ▸ ha)⟩
      obtain ⟨es', ps'', g1, g2, g3, g4⟩ := ih v (vs ++ [w]) (es ++ [e]) x w ps'
        (by simp only [List.length_append, List.length_cons, List.length_nil] at hlen ⊢; omega) hnd'
        (by
          intro y hy
          rw [← List.append_assoc] at hy
          rcases List.mem_append.mp hy with hy | hy
          · exact hlt y hy
          · simp at hy; subst hy; exact joins_lt h2)
        (by rw [← List.append_assoc]; exact List.mem_append_left _ hi) (Walk.step hw h2) h3 (joins_isEnd (joins_symm h2))
      refine ⟨e :: es', ps'', ?_, ?_, ?_, ?_⟩
      · intro fuel hf
        obtain ⟨f, rfl⟩ : ∃ f, fuel = f + 1 := ⟨fuel - 1, by omega⟩
        rw [h4 f, g1 f (by omega)]
        simp
      · simpa using g2
      · simpa using g3
      · simpa using g4

/-! ### All walks -/

theorem outlineLoop_ok (m : FullMap F) (bl : List (Nat × Nat)) (t : EdgeTable) (ht : TableOk t bl)
    (hv : ∀ v, IsEnd bl v → v < m.vertices.length) (is : List Nat) (his : ∀ i ∈ is, i < bl.length)
    (pre : List (List Nat × List (Pt F)))
    (hnd : (pre.flatMap (·.1)).Nodup) (hlt : ∀ e ∈ pre.flatMap (·.1), e < bl.length)
    (outs : List (List (Pt F))) :
    ∃ ts, (∀ fuel, bl.length ≤ fuel → outlineLoop m.vertices t.byVertex fuel is (edgesWith bl (pre.flatMap (·.1))) outs =
        .ok (outs ++ (ts.map (·.2)).filter fun ps => decide (ps.length > 2))) ∧
      ((pre ++ ts).flatMap (·.1)).Nodup ∧ (∀ e ∈ (pre ++ ts).flatMap (·.1), e < bl.length) ∧
      (∀ i ∈ is, i ∈ (pre ++ ts).flatMap (·.1)) ∧
      (∀ a t b, ts = a ++ t :: b → Outline m bl ((pre ++ a).flatMap (·.1)) t.1 t.2) := by
  induction is generalizing pre outs with
  | nil => exact ⟨[], fun _ _ => by simp [outlineLoop], by simpa using hnd, by simpa using hlt, by simp, by simp⟩
  | cons i is ih =>
    have hi := his i (by simp)
    obtain ⟨p, hp⟩ : ∃ p, bl[i]? = some p := ⟨_, List.getElem?_eq_getElem hi⟩
    have hidx := index_edgesWith (U := pre.flatMap (·.1)) hp
    by_cases hd : i ∈ pre.flatMap (·.1)
    · obtain ⟨ts, h1, h2, h3, h4, h5⟩ := ih (fun j hj => his j (List.mem_cons_of_mem _ hj)) pre hnd hlt outs
      refine ⟨ts, ?_, h2, h3, ?_, h5⟩
      · intro fuel hf
        rw [outlineLoop, hidx, Res.bind_ok]
        dsimp only
        rw [if_pos (by simpa using hd)]
        exact h1 fuel hf
      · intro j hj
        rcases List.mem_cons.mp hj with rfl | hj
        · rw [List.flatMap_append]; exact List.mem_append_left _ hd
        · exact h4 j hj
    · have hj : Joins bl i p.1 p.2 := Or.inl hp
      have hv0 := hv p.1 (joins_isEnd (joins_symm hj))
      obtain ⟨es', ps', g1, g2, g3, g4⟩ := walk_ok m bl t ht hv i (pre.flatMap (·.1)) (bl.length - ((pre.flatMap (·.1)).length + 1))
        p.1 [] [i] p.2 p.1 [m.vertices[p.1]] (by simp only [List.length_append, List.length_cons, List.length_nil]; omega)
        (List.nodup_append.mpr ⟨hnd, by simp, fun a ha b hb => by simp at hb; subst hb; exact fun h => hd (h ▸ ha)⟩)
        (by
          intro y hy
          rcases List.mem_append.mp hy with hy | hy
          · exact hlt y hy
          · simp at hy; subst hy; exact hi)
        (by simp) (Walk.first hj) (by simp [Positions, List.getElem?_eq_getElem hv0])
        (joins_isEnd (joins_symm hj))
      have hU : pre.flatMap (·.1) ++ ([i] ++ es') = (pre ++ [([i] ++ es', ps')]).flatMap (·.1) := by simp
      rw [hU] at g2 g3
      obtain ⟨ts, h1, h2, h3, h4, h5⟩ := ih (fun j hj => his j (List.mem_cons_of_mem _ hj)) (pre ++ [([i] ++ es', ps')]) g2 g3
        (if ps'.length > 2 then outs ++ [ps'] else outs)
      refine ⟨([i] ++ es', ps') :: ts, ?_, by simpa using h2, by simpa using h3, ?_, ?_⟩
      · intro fuel hf
        rw [outlineLoop, hidx, Res.bind_ok]
        dsimp only
        rw [if_neg (by simpa using hd), edgesWith_done _ _ _ hi, Res.bind_ok, index_ok (List.getElem?_eq_getElem hv0), Res.bind_ok,
          g1 fuel (by omega), Res.bind_ok]
        dsimp only
        rw [hU, h1 fuel hf]
        simp only [List.map_cons, List.filter_cons, gt_iff_lt, decide_eq_true_eq]
        split_ifs <;> simp
      · intro j hj
        rcases List.mem_cons.mp hj with rfl | hj
        · simp
        · have := h4 j hj
          simpa using this
      · intro a t b hab
        rcases a with _ | ⟨a0, a⟩
        · simp only [List.nil_append, List.cons.injEq] at hab
          obtain ⟨rfl, _⟩ := hab
          simpa using g4
        · simp only [List.cons_append, List.cons.injEq] at hab
          obtain ⟨rfl, rfl⟩ := hab
          have := h5 a t b rfl
          simpa using this

/-- **C41** `Map::sector_to_polygons` finishes without panicking on every map with valid references,
whatever the floating-point results; its outlines follow boundary lines of the sector, all outlines
(including the discarded ones of fewer than three points) together use every boundary line of the sector
exactly once, and each is closed or ends where no unused boundary line is left. -/
theorem C41_outlines (m : FullMap F) (s : Nat) (hm : RefsInRange m) :
    ∃ outlines ts, (∀ fuel, (boundary m s).length ≤ fuel → m.sectorToPolygons s fuel = .ok outlines) ∧
      Tracing m (boundary m s) outlines ts := by
  obtain ⟨t, h1, h2⟩ := sectorEdges_ok m s hm
  obtain ⟨ts, g1, g2, g3, g4, g5⟩ := outlineLoop_ok m (boundary m s) t h2 (fun v hv => boundary_vertices hm hv)
    (List.range (boundary m s).length) (fun i hi => List.mem_range.mp hi) [] (by simp) (by simp) []
  simp only [List.nil_append, List.flatMap_nil] at g1 g2 g3 g4 g5
  refine ⟨_, ts, ?_, ⟨g5, ?_, rfl⟩⟩
  · intro fuel hf
    unfold FullMap.sectorToPolygons
    rw [h1, Res.bind_ok, h2.edges, edgesWith_length]
    exact g1 fuel hf
  · apply (List.perm_ext_iff_of_nodup g2 List.nodup_range).mpr
    intro e
    rw [List.mem_range]
    exact ⟨g3 e, fun h => g4 e (List.mem_range.mpr h)⟩

theorem walk_joined {bl : List (Nat × Nat)} {vs es : List Nat} {w : Nat} (h : Walk bl vs es w) :
    Consecutive (fun a b => ∃ e, Joins bl e a b) (vs ++ [w]) := by
  induction h with
  | first hj =>
    intro k a b ha hb
    rcases k with _ | k
    · simp at ha hb; subst ha; subst hb; exact ⟨_, hj⟩
    · simp at hb
  | @step vs es w e x _ hj ih =>
    intro k a b ha hb
    by_cases hk : k + 1 < (vs ++ [w]).length
    · rw [List.getElem?_append_left (by omega)] at ha
      rw [List.getElem?_append_left hk] at hb
      exact ih k a b ha hb
    · have hk1 : k + 1 = (vs ++ [w]).length := by
        have := (List.getElem?_eq_some_iff.mp hb).1
        simp only [List.length_append, List.length_cons, List.length_nil] at this hk ⊢
        omega
      rw [hk1] at hb
      simp at hb
      subst hb
      have hk2 : k = vs.length := by simp at hk1; omega
      subst hk2
      simp at ha
      subst ha
      exact ⟨e, hj⟩

/-- **C41**, the plain consequences: every outline has at least three points, and there are boundary
vertices at those points such that consecutive ones are joined by a boundary line of the sector. -/
theorem C41_outline_points (m : FullMap F) (s : Nat) (hm : RefsInRange m) (fuel : Nat) (hf : (boundary m s).length ≤ fuel) :
    ∃ outlines, m.sectorToPolygons s fuel = .ok outlines ∧ ∀ ps ∈ outlines, 3 ≤ ps.length ∧
      ∃ vs, Positions m vs ps ∧ Consecutive (fun a b => ∃ e, Joins (boundary m s) e a b) vs := by
  obtain ⟨outlines, ts, h1, h2⟩ := C41_outlines m s hm
  refine ⟨outlines, h1 fuel hf, ?_⟩
  intro ps hps
  rw [h2.result, List.mem_filter, List.mem_map] at hps
  obtain ⟨⟨t, ht, rfl⟩, hlen⟩ := hps
  refine ⟨by simp at hlen; omega, ?_⟩
  obtain ⟨a, b, hab⟩ := List.append_of_mem ht
  have := h2.each a t b hab
  rcases this with ⟨hw, _, _, _, hp⟩ | ⟨hw, _, _, _, _, hp⟩
  · refine ⟨_, hp, ?_⟩
    have := walk_joined hw
    intro k a b ha hb
    exact this k a b (by rw [List.getElem?_append_left (List.getElem?_eq_some_iff.mp ha).1]; exact ha)
      (by rw [List.getElem?_append_left (List.getElem?_eq_some_iff.mp hb).1]; exact hb)
  · exact ⟨_, hp, walk_joined hw⟩

/-- Valid bare maps convert to full maps with valid references. -/
theorem refsInRange_of_wellFormed (b : BareDoomMap) (m : FullMap F) (hm : FullMap.fromBare b = .ok m) (hw : WellFormed b) :
    RefsInRange m := by
  rw [fromBare_eq] at hm
  injection hm with hm; subst hm
  constructor
  · intro l hl
    obtain ⟨k, c, hc, rfl⟩ := mem_convLines hl
    have := hw.starts c (List.mem_of_getElem? hc)
    simp only [convLine, i16AsUsize_nonneg this.1, List.length_map]; exact this.2
  · intro l hl
    obtain ⟨k, c, hc, rfl⟩ := mem_convLines hl
    have := hw.ends c (List.mem_of_getElem? hc)
    simp only [convLine, i16AsUsize_nonneg this.1, List.length_map]; exact this.2
  · intro l hl h hh
    obtain ⟨k, c, hc, rfl⟩ := mem_convLines hl
    simp only [convLine] at hh
    split_ifs at hh with hne
    have := hw.fronts c (List.mem_of_getElem? hc) (ne_neg_one.mp hne)
    simp only [Option.some.injEq] at hh
    subst hh
    simp only [i16AsUsize_nonneg this.1, List.length_map]; exact this.2
  · intro l hl h hh
    obtain ⟨k, c, hc, rfl⟩ := mem_convLines hl
    simp only [convLine] at hh
    split_ifs at hh with hne
    have := hw.backs c (List.mem_of_getElem? hc) (ne_neg_one.mp hne)
    simp only [Option.some.injEq] at hh
    subst hh
    simp only [i16AsUsize_nonneg this.1, List.length_map]; exact this.2

/-- The hypotheses of C41 are met by a converted map with a two-sided and a one-sided line; sector 0 has
two boundary lines. -/
theorem C41_hypotheses_met : ∃ m : FullMap F, FullMap.fromBare wellFormedSample = .ok m ∧ RefsInRange m ∧
    boundary m 0 = [(0, 1), (1, 2)] :=
  ⟨_, fromBare_eq _, refsInRange_of_wellFormed _ _ (fromBare_eq _) C37_hypotheses_met, rfl⟩

/-- The converted map. -/
def convMap (b : BareDoomMap) : FullMap F where
  lines := convLines 0 b.lines
  sides := b.sides.map convSide
  sectors := b.sectors.map convSector
  things := b.things.map convThing
  vertices := b.vertices.map convVertex

/-! ### C42: closed outlines -/

/-- How many ends of the boundary lines numbered `es` are at `v`. -/
def endsAt (bl : List (Nat × Nat)) (es : List Nat) (v : Nat) : Nat :=
  (es.map fun e => match bl[e]? with
    | some p => (if p.1 = v then 1 else 0) + (if p.2 = v then 1 else 0)
    | none => 0).sum

theorem endsAt_append (bl : List (Nat × Nat)) (a b : List Nat) (v : Nat) :
    endsAt bl (a ++ b) v = endsAt bl a v + endsAt bl b v := by
  simp [endsAt]

theorem endsAt_perm {bl : List (Nat × Nat)} {a b : List Nat} (h : a.Perm b) (v : Nat) : endsAt bl a v = endsAt bl b v := by
  unfold endsAt
  exact (h.map _).sum_eq

theorem endsAt_joins {bl : List (Nat × Nat)} {e a b : Nat} (h : Joins bl e a b) (v : Nat) :
    endsAt bl [e] v = (if a = v then 1 else 0) + (if b = v then 1 else 0) := by
  rcases h with h | h <;> simp [endsAt, h]
  rw [Nat.add_comm]

theorem endsAt_walk {bl : List (Nat × Nat)} {vs es : List Nat} {w a : Nat} (h : Walk bl vs es w) (ha : vs.head? = some a)
    (v : Nat) : endsAt bl es v % 2 = ((if a = v then 1 else 0) + (if w = v then 1 else 0)) % 2 := by
  induction h with
  | first hj =>
    simp at ha; subst ha
    rw [endsAt_joins hj]
  | @step vs es w e x hw hj ih =>
    have ha' : vs.head? = some a := by
      rcases vs with _ | ⟨b, vs⟩
      · obtain ⟨_, _, _, h, _⟩ := walk_last_end hw
        simp at h
      · simpa using ha
    rw [endsAt_append, endsAt_joins hj]
    have := ih ha'
    omega

theorem endsAt_range (bl : List (Nat × Nat)) (v : Nat) :
    endsAt bl (List.range bl.length) v = bl.countP (·.1 = v) + bl.countP (·.2 = v) := by
  have key : ∀ (pre l : List (Nat × Nat)), endsAt (pre ++ l) ((List.range l.length).map (pre.length + ·)) v =
      l.countP (·.1 = v) + l.countP (·.2 = v) := by
    intro pre l
    induction l generalizing pre with
    | nil => simp [endsAt]
    | cons p l ih =>
      have := ih (pre ++ [p])
      rw [List.length_cons, List.range_succ_eq_map, List.map_cons, List.map_map]
      have e1 : List.map ((fun x => pre.length + x) ∘ Nat.succ) (List.range l.length) =
          (List.range l.length).map ((pre ++ [p]).length + ·) := by
        apply List.map_congr_left
        intro x _
        simp; omega
      rw [e1]
      rw [show ∀ (x : Nat) (xs : List Nat), x :: xs = [x] ++ xs from fun _ _ => rfl, endsAt_append]
      rw [List.append_assoc] at this
      have this : endsAt (pre ++ p :: l) ((List.range l.length).map ((pre ++ [p]).length + ·)) v =
        l.countP (·.1 = v) + l.countP (·.2 = v) := this
      rw [this, endsAt_joins (show Joins (pre ++ p :: l) (pre.length + 0) p.1 p.2 from Or.inl (by simp))]
      simp only [List.countP_cons, decide_eq_true_eq]
      omega
  simpa using key [] bl

/-- **C42, what does hold** (missing: boundaries with a loose end, see `C42_open_outline`): if every
vertex is at an even number of boundary line ends and different vertices are at different positions, then
every outline is a closed walk: boundary lines lead from each point to the next and from the last back
to the first. -/
theorem C42_closed_partial (m : FullMap F) (s : Nat) (hm : RefsInRange m) (hd : DistinctPositions m)
    (he : EvenDegrees (boundary m s)) :
    ∃ outlines, (∀ fuel, (boundary m s).length ≤ fuel → m.sectorToPolygons s fuel = .ok outlines) ∧
      ∀ ps ∈ outlines, ∃ v vs es, Walk (boundary m s) (v :: vs) es v ∧ Positions m (v :: vs) ps := by
  obtain ⟨outlines, ts, h1, h2⟩ := C41_outlines m s hm
  refine ⟨outlines, h1, ?_⟩
  have hclosed : ∀ pre post, ts = pre ++ post → (∀ w, endsAt (boundary m s) (pre.flatMap (·.1)) w % 2 = 0) ∧
      ∀ t ∈ pre, ∃ v vs, Walk (boundary m s) (v :: vs) t.1 v ∧ Positions m (v :: vs) t.2 := by
    intro pre
    induction pre using List.reverseRecOn with
    | nil => intro post _; exact ⟨fun w => by simp [endsAt], by simp⟩
    | append_singleton pre t ih =>
      intro post hts
      have hts' : ts = pre ++ t :: post := by simpa using hts
      obtain ⟨heven, hpre⟩ := ih (t :: post) hts'
      have ht : ∃ v vs, Walk (boundary m s) (v :: vs) t.1 v ∧ Positions m (v :: vs) t.2 := by
        rcases h2.each pre t post hts' with ⟨hw, hv, hw', hb, hp⟩ | ⟨hw, hv, hw', hb, hall, hp⟩
        · have := (hd _ _ _ _ hw' hv).mp hb
          subst this
          exact ⟨_, _, hw, hp⟩
        · exfalso
          rename_i v w vs p q
          have hne : v ≠ w := by
            intro h
            have := (hd _ _ _ _ hw' hv).mpr h.symm
            rw [hb] at this; simp at this
          have htot : endsAt (boundary m s) (ts.flatMap (·.1)) w % 2 = 0 := by
            rw [endsAt_perm h2.once, endsAt_range]; exact he w
          rw [hts', List.flatMap_append, List.flatMap_cons, endsAt_append, endsAt_append] at htot
          have hpost : endsAt (boundary m s) (post.flatMap (·.1)) w = 0 := by
            have hnd : (ts.flatMap (·.1)).Nodup := h2.once.nodup_iff.mpr List.nodup_range
            rw [hts', List.flatMap_append, List.flatMap_cons, ← List.append_assoc, List.nodup_append] at hnd
            unfold endsAt
            rw [List.sum_eq_zero]
            intro x hx
            obtain ⟨e, hel, rfl⟩ := List.mem_map.mp hx
            rcases hbe : (boundary m s)[e]? with _ | pr
            · rfl
            · dsimp only
              by_contra hx0
              have : ∃ x, Joins (boundary m s) e w x := by
                by_cases h1 : pr.1 = w
                · exact ⟨pr.2, Or.inl (by rw [hbe, ← h1])⟩
                · by_cases h2 : pr.2 = w
                  · exact ⟨pr.1, Or.inr (by rw [hbe, ← h2])⟩
                  · simp [h1, h2] at hx0
              obtain ⟨x, hj⟩ := this
              exact hnd.2.2 e (List.mem_append.mpr (hall e x hj)) e hel rfl
          have hodd := endsAt_walk hw rfl w
          rw [if_neg hne, if_pos rfl] at hodd
          have := heven w
          omega
      refine ⟨?_, ?_⟩
      · intro w
        obtain ⟨v, vs, hw, _⟩ := ht
        have := endsAt_walk hw rfl w
        have := heven w
        rw [List.flatMap_append, endsAt_append]
        simp only [List.flatMap_cons, List.flatMap_nil, List.append_nil]
        omega
      · intro t' ht'
        rcases List.mem_append.mp ht' with h | h
        · exact hpre t' h
        · simp at h; subst h; exact ht
  intro ps hps
  rw [h2.result, List.mem_filter, List.mem_map] at hps
  obtain ⟨⟨t, ht, rfl⟩, _⟩ := hps
  obtain ⟨v, vs, h3, h4⟩ := (hclosed ts [] (by simp)).2 t ht
  exact ⟨v, vs, t.1, h3, h4⟩

/-- A triangle: three one-sided lines around sector 0. -/
def triangleSample : BareDoomMap where
  vertices := [⟨0, 0⟩, ⟨64, 0⟩, ⟨64, 64⟩]
  sectors := [⟨0, 128, str "F", str "C", 160, 0, 0⟩]
  sides := [⟨0, 0, str "-", str "-", str "A", 0⟩]
  lines := [⟨0, 1, 1, 0, 0, 0, -1⟩, ⟨1, 2, 1, 0, 0, 0, -1⟩, ⟨2, 0, 1, 0, 0, 0, -1⟩]
  things := []

theorem distinct_of_ints [IntExact F] (l : List BareVertex)
    (hn : (l.map fun v => (v.x.toInt, v.y.toInt)).Nodup) (m : FullMap F) (hm : m.vertices = l.map convVertex) :
    DistinctPositions m := by
  intro i j p q hi hj
  rw [hm, List.getElem?_map] at hi hj
  rcases hvi : l[i]? with _ | a
  · simp [hvi] at hi
  rcases hvj : l[j]? with _ | b
  · simp [hvj] at hj
  simp only [hvi, hvj, Option.map_some, Option.some.injEq] at hi hj
  subst hi; subst hj
  simp only [Pt.beq, convVertex, IntExact.eq_ofInt _ _ (int16_abs _) (int16_abs _), Bool.and_eq_true, decide_eq_true_eq]
  obtain ⟨hil, rfl⟩ := List.getElem?_eq_some_iff.mp hvi
  obtain ⟨hjl, rfl⟩ := List.getElem?_eq_some_iff.mp hvj
  have := List.Nodup.getElem_inj_iff hn (i := i) (j := j) (hi := by simpa using hil) (hj := by simpa using hjl)
  rw [← this]
  simp

/-- The hypotheses of `C42_closed_partial` are met by a triangular room. -/
theorem C42_hypotheses_met [IntExact F] : ∃ m : FullMap F, FullMap.fromBare triangleSample = .ok m ∧ RefsInRange m ∧
    DistinctPositions m ∧ boundary m 0 = [(0, 1), (1, 2), (2, 0)] ∧ EvenDegrees (boundary m 0) := by
  have hb : boundary (convMap triangleSample : FullMap F) 0 = [(0, 1), (1, 2), (2, 0)] := rfl
  refine ⟨_, fromBare_eq _, refsInRange_of_wellFormed triangleSample _ (fromBare_eq _) ?_, ?_, hb, ?_⟩
  · constructor <;> (unfold InRange; decide)
  · exact distinct_of_ints triangleSample.vertices (by decide) _ rfl
  · show EvenDegrees (boundary (convMap triangleSample : FullMap F) 0)
    rw [hb]
    intro v
    simp only [List.countP_cons, List.countP_nil, decide_eq_true_eq]
    split_ifs <;> omega

/-- **C42 is false**: the outline of an open chain of two lines (0,0)–(64,0)–(64,64) is returned although
nothing leads from its last point to its first. -/
theorem C42_open_outline [IntExact F] : ∃ m : FullMap F, FullMap.fromBare wellFormedSample = .ok m ∧
    (∀ fuel, 2 ≤ fuel → m.sectorToPolygons 0 fuel = .ok [[⟨ofInt 0, ofInt 0⟩, ⟨ofInt 64, ofInt 0⟩, ⟨ofInt 64, ofInt 64⟩]]) ∧
    ¬ ∃ e, Joins (boundary m 0) e 2 0 := by
  have hb : boundary (convMap wellFormedSample : FullMap F) 0 = [(0, 1), (1, 2)] := rfl
  refine ⟨_, fromBare_eq _, ?_, ?_⟩
  · intro fuel hf
    obtain ⟨f, rfl⟩ : ∃ f, fuel = f + 2 := ⟨fuel - 2, by omega⟩
    have ht : sectorEdges (convMap wellFormedSample : FullMap F) 0 =
        .ok { edges := [⟨0, 1, false⟩, ⟨1, 2, false⟩], byVertex := [(0, [0]), (1, [0, 1]), (2, [1])] } := rfl
    have n1 : eq (ofInt 64 : F) (ofInt 0) = false := by
      rw [IntExact.eq_ofInt _ _ (by decide) (by decide)]; decide
    show (convMap wellFormedSample : FullMap F).sectorToPolygons 0 (f + 2) = _
    unfold FullMap.sectorToPolygons
    rw [ht, Res.bind_ok]
    have hv : (convMap wellFormedSample : FullMap F).vertices = [⟨ofInt 0, ofInt 0⟩, ⟨ofInt 64, ofInt 0⟩, ⟨ofInt 64, ofInt 64⟩] := rfl
    rw [hv]
    simp [List.range_succ, outlineLoop, index, indexMut, walkOutline, Pt.beq, n1, entryGet, unwrap, forEach, considerEdge]
    split_ifs <;> simp [index, n1, forEach, considerEdge]
  · show ¬ ∃ e, Joins (boundary (convMap wellFormedSample : FullMap F) 0) e 2 0
    rw [hb]
    rintro ⟨e, h | h⟩ <;> (rcases e with _ | _ | e <;> simp at h)

/-! ### C44 -/

/-- **C44** Lines whose two sides face the same sector do not matter: removing them all from a map leaves
every sector's outlines (and panics) unchanged. -/
theorem C44_self_referencing (m : FullMap F) (s fuel : Nat) :
    ({ m with lines := m.lines.filter fun l => !((facing m l.front).isSome && facing m l.front == facing m l.back) } :
      FullMap F).sectorToPolygons s fuel = m.sectorToPolygons s fuel := by
  have key : ∀ (ls : List Line) (t : EdgeTable),
      forEach (pushLineEdges m s) (ls.filter fun l => !((facing m l.front).isSome && facing m l.front == facing m l.back)) t =
        forEach (pushLineEdges m s) ls t := by
    intro ls
    induction ls with
    | nil => intro t; rfl
    | cons l ls ih =>
      intro t
      rw [List.filter_cons]
      by_cases h : (facing m l.front).isSome = true ∧ facing m l.front = facing m l.back
      · rw [if_neg (by rw [h.1, ← h.2]; simp)]
        rw [ih, forEach]
        have : pushLineEdges m s t l = .ok t := by
          obtain ⟨h1, h2⟩ := h
          rcases hf : l.front with _ | i
          · simp [hf, facing] at h1
          rcases hfi : m.sides[i]? with _ | f
          · simp [hf, facing, hfi] at h1
          rcases hb : l.back with _ | j
          · simp [hf, hb, facing, hfi] at h2
          rcases hbj : m.sides[j]? with _ | b
          · simp [hf, hb, facing, hfi, hbj] at h2
          simp [hf, hb, facing, hfi, hbj] at h2
          simp [pushLineEdges, hf, hb, Res.mapOption, index, hfi, hbj, h2]
        rw [this, Res.bind_ok]
      · rw [if_pos (by
          rcases h1 : (facing m l.front).isSome
          · simp
          · simp only [h1, true_and] at h
            simpa using h), forEach, forEach]
        congr 1
        funext t'
        exact ih t'
  unfold FullMap.sectorToPolygons sectorEdges
  rw [show pushLineEdges ({ m with lines := m.lines.filter fun l => !((facing m l.front).isSome && facing m l.front == facing m l.back) } : FullMap F) s
    = pushLineEdges m s from rfl]
  simp only [key]

end Idc
