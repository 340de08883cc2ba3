import Verif.Lemmas.Outline
import Verif.Props.FullMap
/-!
# C43, C44: outlines of a bare map
-/

namespace Idc

/-! ### Building the table -/

theorem BinMap.side_get {m : BinMap} {o : Int16} (h : o.toInt ≠ -1 → 0 ≤ o.toInt ∧ o.toInt.toNat < m.sides.length) :
    (o = -1 ∧ m.facing o = none) ∨
    ∃ side, o ≠ -1 ∧ m.sides[i16AsUsize o]? = some side ∧ m.facing o = some side.sector.toInt ∧ side ∈ m.sides := by
  by_cases h1 : o = -1
  · left
    subst h1
    exact ⟨rfl, rfl⟩
  · right
    have h2 : o.toInt ≠ -1 := by
      intro h; apply h1
      apply Int16.toInt_inj.mp
      rw [h]; rfl
    obtain ⟨h3, h4⟩ := h h2
    refine ⟨m.sides[o.toInt.toNat], h1, ?_, ?_, List.getElem_mem h4⟩
    · rw [i16AsUsize_nonneg h3]; exact List.getElem?_eq_getElem h4
    · unfold BinMap.facing
      rw [if_pos h3, List.getElem?_eq_getElem h4]; rfl

theorem BinMap.pushSideEdge_hit {m : BinMap} {s : Nat} {l : BinLine} {t : EdgeTable} {bl : List (Nat × Nat)} {i : Int16}
    {side : BareSide} (h1 : 0 ≤ l.v0.toInt ∧ l.v0.toInt.toNat < m.vertices.length)
    (h2 : 0 ≤ l.v1.toInt ∧ l.v1.toInt.toNat < m.vertices.length) (ht : TableOk t bl)
    (hi : i ≠ -1) (hs : m.sides[i16AsUsize i]? = some side) (h0 : 0 ≤ side.sector.toInt) (he : side.sector.toInt = s) :
    ∃ t', m.pushSideEdge s l t i = .ok t' ∧ TableOk t' (bl ++ [(l.v0.toInt.toNat, l.v1.toInt.toNat)]) := by
  refine ⟨_, ?_, tableOk_push ht _ _⟩
  have hs' : i16AsUsize side.sector = s := by rw [i16AsUsize_nonneg h0]; omega
  simp only [BinMap.pushSideEdge, if_neg hi, index_ok hs, Res.bind_ok, if_pos hs', i16AsUsize_nonneg h1.1, i16AsUsize_nonneg h2.1,
    index_ok (List.getElem?_eq_getElem h1.2), index_ok (List.getElem?_eq_getElem h2.2), Res.pure_eq]

theorem BinMap.pushSideEdge_miss {m : BinMap} {s : Nat} {l : BinLine} {t : EdgeTable} {i : Int16}
    {side : BareSide} (hi : i ≠ -1) (hs : m.sides[i16AsUsize i]? = some side) (h0 : 0 ≤ side.sector.toInt)
    (he : side.sector.toInt ≠ s) : m.pushSideEdge s l t i = .ok t := by
  have hs' : i16AsUsize side.sector ≠ s := by rw [i16AsUsize_nonneg h0]; omega
  simp only [BinMap.pushSideEdge, if_neg hi, index_ok hs, Res.bind_ok, if_neg hs', Res.pure_eq]

theorem BinMap.pushSideEdge_none {m : BinMap} {s : Nat} {l : BinLine} {t : EdgeTable} {i : Int16} (hi : i = -1) :
    m.pushSideEdge s l t i = .ok t := by
  simp only [BinMap.pushSideEdge, if_pos hi]

/-- What one line adds to the boundary. -/
def BinMap.bndLine (m : BinMap) (s : Nat) (l : BinLine) : List (Nat × Nat) :=
  if (m.facing l.front == some (s : Int)) != (m.facing l.back == some (s : Int)) then [(l.v0.toInt.toNat, l.v1.toInt.toNat)] else []

theorem BinMap.pushLineEdges_ok {m : BinMap} (hm : m.InRange) {s : Nat} {l : BinLine} (hl : l ∈ m.lines) {t : EdgeTable}
    {bl : List (Nat × Nat)} (ht : TableOk t bl) : ∃ t', m.pushLineEdges s t l = .ok t' ∧ TableOk t' (bl ++ m.bndLine s l) := by
  have h1 := hm.starts l hl
  have h2 := hm.ends l hl
  unfold BinMap.bndLine BinMap.pushLineEdges
  rcases BinMap.side_get (hm.fronts l hl) with ⟨hf, gf⟩ | ⟨f, hf, ef, gf, mf⟩ <;>
    rcases BinMap.side_get (hm.backs l hl) with ⟨hb, gb⟩ | ⟨b, hb, eb, gb, mb⟩
  · refine ⟨t, ?_, ?_⟩
    · rw [if_neg (by simp [hf])]
      simp [BinMap.pushSideEdge_none hf, BinMap.pushSideEdge_none hb]
    · simpa [gf, gb] using ht
  · rw [if_neg (by simp [hf])]
    simp only [Res.pure_eq, Res.bind_ok, BinMap.pushSideEdge_none hf, gf, gb]
    have h0 := (hm.sectors b mb).1
    by_cases hs : b.sector.toInt = s
    · obtain ⟨t', e, h⟩ := BinMap.pushSideEdge_hit h1 h2 ht hb eb h0 hs
      refine ⟨t', by simpa using e, by simpa [hs] using h⟩
    · exact ⟨t, by simpa using BinMap.pushSideEdge_miss hb eb h0 hs, by simpa [hs] using ht⟩
  · rw [if_neg (by simp [hb])]
    simp only [Res.pure_eq, Res.bind_ok, gf, gb]
    have h0 := (hm.sectors f mf).1
    by_cases hs : f.sector.toInt = s
    · obtain ⟨t', e, h⟩ := BinMap.pushSideEdge_hit h1 h2 ht hf ef h0 hs
      refine ⟨t', by simp [e, BinMap.pushSideEdge_none hb], by simpa [hs] using h⟩
    · exact ⟨t, by simp [BinMap.pushSideEdge_miss hf ef h0 hs, BinMap.pushSideEdge_none hb], by simpa [hs] using ht⟩
  · rw [if_pos ⟨hf, hb⟩]
    simp only [Res.pure_eq, Res.bind_ok, gf, gb, index_ok ef, index_ok eb]
    have h0 := (hm.sectors f mf).1
    have h0' := (hm.sectors b mb).1
    by_cases hfb : f.sector = b.sector
    · exact ⟨t, by simp [hfb], by simpa [hfb] using ht⟩
    · rw [if_neg (by simpa using hfb)]
      have hfb' : f.sector.toInt ≠ b.sector.toInt := fun h => hfb (Int16.toInt_inj.mp h)
      by_cases hs : f.sector.toInt = s
      · have hs' : b.sector.toInt ≠ s := fun h => hfb' (hs.trans h.symm)
        obtain ⟨t', e, h⟩ := BinMap.pushSideEdge_hit h1 h2 ht hf ef h0 hs
        exact ⟨t', by rw [e, Res.bind_ok, BinMap.pushSideEdge_miss hb eb h0' hs'], by simpa [hs, hs'] using h⟩
      · by_cases hs' : b.sector.toInt = s
        · obtain ⟨t', e, h⟩ := BinMap.pushSideEdge_hit h1 h2 ht hb eb h0' hs'
          exact ⟨t', by rw [BinMap.pushSideEdge_miss hf ef h0 hs, Res.bind_ok, e], by simpa [hs, hs'] using h⟩
        · exact ⟨t, by rw [BinMap.pushSideEdge_miss hf ef h0 hs, Res.bind_ok, BinMap.pushSideEdge_miss hb eb h0' hs'],
            by simpa [hs, hs'] using ht⟩

theorem BinMap.boundary_flatMap (m : BinMap) (s : Nat) : m.boundary s = m.lines.flatMap (m.bndLine s) := by
  unfold BinMap.boundary
  induction m.lines with
  | nil => rfl
  | cons l ls ih =>
    rw [List.filter_cons, List.flatMap_cons, ← ih]
    unfold BinMap.bndLine
    split_ifs <;> simp

theorem BinMap.sectorEdges_ok (m : BinMap) (s : Nat) (hm : m.InRange) :
    ∃ t, m.sectorEdges s = .ok t ∧ TableOk t (m.boundary s) := by
  have key : ∀ (ls : List BinLine) (t : EdgeTable) (bl : List (Nat × Nat)), (∀ l ∈ ls, l ∈ m.lines) → TableOk t bl →
      ∃ t', forEach (m.pushLineEdges s) ls t = .ok t' ∧ TableOk t' (bl ++ ls.flatMap (m.bndLine s)) := by
    intro ls
    induction ls with
    | nil => intro t bl _ ht; exact ⟨t, rfl, by simpa using ht⟩
    | cons l ls ih =>
      intro t bl hls ht
      obtain ⟨t1, e1, ht1⟩ := BinMap.pushLineEdges_ok hm (s := s) (hls l (by simp)) ht
      obtain ⟨t2, e2, ht2⟩ := ih t1 _ (fun x hx => hls x (List.mem_cons_of_mem _ hx)) ht1
      exact ⟨t2, by rw [forEach, e1, Res.bind_ok, e2], by simpa using ht2⟩
  obtain ⟨t, h1, h2⟩ := key m.lines _ [] (fun _ h => h) tableOk_nil
  refine ⟨t, h1, ?_⟩
  rw [BinMap.boundary_flatMap]
  simpa using h2

/-! ### Tracing -/

theorem followFirst_ok (bl : List (Nat × Nat)) (U seen : List Nat) (v : Nat) (hv : v ∈ seen) (es : List Nat)
    (hes : ∀ e ∈ es, ∃ x, Joins bl e v x) :
    ∃ U' nx, followFirst (edgesWith bl U) seen [] es = .ok (edgesWith bl U', nx) ∧
      (nx = [] ∨ ∃ x, nx = [x] ∧ x ∉ seen ∧ ∃ e, Joins bl e v x) := by
  induction es with
  | nil => exact ⟨U, [], rfl, Or.inl rfl⟩
  | cons e es ih =>
    obtain ⟨x, hj⟩ := hes e (by simp)
    obtain ⟨p, hp⟩ : ∃ p, bl[e]? = some p := by rcases hj with h | h <;> exact ⟨_, h⟩
    rw [followFirst, index_edgesWith hp, Res.bind_ok]
    dsimp only
    by_cases hd : e ∈ U
    · rw [if_pos (by simpa using hd)]
      exact ih fun e he => hes e (List.mem_cons_of_mem _ he)
    · rw [if_neg (by simpa using hd), edgesWith_done _ _ _ (joins_lt hj), Res.bind_ok]
      have hj1 : Joins bl e p.1 p.2 := Or.inl hp
      have hpv : p.1 = v ∨ p.2 = v := by
        unfold Joins at hj
        rw [hp] at hj
        rcases hj with h | h <;> (simp only [Option.some.injEq] at h; subst h; simp)
      by_cases h1 : p.1 ∈ seen
      · rw [if_neg (by simpa using h1)]
        by_cases h2 : p.2 ∈ seen
        · rw [if_neg (by simpa using h2)]
          exact ⟨_, _, rfl, Or.inl rfl⟩
        · rw [if_pos (by simpa using h2)]
          refine ⟨_, _, rfl, Or.inr ⟨p.2, rfl, h2, e, ?_⟩⟩
          rcases hpv with h | h
          · rw [← h]; exact hj1
          · exact absurd (h ▸ hv) h2
      · rw [if_pos (by simpa using h1)]
        refine ⟨_, _, rfl, Or.inr ⟨p.1, rfl, h1, e, ?_⟩⟩
        rcases hpv with h | h
        · exact absurd (h ▸ hv) h1
        · rw [← h]; exact joins_symm hj1

theorem visitVertex_ok (bl : List (Nat × Nat)) (t : EdgeTable) (ht : TableOk t bl) (U seen outline : List Nat) (v : Nat)
    (hv : v ∉ seen) (he : IsEnd bl v) :
    ∃ U' nx, visitVertex t.byVertex { edges := edgesWith bl U, seen := seen, outline := outline, next := [] } v =
        .ok { edges := edgesWith bl U', seen := v :: seen, outline := outline ++ [v], next := nx } ∧
      (nx = [] ∨ ∃ x, nx = [x] ∧ x ∉ v :: seen ∧ ∃ e, Joins bl e v x) := by
  obtain ⟨e, x, hj⟩ : ∃ e x, Joins bl e v x := by
    obtain ⟨p, hp, h⟩ := he
    obtain ⟨e, he⟩ := List.getElem?_of_mem hp
    rcases h with rfl | rfl
    · exact ⟨e, p.2, Or.inl he⟩
    · exact ⟨e, p.1, Or.inr he⟩
  obtain ⟨es, hes, hes'⟩ := entryGet_isSome ht hj
  obtain ⟨U', nx, h1, h2⟩ := followFirst_ok bl U (v :: seen) v (by simp) es fun e he => (hes' e).mp he
  refine ⟨U', nx, ?_, h2⟩
  unfold visitVertex
  rw [if_neg (by simpa using hv)]
  simp only [hes, unwrap, Res.bind_ok, h1, Res.pure_eq]

/-- The ends of the boundary lines, with repetitions. -/
def endList (bl : List (Nat × Nat)) : List Nat := bl.flatMap fun p => [p.1, p.2]

theorem mem_endList {bl : List (Nat × Nat)} {v : Nat} : v ∈ endList bl ↔ IsEnd bl v := by
  simp [endList, IsEnd]

theorem endList_length (bl : List (Nat × Nat)) : (endList bl).length = 2 * bl.length := by
  induction bl with
  | nil => rfl
  | cons p bl ih =>
    have : endList (p :: bl) = p.1 :: p.2 :: endList bl := rfl
    rw [this]; simp [ih]; omega

theorem seen_length {bl : List (Nat × Nat)} {seen : List Nat} (h : seen.Nodup) (h2 : ∀ v ∈ seen, IsEnd bl v) :
    seen.length ≤ 2 * bl.length := by
  have := (List.Nodup.subperm h fun v hv => mem_endList.mpr (h2 v hv)).length_le
  rwa [endList_length] at this

theorem consecutive_snoc {α : Type} {R : α → α → Prop} {l : List α} {a b : α} (h : Consecutive R (l ++ [a])) (hr : R a b) :
    Consecutive R (l ++ [a] ++ [b]) := by
  intro k x y hx hy
  by_cases hk : k + 1 < (l ++ [a]).length
  · rw [List.getElem?_append_left (by omega)] at hx
    rw [List.getElem?_append_left hk] at hy
    exact h k x y hx hy
  · have hk1 : k + 1 = (l ++ [a]).length := by
      have := (List.getElem?_eq_some_iff.mp hy).1
      simp only [List.length_append, List.length_cons, List.length_nil] at this hk ⊢
      omega
    rw [hk1] at hy
    simp at hy
    subst hy
    have hk2 : k = l.length := by simp at hk1; omega
    subst hk2
    simp at hx
    subst hx
    exact hr

theorem traceLoop_ok (bl : List (Nat × Nat)) (t : EdgeTable) (ht : TableOk t bl) (k : Nat) :
    ∀ (U seen outline : List Nat) (v : Nat), 2 * bl.length ≤ k + seen.length → seen.Nodup → (∀ x ∈ seen, IsEnd bl x) →
      v ∉ seen → IsEnd bl v → Consecutive (fun a b => ∃ e, Joins bl e a b) (outline ++ [v]) →
      ∃ U' more, (∀ fuel, k + 1 ≤ fuel →
          traceLoop t.byVertex fuel { edges := edgesWith bl U, seen := seen, outline := outline, next := [v] } =
            .ok { edges := edgesWith bl U', seen := (v :: more).reverse ++ seen, outline := outline ++ v :: more, next := [] }) ∧
        ((v :: more).reverse ++ seen).Nodup ∧ (∀ x ∈ (v :: more).reverse ++ seen, IsEnd bl x) ∧
        Consecutive (fun a b => ∃ e, Joins bl e a b) (outline ++ v :: more) := by
  induction k with
  | zero =>
    intro U seen outline v hk hn hs hv he hc
    have := seen_length (bl := bl) (seen := v :: seen) (List.nodup_cons.mpr ⟨hv, hn⟩) (by
      intro x hx
      rcases List.mem_cons.mp hx with rfl | hx
      · exact he
      · exact hs x hx)
    simp only [List.length_cons] at this
    omega
  | succ k ih =>
    intro U seen outline v hk hn hs hv he hc
    obtain ⟨U', nx, h1, h2⟩ := visitVertex_ok bl t ht U seen outline v hv he
    have hn' : (v :: seen).Nodup := List.nodup_cons.mpr ⟨hv, hn⟩
    have hs' : ∀ x ∈ v :: seen, IsEnd bl x := by
      intro x hx
      rcases List.mem_cons.mp hx with rfl | hx
      · exact he
      · exact hs x hx
    have hstep : ∀ fuel, traceLoop t.byVertex (fuel + 1) { edges := edgesWith bl U, seen := seen, outline := outline, next := [v] } =
        traceLoop t.byVertex fuel { edges := edgesWith bl U', seen := v :: seen, outline := outline ++ [v], next := nx } := by
      intro fuel
      rw [traceLoop]
      simp only [forEach, h1, Res.bind_ok]
    rcases h2 with rfl | ⟨x, rfl, hx, e, hj⟩
    · refine ⟨U', [], ?_, by simpa using hn', by simpa using hs', hc⟩
      intro fuel hf
      obtain ⟨f, rfl⟩ : ∃ f, fuel = f + 1 + 1 := ⟨fuel - 2, by omega⟩
      rw [hstep (f + 1), traceLoop]
      simp
    · obtain ⟨U2, more, g1, g2, g3, g4⟩ := ih U' (v :: seen) (outline ++ [v]) x (by simp only [List.length_cons]; omega) hn' hs' hx
        (joins_isEnd hj) (consecutive_snoc hc ⟨e, hj⟩)
      refine ⟨U2, x :: more, ?_, by simpa using g2, by simpa using g3, by simpa using g4⟩
      intro fuel hf
      obtain ⟨f, rfl⟩ : ∃ f, fuel = f + 1 := ⟨fuel - 1, by omega⟩
      rw [hstep f, g1 f (by omega)]
      simp

theorem firstUnseen_none {bl : List (Nat × Nat)} {U seen : List Nat} (h : firstUnseen seen (edgesWith bl U) = none) :
    ∀ v, IsEnd bl v → v ∈ seen := by
  have key : ∀ es : List Edge, firstUnseen seen es = none → ∀ e ∈ es, e.v0 ∈ seen ∧ e.v1 ∈ seen := by
    intro es
    induction es with
    | nil => simp
    | cons e es ih =>
      intro h
      rw [firstUnseen] at h
      by_cases h1 : e.v0 ∈ seen
      · by_cases h2 : e.v1 ∈ seen
        · rw [if_neg (by simpa using h1), if_neg (by simpa using h2)] at h
          intro x hx
          rcases List.mem_cons.mp hx with rfl | hx
          · exact ⟨h1, h2⟩
          · exact ih h x hx
        · rw [if_neg (by simpa using h1), if_pos (by simpa using h2)] at h; simp at h
      · rw [if_pos (by simpa using h1)] at h; simp at h
  intro v hv
  obtain ⟨p, hp, hv⟩ := hv
  obtain ⟨e, he⟩ := List.getElem?_of_mem hp
  have hmem : ({ v0 := p.1, v1 := p.2, done := U.contains e } : Edge) ∈ edgesWith bl U := by
    apply List.mem_of_getElem? (i := e)
    rw [edgesWith_get, he]; rfl
  have := key _ h _ hmem
  rcases hv with rfl | rfl
  · exact this.1
  · exact this.2

theorem firstUnseen_some {bl : List (Nat × Nat)} {U seen : List Nat} {v : Nat} (h : firstUnseen seen (edgesWith bl U) = some v) :
    v ∉ seen ∧ IsEnd bl v := by
  have key : ∀ es : List Edge, firstUnseen seen es = some v → v ∉ seen ∧ ∃ e ∈ es, v = e.v0 ∨ v = e.v1 := by
    intro es
    induction es with
    | nil => simp [firstUnseen]
    | cons e es ih =>
      intro h
      rw [firstUnseen] at h
      by_cases h1 : e.v0 ∈ seen
      · by_cases h2 : e.v1 ∈ seen
        · rw [if_neg (by simpa using h1), if_neg (by simpa using h2)] at h
          obtain ⟨h3, x, hx, h4⟩ := ih h
          exact ⟨h3, x, List.mem_cons_of_mem _ hx, h4⟩
        · rw [if_neg (by simpa using h1), if_pos (by simpa using h2)] at h
          simp only [Option.some.injEq] at h; subst h
          exact ⟨h2, e, by simp, Or.inr rfl⟩
      · rw [if_pos (by simpa using h1)] at h
        simp only [Option.some.injEq] at h; subst h
        exact ⟨h1, e, by simp, Or.inl rfl⟩
  obtain ⟨h1, e, he, h2⟩ := key _ h
  refine ⟨h1, ?_⟩
  obtain ⟨k, hk⟩ := List.getElem?_of_mem he
  rw [edgesWith_get] at hk
  rcases hb : bl[k]? with _ | p
  · simp [hb] at hk
  · simp only [hb, Option.map_some, Option.some.injEq] at hk
    subst hk
    exact ⟨p, List.mem_of_getElem? hb, h2⟩

theorem bareOutlineLoop_ok (bl : List (Nat × Nat)) (t : EdgeTable) (ht : TableOk t bl) (k : Nat) :
    ∀ (U : List Nat) (outs : List (List Nat)), 2 * bl.length ≤ k + outs.flatten.length →
      outs.flatten.Nodup → (∀ v ∈ outs.flatten, IsEnd bl v) → (∀ o ∈ outs, o ≠ []) →
      (∀ o ∈ outs, Consecutive (fun a b => ∃ e, Joins bl e a b) o) →
      ∃ outs', (∀ fuel, k + 1 ≤ fuel → ∀ inner, 2 * bl.length + 1 ≤ inner →
          bareOutlineLoop t.byVertex inner fuel (edgesWith bl U) outs.flatten.reverse outs = .ok outs') ∧
        outs'.flatten.Nodup ∧ (∀ v, v ∈ outs'.flatten ↔ IsEnd bl v) ∧ (∀ o ∈ outs', o ≠ []) ∧
        (∀ o ∈ outs', Consecutive (fun a b => ∃ e, Joins bl e a b) o) := by
  induction k with
  | zero => ?_
  | succ k ih => ?_
  all_goals
    intro U outs hk hn hs hne hc
    rcases hf : firstUnseen outs.flatten.reverse (edgesWith bl U) with _ | v
  · refine ⟨outs, ?_, hn, fun v => ⟨hs v, fun h => by simpa using firstUnseen_none hf v h⟩, hne, hc⟩
    intro fuel hfu inner _
    obtain ⟨f, rfl⟩ : ∃ f, fuel = f + 1 := ⟨fuel - 1, by omega⟩
    rw [bareOutlineLoop, hf]
    simp
  · obtain ⟨h1, h2⟩ := firstUnseen_some hf
    have := seen_length (bl := bl) (seen := v :: outs.flatten) (List.nodup_cons.mpr ⟨by simpa using h1, hn⟩) (by
      intro x hx
      rcases List.mem_cons.mp hx with rfl | hx
      · exact h2
      · exact hs x hx)
    simp only [List.length_cons] at this
    omega
  · refine ⟨outs, ?_, hn, fun v => ⟨hs v, fun h => by simpa using firstUnseen_none hf v h⟩, hne, hc⟩
    intro fuel hfu inner _
    obtain ⟨f, rfl⟩ : ∃ f, fuel = f + 1 := ⟨fuel - 1, by omega⟩
    rw [bareOutlineLoop, hf]
    simp
  · obtain ⟨h1, h2⟩ := firstUnseen_some hf
    obtain ⟨U', more, g1, g2, g3, g4⟩ := traceLoop_ok bl t ht (2 * bl.length) U outs.flatten.reverse [] v (by omega)
      (List.nodup_reverse.mpr hn) (by simpa using hs) h1 h2 (by intro k a b ha hb; simp at hb)
    have hrev : (v :: more).reverse ++ outs.flatten.reverse = (outs ++ [v :: more]).flatten.reverse := by simp
    rw [hrev] at g2 g3
    obtain ⟨outs', i1, i2, i3, i4, i5⟩ := ih U' (outs ++ [v :: more])
      (by simp only [List.flatten_append, List.length_append, List.flatten_cons, List.length_cons]; omega)
      (List.nodup_reverse.mp g2) (by intro x hx; exact g3 x (List.mem_reverse.mpr hx))
      (by
        intro o ho
        rcases List.mem_append.mp ho with ho | ho
        · exact hne o ho
        · simp at ho; subst ho; simp)
      (by
        intro o ho
        rcases List.mem_append.mp ho with ho | ho
        · exact hc o ho
        · simp at ho; subst ho; simpa using g4)
    refine ⟨outs', ?_, i2, i3, i4, i5⟩
    intro fuel hfu inner hin
    obtain ⟨f, rfl⟩ : ∃ f, fuel = f + 1 := ⟨fuel - 1, by omega⟩
    have hlen : (edgesWith bl U).length > 0 := by
      rw [edgesWith_length]
      obtain ⟨p, hp, _⟩ := h2
      exact List.length_pos_of_mem hp
    rw [bareOutlineLoop, if_pos hlen, hf]
    dsimp only
    rw [g1 inner hin, Res.bind_ok]
    dsimp only
    rw [if_pos (by simp), hrev]
    exact i1 f (by omega) inner hin

/-- **C43** `BareBinaryMap::sector_to_polygons` finishes without panicking on every map with valid
references; its outlines are non-empty, together they visit every vertex of the sector's boundary lines
exactly once and no other vertex, and consecutive vertices of an outline are joined by a boundary line. -/
theorem C43_bare_outlines (m : BinMap) (s : Nat) (hm : m.InRange) :
    ∃ outlines, (∀ fuel, 2 * (m.boundary s).length + 1 ≤ fuel → m.sectorToPolygons s fuel = .ok outlines) ∧
      (∀ o ∈ outlines, o ≠ []) ∧ outlines.flatten.Nodup ∧ (∀ v, v ∈ outlines.flatten ↔ IsEnd (m.boundary s) v) ∧
      (∀ o ∈ outlines, Consecutive (fun a b => ∃ e, Joins (m.boundary s) e a b) o) := by
  obtain ⟨t, h1, h2⟩ := m.sectorEdges_ok s hm
  obtain ⟨outs, g1, g2, g3, g4, g5⟩ := bareOutlineLoop_ok (m.boundary s) t h2 (2 * (m.boundary s).length) [] []
    (by omega) (by simp) (by simp) (by simp) (by simp)
  refine ⟨outs, ?_, g4, g2, g3, g5⟩
  intro fuel hf
  unfold BinMap.sectorToPolygons
  rw [h1, Res.bind_ok, h2.edges]
  exact g1 fuel (by omega) fuel (by omega)

/-- The hypotheses of C43 are met by a map with a two-sided and a one-sided line. -/
theorem C43_hypotheses_met : (wellFormedSample.bin).InRange ∧ (wellFormedSample.bin).boundary 0 = [(0, 1), (1, 2)] := by
  refine ⟨⟨?_, ?_, ?_, ?_, ?_⟩, rfl⟩ <;> decide

/-- **C44** for bare maps: removing every line whose two sides face the same sector leaves the outlines
of every sector unchanged. -/
theorem C44_bare_self_referencing (m : BinMap) (hm : m.InRange) (s fuel : Nat) :
    ({ m with lines := m.lines.filter fun l => !((m.facing l.front).isSome && m.facing l.front == m.facing l.back) } :
      BinMap).sectorToPolygons s fuel = m.sectorToPolygons s fuel := by
  have key : ∀ (ls : List BinLine) (t : EdgeTable), (∀ l ∈ ls, l ∈ m.lines) →
      forEach (m.pushLineEdges s) (ls.filter fun l => !((m.facing l.front).isSome && m.facing l.front == m.facing l.back)) t =
        forEach (m.pushLineEdges s) ls t := by
    intro ls
    induction ls with
    | nil => intro t _; rfl
    | cons l ls ih =>
      intro t hls
      have ih := fun t => ih t fun x hx => hls x (List.mem_cons_of_mem _ hx)
      have hl := hls l (by simp)
      rw [List.filter_cons]
      by_cases h : (m.facing l.front).isSome = true ∧ m.facing l.front = m.facing l.back
      · rw [if_neg (by rw [h.1, ← h.2]; simp)]
        rw [ih, forEach]
        have : m.pushLineEdges s t l = .ok t := by
          obtain ⟨h1, h2⟩ := h
          rcases BinMap.side_get (hm.fronts l hl) with ⟨hf, gf⟩ | ⟨f, hf, ef, gf, mf⟩
          · simp [gf] at h1
          rcases BinMap.side_get (hm.backs l hl) with ⟨hb, gb⟩ | ⟨b, hb, eb, gb, mb⟩
          · simp [gf, gb] at h2
          simp only [gf, gb, Option.some.injEq] at h2
          have h2 := Int16.toInt_inj.mp h2
          unfold BinMap.pushLineEdges
          rw [if_pos ⟨hf, hb⟩]
          simp [index_ok ef, index_ok eb, h2]
        rw [this, Res.bind_ok]
      · rw [if_pos (by
          rcases h1 : (m.facing l.front).isSome
          · simp
          · simp only [h1, true_and] at h
            simpa using h), forEach, forEach]
        congr 1
        funext t'
        exact ih t'
  unfold BinMap.sectorToPolygons BinMap.sectorEdges
  rw [show BinMap.pushLineEdges ({ m with lines := m.lines.filter fun l => !((m.facing l.front).isSome && m.facing l.front == m.facing l.back) } : BinMap) s
    = m.pushLineEdges s from rfl]
  simp only [key m.lines _ fun _ h => h]

end Idc
