import Verif.Spec.Outline
import Verif.Spec.Float
/-!
# Lemmas about the edge table
-/

namespace Idc

/-- The edges of `bl`, those in `U` marked done. -/
def edgesWith (bl : List (Nat × Nat)) (U : List Nat) : List Edge :=
  bl.mapIdx fun k p => { v0 := p.1, v1 := p.2, done := U.contains k }

theorem edgesWith_get (bl : List (Nat × Nat)) (U : List Nat) (k : Nat) :
    (edgesWith bl U)[k]? = bl[k]?.map fun p => { v0 := p.1, v1 := p.2, done := U.contains k } := by
  simp [edgesWith]

theorem edgesWith_length (bl : List (Nat × Nat)) (U : List Nat) : (edgesWith bl U).length = bl.length := by
  simp [edgesWith]

theorem edgesWith_append (bl : List (Nat × Nat)) (p : Nat × Nat) :
    edgesWith bl [] ++ [{ v0 := p.1, v1 := p.2, done := false }] = edgesWith (bl ++ [p]) [] := by
  simp [edgesWith]

theorem edgesWith_done (bl : List (Nat × Nat)) (U : List Nat) (e : Nat) (h : e < bl.length) :
    indexMut (edgesWith bl U) e (fun x => { x with done := true }) = .ok (edgesWith bl (U ++ [e])) := by
  unfold indexMut
  rw [edgesWith_get, List.getElem?_eq_getElem h]
  simp only [Option.map_some]
  congr 1
  apply List.ext_getElem?
  intro k
  rw [List.getElem?_set, edgesWith_get, edgesWith_get, edgesWith_length]
  by_cases hk : e = k
  · subst hk
    simp [h]
  · rw [if_neg hk]
    congr 1
    funext p
    congr 1
    rw [List.contains_eq_any_beq, List.contains_eq_any_beq, List.any_append]
    simp [Ne.symm hk]

theorem index_edgesWith {bl : List (Nat × Nat)} {U : List Nat} {e : Nat} {p : Nat × Nat} (h : bl[e]? = some p) :
    index (edgesWith bl U) e = .ok { v0 := p.1, v1 := p.2, done := U.contains e } := by
  unfold index
  rw [edgesWith_get, h]; rfl

theorem entryGet_push (t : List (Nat × List Nat)) (k e v : Nat) :
    (entryGet (entryPush t k e) v).getD [] =
      if v = k then (entryGet t v).getD [] ++ [e] else (entryGet t v).getD [] := by
  induction t with
  | nil =>
    simp only [entryPush, entryGet]
    by_cases h : k = v
    · subst h; simp
    · rw [if_neg h, if_neg (Ne.symm h)]
  | cons p t ih =>
    obtain ⟨k', es⟩ := p
    simp only [entryPush]
    by_cases h : k' = k
    · subst h
      rw [if_pos rfl]
      simp only [entryGet]
      by_cases h' : k' = v
      · subst h'; simp
      · rw [if_neg h', if_neg h', if_neg (Ne.symm h')]
    · rw [if_neg h]
      simp only [entryGet]
      by_cases h' : k' = v
      · subst h'; rw [if_pos rfl, if_pos rfl, if_neg h]
      · rw [if_neg h', if_neg h', ih]

/-- The table describes the boundary `bl`. -/
structure TableOk (t : EdgeTable) (bl : List (Nat × Nat)) : Prop where
  edges : t.edges = edgesWith bl []
  mem : ∀ v e, e ∈ (entryGet t.byVertex v).getD [] ↔ ∃ x, Joins bl e v x

theorem tableOk_nil : TableOk { edges := [], byVertex := [] } [] :=
  ⟨rfl, fun v e => by simp [entryGet, Joins]⟩

theorem joins_append {bl : List (Nat × Nat)} {a b e v x : Nat} :
    Joins (bl ++ [(a, b)]) e v x ↔ Joins bl e v x ∨ (e = bl.length ∧ ((a = v ∧ b = x) ∨ (a = x ∧ b = v))) := by
  unfold Joins
  rcases Nat.lt_trichotomy e bl.length with h | h | h
  · rw [List.getElem?_append_left h]
    constructor
    · exact Or.inl
    · rintro (h' | h')
      · exact h'
      · omega
  · subst h
    simp
  · rw [List.getElem?_eq_none (by simp; omega), List.getElem?_eq_none (by omega)]
    simp; omega

theorem tableOk_push {t : EdgeTable} {bl : List (Nat × Nat)} (h : TableOk t bl) (a b : Nat) :
    TableOk { edges := t.edges ++ [{ v0 := a, v1 := b, done := false }],
              byVertex := entryPush (entryPush t.byVertex a ((t.edges ++ [({ v0 := a, v1 := b, done := false } : Edge)]).length - 1)) b
                ((t.edges ++ [({ v0 := a, v1 := b, done := false } : Edge)]).length - 1) } (bl ++ [(a, b)]) := by
  have hl : (t.edges ++ [({ v0 := a, v1 := b, done := false } : Edge)]).length - 1 = bl.length := by
    rw [h.edges]; simp [edgesWith_length]
  rw [hl]
  constructor
  · dsimp only
    rw [h.edges]
    exact edgesWith_append bl (a, b)
  · intro v e
    dsimp only
    rw [entryGet_push, entryGet_push]
    have hm := h.mem v e
    have key : (∃ x, Joins (bl ++ [(a, b)]) e v x) ↔ (∃ x, Joins bl e v x) ∨ (e = bl.length ∧ (v = a ∨ v = b)) := by
      constructor
      · rintro ⟨x, hx⟩
        rcases joins_append.mp hx with h | ⟨h, ⟨h1, _⟩ | ⟨_, h1⟩⟩
        · exact Or.inl ⟨x, h⟩
        · exact Or.inr ⟨h, Or.inl h1.symm⟩
        · exact Or.inr ⟨h, Or.inr h1.symm⟩
      · rintro (⟨x, hx⟩ | ⟨h1, h2 | h2⟩)
        · exact ⟨x, joins_append.mpr (Or.inl hx)⟩
        · exact ⟨b, joins_append.mpr (Or.inr ⟨h1, Or.inl ⟨h2.symm, rfl⟩⟩)⟩
        · exact ⟨a, joins_append.mpr (Or.inr ⟨h1, Or.inr ⟨rfl, h2.symm⟩⟩)⟩
    rw [key, ← hm]
    split_ifs with h1 h2 h2 <;> simp [h1, h2]

theorem joins_lt {bl : List (Nat × Nat)} {e a b : Nat} (h : Joins bl e a b) : e < bl.length := by
  rcases h with h | h <;> exact (List.getElem?_eq_some_iff.mp h).1

theorem joins_symm {bl : List (Nat × Nat)} {e a b : Nat} (h : Joins bl e a b) : Joins bl e b a := Or.symm h

theorem joins_isEnd {bl : List (Nat × Nat)} {e a b : Nat} (h : Joins bl e a b) : IsEnd bl b := by
  rcases h with h | h
  · exact ⟨_, List.mem_of_getElem? h, Or.inr rfl⟩
  · exact ⟨_, List.mem_of_getElem? h, Or.inl rfl⟩

theorem entryGet_isSome {t : EdgeTable} {bl : List (Nat × Nat)} (h : TableOk t bl) {v e x : Nat} (hj : Joins bl e v x) :
    ∃ es, entryGet t.byVertex v = some es ∧ ∀ e, e ∈ es ↔ ∃ x, Joins bl e v x := by
  have := (h.mem v e).mpr ⟨x, hj⟩
  rcases hg : entryGet t.byVertex v with _ | es
  · rw [hg] at this; simp at this
  · refine ⟨es, rfl, ?_⟩
    intro e'
    have := h.mem v e'
    rw [hg] at this
    exact this

end Idc
