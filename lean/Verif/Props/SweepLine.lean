import Verif.Spec.SweepLine
import Verif.Props.Holes
/-!
# C56: the sweep line is a sorted set
-/

namespace Idc

variable {α : Type} [LinearOrder α]

theorem linearSearch_lawful (x : α) : ∀ (l : List α) (i : Nat), l.Pairwise (· < ·) →
    ∃ b j, linearSearch lawfulCmp x i l = .ok (b, i + j) ∧ (b = true → l[j]? = some x) ∧
      (b = false → j ≤ l.length ∧ ∀ (k : Nat) y, l[k]? = some y → (k < j → y < x) ∧ (j ≤ k → x < y)) := by
  intro l
  induction l with
  | nil => intro i _; exact ⟨false, 0, rfl, by simp, fun _ => ⟨by simp, by simp⟩⟩
  | cons z l ih =>
    intro i hp
    rw [List.pairwise_cons] at hp
    unfold linearSearch
    rcases lt_trichotomy z x with h | h | h
    · have hc : lawfulCmp z x = .ok .lt := by unfold lawfulCmp; rw [compare_lt_iff_lt.mpr h]
      obtain ⟨b, j, h1, h2, h3⟩ := ih (i + 1) hp.2
      refine ⟨b, j + 1, ?_, ?_, ?_⟩
      · rw [hc]; show linearSearch lawfulCmp x (i + 1) l = _
        rw [h1, show i + 1 + j = i + (j + 1) by omega]
      · intro hb; simpa using h2 hb
      · intro hb
        obtain ⟨h4, h5⟩ := h3 hb
        refine ⟨by simpa using h4, ?_⟩
        intro k y hk
        cases k with
        | zero => simp at hk; subst hk; exact ⟨fun _ => h, fun h => by omega⟩
        | succ k =>
          obtain ⟨h6, h7⟩ := h5 k y (by simpa using hk)
          exact ⟨fun h => h6 (by omega), fun h => h7 (by omega)⟩
    · have hc : lawfulCmp z x = .ok .eq := by unfold lawfulCmp; rw [compare_eq_iff_eq.mpr h]
      exact ⟨true, 0, by rw [hc]; rfl, fun _ => by simp [h], fun h => by cases h⟩
    · have hc : lawfulCmp z x = .ok .gt := by unfold lawfulCmp; rw [compare_gt_iff_gt.mpr h]
      refine ⟨false, 0, by rw [hc]; rfl, fun h => (by cases h), fun _ => ⟨by simp, ?_⟩⟩
      intro k y hk
      refine ⟨fun h => by omega, fun _ => ?_⟩
      cases k with
      | zero => simp at hk; subst hk; exact h
      | succ k =>
        have : y ∈ l := List.mem_of_getElem? (by simpa using hk)
        exact lt_trans h (hp.1 y this)

/-- The list implementation meets the contract. -/
theorem listLib_searchLawful : listLib.SearchLawful := by
  intro α _ x l hl
  obtain ⟨b, j, h1, h2, h3⟩ := linearSearch_lawful x l 0 hl
  refine ⟨b, j, ?_, h2, h3⟩
  rw [Nat.zero_add] at h1
  exact h1

theorem sorted_lt {l : List α} (hl : l.Pairwise (· < ·)) {i j : Nat} {a b : α} (ha : l[i]? = some a) (hb : l[j]? = some b)
    (hij : i < j) : a < b := by
  rw [List.pairwise_iff_getElem] at hl
  have h1 := lt_of_getElem? ha
  have h2 := lt_of_getElem? hb
  have := hl i j h1 h2 hij
  rw [List.getElem?_eq_getElem h1] at ha
  rw [List.getElem?_eq_getElem h2] at hb
  cases ha; cases hb; exact this

/-- The list split around an item: everything before is smaller and everything after is greater. -/
structure Split (l : List α) (x : α) (a b : List α) : Prop where
  before : ∀ y ∈ a, y < x
  after : ∀ y ∈ b, x < y
  sortedA : a.Pairwise (· < ·)
  sortedB : b.Pairwise (· < ·)

theorem search_split {lib : Lib} (hl : lib.SearchLawful) (x : α) {l : List α} (hs : l.Pairwise (· < ·)) :
    ∃ found a b, lib.binarySearch lawfulCmp x l = .ok (found, a.length) ∧ Split l x a b ∧
      l = if found then a ++ x :: b else a ++ b := by
  obtain ⟨found, i, h1, h2, h3⟩ := hl x l hs
  cases found with
  | true =>
    have hi := h2 rfl
    have hlt := lt_of_getElem? hi
    have hx : l[i] = x := by rw [List.getElem?_eq_getElem hlt] at hi; exact Option.some.inj hi
    have hl' : l = l.take i ++ x :: l.drop (i + 1) := by
      rw [← hx, ← List.drop_eq_getElem_cons hlt, List.take_append_drop]
    have hs' := hs
    rw [hl', List.pairwise_append, List.pairwise_cons] at hs'
    refine ⟨true, l.take i, l.drop (i + 1), ?_, ⟨?_, ?_, hs'.1, hs'.2.1.2⟩, by rw [if_pos rfl]; exact hl'⟩
    · rw [h1, List.length_take, Nat.min_eq_left (by omega)]
    · intro y hy; exact hs'.2.2 y hy x (by simp)
    · exact hs'.2.1.1
  | false =>
    obtain ⟨hi, h4⟩ := h3 rfl
    have hs' := hs
    rw [← List.take_append_drop i l, List.pairwise_append] at hs'
    refine ⟨false, l.take i, l.drop i, ?_, ⟨?_, ?_, hs'.1, hs'.2.1⟩, by rw [if_neg (by simp), List.take_append_drop]⟩
    · rw [h1, List.length_take, Nat.min_eq_left (by omega)]
    · intro y hy
      obtain ⟨j, hj⟩ := List.mem_iff_getElem?.mp hy
      have hji : j < i := by have := lt_of_getElem? hj; rw [List.length_take] at this; omega
      rw [List.getElem?_take, if_pos hji] at hj
      exact (h4 j y hj).1 hji
    · intro y hy
      obtain ⟨j, hj⟩ := List.mem_iff_getElem?.mp hy
      rw [List.getElem?_drop] at hj
      exact (h4 (i + j) y hj).2 (by omega)

theorem prevAt_append {l a b : List α} {x : α} (h : Split l x a b) (t : List α) (ht : t = b ∨ t = x :: b) :
    ∃ r, prevAt (a ++ t) a.length = .ok r ∧ IsPrev {y | y ∈ a ∨ y ∈ b} x r ∧ IsPrev {y | y ∈ a ∨ y = x ∨ y ∈ b} x r := by
  rcases List.eq_nil_or_concat a with ha | ⟨a', z, ha⟩
  · refine ⟨none, by simp [prevAt, ha], ?_, ?_⟩
    · rintro y (hy | hy)
      · rw [ha] at hy; cases hy
      · exact not_lt_of_gt (h.after y hy)
    · rintro y (hy | rfl | hy)
      · rw [ha] at hy; cases hy
      · exact lt_irrefl _
      · exact not_lt_of_gt (h.after y hy)
  · have hz : z ∈ a := by rw [ha]; simp
    have hmax : ∀ y ∈ a, y ≤ z := by
      intro y hy
      have := h.sortedA
      rw [ha, List.concat_eq_append, List.pairwise_append] at this
      rw [ha, List.concat_eq_append, List.mem_append, List.mem_singleton] at hy
      rcases hy with hy | hy
      · exact le_of_lt (this.2.2 y hy z (by simp))
      · exact le_of_eq hy
    refine ⟨some z, ?_, ⟨Or.inl hz, h.before z hz, ?_⟩, ⟨Or.inl hz, h.before z hz, ?_⟩⟩
    · unfold prevAt
      have hpos : 0 < a.length := List.length_pos_of_mem hz
      rw [if_pos hpos]
      have : (a ++ t)[a.length - 1]? = some z := by
        rw [List.getElem?_append_left (by omega), ha, List.concat_eq_append]
        simp
      rw [index_ok this]; rfl
    · rintro y (hy | hy) hlt
      · exact hmax y hy
      · exact absurd hlt (not_lt_of_gt (h.after y hy))
    · rintro y (hy | rfl | hy) hlt
      · exact hmax y hy
      · exact absurd hlt (lt_irrefl _)
      · exact absurd hlt (not_lt_of_gt (h.after y hy))

theorem next_head {l a b : List α} {x : α} (h : Split l x a b) :
    IsNext {y | y ∈ a ∨ y ∈ b} x b[0]? ∧ IsNext {y | y ∈ a ∨ y = x ∨ y ∈ b} x b[0]? := by
  cases b with
  | nil =>
    constructor
    · rintro y (hy | hy)
      · exact not_lt_of_gt (h.before y hy)
      · cases hy
    · rintro y (hy | rfl | hy)
      · exact not_lt_of_gt (h.before y hy)
      · exact lt_irrefl _
      · cases hy
  | cons z b =>
    have hz := h.after z (by simp)
    have hmin : ∀ y ∈ z :: b, z ≤ y := by
      intro y hy
      rcases List.mem_cons.mp hy with rfl | hy
      · exact le_refl _
      · exact le_of_lt ((List.pairwise_cons.mp h.sortedB).1 y hy)
    constructor
    · refine ⟨Or.inr (by simp), hz, ?_⟩
      rintro y (hy | hy) hlt
      · exact absurd hlt (not_lt_of_gt (h.before y hy))
      · exact hmin y hy
    · refine ⟨Or.inr (Or.inr (by simp)), hz, ?_⟩
      rintro y (hy | rfl | hy) hlt
      · exact absurd hlt (not_lt_of_gt (h.before y hy))
      · exact absurd hlt (lt_irrefl _)
      · exact hmin y hy

theorem split_sorted {l a b : List α} {x : α} (h : Split l x a b) : (a ++ x :: b).Pairwise (· < ·) ∧ (a ++ b).Pairwise (· < ·) := by
  constructor
  · rw [List.pairwise_append, List.pairwise_cons]
    refine ⟨h.sortedA, ⟨h.after, h.sortedB⟩, ?_⟩
    intro y hy z hz
    rcases List.mem_cons.mp hz with rfl | hz
    · exact h.before y hy
    · exact lt_trans (h.before y hy) (h.after z hz)
  · rw [List.pairwise_append]
    exact ⟨h.sortedA, h.sortedB, fun y hy z hz => lt_trans (h.before y hy) (h.after z hz)⟩

theorem split_not_mem {l a b : List α} {x : α} (h : Split l x a b) : x ∉ a ∧ x ∉ b :=
  ⟨fun hx => lt_irrefl _ (h.before x hx), fun hx => lt_irrefl _ (h.after x hx)⟩

theorem lineOp_step {lib : Lib} (hl : lib.SearchLawful) {l : List α} (hs : l.Pairwise (· < ·)) (op : LineOp α) :
    ∃ a l', op.run lib l = .ok (a, l') ∧ l'.Pairwise (· < ·) ∧ op.Spec {y | y ∈ l} a {y | y ∈ l'} := by
  have hset : ∀ (x : α) (a b : List α), {y | y ∈ a ++ x :: b} = {y | y ∈ a ∨ y = x ∨ y ∈ b} := by
    intro x a b; ext y; simp
  have hset' : ∀ (a b : List α), {y | y ∈ a ++ b} = {y | y ∈ a ∨ y ∈ b} := by
    intro a b; ext y; simp
  have herase : ∀ (x : α) (a b : List α), (a ++ x :: b).eraseIdx a.length = a ++ b := by
    intro x a b; rw [List.eraseIdx_append_of_length_le (le_refl _)]; simp
  have hins : ∀ (x : α) (a b : List α), (a ++ b).insertIdx a.length x = a ++ x :: b := by
    intro x a b
    induction a with
    | nil => simp
    | cons y a ih => simpa using ih
  have hget : ∀ (x : α) (a b : List α), (a ++ x :: b)[a.length + 1]? = b[0]? := by
    intro x a b; rw [List.getElem?_append_right (by omega)]; simp
  have hget' : ∀ (a b : List α), (a ++ b)[a.length]? = b[0]? := by
    intro a b; rw [List.getElem?_append_right (by omega)]; simp
  have hS : ∀ {x : α} {a b : List α}, Split l x a b →
      {y | y = x ∨ y ∈ a ++ x :: b} = {y | y ∈ a ++ x :: b} ∧ {y | y = x ∨ y ∈ a ++ b} = {y | y ∈ a ++ x :: b} ∧
      {y | y ≠ x ∧ y ∈ a ++ x :: b} = {y | y ∈ a ++ b} ∧ {y | y ≠ x ∧ y ∈ a ++ b} = {y | y ∈ a ++ b} := by
    intro x a b h
    obtain ⟨n1, n2⟩ := split_not_mem h
    refine ⟨?_, ?_, ?_, ?_⟩ <;> ext y <;> simp only [Set.mem_ofPred_eq, List.mem_append, List.mem_cons]
    · tauto
    · tauto
    · constructor
      · tauto
      · rintro (h | h)
        · exact ⟨fun e => n1 (e ▸ h), Or.inl h⟩
        · exact ⟨fun e => n2 (e ▸ h), Or.inr (Or.inr h)⟩
    · constructor
      · tauto
      · rintro (h | h)
        · exact ⟨fun e => n1 (e ▸ h), Or.inl h⟩
        · exact ⟨fun e => n2 (e ▸ h), Or.inr h⟩
  cases op with
  | insert x =>
    obtain ⟨found, a, b, h1, h2, h3⟩ := search_split hl x hs
    obtain ⟨s1, s2⟩ := split_sorted h2
    obtain ⟨e1, e2, _, _⟩ := hS h2
    refine ⟨{}, a ++ x :: b, ?_, s1, ?_⟩
    · simp only [LineOp.run, SweepLine2.insert]
      rw [h1]
      cases found <;> simp only [Bool.false_eq_true, if_true, if_false] at h3 ⊢ <;> subst h3
      · simp only [Res.bind_ok, Res.pure_eq, Bool.false_eq_true, if_false, hins]
      · rfl
    · show _ = _
      cases found <;> simp only [Bool.false_eq_true, if_true, if_false] at h3 <;> subst h3
      · exact e2.symm
      · exact e1.symm
  | remove x =>
    obtain ⟨found, a, b, h1, h2, h3⟩ := search_split hl x hs
    obtain ⟨s1, s2⟩ := split_sorted h2
    obtain ⟨_, _, e3, e4⟩ := hS h2
    obtain ⟨n1, n2⟩ := split_not_mem h2
    refine ⟨{ found := some found }, a ++ b, ?_, s2, ?_⟩
    · simp only [LineOp.run, SweepLine2.remove]
      rw [h1]
      cases found <;> simp only [Bool.false_eq_true, if_true, if_false] at h3 ⊢ <;> subst h3
      · rfl
      · simp only [Res.bind_ok, Res.pure_eq, if_true, herase]
    · show _ ∧ ∃ _, _
      cases found <;> simp only [Bool.false_eq_true, if_true, if_false] at h3 <;> subst h3
      · exact ⟨e4.symm, false, rfl, by simp [n1, n2]⟩
      · exact ⟨e3.symm, true, rfl, by simp⟩
  | insertAndGetNeighbors x =>
    obtain ⟨found, a, b, h1, h2, h3⟩ := search_split hl x hs
    obtain ⟨s1, s2⟩ := split_sorted h2
    obtain ⟨e1, e2, _, _⟩ := hS h2
    obtain ⟨r, hr, hp1, hp2⟩ := prevAt_append h2 (x :: b) (Or.inr rfl)
    obtain ⟨hn1, hn2⟩ := next_head h2
    refine ⟨{ prev := r, next := b[0]? }, a ++ x :: b, ?_, s1, ?_⟩
    · simp only [LineOp.run, SweepLine2.insertAndGetNeighbors]
      rw [h1]
      cases found <;> simp only [Bool.false_eq_true, if_true, if_false] at h3 ⊢ <;> subst h3 <;>
        simp only [Res.bind_ok, Res.pure_eq, if_true, if_false, Bool.false_eq_true, hins, hr, hget]
    · show _ ∧ _ ∧ _
      cases found <;> simp only [Bool.false_eq_true, if_true, if_false] at h3 <;> subst h3
      · refine ⟨e2.symm, ?_, ?_⟩
        · rw [hset']; exact hp1
        · rw [hset']; exact hn1
      · refine ⟨e1.symm, ?_, ?_⟩
        · rw [hset]; exact hp2
        · rw [hset]; exact hn2
  | removeAndGetNeighbors x =>
    obtain ⟨found, a, b, h1, h2, h3⟩ := search_split hl x hs
    obtain ⟨s1, s2⟩ := split_sorted h2
    obtain ⟨_, _, e3, e4⟩ := hS h2
    obtain ⟨n1, n2⟩ := split_not_mem h2
    obtain ⟨r, hr, hp1, hp2⟩ := prevAt_append h2 b (Or.inl rfl)
    obtain ⟨hn1, hn2⟩ := next_head h2
    refine ⟨{ found := some found, prev := r, next := b[0]? }, a ++ b, ?_, s2, ?_⟩
    · simp only [LineOp.run, SweepLine2.removeAndGetNeighbors]
      rw [h1]
      cases found <;> simp only [Bool.false_eq_true, if_true, if_false] at h3 ⊢ <;> subst h3 <;>
        simp only [Res.bind_ok, Res.pure_eq, if_true, if_false, Bool.false_eq_true, herase, hr, hget']
    · show _ ∧ (∃ _, _) ∧ _ ∧ _
      cases found <;> simp only [Bool.false_eq_true, if_true, if_false] at h3 <;> subst h3
      · refine ⟨e4.symm, ⟨false, rfl, by simp [n1, n2]⟩, ?_, ?_⟩
        · rw [hset']; exact hp1
        · rw [hset']; exact hn1
      · refine ⟨e3.symm, ⟨true, rfl, by simp⟩, ?_, ?_⟩
        · rw [hset]; exact hp2
        · rw [hset]; exact hn2
  | getPrevious x =>
    obtain ⟨found, a, b, h1, h2, h3⟩ := search_split hl x hs
    obtain ⟨n1, n2⟩ := split_not_mem h2
    obtain ⟨r, hr, hp1, hp2⟩ := prevAt_append h2 (x :: b) (Or.inr rfl)
    cases found <;> simp only [Bool.false_eq_true, if_true, if_false] at h3
    · refine ⟨{ prev := none }, l, ?_, hs, rfl, ?_, fun _ => rfl⟩
      · simp only [LineOp.run, SweepLine2.getPrevious]
        rw [h1]; rfl
      · intro hx; subst h3
        simp [n1, n2] at hx
    · refine ⟨{ prev := r }, l, ?_, hs, rfl, ?_, ?_⟩
      · simp only [LineOp.run, SweepLine2.getPrevious]
        subst h3
        rw [h1]
        simp only [Res.bind_ok, Res.pure_eq, if_true, hr]
      · intro _; subst h3; rw [hset]; exact hp2
      · intro hx; subst h3; exact absurd (by simp) hx

/-- **C56**: with a lawful order and binary search, after any history of calls on an empty sweep line the
contents are strictly sorted, and every answer and the contents are those of a sorted set: elements are
there once, `found` says whether the item was there, and the neighbours are the greatest smaller and
least greater elements. -/
theorem C56_sorted_set (lib : Lib) (hl : lib.SearchLawful) (ops : List (LineOp α)) :
    ∃ as l, runLine lib ops [] = .ok (as, l) ∧ l.Pairwise (· < ·) ∧ FollowsSet ops as {y | y ∈ ([] : List α)} {y | y ∈ l} := by
  have : ∀ (ops : List (LineOp α)) (l : List α), l.Pairwise (· < ·) →
      ∃ as l', runLine lib ops l = .ok (as, l') ∧ l'.Pairwise (· < ·) ∧ FollowsSet ops as {y | y ∈ l} {y | y ∈ l'} := by
    intro ops
    induction ops with
    | nil => intro l hs; exact ⟨[], l, rfl, hs, rfl, rfl⟩
    | cons op ops ih =>
      intro l hs
      obtain ⟨a, l1, h1, h2, h3⟩ := lineOp_step hl hs op
      obtain ⟨as, l2, h4, h5, h6⟩ := ih l1 h2
      refine ⟨a :: as, l2, ?_, h5, a, as, _, rfl, h3, h6⟩
      simp only [runLine, h1, h4, Res.bind_ok, Res.pure_eq]
  exact this ops [] List.Pairwise.nil

end Idc
