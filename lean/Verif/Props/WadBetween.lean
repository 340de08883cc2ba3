import Verif.Model.Wad
import Verif.Spec.Between
/-!
# C08, C09: `iter_entries_between`
-/

namespace Idc

/-- What the iterator yields for one entry: its name and bytes (or the slicing panic). -/
def lumpOf (w : BareWAD) (i : Nat) : Res WADEntry := do
  let e ← index w.directory i
  let d ← slice w.buffer e.filepos.toNat (e.filepos.toNat + e.size.toNat)
  pure { name := e.name, data := d }

/-- The flag after a prefix. -/
def flagAfter (bm em : Bytes) (names : List Bytes) : Bool :=
  names.foldl (fun b n => if b && n == em then false else if !b && n == bm then true else b) false

/-- Indices selected. -/
def selIdx (bm em : Bytes) : Nat → List DirEntry → Bool → List Nat
  | _, [], _ => []
  | off, e :: r, b =>
    if b && e.name == em then selIdx bm em (off + 1) r false
    else if !b && e.name == bm then selIdx bm em (off + 1) r true
    else if b then off :: selIdx bm em (off + 1) r b
    else selIdx bm em (off + 1) r b

theorem betweenAll_unfold (buf bm em : Bytes) (l : List DirEntry) (b : Bool) :
    betweenAll buf bm em l b =
      match betweenNext buf bm em l b with
      | .ok none => .ok []
      | .ok (some (x, s)) =>
        match betweenAll buf bm em s.todo s.between with
        | .ok xs => .ok (x :: xs)
        | .err e => .err e
        | .panic p => .panic p
        | .diverge => .diverge
      | .err e => .err e
      | .panic p => .panic p
      | .diverge => .diverge := by
  conv => lhs; unfold betweenAll
  split <;> rename_i h <;> simp only [h]
  rfl

theorem betweenAll_nil (buf bm em : Bytes) (b : Bool) : betweenAll buf bm em [] b = .ok [] := by
  rw [betweenAll_unfold]; rfl

theorem betweenAll_cons (buf bm em : Bytes) (e : DirEntry) (r : List DirEntry) (b : Bool) :
    betweenAll buf bm em (e :: r) b =
      if b && e.name == em then betweenAll buf bm em r false
      else if !b && e.name == bm then betweenAll buf bm em r true
      else if b then
        (match e.extractSlice buf with
        | .ok d => (match betweenAll buf bm em r b with
          | .ok xs => .ok ({ name := e.name, data := d } :: xs)
          | .err e => .err e | .panic p => .panic p | .diverge => .diverge)
        | .err e => .err e | .panic p => .panic p | .diverge => .diverge)
      else betweenAll buf bm em r b := by
  have hb : betweenNext buf bm em (e :: r) b =
      if b && e.name == em then betweenNext buf bm em r false
      else if !b && e.name == bm then betweenNext buf bm em r true
      else if b then
        match e.extractSlice buf with
        | .ok d => .ok (some ({ name := e.name, data := d }, { todo := r, between := b }))
        | .err e => .err e
        | .panic p => .panic p
        | .diverge => .diverge
      else betweenNext buf bm em r b := by rw [betweenNext]; rfl
  by_cases h1 : (b && e.name == em) = true
  · rw [if_pos h1]
    rw [if_pos h1] at hb
    rw [betweenAll_unfold, betweenAll_unfold _ _ _ r]
    rw [hb]
  · rw [if_neg h1]
    rw [if_neg h1] at hb
    by_cases h2 : (!b && e.name == bm) = true
    · rw [if_pos h2]
      rw [if_pos h2] at hb
      rw [betweenAll_unfold, betweenAll_unfold _ _ _ r]
      rw [hb]
    · rw [if_neg h2]
      rw [if_neg h2] at hb
      by_cases h3 : b = true
      · rw [if_pos h3]
        rw [if_pos h3] at hb
        rw [betweenAll_unfold, hb]
        cases e.extractSlice buf <;> rfl
      · rw [if_neg h3]
        rw [if_neg h3] at hb
        rw [betweenAll_unfold, betweenAll_unfold _ _ _ r]
        rw [hb]

theorem betweenAll_eq (w : BareWAD) (bm em : Bytes) (pre l : List DirEntry) (b : Bool)
    (hw : w.directory = pre ++ l) :
    betweenAll w.buffer bm em l b = Res.mapList (lumpOf w) (selIdx bm em pre.length l b) := by
  induction l generalizing pre b with
  | nil => unfold betweenAll; simp [betweenNext, selIdx, Res.mapList]
  | cons e r ih =>
    have ih' := fun b => ih (pre ++ [e]) b (by simp [hw])
    simp only [List.length_append, List.length_cons, List.length_nil, Nat.zero_add] at ih'
    rw [betweenAll_cons]
    simp only [selIdx, ih']
    split
    · rfl
    · split
      · rfl
      · split
        · have hi : w.directory[pre.length]? = some e := by simp [hw]
          simp only [Res.mapList, lumpOf, index, hi, Res.bind_ok, DirEntry.extractSlice]
          cases slice w.buffer e.filepos.toNat (e.filepos.toNat + e.size.toNat) <;> simp only [Res.bind_ok, Res.bind_err, Res.bind_panic, Res.bind_diverge, Res.pure_eq]
          cases Res.mapList (lumpOf w) (selIdx bm em (pre.length + 1) r b) <;> rfl
        · rfl

theorem flagAfter_snoc (bm em : Bytes) (p : List Bytes) (n : Bytes) :
    flagAfter bm em (p ++ [n]) =
      if flagAfter bm em p && n == em then false else if !flagAfter bm em p && n == bm then true
      else flagAfter bm em p := by
  simp [flagAfter, List.foldl_append]

theorem selIdx_spec (bm em : Bytes) (pre l : List DirEntry) :
    let is := selIdx bm em pre.length l (flagAfter bm em (pre.map (·.name)))
    is.Pairwise (· < ·) ∧
    ∀ i, i ∈ is ↔ pre.length ≤ i ∧ flagAfter bm em (((pre ++ l).take i).map (·.name)) = true ∧
      ∃ e, (pre ++ l)[i]? = some e ∧ e.name ≠ em := by
  induction l generalizing pre with
  | nil =>
    refine ⟨by simp [selIdx], ?_⟩
    intro i
    simp only [selIdx, List.not_mem_nil, List.append_nil, false_iff]
    rintro ⟨h, _, e, he, _⟩
    have := (List.getElem?_eq_some_iff.mp he).1
    omega
  | cons e r ih =>
    have ih := ih (pre ++ [e])
    simp only [List.map_append, List.map_cons, List.map_nil, flagAfter_snoc, List.length_append,
      List.length_cons, List.length_nil, Nat.zero_add, List.append_assoc, List.cons_append, List.nil_append] at ih
    have hat : ∀ P : DirEntry → Prop, (∃ x, (pre ++ e :: r)[pre.length]? = some x ∧ P x) ↔ P e := by
      intro P; simp
    have htake : ((pre ++ e :: r).take pre.length).map (·.name) = pre.map (·.name) := by simp
    -- membership at the head index
    have hsplit : ∀ i, (pre.length ≤ i ∧ flagAfter bm em (((pre ++ e :: r).take i).map (·.name)) = true ∧
        ∃ x, (pre ++ e :: r)[i]? = some x ∧ x.name ≠ em) ↔
        (i = pre.length ∧ flagAfter bm em (pre.map (·.name)) = true ∧ e.name ≠ em) ∨
        (pre.length + 1 ≤ i ∧ flagAfter bm em (((pre ++ e :: r).take i).map (·.name)) = true ∧
        ∃ x, (pre ++ e :: r)[i]? = some x ∧ x.name ≠ em) := by
      intro i
      by_cases hi : i = pre.length
      · subst hi
        rw [htake, hat (fun x => x.name ≠ em)]
        simp
      · have : pre.length ≤ i ↔ pre.length + 1 ≤ i := by omega
        rw [this]; simp [hi]
    simp only [selIdx]
    rcases hb : flagAfter bm em (pre.map (·.name)) with _ | _
    · simp only [hb] at ih hsplit ⊢
      simp only [Bool.false_and, Bool.false_eq_true, if_false, Bool.not_false, Bool.true_and] at ih ⊢
      by_cases h : (e.name == bm) = true
      · rw [if_pos h] at ih ⊢
        refine ⟨ih.1, fun i => ?_⟩
        rw [ih.2 i, hsplit i]; simp
      · rw [if_neg h] at ih ⊢
        refine ⟨ih.1, fun i => ?_⟩
        rw [ih.2 i, hsplit i]; simp
    · simp only [hb] at ih hsplit ⊢
      simp only [Bool.true_and, Bool.not_true, Bool.false_and, Bool.false_eq_true, if_false] at ih ⊢
      by_cases h : (e.name == em) = true
      · rw [if_pos h] at ih ⊢
        refine ⟨ih.1, fun i => ?_⟩
        rw [ih.2 i, hsplit i]
        have : e.name = em := by simpa using h
        simp [this]
      · rw [if_neg h] at ih ⊢
        simp only [if_true]
        refine ⟨?_, fun i => ?_⟩
        · rw [List.pairwise_cons]
          refine ⟨fun a ha => ?_, ih.1⟩
          have := ((ih.2 a).mp ha).1; omega
        · rw [hsplit i, List.mem_cons, ih.2 i]
          have : e.name ≠ em := by simpa using h
          simp [this]

theorem flagAfter_inside (bm em : Bytes) (hne : bm ≠ em) (names : List Bytes) :
    flagAfter bm em names = true ↔ Inside bm em names := by
  induction hn : names.length generalizing names with
  | zero =>
    have : names = [] := List.length_eq_zero_iff.mp hn
    subst this
    simp [flagAfter, Inside]
  | succ n ih =>
    obtain ⟨p, x, rfl⟩ : ∃ p x, names = p ++ [x] := by
      rcases List.eq_nil_or_concat names with h | ⟨p, x, h⟩
      · subst h; simp at hn
      · exact ⟨p, x, by simpa using h⟩
    have hp := ih p (by simpa using hn)
    rw [flagAfter_snoc]
    have hin : Inside bm em (p ++ [x]) ↔ x = bm ∨ (Inside bm em p ∧ x ≠ em) := by
      constructor
      · rintro ⟨a, q, h, hq⟩
        rcases List.eq_nil_or_concat q with rfl | ⟨q', y, rfl⟩
        · left
          have := List.append_inj' h rfl
          simpa using this.2
        · right
          have h' : p ++ [x] = (a ++ bm :: q') ++ [y] := by simpa using h
          obtain ⟨rfl, h2⟩ := List.append_inj' h' rfl
          have : x = y := by simpa using h2
          subst this
          refine ⟨⟨a, q', rfl, fun hh => hq (by simp [hh])⟩, fun hh => hq (by simp [hh])⟩
      · rintro (rfl | ⟨⟨a, q, rfl, hq⟩, hx⟩)
        · exact ⟨p, [], by simp, by simp⟩
        · exact ⟨a, q ++ [x], by simp, by simp [hq, Ne.symm hx]⟩
    rw [hin]
    rcases hf : flagAfter bm em p with _ | _
    · have : ¬ Inside bm em p := by rw [← hp, hf]; simp
      simp [this]
    · have : Inside bm em p := by rw [← hp, hf]
      simp only [this, true_and, Bool.true_and, Bool.not_true, Bool.false_and, Bool.false_eq_true, if_false]
      by_cases hx : x = em
      · subst hx; simp [Ne.symm hne]
      · simp [hx]

/-- **C08** With distinct markers the iterator yields, in directory order, exactly the entries that
come after a begin marker with no end marker since, and are not the end marker itself.
(`mapList` stops at the first entry whose slice panics, as the iterator does.) -/
theorem C08_iterEntriesBetween (w : BareWAD) (bm em : Bytes) (hne : bm ≠ em) :
    ∃ is : List Nat, is.Pairwise (· < ·) ∧
      (∀ i, i ∈ is ↔ Inside bm em ((w.directory.map (·.name)).take i) ∧
        ∃ e, w.directory[i]? = some e ∧ e.name ≠ em) ∧
      w.iterEntriesBetween bm em = Res.mapList (lumpOf w) is := by
  have h := selIdx_spec bm em [] w.directory
  refine ⟨_, h.1, ?_, ?_⟩
  · intro i
    rw [h.2 i, flagAfter_inside bm em hne]
    simp [List.map_take]
  · have := betweenAll_eq w bm em [] w.directory false rfl
    simpa [BareWAD.iterEntriesBetween, flagAfter] using this

/-- **C08** A nested begin marker is itself yielded, an unclosed region runs to the end, and a
second region is found. -/
example : (BareWAD.mk [1, 2, 3, 4] ⟨.PWAD, 7, 0⟩
    [⟨0, 1, str "X"⟩, ⟨0, 0, str "F_START"⟩, ⟨1, 1, str "A"⟩, ⟨0, 0, str "F_START"⟩, ⟨0, 0, str "F_END"⟩,
     ⟨2, 1, str "B"⟩, ⟨0, 0, str "F_START"⟩, ⟨3, 1, str "C"⟩]).iterEntriesBetween (str "F_START") (str "F_END")
    = .ok [⟨str "A", [2]⟩, ⟨str "F_START", []⟩, ⟨str "C", [4]⟩] := by
  simp only [BareWAD.iterEntriesBetween, betweenAll_cons, betweenAll_nil]
  decide

theorem flagAfter_toggle (m : Bytes) (names : List Bytes) :
    flagAfter m m names = true ↔ (names.count m) % 2 = 1 := by
  induction hn : names.length generalizing names with
  | zero =>
    have : names = [] := List.length_eq_zero_iff.mp hn
    subst this
    simp [flagAfter]
  | succ n ih =>
    obtain ⟨p, x, rfl⟩ : ∃ p x, names = p ++ [x] := by
      rcases List.eq_nil_or_concat names with h | ⟨p, x, h⟩
      · subst h; simp at hn
      · exact ⟨p, x, by simpa using h⟩
    have hp := ih p (by simpa using hn)
    rw [flagAfter_snoc, List.count_append, List.count_singleton]
    rcases hf : flagAfter m m p with _ | _
    · have : ¬ (p.count m) % 2 = 1 := by rw [← hp, hf]; simp
      by_cases hx : (x == m) = true
      · simp [hx]; omega
      · simp only [Bool.not_eq_true] at hx; simp [hx]; omega
    · have : (p.count m) % 2 = 1 := by rw [← hp, hf]
      by_cases hx : (x == m) = true
      · simp [hx]; omega
      · simp only [Bool.not_eq_true] at hx; simp [hx]; omega

/-- **C09** With one name for both markers they toggle: an entry is yielded iff it is not a marker
and an odd number of markers come before it. -/
theorem C09_iterEntriesBetween_same (w : BareWAD) (m : Bytes) :
    ∃ is : List Nat, is.Pairwise (· < ·) ∧
      (∀ i, i ∈ is ↔ ((w.directory.map (·.name)).take i).count m % 2 = 1 ∧
        ∃ e, w.directory[i]? = some e ∧ e.name ≠ m) ∧
      w.iterEntriesBetween m m = Res.mapList (lumpOf w) is := by
  have h := selIdx_spec m m [] w.directory
  refine ⟨_, h.1, ?_, ?_⟩
  · intro i
    rw [h.2 i, flagAfter_toggle]
    simp [List.map_take]
  · have := betweenAll_eq w m m [] w.directory false rfl
    simpa [BareWAD.iterEntriesBetween, flagAfter] using this

example : (BareWAD.mk [1, 2] ⟨.PWAD, 4, 0⟩
    [⟨0, 0, str "M"⟩, ⟨0, 1, str "A"⟩, ⟨0, 0, str "M"⟩, ⟨1, 1, str "B"⟩]).iterEntriesBetween (str "M") (str "M")
    = .ok [⟨str "A", [1]⟩] := by
  simp only [BareWAD.iterEntriesBetween, betweenAll_cons, betweenAll_nil]
  decide

end Idc
