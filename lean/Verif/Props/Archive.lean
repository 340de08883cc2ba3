import Verif.Props.BinMapOutcome
import Verif.Props.WadIter
import Verif.Spec.Archive
/-!
# C19–C21: archives
-/

namespace Idc

theorem lumpIs_unique {w : BareWAD} {i : Nat} {d d' : Bytes} (h : LumpIs w i d) (h' : LumpIs w i d') : d = d' := by
  have := entrySlice_ok h
  rw [entrySlice_ok h'] at this
  injection this with this
  exact this.symm

/-- `make_entry` copies the entry, or panics if the lump cannot be read. -/
theorem makeEntry_spec (w : BareWAD) (i : Nat) :
    (∃ e, makeEntry w i = .ok e ∧ CopyOf w .Map i e) ∨
    ((¬ ∃ d, LumpIs w i d) ∧ makeEntry w i = .panic .bounds) := by
  unfold makeEntry
  rcases he : w.directory[i]? with _ | e
  · right
    refine ⟨?_, by simp [index, he]⟩
    rintro ⟨d, e, he', _⟩
    rw [he] at he'; simp at he'
  · by_cases hb : e.filepos.toNat + e.size.toNat ≤ w.buffer.length
    · left
      obtain ⟨d, h1, h2⟩ := (C06_extractSlice e w.buffer).1 hb
      refine ⟨{ name := e.name, data := d, nspace := .Map }, by simp [index, he, h1], ⟨e, he, rfl⟩, ⟨e, he, hb, h2⟩, rfl⟩
    · right
      refine ⟨?_, by simp [index, he, (C06_extractSlice e w.buffer).2 (by omega)]⟩
      rintro ⟨d, e', he', hb', _⟩
      rw [he] at he'; injection he' with he'; subst he'
      exact hb hb'

/-- Outcome of a step that copies the lumps of `is` and yields something related by `R`. -/
def Step {α : Type} (w : BareWAD) (is : List Nat) (R : α → Prop) (x : Res α) : Prop :=
  (∃ a, x = .ok a ∧ R a ∧ ∀ i ∈ is, ∃ d, LumpIs w i d) ∨
  ((∃ i ∈ is, ¬ ∃ d, LumpIs w i d) ∧ x = .panic .bounds)

theorem Step.bind {α β : Type} {w : BareWAD} {is js : List Nat} {R : α → Prop} {S : β → Prop} {x : Res α}
    {f : α → Res β} (hx : Step w is R x) (hf : ∀ a, R a → Step w js S (f a)) : Step w (is ++ js) S (x >>= f) := by
  rcases hx with ⟨a, rfl, hR, hi⟩ | ⟨⟨i, hi, hn⟩, rfl⟩
  · rw [Res.bind_ok]
    rcases hf a hR with ⟨b, hb, hS, hj⟩ | ⟨⟨j, hj, hn⟩, hp⟩
    · refine .inl ⟨b, hb, hS, fun i h => ?_⟩
      rcases List.mem_append.mp h with h | h
      · exact hi i h
      · exact hj i h
    · exact .inr ⟨⟨j, List.mem_append.mpr (.inr hj), hn⟩, hp⟩
  · exact .inr ⟨⟨i, List.mem_append.mpr (.inl hi), hn⟩, rfl⟩

theorem step_makeEntry (w : BareWAD) (i : Nat) : Step w [i] (CopyOf w .Map i) (makeEntry w i) := by
  rcases makeEntry_spec w i with ⟨e, h1, h2⟩ | ⟨h1, h2⟩
  · exact .inl ⟨e, h1, h2, fun j hj => by simp at hj; subst hj; exact ⟨_, h2.2.1⟩⟩
  · exact .inr ⟨⟨i, by simp, h1⟩, h2⟩

theorem step_opt (w : BareWAD) (o : Option Nat) :
    Step w o.toList (OptCopyOf w .Map o) (Res.mapOption (makeEntry w) o) := by
  rcases o with _ | i
  · exact .inl ⟨none, rfl, trivial, by simp⟩
  · rcases makeEntry_spec w i with ⟨e, h1, h2⟩ | ⟨h1, h2⟩
    · exact .inl ⟨some e, by simp [Res.mapOption, h1], h2, fun j hj => by simp at hj; subst hj; exact ⟨_, h2.2.1⟩⟩
    · exact .inr ⟨⟨i, by simp, h1⟩, by simp [Res.mapOption, h2]⟩

/-- The directory indices of everything a block lists. -/
def blockIndices (r : MapEntryBlock) : List Nat :=
  [r.marker_index] ++ (r.things_index.toList ++ (r.linedefs_index.toList ++ (r.sidedefs_index.toList ++
    (r.vertexes_index.toList ++ (r.segs_index.toList ++ (r.ssectors_index.toList ++ (r.nodes_index.toList ++
      (r.sectors_index.toList ++ (r.reject_index.toList ++ (r.blockmap_index.toList ++
        (r.behavior_index.toList ++ (r.textmap_index.toList ++ []))))))))))))

theorem makeMapBlock_spec (w : BareWAD) (r : MapEntryBlock) :
    Step w (blockIndices r) (MapCopy w r) (makeMapBlock w r) := by
  unfold makeMapBlock blockIndices
  refine (step_makeEntry w _).bind fun e0 h0 => ?_
  refine (step_opt w _).bind fun e1 h1 => ?_
  refine (step_opt w _).bind fun e2 h2 => ?_
  refine (step_opt w _).bind fun e3 h3 => ?_
  refine (step_opt w _).bind fun e4 h4 => ?_
  refine (step_opt w _).bind fun e5 h5 => ?_
  refine (step_opt w _).bind fun e6 h6 => ?_
  refine (step_opt w _).bind fun e7 h7 => ?_
  refine (step_opt w _).bind fun e8 h8 => ?_
  refine (step_opt w _).bind fun e9 h9 => ?_
  refine (step_opt w _).bind fun e10 h10 => ?_
  refine (step_opt w _).bind fun e11 h11 => ?_
  refine (step_opt w _).bind fun e12 h12 => ?_
  exact .inl ⟨_, rfl, ⟨rfl, rfl, h0, h1, h2, h3, h4, h5, h6, h7, h8, h9, h10, h11, h12⟩, by simp⟩

theorem filterMap_snd (l : List (Bytes × Option Nat)) :
    (l.filterMap fun p => p.2.map fun i => (p.1, i)).map (·.2) = l.flatMap fun p => p.2.toList := by
  induction l with
  | nil => rfl
  | cons p l ih =>
    obtain ⟨n, o⟩ := p
    rcases o with _ | i
    · simpa using ih
    · simp only [List.flatMap_cons, List.filterMap_cons, Option.map_some, List.map_cons, ih]; rfl

theorem itemFacts (w : BareWAD) (x : WADItem) (h : x ∈ w.items) : ItemFacts w.directory x := by
  obtain ⟨_, _, _, h1, _⟩ := items_spec w
  exact h1 x h

theorem blockIndices_span {w : BareWAD} {r : MapEntryBlock} (h : .map r ∈ w.items) (j : Nat) :
    j ∈ blockIndices r ↔ j ∈ (WADItem.map r).span := by
  have ht : r.textmap_index = none := by
    obtain ⟨e, k, h1, h2, h3⟩ := itemFacts w _ h
    exact h3.textmap
  simp only [blockIndices, WADItem.span, MapEntryBlock.lumps, ht, filterMap_snd, List.flatMap_cons, List.flatMap_nil,
    List.singleton_append, Option.toList_none, List.append_nil]

theorem convertItem_spec (w : BareWAD) (x : WADItem) (hx : x ∈ w.items) :
    Step w (if x.isMarker then [] else x.span)
      (fun l => if x.isMarker then l = [] else ∃ y, l = [y] ∧ ItemCopy w x y) (convertItem w x) := by
  rcases x with r | ⟨i, e⟩ | ⟨i, e⟩ | ⟨i, e⟩
  · simp only [WADItem.isMarker, Bool.false_eq_true, if_false]
    rcases makeMapBlock_spec w r with ⟨b, hb, hc, hi⟩ | ⟨⟨i, hi, hn⟩, hp⟩
    · refine .inl ⟨[.map b], by simp [convertItem, hb], ⟨_, rfl, hc⟩, fun i h => hi i ((blockIndices_span hx i).mpr h)⟩
    · exact .inr ⟨⟨i, (blockIndices_span hx i).mp hi, hn⟩, by simp [convertItem, hp]⟩
  · exact .inl ⟨[], rfl, by simp [WADItem.isMarker], by simp [WADItem.isMarker]⟩
  · exact .inl ⟨[], rfl, by simp [WADItem.isMarker], by simp [WADItem.isMarker]⟩
  · simp only [WADItem.isMarker, Bool.false_eq_true, if_false, WADItem.span]
    have he : w.directory[i]? = some e := (itemFacts w _ hx).1
    by_cases hb : e.filepos.toNat + e.size.toNat ≤ w.buffer.length
    · obtain ⟨d, h1, h2⟩ := (C06_extractSlice e w.buffer).1 hb
      refine .inl ⟨[.entry { name := e.name, data := d, nspace := .Unknown }], by simp [convertItem, h1],
        ⟨_, rfl, ⟨e, he, rfl⟩, ⟨e, he, hb, h2⟩, rfl⟩, fun j hj => ?_⟩
      simp at hj; subst hj
      exact ⟨d, e, he, hb, h2⟩
    · refine .inr ⟨⟨i, by simp, ?_⟩, by simp [convertItem, (C06_extractSlice e w.buffer).2 (by omega)]⟩
      rintro ⟨d, e', he', hb', _⟩
      rw [he] at he'; injection he' with he'; subst he'
      exact hb hb'

theorem convertAll_spec (w : BareWAD) (l : List WADItem) (hl : ∀ x ∈ l, x ∈ w.items) :
    Step w ((l.filter fun x => !x.isMarker).flatMap WADItem.span)
      (fun ps => Pairs (ItemCopy w) (l.filter fun x => !x.isMarker) ps.flatten) (Res.mapList (convertItem w) l) := by
  induction l with
  | nil => exact .inl ⟨[], rfl, trivial, by simp⟩
  | cons x l ih =>
    have ih := ih fun y hy => hl y (List.mem_cons_of_mem _ hy)
    have hx := convertItem_spec w x (hl x (by simp))
    unfold Res.mapList
    rcases hx with ⟨a, ha, hR, hi⟩ | ⟨⟨i, hi, hn⟩, hp⟩
    · rw [ha]
      dsimp only
      rcases ih with ⟨b, hb, hS, hj⟩ | ⟨⟨j, hj, hn⟩, hp⟩
      · rw [hb]
        left
        refine ⟨a :: b, rfl, ?_, ?_⟩
        · cases hm : x.isMarker
          · rw [hm] at hR
            simp only [Bool.false_eq_true, if_false] at hR
            obtain ⟨y, rfl, hy⟩ := hR
            simp only [List.filter_cons, hm, Bool.not_false, if_true, List.flatten_cons, List.cons_append,
              List.nil_append, Pairs]
            exact ⟨hy, hS⟩
          · rw [hm] at hR
            simp only [if_true] at hR
            subst hR
            simpa [List.filter_cons, hm] using hS
        · intro i h
          cases hm : x.isMarker
          · rw [List.filter_cons, hm] at h
            simp only [Bool.not_false, if_true, List.flatMap_cons, List.mem_append] at h
            rcases h with h | h
            · exact hi i (by rw [hm]; simpa using h)
            · exact hj i h
          · rw [List.filter_cons, hm] at h
            simp only [Bool.not_true, Bool.false_eq_true, if_false] at h
            exact hj i h
      · rw [hp]
        right
        refine ⟨⟨j, ?_, hn⟩, rfl⟩
        cases hm : x.isMarker
        · rw [List.filter_cons, hm]
          simp only [Bool.not_false, if_true, List.flatMap_cons, List.mem_append]
          exact .inr hj
        · rw [List.filter_cons, hm]
          simpa using hj
    · rw [hp]
      right
      refine ⟨⟨i, ?_, hn⟩, rfl⟩
      cases hm : x.isMarker
      · rw [hm] at hi
        rw [List.filter_cons, hm]
        simp only [Bool.not_false, if_true, List.flatMap_cons, List.mem_append]
        exact .inl (by simpa using hi)
      · rw [hm] at hi; simp at hi

/-- **C19** If every lump of every non-marker item can be read, `to_archive` succeeds, keeps the WAD
type, and its contents are, position by position, copies of the non-marker items in iteration order. -/
theorem C19_archive_ok (w : BareWAD)
    (h : ∀ x ∈ w.copiedItems, ∀ i ∈ x.span, ∃ d, LumpIs w i d) :
    ∃ a, WADArchive.fromBare w = .ok a ∧ a.wadtype = w.header.identification ∧
      Pairs (ItemCopy w) w.copiedItems a.contents := by
  rcases convertAll_spec w w.items (fun _ h => h) with ⟨ps, hp, hR, _⟩ | ⟨⟨i, hi, hn⟩, _⟩
  · exact ⟨{ wadtype := w.header.identification, contents := ps.flatten }, by simp [WADArchive.fromBare, hp], rfl, hR⟩
  · obtain ⟨x, hx, hix⟩ := List.mem_flatMap.mp hi
    exact absurd (h x hx i hix) hn

/-- **C19** Otherwise it panics. -/
theorem C19_archive_panic (w : BareWAD) (x : WADItem) (hx : x ∈ w.copiedItems) (i : Nat) (hi : i ∈ x.span)
    (hn : ¬ ∃ d, LumpIs w i d) : WADArchive.fromBare w = .panic .bounds := by
  rcases convertAll_spec w w.items (fun _ h => h) with ⟨ps, hp, hR, hall⟩ | ⟨_, hp⟩
  · exact absurd (hall i (List.mem_flatMap.mpr ⟨x, hx, hi⟩)) hn
  · simp [WADArchive.fromBare, hp]

/-- Whatever `to_archive` returns is a copy. -/
theorem archive_copies {w : BareWAD} {a : WADArchive} (h : WADArchive.fromBare w = .ok a) :
    a.wadtype = w.header.identification ∧ Pairs (ItemCopy w) w.copiedItems a.contents := by
  rcases convertAll_spec w w.items (fun _ h => h) with ⟨ps, hp, hR, hall⟩ | ⟨_, hp⟩
  · simp only [WADArchive.fromBare, hp, Res.bind_ok, Res.pure_eq, Res.ok.injEq] at h
    subst h
    exact ⟨rfl, hR⟩
  · simp [WADArchive.fromBare, hp] at h

/-! ### C20 -/

theorem route_step {α : Type} {w : BareWAD} {o : Option Nat} {oe : Option Entry} (name : String)
    (h : OptCopyOf w .Map o oe) (f : Bytes → Res α) :
    (do let i ← requireLump name o; let buf ← w.entrySlice i; f buf) =
    (do let e ← requireLump name oe; f e.data) := by
  rcases o with _ | i <;> rcases oe with _ | e
  · rfl
  · exact h.elim
  · exact h.elim
  · simp only [requireLump, Res.bind_ok]
    rw [entrySlice_ok h.2.1, Res.bind_ok]

theorem routes_agree {w : BareWAD} {r : MapEntryBlock} {b : MapBlock} (h : MapCopy w r b) :
    parseDoomMap w r = parseDoomMapFromArchive b := by
  unfold parseDoomMap parseDoomMapFromArchive
  rw [h.format]
  rw [route_step "VERTEXES" h.vertexes]
  congr 1; funext ev
  congr 1; funext vs
  rw [route_step "SECTORS" h.sectors]
  congr 1; funext es
  congr 1; funext ss
  rw [route_step "SIDEDEFS" h.sidedefs]
  congr 1; funext ed
  congr 1; funext sd
  split
  · rw [route_step "LINEDEFS" h.linedefs]
    congr 1; funext el
    congr 1; funext ls
    rw [route_step "THINGS" h.things]
  · rw [route_step "LINEDEFS" h.linedefs]
    congr 1; funext el
    congr 1; funext ls
    rw [route_step "THINGS" h.things]

theorem pairs_maps {w : BareWAD} (l : List WADItem) (c : List Item) (h : Pairs (ItemCopy w) (l.filter fun x => !x.isMarker) c) :
    Pairs (MapCopy w) (l.filterMap fun x => match x with | .map b => some b | _ => none)
      (c.filterMap fun x => match x with | .map b => some b | .entry _ => none) := by
  induction l generalizing c with
  | nil => rcases c with _ | ⟨_, _⟩
           · trivial
           · exact h.elim
  | cons x l ih =>
    rcases x with r | ⟨i, e⟩ | ⟨i, e⟩ | ⟨i, e⟩
    · rcases c with _ | ⟨y, c⟩
      · exact h.elim
      · rcases y with b | e
        · exact ⟨h.1, ih c h.2⟩
        · exact h.1.elim
    · exact ih c h
    · exact ih c h
    · rcases c with _ | ⟨y, c⟩
      · exact h.elim
      · rcases y with b | e'
        · exact h.1.elim
        · exact ih c h.2

theorem pairs_map_eq {α β γ : Type} {R : α → β → Prop} {f : α → γ} {g : β → γ} (h : ∀ a b, R a b → f a = g b)
    (l : List α) (m : List β) (hp : Pairs R l m) : l.map f = m.map g := by
  induction l generalizing m with
  | nil => rcases m with _ | ⟨_, _⟩
           · rfl
           · exact hp.elim
  | cons a l ih =>
    rcases m with _ | ⟨b, m⟩
    · exact hp.elim
    · simp [h a b hp.1, ih m hp.2]

/-- **C20** Parsing the maps of a WAD directly or from its archive gives the same list of results. -/
theorem C20_routes_agree (w : BareWAD) (a : WADArchive) (h : WADArchive.fromBare w = .ok a) :
    w.iterMaps.map (parseDoomMap w) = a.maps.map parseDoomMapFromArchive :=
  pairs_map_eq (R := MapCopy w) (fun _ _ h => routes_agree h) _ _ (pairs_maps _ _ (archive_copies h).2)

/-! ### C21 -/

/-- **C21** `WADArchive::first_entry` returns the first plain entry with the name. -/
theorem C21_first_entry_some (a : WADArchive) (name : Bytes) (e : Entry) :
    a.firstEntry name = some e ↔
      ∃ i : Nat, a.contents[i]? = some (Item.entry e) ∧ e.name = name ∧
        ∀ j : Nat, j < i → ∀ e' : Entry, a.contents[j]? = some (Item.entry e') → e'.name ≠ name := by
  unfold WADArchive.firstEntry
  induction a.contents with
  | nil => simp
  | cons x l ih =>
    rcases x with b | e0
    · simp only [List.findSome?_cons]
      rw [ih]
      constructor
      · rintro ⟨i, h1, h2, h3⟩
        refine ⟨i + 1, by simpa using h1, h2, ?_⟩
        intro j hj e' he'
        rcases j with _ | j
        · simp at he'
        · exact h3 j (by omega) e' (by simpa using he')
      · rintro ⟨i, h1, h2, h3⟩
        rcases i with _ | i
        · simp at h1
        · exact ⟨i, by simpa using h1, h2, fun j hj e' he' => h3 (j + 1) (by omega) e' (by simpa using he')⟩
    · simp only [List.findSome?_cons]
      by_cases hn : e0.name = name
      · rw [if_pos hn]
        constructor
        · intro h
          injection h with h; subst h
          exact ⟨0, rfl, hn, by intro j hj; omega⟩
        · rintro ⟨i, h1, h2, h3⟩
          rcases i with _ | i
          · simpa using h1
          · exact absurd hn (h3 0 (by omega) e0 rfl)
      · rw [if_neg hn]
        dsimp only
        rw [ih]
        constructor
        · rintro ⟨i, h1, h2, h3⟩
          refine ⟨i + 1, by simpa using h1, h2, ?_⟩
          intro j hj e' he'
          rcases j with _ | j
          · simp at he'; subst he'; exact hn
          · exact h3 j (by omega) e' (by simpa using he')
        · rintro ⟨i, h1, h2, h3⟩
          rcases i with _ | i
          · simp at h1; subst h1; exact absurd h2 hn
          · exact ⟨i, by simpa using h1, h2, fun j hj e' he' => h3 (j + 1) (by omega) e' (by simpa using he')⟩

/-- **C21** It returns `None` iff no plain entry has the name; lumps inside maps do not count. -/
theorem C21_first_entry_none (a : WADArchive) (name : Bytes) :
    a.firstEntry name = none ↔ ∀ e, .entry e ∈ a.contents → e.name ≠ name := by
  unfold WADArchive.firstEntry
  rw [List.findSome?_eq_none_iff]
  constructor
  · intro h e he hn
    have := h _ he
    simp [hn] at this
  · intro h x hx
    rcases x with b | e
    · rfl
    · simp [h e hx]

/-- Non-vacuity: an archive holding a map with a THINGS lump does not find THINGS; with a plain
entry of that name it does. -/
example :
    let e (n d) : Entry := { name := str n, data := d, nspace := .Unknown }
    let m : MapBlock :=
     { format := .Doom, name := .MAPxx 1, marker := (e "MAP01" []), things := some (e "THINGS" [1]),
       linedefs := none, sidedefs := none, vertexes := none, segs := none, ssectors := none, nodes := none,
       sectors := none, reject := none, blockmap := none, behavior := none, textmap := none }
    WADArchive.firstEntry ⟨.PWAD, [.map m]⟩ (str "THINGS") = none ∧
    WADArchive.firstEntry ⟨.PWAD, [.map m, .entry (e "THINGS" [2]), .entry (e "THINGS" [3])]⟩ (str "THINGS") =
      some (e "THINGS" [2]) := by decide

/-- A three-byte WAD with one lump. -/
def tinyWad (pos size : UInt32) : BareWAD :=
  { buffer := [1, 2, 3], header := ⟨.PWAD, 1, 0⟩, directory := [⟨pos, size, str "FOO"⟩] }

/-- Non-vacuity of C19: a WAD with one readable lump (and no maps), and one whose lump is out of
bounds. -/
example : (∃ a, WADArchive.fromBare (tinyWad 1 2) = .ok a ∧
      a.contents = [.entry ⟨str "FOO", [2, 3], .Unknown⟩]) ∧
    WADArchive.fromBare (tinyWad 2 2) = .panic .bounds := by
  have hn : mapNameOf (str "FOO") = none := by decide
  have h1 : endsWith (str "FOO") (str "_START") = false := by decide
  have h2 : endsWith (str "FOO") (str "_END") = false := by decide
  constructor
  · refine ⟨⟨.PWAD, [.entry ⟨str "FOO", [2, 3], .Unknown⟩]⟩, ?_, rfl⟩
    simp [WADArchive.fromBare, BareWAD.items, tinyWad, enumFrom, wadItems_unfold, wadNext, hn, h1, h2, Res.mapList, convertItem,
      DirEntry.extractSlice, slice]
  · simp [WADArchive.fromBare, BareWAD.items, tinyWad, enumFrom, wadItems_unfold, wadNext, hn, h1, h2, Res.mapList, convertItem,
      DirEntry.extractSlice, slice]

end Idc
