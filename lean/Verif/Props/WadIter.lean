import Verif.Lemmas.WadIter
/-!
# C12–C18: iterating over a WAD
-/

namespace Idc

theorem enumFrom_length (p : Nat) (l : List DirEntry) : (enumFrom p l).length = l.length := by
  induction l generalizing p with
  | nil => rfl
  | cons e l ih => simp [enumFrom, ih]

theorem enumFrom_drop (p k : Nat) (l : List DirEntry) : (enumFrom p l).drop k = enumFrom (p + k) (l.drop k) := by
  induction l generalizing p k with
  | nil => simp [enumFrom]
  | cons e l ih =>
    rcases k with _ | k
    · rfl
    · simp only [enumFrom, List.drop_succ_cons, ih]
      congr 1; omega

theorem enumFrom_get (p k : Nat) (l : List DirEntry) :
    (enumFrom p l)[k]? = l[k]?.map fun e => (p + k, e) := by
  induction l generalizing p k with
  | nil => simp [enumFrom]
  | cons e l ih =>
    rcases k with _ | k
    · simp [enumFrom]
    · simp only [enumFrom, List.getElem?_cons_succ, ih]
      congr 2; funext e; congr 1; omega

theorem enumFrom_names (p : Nat) (l : List DirEntry) : namesOf (enumFrom p l) = l.map (·.name) := by
  induction l generalizing p with
  | nil => rfl
  | cons e l ih => simp only [enumFrom, namesOf, List.map_cons] at ih ⊢; rw [ih]

theorem enumFrom_take_fst (p k : Nat) (l : List DirEntry) (h : k ≤ l.length) :
    ((enumFrom p l).take k).map (·.1) = List.range' p k := by
  induction l generalizing p k with
  | nil => have : k = 0 := by simpa using h
           subst this; simp [enumFrom]
  | cons e l ih =>
    rcases k with _ | k
    · simp
    · simp only [enumFrom, List.take_succ_cons, List.map_cons, List.range'_succ]
      rw [ih (p + 1) k (by simpa using h)]

theorem wadItems_unfold (todo : List (Nat × DirEntry)) :
    wadItems todo = match wadNext todo with
      | (some x, todo') => x :: wadItems todo'
      | (none, _) => [] := by
  conv => lhs; unfold wadItems
  split <;> rename_i h <;> simp only [h]

/-- What is known of one item. -/
def ItemFacts (dir : List DirEntry) : WADItem → Prop
  | .map b => ∃ e k, dir[b.marker_index]? = some e ∧ k ≤ (dir.drop (b.marker_index + 1)).length ∧
      BlockFacts b.marker_index e (enumFrom (b.marker_index + 1) (dir.drop (b.marker_index + 1))) k b
  | .startMarker i e => dir[i]? = some e ∧ mapNameOf e.name = none ∧ endsWith e.name (str "_START") = true
  | .endMarker i e => dir[i]? = some e ∧ mapNameOf e.name = none ∧ endsWith e.name (str "_START") = false ∧
      endsWith e.name (str "_END") = true
  | .entry i e => dir[i]? = some e ∧ mapNameOf e.name = none ∧ endsWith e.name (str "_START") = false ∧
      endsWith e.name (str "_END") = false

theorem wadItems_spec (dir pre l : List DirEntry) (hdir : dir = pre ++ l) :
    ∃ c, c ≤ l.length ∧
      (wadItems (enumFrom pre.length l)).flatMap WADItem.span = List.range' pre.length c ∧
      (∀ x ∈ wadItems (enumFrom pre.length l), ItemFacts dir x) ∧
      (c < l.length → ∃ e, l[c]? = some e ∧ (mapNameOf e.name).isSome ∧
        ¬ CompleteMap ((l.drop (c + 1)).map (·.name))) := by
  induction hn : l.length using Nat.strongRecOn generalizing pre l with
  | ind n ih =>
    subst hn
    rcases l with _ | ⟨e, l⟩
    · refine ⟨0, by simp, ?_, ?_, by simp⟩
      · rw [wadItems_unfold]; simp [enumFrom, wadNext]
      · rw [wadItems_unfold]; simp [enumFrom, wadNext]
    · have hpre : dir[pre.length]? = some e := by simp [hdir]
      have hsimple : ∀ x : WADItem, x.span = [pre.length] → ItemFacts dir x →
          wadNext (enumFrom pre.length (e :: l)) = (some x, enumFrom (pre.length + 1) l) →
          ∃ c, c ≤ (e :: l).length ∧
            (wadItems (enumFrom pre.length (e :: l))).flatMap WADItem.span = List.range' pre.length c ∧
            (∀ x ∈ wadItems (enumFrom pre.length (e :: l)), ItemFacts dir x) ∧
            (c < (e :: l).length → ∃ e', (e :: l)[c]? = some e' ∧ (mapNameOf e'.name).isSome ∧
              ¬ CompleteMap (((e :: l).drop (c + 1)).map (·.name))) := by
        intro x hx hfact hnext
        obtain ⟨c, hc, hspan, hall, hend⟩ := ih l.length (by simp) (pre ++ [e]) l (by simp [hdir]) rfl
        have hlen : (pre ++ [e]).length = pre.length + 1 := by simp
        rw [hlen] at hspan hall
        refine ⟨c + 1, by simpa using hc, ?_, ?_, ?_⟩
        · rw [wadItems_unfold, hnext]
          simp only [List.flatMap_cons, hx, hspan, List.range'_succ, List.singleton_append]
        · rw [wadItems_unfold, hnext]
          intro y hy
          rcases List.mem_cons.mp hy with rfl | hy
          · exact hfact
          · exact hall y hy
        · intro h
          obtain ⟨e', h1, h2⟩ := hend (by simpa using h)
          exact ⟨e', by simpa using h1, h2⟩
      rcases hname : mapNameOf e.name with _ | name
      · by_cases hs : endsWith e.name (str "_START") = true
        · exact hsimple (.startMarker pre.length e) rfl ⟨hpre, hname, hs⟩ (by simp [enumFrom, wadNext, hname, hs])
        · have hs' : endsWith e.name (str "_START") = false := by simpa using hs
          by_cases he : endsWith e.name (str "_END") = true
          · exact hsimple (.endMarker pre.length e) rfl ⟨hpre, hname, hs', he⟩
              (by simp [enumFrom, wadNext, hname, hs', he])
          · have he' : endsWith e.name (str "_END") = false := by simpa using he
            exact hsimple (.entry pre.length e) rfl ⟨hpre, hname, hs', he'⟩
              (by simp [enumFrom, wadNext, hname, hs', he'])
      · obtain ⟨k, hk, hcase⟩ := wadNext_map (m := pre.length) (e := e) (todo := enumFrom (pre.length + 1) l) hname
        rcases hcase with hnone | ⟨b, hnext, hfacts⟩
        · refine ⟨0, by simp, ?_, ?_, ?_⟩
          · rw [wadItems_unfold]
            rcases hw : wadNext (enumFrom pre.length (e :: l)) with ⟨r, t⟩
            rw [enumFrom] at hw
            rw [hw] at hnone
            simp only at hnone
            subst hnone
            simp
          · rw [wadItems_unfold]
            rcases hw : wadNext (enumFrom pre.length (e :: l)) with ⟨r, t⟩
            rw [enumFrom] at hw
            rw [hw] at hnone
            simp only at hnone
            subst hnone
            simp
          · intro _
            refine ⟨e, by simp, by simp [hname], ?_⟩
            intro hc
            have := wadNext_map_complete (m := pre.length) (todo := enumFrom (pre.length + 1) l) hname
              (by rw [enumFrom_names]; simpa using hc)
            exact this hnone
        · rw [enumFrom_length] at hk
          have hdl : dir.drop (pre.length + 1) = l := by
            rw [hdir, List.drop_append]; simp
          obtain ⟨c, hc, hspan, hall, hend⟩ := ih (l.drop k).length (by simp; omega)
            (pre ++ e :: l.take k) (l.drop k) (by simp [hdir]) rfl
          have hlen : (pre ++ e :: l.take k).length = pre.length + 1 + k := by simp; omega
          rw [hlen] at hspan hall
          rw [enumFrom_drop] at hnext
          refine ⟨k + 1 + c, ?_, ?_, ?_, ?_⟩
          · simp at hc ⊢; omega
          · rw [wadItems_unfold, enumFrom, hnext]
            simp only [List.flatMap_cons, hspan, WADItem.span, hfacts.lumps, List.map_map, hfacts.marker]
            have : (fun p : Nat × DirEntry => p.1) = ((fun x : Bytes × Nat => x.2) ∘ fun p : Nat × DirEntry => (p.2.name, p.1)) := rfl
            rw [← this, enumFrom_take_fst _ _ _ hk]
            have h1 : k + 1 + c = (k + c) + 1 := by omega
            rw [h1, List.range'_succ, List.cons_append]
            congr 1
            rw [show List.range' (pre.length + 1 + k) c = List.range' (pre.length + 1 + 1 * k) c by simp,
              List.range'_append]
          · rw [wadItems_unfold, enumFrom, hnext]
            intro y hy
            rcases List.mem_cons.mp hy with rfl | hy
            · have hm := hfacts.marker
              refine ⟨e, k, by rw [hm]; exact hpre, by rw [hm, hdl]; exact hk, ?_⟩
              rw [hm, hdl]; exact hfacts
            · exact hall y hy
          · intro h
            obtain ⟨e', h1, h2, h3⟩ := hend (by simp at h hc ⊢; omega)
            refine ⟨e', ?_, h2, ?_⟩
            · rw [List.getElem?_drop] at h1
              rw [show k + 1 + c = (k + c) + 1 by omega, List.getElem?_cons_succ]; exact h1
            · rw [List.drop_drop] at h3
              rw [show k + 1 + c + 1 = (k + (c + 1)) + 1 by omega, List.drop_succ_cons]; exact h3

theorem items_spec (w : BareWAD) :
    ∃ c, c ≤ w.directory.length ∧ w.items.flatMap WADItem.span = List.range c ∧
      (∀ x ∈ w.items, ItemFacts w.directory x) ∧
      (c < w.directory.length → ∃ e, w.directory[c]? = some e ∧ (mapNameOf e.name).isSome ∧
        ¬ CompleteMap ((w.directory.drop (c + 1)).map (·.name))) := by
  obtain ⟨c, h1, h2, h3, h4⟩ := wadItems_spec w.directory [] w.directory rfl
  exact ⟨c, h1, by rw [List.range_eq_range']; exact h2, h3, h4⟩

theorem mem_iterMaps (w : BareWAD) (b : MapEntryBlock) : b ∈ w.iterMaps ↔ .map b ∈ w.items := by
  unfold BareWAD.iterMaps
  rw [List.mem_filterMap]
  constructor
  · rintro ⟨x, hx, h⟩
    cases x <;> simp at h
    subst h; exact hx
  · intro h; exact ⟨_, h, rfl⟩

/-- **C12** Every map block: the marker entry carries the block's name; the claimed lumps are, in
standard order, exactly the entries directly after the marker, each having exactly the name of the
lump it is claimed for. -/
theorem C12_block_contiguous (w : BareWAD) (b : MapEntryBlock) (hb : b ∈ w.iterMaps) :
    (∃ e, w.directory[b.marker_index]? = some e ∧ mapNameOf e.name = some b.name) ∧
    (b.lumps.map (·.2) = List.range' (b.marker_index + 1) b.lumps.length) ∧
    (b.lumps.map (·.1)).Sublist standardLumps ∧
    (∀ n i, (n, i) ∈ b.lumps → ∃ e, w.directory[i]? = some e ∧ e.name = n) := by
  obtain ⟨c, _, _, hall, _⟩ := items_spec w
  obtain ⟨e, k, he, hk, hf⟩ := hall _ ((mem_iterMaps w b).mp hb)
  have hlen : b.lumps.length = k := by
    rw [hf.lumps, List.length_map, List.length_take, enumFrom_length]; omega
  refine ⟨⟨e, he, hf.name⟩, ?_, ?_, ?_⟩
  · rw [hlen, hf.lumps, List.map_map, ← enumFrom_take_fst _ _ _ hk]; rfl
  · rw [hf.lumps, List.map_map]; exact hf.run
  · intro n i hni
    rw [hf.lumps] at hni
    obtain ⟨p, hp, hp'⟩ := List.mem_map.mp hni
    obtain ⟨j, hj⟩ := List.mem_iff_getElem?.mp (List.mem_of_mem_take hp)
    rw [enumFrom_get] at hj
    obtain ⟨e', he', rfl⟩ := Option.map_eq_some_iff.mp hj
    rw [List.getElem?_drop] at he'
    simp only [Prod.mk.injEq] at hp'
    obtain ⟨rfl, rfl⟩ := hp'
    exact ⟨e', he', rfl⟩

/-- **C13** Hexen iff there is a BEHAVIOR lump, Doom otherwise; never UDMF, never a TEXTMAP. -/
theorem C13_block_format (w : BareWAD) (b : MapEntryBlock) (hb : b ∈ w.iterMaps) :
    (b.format = .Hexen ↔ b.behavior_index.isSome) ∧ (b.format = .Doom ↔ b.behavior_index = none) ∧
    b.format ≠ .UDMF ∧ b.textmap_index = none := by
  obtain ⟨c, _, _, hall, _⟩ := items_spec w
  obtain ⟨e, k, he, hk, hf⟩ := hall _ ((mem_iterMaps w b).mp hb)
  have hbeh : str "BEHAVIOR" ∈ namesOf ((enumFrom (b.marker_index + 1) (w.directory.drop (b.marker_index + 1))).take k) ↔
      b.behavior_index.isSome := by
    have h1 : str "BEHAVIOR" ∈ b.lumps.map (·.1) ↔ b.behavior_index.isSome := by
      rw [lumps_eq]
      simp only [List.mem_map, List.mem_filterMap, Option.map_eq_some_iff]
      constructor
      · rintro ⟨p, ⟨n, hn, i, hi, rfl⟩, hp⟩
        simp only at hp
        subst hp
        have : b.behavior_index = some i := by simpa [MapEntryBlock.lump, str_THINGS, str_LINEDEFS, str_SIDEDEFS,
          str_VERTEXES, str_SEGS, str_SSECTORS, str_NODES, str_SECTORS, str_REJECT, str_BLOCKMAP, str_BEHAVIOR] using hi
        simp [this]
      · intro h
        obtain ⟨i, hi⟩ := Option.isSome_iff_exists.mp h
        refine ⟨(str "BEHAVIOR", i), ⟨str "BEHAVIOR", by simp [standardLumps], i, ?_, rfl⟩, rfl⟩
        simpa [MapEntryBlock.lump, str_THINGS, str_LINEDEFS, str_SIDEDEFS,
          str_VERTEXES, str_SEGS, str_SSECTORS, str_NODES, str_SECTORS, str_REJECT, str_BLOCKMAP, str_BEHAVIOR] using hi
    rw [← h1, hf.lumps, List.map_map]; rfl
  have hform := hf.format
  rw [hform]
  by_cases h : b.behavior_index.isSome
  · rw [if_pos (hbeh.mpr h)]
    refine ⟨by simp [h], ?_, by simp, hf.textmap⟩
    obtain ⟨i, hi⟩ := Option.isSome_iff_exists.mp h
    simp [hi]
  · rw [if_neg (fun hh => h (hbeh.mp hh))]
    refine ⟨by simp [h], ?_, by simp, hf.textmap⟩
    simp only [true_iff]
    simpa using h

/-- **C14** If every map is complete, the items cover every directory entry exactly once, in order. -/
theorem C14_items_partition (w : BareWAD) (h : AllMapsComplete w.directory) :
    w.items.flatMap WADItem.span = List.range w.directory.length := by
  obtain ⟨c, hc, hspan, _, hend⟩ := items_spec w
  rw [hspan]
  by_cases hlt : c < w.directory.length
  · obtain ⟨e, he, hm, hn⟩ := hend hlt
    exact absurd (h c e he hm) hn
  · congr 1; omega

/-- **C15** (partial: as claimed it is false, see `C15_bad_map_hides_rest`).  Without any assumption
on the maps: the items always cover an initial part of the directory exactly once and in order, and
iteration stops early only at a marker whose map is incomplete.  So everything before the first
incomplete map is reported. -/
theorem C15_items_prefix_partial (w : BareWAD) :
    (∃ c, w.items.flatMap WADItem.span = List.range c ∧ c ≤ w.directory.length ∧
      (c < w.directory.length → ∃ e, w.directory[c]? = some e ∧ (mapNameOf e.name).isSome ∧
        ¬ CompleteMap ((w.directory.drop (c + 1)).map (·.name)))) ∧
    (∀ i, i < w.directory.length →
      (∀ j e, j ≤ i → w.directory[j]? = some e → (mapNameOf e.name).isSome →
        CompleteMap ((w.directory.drop (j + 1)).map (·.name))) →
      i ∈ w.items.flatMap WADItem.span) := by
  obtain ⟨c, hc, hspan, _, hend⟩ := items_spec w
  refine ⟨⟨c, hspan, hc, hend⟩, ?_⟩
  intro i hi hcomp
  rw [hspan, List.mem_range]
  apply Classical.byContradiction
  intro hlt
  obtain ⟨e, he, hm, hn⟩ := hend (by omega)
  exact hn (hcomp c e (by omega) he hm)

/-- A directory entry without data, for examples. -/
def ent (s : String) : DirEntry := { filepos := 0, size := 0, name := str s }

/-- A WAD that is only a directory, for examples. -/
def dirWad (l : List String) : BareWAD :=
  { buffer := [], header := { identification := .PWAD, numlumps := 0, infotableofs := 0 }, directory := l.map ent }

/-- **C15, negative part.** A map lacking LINEDEFS hides itself and everything after it: the
iterator stops although `CREDITS` follows. -/
theorem C15_bad_map_hides_rest :
    (dirWad ["INTRO", "MAP01", "THINGS", "SIDEDEFS", "CREDITS"]).items = [.entry 0 (ent "INTRO")] := by
  unfold BareWAD.items
  rw [wadItems_unfold]
  have h1 : wadNext (enumFrom 0 (dirWad ["INTRO", "MAP01", "THINGS", "SIDEDEFS", "CREDITS"]).directory) =
      (some (.entry 0 (ent "INTRO")), enumFrom 1 (["MAP01", "THINGS", "SIDEDEFS", "CREDITS"].map ent)) := by decide
  rw [h1]
  simp only
  rw [wadItems_unfold]
  have h2 : (wadNext (enumFrom 1 (["MAP01", "THINGS", "SIDEDEFS", "CREDITS"].map ent))).1 = none := by decide
  rcases hw : wadNext (enumFrom 1 (["MAP01", "THINGS", "SIDEDEFS", "CREDITS"].map ent)) with ⟨r, t⟩
  rw [hw] at h2
  simp only at h2
  subst h2
  rfl

/-- **C16** (partial: false for a map cut off by the end of the directory, see
`C16_truncated_map_yielded`).  A yielded map that does not reach the end of the directory has every
required lump; one that does has every required lump that comes before its last lump. -/
theorem C16_required_present_partial (w : BareWAD) (b : MapEntryBlock) (hb : b ∈ w.iterMaps) :
    (b.marker_index + b.lumps.length + 1 < w.directory.length →
      ∀ r ∈ requiredLumps, r ∈ b.lumps.map (·.1)) ∧
    (∃ order, order <+: standardLumps ∧ order ≠ [] ∧ (b.lumps.map (·.1)).Sublist order ∧
      ∀ r ∈ requiredLumps, r ∈ order → r ∈ b.lumps.map (·.1)) := by
  obtain ⟨c, _, _, hall, _⟩ := items_spec w
  obtain ⟨e, k, he, hk, hf⟩ := hall _ ((mem_iterMaps w b).mp hb)
  have hlen : b.lumps.length = k := by
    rw [hf.lumps, List.length_map, List.length_take, enumFrom_length]; omega
  have hnames : b.lumps.map (·.1) =
      namesOf ((enumFrom (b.marker_index + 1) (w.directory.drop (b.marker_index + 1))).take k) := by
    rw [hf.lumps, List.map_map]; rfl
  rw [hnames]
  constructor
  · intro h
    rcases hf.ending with ⟨hk', _⟩ | ⟨_, hr⟩
    · rw [enumFrom_length, List.length_drop] at hk'; omega
    · exact hr
  · rcases hf.ending with ⟨hk', h1, _, ls1, hpre, hs, hr⟩ | ⟨_, hr⟩
    · rw [hk', List.take_length]
      refine ⟨ls1, hpre, ?_, hs, hr⟩
      rintro rfl
      have hnil : namesOf (enumFrom (b.marker_index + 1) (w.directory.drop (b.marker_index + 1))) = [] := by simpa using hs
      have : (namesOf (enumFrom (b.marker_index + 1) (w.directory.drop (b.marker_index + 1)))).length = k := by
        rw [namesOf, List.length_map, hk']
      rw [hnil] at this; simp at this; omega
    · exact ⟨standardLumps, List.prefix_refl _, by simp [standardLumps], hf.run, fun r hr' _ => hr r hr'⟩

theorem items_single (l : List DirEntry) (x : WADItem) (h : wadNext (enumFrom 0 l) = (some x, [])) :
    wadItems (enumFrom 0 l) = [x] := by
  rw [wadItems_unfold, h]
  simp only
  rw [wadItems_unfold]
  rfl

/-- **C16, negative part.** A map block with only THINGS is yielded when the directory ends there. -/
theorem C16_truncated_map_yielded :
    ∃ b ∈ (dirWad ["MAP01", "THINGS"]).iterMaps, b.things_index = some 1 ∧ b.linedefs_index = none := by
  have h : (dirWad ["MAP01", "THINGS"]).items =
      [.map { format := .Doom, name := .MAPxx 1, marker_index := 0, last_index := 1, things_index := some 1 }] :=
    items_single _ _ (by decide)
  refine ⟨_, (mem_iterMaps _ _).mpr (by rw [h]; exact List.mem_singleton.mpr rfl), rfl, rfl⟩

/-- **C17** (partial: as claimed false, see `C17_last_index_past_end`).  `last_index` is the index of
the map's last lump exactly when the map ends the directory; otherwise it is one more, the index of
the first entry *after* the map. -/
theorem C17_last_index_partial (w : BareWAD) (b : MapEntryBlock) (hb : b ∈ w.iterMaps) :
    1 ≤ b.lumps.length ∧ b.marker_index + b.lumps.length < w.directory.length ∧
    b.last_index = if b.marker_index + b.lumps.length + 1 = w.directory.length
      then b.marker_index + b.lumps.length else b.marker_index + b.lumps.length + 1 := by
  obtain ⟨c, _, _, hall, _⟩ := items_spec w
  obtain ⟨e, k, he, hk, hf⟩ := hall _ ((mem_iterMaps w b).mp hb)
  have hm := (List.getElem?_eq_some_iff.mp he).1
  have hlen : b.lumps.length = k := by
    rw [hf.lumps, List.length_map, List.length_take, enumFrom_length]; omega
  rw [hlen]
  rw [List.length_drop] at hk
  rcases hf.ending with ⟨hk', h1, ⟨p, hp, hl⟩, _⟩ | ⟨⟨p, hp, hl⟩, hr⟩
  · rw [enumFrom_length, List.length_drop] at hk'
    rw [enumFrom_get] at hp
    obtain ⟨e', _, rfl⟩ := Option.map_eq_some_iff.mp hp
    refine ⟨h1, by omega, ?_⟩
    rw [if_pos (by omega), hl]
    simp only; omega
  · rw [enumFrom_get] at hp
    obtain ⟨e', he', rfl⟩ := Option.map_eq_some_iff.mp hp
    rw [List.getElem?_drop] at he'
    have := (List.getElem?_eq_some_iff.mp he').1
    refine ⟨?_, by omega, ?_⟩
    · rcases k with _ | k
      · have := hr (str "THINGS") (by simp [requiredLumps])
        simp [namesOf] at this
      · omega
    · rw [if_neg (by omega), hl]
      simp only; omega

/-- **C17, negative part.** With an entry after the map, `last_index` points at that entry. -/
theorem C17_last_index_past_end :
    ∃ b ∈ (dirWad ["MAP01", "THINGS", "LINEDEFS", "SIDEDEFS", "VERTEXES", "SECTORS", "CREDITS"]).iterMaps,
      b.last_index = 6 ∧ b.sectors_index = some 5 := by
  have h1 : wadNext (enumFrom 0 (dirWad ["MAP01", "THINGS", "LINEDEFS", "SIDEDEFS", "VERTEXES", "SECTORS", "CREDITS"]).directory) =
      (some (.map { format := .Doom, name := .MAPxx 1, marker_index := 0, last_index := 6, things_index := some 1, linedefs_index := some 2, sidedefs_index := some 3, vertexes_index := some 4, sectors_index := some 5 }), [(6, ent "CREDITS")]) := by
    decide
  refine ⟨{ format := .Doom, name := .MAPxx 1, marker_index := 0, last_index := 6, things_index := some 1, linedefs_index := some 2, sidedefs_index := some 3, vertexes_index := some 4, sectors_index := some 5 }, (mem_iterMaps _ _).mpr ?_, ?_⟩
  · unfold BareWAD.items
    rw [wadItems_unfold, h1]
    exact List.mem_cons_self
  · exact ⟨rfl, rfl⟩

/-- The first directory index of an item. -/
def WADItem.first : WADItem → Nat
  | .map b => b.marker_index
  | .startMarker i _ => i
  | .endMarker i _ => i
  | .entry i _ => i

theorem span_eq_cons (x : WADItem) : ∃ t, x.span = x.first :: t := by
  cases x <;> exact ⟨_, rfl⟩

theorem span_length_le (l : List WADItem) : l.length ≤ (l.flatMap WADItem.span).length := by
  induction l with
  | nil => simp
  | cons x l ih =>
    obtain ⟨t, ht⟩ := span_eq_cons x
    simp only [List.flatMap_cons, List.length_append, List.length_cons, ht]; omega

theorem firsts_sublist (l : List WADItem) : (l.map WADItem.first).Sublist (l.flatMap WADItem.span) := by
  induction l with
  | nil => simp
  | cons x l ih =>
    obtain ⟨t, ht⟩ := span_eq_cons x
    simp only [List.flatMap_cons, List.map_cons, ht, List.cons_append]
    exact (ih.trans (List.sublist_append_right _ _)).cons_cons _

/-- **C18** At most one item per directory entry, in strictly increasing order, each classified by
its name alone. -/
theorem C18_items_bounded_ordered_classified (w : BareWAD) :
    w.items.length ≤ w.directory.length ∧
    (w.items.map WADItem.first).Pairwise (· < ·) ∧
    (∀ i e, .startMarker i e ∈ w.items → w.directory[i]? = some e ∧ mapNameOf e.name = none ∧
      str "_START" <:+ e.name) ∧
    (∀ i e, .endMarker i e ∈ w.items → w.directory[i]? = some e ∧ mapNameOf e.name = none ∧
      ¬ str "_START" <:+ e.name ∧ str "_END" <:+ e.name) ∧
    (∀ i e, .entry i e ∈ w.items → w.directory[i]? = some e ∧ mapNameOf e.name = none ∧
      ¬ str "_START" <:+ e.name ∧ ¬ str "_END" <:+ e.name) ∧
    (∀ b, .map b ∈ w.items → ∃ e, w.directory[b.marker_index]? = some e ∧ mapNameOf e.name = some b.name) := by
  obtain ⟨c, hc, hspan, hall, _⟩ := items_spec w
  have hT : ∀ a s, endsWith a s = true ↔ s <:+ a := by intro a s; simp [endsWith]
  have hF : ∀ a s, endsWith a s = false ↔ ¬ s <:+ a := by
    intro a s; rw [← hT]; simp
  refine ⟨?_, ?_, ?_, ?_, ?_, ?_⟩
  · have := span_length_le w.items
    rw [hspan, List.length_range] at this; omega
  · have := firsts_sublist w.items
    rw [hspan] at this
    exact List.Pairwise.sublist this List.pairwise_lt_range
  · intro i e h
    have := hall _ h
    exact ⟨this.1, this.2.1, (hT _ _).mp this.2.2⟩
  · intro i e h
    have := hall _ h
    exact ⟨this.1, this.2.1, (hF _ _).mp this.2.2.1, (hT _ _).mp this.2.2.2⟩
  · intro i e h
    have := hall _ h
    exact ⟨this.1, this.2.1, (hF _ _).mp this.2.2.1, (hF _ _).mp this.2.2.2⟩
  · intro b h
    obtain ⟨e, k, he, _, hf⟩ := hall _ h
    exact ⟨e, he, hf.name⟩

/-- The hypothesis of C14 holds for a WAD with markers, a Doom map with node lumps, a Hexen map and
plain entries. -/
example : AllMapsComplete (dirWad ["PLAYPAL", "MAP01", "THINGS", "LINEDEFS", "SIDEDEFS", "VERTEXES", "SEGS",
    "NODES", "SECTORS", "F_START", "FLAT", "F_END", "E1M1", "THINGS", "LINEDEFS", "SIDEDEFS", "VERTEXES",
    "SECTORS", "BEHAVIOR"]).directory := by
  intro i e he hm
  have hi := (List.getElem?_eq_some_iff.mp he).1
  have key : ∀ i, i < 19 → (((dirWad ["PLAYPAL", "MAP01", "THINGS", "LINEDEFS", "SIDEDEFS", "VERTEXES", "SEGS",
    "NODES", "SECTORS", "F_START", "FLAT", "F_END", "E1M1", "THINGS", "LINEDEFS", "SIDEDEFS", "VERTEXES",
    "SECTORS", "BEHAVIOR"]).directory[i]?).map fun e => (mapNameOf e.name).isSome) = some true → i = 1 ∨ i = 12 := by decide
  have := key i (by simpa [dirWad] using hi) (by rw [he]; simp [hm])
  rcases this with rfl | rfl
  · refine ⟨7, by decide, by decide⟩
  · refine ⟨6, by decide, by decide⟩

end Idc
