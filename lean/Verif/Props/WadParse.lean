import Verif.Lemmas.Wad
/-!
# C01–C03, C05, C06, C07: parsing a WAD and reaching into it
-/

namespace Idc

/-- **C01** `parse_wad` never panics (and never hangs). -/
theorem C01_parseWad_total (b : Bytes) :
    (∃ w, parseWad b = .ok w) ∨ (∃ e, parseWad b = .err e) := by
  rcases parseWad_cases b with ⟨_, w, h, _⟩ | ⟨_, _, h⟩ | ⟨_, h⟩ | ⟨_, _, _, h⟩ | ⟨_, _, _, _, h⟩
  · exact .inl ⟨w, h⟩
  all_goals exact .inr ⟨_, h⟩

/-- Non-example of vacuity for C01: both outcomes occur. -/
example : (parseWad (str "PWAD" ++ [0,0,0,0, 12,0,0,0])).isPanic = false ∧
    parseWad (str "PWA") = .err (.truncatedData "wad header") := by decide

/-- **C02** `parse_wad` accepts exactly the well-formed WADs ... -/
theorem C02_parseWad_ok_iff (b : Bytes) : (∃ w, parseWad b = .ok w) ↔ IsWad b := by
  constructor
  · rintro ⟨w, hw⟩
    rcases parseWad_cases b with ⟨h, _⟩ | ⟨_, _, h⟩ | ⟨_, h⟩ | ⟨_, _, _, h⟩ | ⟨_, _, _, _, h⟩
    · exact h
    all_goals rw [h] at hw; simp at hw
  · intro h
    rcases parseWad_cases b with ⟨_, w, h, _⟩ | ⟨hl, _⟩ | ⟨hm, _⟩ | ⟨_, _, hl, _⟩ | ⟨_, _, _, hn, _⟩
    · exact ⟨w, h⟩
    · have := h.length_ge; omega
    · exact absurd ((MagicPossible_iff_HasMagic (by have := h.length_ge; omega)).mpr h.magic) hm
    · have := h.table_fits; omega
    · obtain ⟨k, hk, hk'⟩ := hn; exact absurd (h.names_ok k hk) hk'

/-- **C02** ... and returns exactly what the bytes say. -/
theorem C02_parseWad_describes (b : Bytes) (w : BareWAD) (h : parseWad b = .ok w) : Describes b w := by
  rcases parseWad_cases b with ⟨_, w', h', hd⟩ | ⟨_, _, h'⟩ | ⟨_, h'⟩ | ⟨_, _, _, h'⟩ | ⟨_, _, _, _, h'⟩
  · rw [h'] at h; cases h; exact hd
  all_goals rw [h'] at h; simp at h

/-- What the bytes say is unambiguous: two WADs described by the same bytes are equal.  With
`C02_parseWad_describes` this pins the result of `parse_wad` down completely. -/
theorem C02_describes_unique (b : Bytes) (w w' : BareWAD) (h : Describes b w) (h' : Describes b w') :
    w = w' := by
  obtain ⟨b1, ⟨t1, n1, o1⟩, d1⟩ := w
  obtain ⟨b2, ⟨t2, n2, o2⟩, d2⟩ := w'
  have hb : b1 = b2 := by have := h.buffer; have := h'.buffer; simp_all
  have ht : t1 = t2 := by
    have h1 : bytesAt b 0 4 = magicOf t1 := h.magic
    have h2 : bytesAt b 0 4 = magicOf t2 := h'.magic
    rw [h1] at h2
    revert h2; cases t1 <;> cases t2 <;> simp [magicOf]
  have hn : n1 = n2 := UInt32.toNat_inj.mp (h.numlumps.trans h'.numlumps.symm)
  have ho : o1 = o2 := UInt32.toNat_inj.mp (h.infotableofs.trans h'.infotableofs.symm)
  have hd : d1 = d2 := by
    apply List.ext_getElem?
    intro k
    have l1 : d1.length = u32At b 4 := h.directory_length
    have l2 : d2.length = u32At b 4 := h'.directory_length
    rcases hk1 : d1[k]? with _ | e1
    · have := List.getElem?_eq_none_iff.mp hk1
      exact (List.getElem?_eq_none_iff.mpr (by omega)).symm
    · have lt := (List.getElem?_eq_some_iff.mp hk1).1
      rcases hk2 : d2[k]? with _ | e2
      · have := List.getElem?_eq_none_iff.mp hk2; omega
      · have r1 := h.rows k e1 hk1
        have r2 := h'.rows k e2 hk2
        congr 1
        obtain ⟨f1, s1, m1⟩ := e1
        obtain ⟨f2, s2, m2⟩ := e2
        simp only [DirEntry.mk.injEq]
        refine ⟨UInt32.toNat_inj.mp (r1.1.trans r2.1.symm), UInt32.toNat_inj.mp (r1.2.1.trans r2.2.1.symm),
          r1.2.2.trans r2.2.2.symm⟩
  subst hb ht hn ho hd
  rfl

/-- A WAD with one lump `DATA` holding `[7, 8]`: header, data, directory. -/
def sampleWad : Bytes :=
  str "PWAD" ++ [1,0,0,0, 14,0,0,0] ++ [7, 8] ++ [12,0,0,0, 2,0,0,0] ++ str "DATA" ++ [0,0,0,0]

theorem sampleWad_parse : parseWad sampleWad = .ok {
    buffer := sampleWad
    header := { identification := .PWAD, numlumps := 1, infotableofs := 14 }
    directory := [{ filepos := 12, size := 2, name := str "DATA" }] } := by decide

/-- The hypotheses of C02 are met by a WAD with a lump in it. -/
example : IsWad sampleWad := (C02_parseWad_ok_iff _).mp ⟨_, sampleWad_parse⟩

/-- **C03** (partial: the claim that a wrong magic is reported as `InvalidMagic` is false, see
`C03_invalid_magic_false`; a wrong magic is `ParseError`).  Everything else about the
classification is exact: which error is returned is determined by the bytes as follows. -/
theorem C03_parseWad_errors_partial (b : Bytes) :
    -- too short, but a WAD as far as it goes
    (parseWad b = .err (.truncatedData "wad header") ↔ b.length < 12 ∧ MagicPossible b) ∧
    -- the directory overruns the buffer
    (parseWad b = .err (.truncatedData "wad index") ↔
      12 ≤ b.length ∧ (∃ t, HasMagic b t) ∧ b.length < u32At b 8 + 16 * u32At b 4) ∧
    -- wrong magic, or a bogus byte in a name
    (parseWad b = .err .parseError ↔
      ¬ MagicPossible b ∨
      (12 ≤ b.length ∧ (∃ t, HasMagic b t) ∧ u32At b 8 + 16 * u32At b 4 ≤ b.length ∧
        ∃ k < u32At b 4, ¬ Printable (nameAt b (rowOffset b k + 8) 8))) ∧
    -- there is no other error
    (∀ e, parseWad b = .err e → e = .truncatedData "wad header" ∨ e = .truncatedData "wad index" ∨
      e = .parseError) := by
  have hmp : (∃ t, HasMagic b t) → MagicPossible b := by
    rintro ⟨t, ht⟩
    exact (MagicPossible_iff_HasMagic ht.length).mpr ⟨t, ht⟩
  rcases parseWad_cases b with ⟨hw, w, h, _⟩ | ⟨hl, hm, h⟩ | ⟨hm, h⟩ | ⟨hl, hm, ho, h⟩ | ⟨hl, hm, ho, hn, h⟩
  · have h1 := hw.length_ge
    have h2 := hw.table_fits
    have h3 := hmp hw.magic
    rw [h]
    refine ⟨by simp; omega, by simp; omega, ?_, by simp⟩
    simp only [reduceCtorEq, false_iff]
    rintro (h | ⟨_, _, _, k, hk, h⟩)
    · exact h h3
    · exact h (hw.names_ok k hk)
  · rw [h]
    refine ⟨by simp [hl, hm], ?_, ?_, by rintro e h'; cases h'; simp⟩
    · simp; omega
    · simp only [Res.err.injEq, reduceCtorEq, false_iff]
      rintro (h | ⟨h, _⟩)
      · exact h hm
      · omega
  · rw [h]
    refine ⟨by simp [hm], ?_, by simp [hm], by rintro e h'; cases h'; simp⟩
    simp only [Res.err.injEq, reduceCtorEq, false_iff]
    rintro ⟨_, h, _⟩
    exact hm (hmp h)
  · rw [h]
    refine ⟨by simp; omega, by simp [hl, hm, ho], ?_, by rintro e h'; cases h'; simp⟩
    simp only [Res.err.injEq, reduceCtorEq, false_iff]
    rintro (h | ⟨_, _, h, _⟩)
    · exact h (hmp hm)
    · omega
  · rw [h]
    refine ⟨by simp; omega, by simp; omega, by simp [hl, hm, ho, hn], by rintro e h'; cases h'; simp⟩

/-- All three error classes occur. -/
example : parseWad (str "IWAD123") = .err (.truncatedData "wad header") ∧
    parseWad (str "IWAD" ++ [1,0,0,0, 12,0,0,0]) = .err (.truncatedData "wad index") ∧
    parseWad (str "JWAD" ++ [1,0,0,0, 12,0,0,0]) = .err .parseError ∧
    parseWad (str "IWAD" ++ [1,0,0,0, 12,0,0,0] ++ [0,0,0,0,0,0,0,0] ++ [0x41,7,0,0,0,0,0,0]) = .err .parseError := by
  decide

/-- **C03, negative part.**  A wrong magic is *never* reported as `InvalidMagic`: that error is
never returned at all (nom's verbose errors turn the `Custom(1)` code into a list context, which
`nom_to_result` maps to `ParseError`). -/
theorem C03_invalid_magic_false (b : Bytes) : parseWad b ≠ .err .invalidMagic := by
  intro h
  have := (C03_parseWad_errors_partial b).2.2.2 _ h
  simp at this

/-! ## C05 -/

/-- **C05** the field parser, completely: given the bytes of the field it returns the part before
the first NUL (or all of it) and skips the whole field; it rejects exactly the fields with a
non-printable byte before the first NUL. -/
theorem C05_fixedLengthAscii (w : Nat) (i : Bytes) :
    (∀ rest s, fixedLengthAscii w i = .ok rest s ↔
      w ≤ i.length ∧ Printable (nameAt i 0 w) ∧ s = nameAt i 0 w ∧ rest = i.drop w) := by
  intro rest s
  by_cases h : i.length < w
  · rw [fixedLengthAscii_short h]; simp; omega
  · by_cases hp : Printable (nameAt i 0 w)
    · rw [fixedLengthAscii_ok (by omega) hp]
      simp only [IResult.ok.injEq]
      constructor
      · rintro ⟨rfl, rfl⟩; exact ⟨by omega, hp, rfl, rfl⟩
      · rintro ⟨_, _, rfl, rfl⟩; exact ⟨rfl, rfl⟩
    · obtain ⟨b, bs, hb⟩ := fixedLengthAscii_bad (Nat.le_of_not_lt h) hp
      rw [hb]; simp [hp]

/-- **C05** A returned name is at most as long as the field, printable, and free of NUL. -/
theorem C05_name_shape (w : Nat) (i rest s : Bytes) (h : fixedLengthAscii w i = .ok rest s) :
    s.length ≤ w ∧ Printable s ∧ (0 : UInt8) ∉ s := by
  obtain ⟨hl, hp, rfl, _⟩ := (C05_fixedLengthAscii w i rest s).mp h
  refine ⟨?_, hp, ?_⟩
  · have := List.IsPrefix.length_le (List.takeWhile_prefix (l := bytesAt i 0 w) fun c => c != 0)
    have h2 : (bytesAt i 0 w).length ≤ w := by simp [bytesAt]; omega
    exact Nat.le_trans this h2
  · intro h0
    have := hp 0 h0
    simp at this

/-- **C05** Bytes after the first NUL in the field never matter. -/
theorem C05_after_nul_irrelevant (s : Bytes) (x y tail tail' : Bytes) (hx : x.length = y.length)
    (w : Nat) (hw : w = s.length + 1 + x.length) (hs : (0 : UInt8) ∉ s) :
    (∃ rest, fixedLengthAscii w (s ++ 0 :: x ++ tail) = .ok rest s) ↔
    (∃ rest, fixedLengthAscii w (s ++ 0 :: y ++ tail') = .ok rest s) := by
  have key : ∀ z t, z.length = x.length → nameAt (s ++ 0 :: z ++ t) 0 w = s := by
    intro z t hz
    have : bytesAt (s ++ 0 :: z ++ t) 0 w = s ++ 0 :: z := by
      simp only [bytesAt, List.drop_zero]
      rw [List.take_append_of_le_length (by simp; omega)]
      apply List.take_of_length_le; simp; omega
    rw [nameAt, this, List.takeWhile_append_of_pos]
    · simp
    · intro a ha; simp; rintro rfl; exact hs ha
  simp only [C05_fixedLengthAscii, key x tail rfl, key y tail' hx.symm]
  simp; omega

/-- **C05** A NUL-padded name of up to `w` printable bytes reads back unchanged. -/
theorem C05_padded_name_reads_back (s : Bytes) (w : Nat) (tail : Bytes) (hs : Printable s)
    (hw : s.length ≤ w) :
    fixedLengthAscii w (s ++ List.replicate (w - s.length) 0 ++ tail) = .ok tail s := by
  have h0 : (0 : UInt8) ∉ s := fun h => by have := hs 0 h; simp at this
  have hb : bytesAt (s ++ List.replicate (w - s.length) 0 ++ tail) 0 w = s ++ List.replicate (w - s.length) 0 := by
    simp only [bytesAt, List.drop_zero]
    rw [List.take_append_of_le_length (by simp; omega)]
    apply List.take_of_length_le; simp; omega
  have hn : nameAt (s ++ List.replicate (w - s.length) 0 ++ tail) 0 w = s := by
    rw [nameAt, hb, List.takeWhile_append_of_pos]
    · rcases h : w - s.length with _ | k <;> simp [List.replicate]
    · intro a ha; simp; rintro rfl; exact h0 ha
  rw [C05_fixedLengthAscii, hn]
  refine ⟨by simp; omega, hs, rfl, ?_⟩
  rw [List.drop_append_of_le_length (by simp; omega), List.drop_of_length_le (by simp; omega)]
  rfl

/-- **C05** Every name in an accepted WAD's directory is 0 to 8 printable bytes. -/
theorem C05_directory_names (b : Bytes) (w : BareWAD) (h : parseWad b = .ok w) :
    ∀ e ∈ w.directory, e.name.length ≤ 8 ∧ Printable e.name := by
  intro e he
  obtain ⟨k, hk⟩ := List.mem_iff_getElem?.mp he
  have hd := C02_parseWad_describes b w h
  have hw := (C02_parseWad_ok_iff b).mp ⟨w, h⟩
  have hlt : k < u32At b 4 := by
    rw [← hd.directory_length]; exact (List.getElem?_eq_some_iff.mp hk).1
  rw [(hd.rows k e hk).2.2]
  refine ⟨?_, hw.names_ok k hlt⟩
  have := List.IsPrefix.length_le (List.takeWhile_prefix (l := bytesAt b (rowOffset b k + 8) 8) fun c => c != 0)
  have h2 : (bytesAt b (rowOffset b k + 8) 8).length ≤ 8 := by simp [bytesAt]; omega
  exact Nat.le_trans this h2

example : fixedLengthAscii 8 (str "F_START" ++ [0, 99]) = .ok [99] (str "F_START") := by decide
example : fixedLengthAscii 8 (str "AB" ++ [0, 200, 1, 2, 3, 4, 99]) = .ok [99] (str "AB") := by decide

/-! ## C06 -/

theorem isRange_iff {b : Bytes} {pos size : Nat} {d : Bytes} (h : pos + size ≤ b.length) :
    IsRange b pos size d ↔ d = (b.drop pos).take size := by
  constructor
  · rintro ⟨hl, hk⟩
    apply List.ext_getElem?
    intro k
    by_cases h' : k < size
    · rw [hk k h', List.getElem?_take_of_lt h', List.getElem?_drop]
    · rw [List.getElem?_eq_none (by omega), List.getElem?_eq_none (by simp; omega)]
  · rintro rfl
    refine ⟨by simp; omega, ?_⟩
    intro k hk
    rw [List.getElem?_take_of_lt hk, List.getElem?_drop]

theorem slice_spec (b : Bytes) (pos size : Nat) :
    (pos + size ≤ b.length → ∃ d, slice b pos (pos + size) = .ok d ∧ IsRange b pos size d) ∧
    (b.length < pos + size → slice b pos (pos + size) = .panic .bounds) := by
  constructor
  · intro h
    refine ⟨(b.drop pos).take size, ?_, (isRange_iff h).mpr rfl⟩
    unfold slice
    rw [if_pos ⟨by omega, h⟩]
    congr 2; omega
  · intro h
    unfold slice
    rw [if_neg (by omega)]

/-- **C06** `extract_slice`: the bytes `[filepos, filepos+size)` if they are there, else a panic. -/
theorem C06_extractSlice (e : DirEntry) (b : Bytes) :
    (e.filepos.toNat + e.size.toNat ≤ b.length →
      ∃ d, e.extractSlice b = .ok d ∧ IsRange b e.filepos.toNat e.size.toNat d) ∧
    (b.length < e.filepos.toNat + e.size.toNat → e.extractSlice b = .panic .bounds) :=
  slice_spec b e.filepos.toNat e.size.toNat

/-- **C06** `entry_slice(i)` likewise; it also panics when there is no entry `i`. -/
theorem C06_entrySlice (w : BareWAD) (i : Nat) :
    (∀ e, w.directory[i]? = some e → e.filepos.toNat + e.size.toNat ≤ w.buffer.length →
      ∃ d, w.entrySlice i = .ok d ∧ IsRange w.buffer e.filepos.toNat e.size.toNat d) ∧
    (∀ e, w.directory[i]? = some e → w.buffer.length < e.filepos.toNat + e.size.toNat →
      w.entrySlice i = .panic .bounds) ∧
    (w.directory.length ≤ i → w.entrySlice i = .panic .bounds) := by
  refine ⟨?_, ?_, ?_⟩
  · intro e he h
    have := (C06_extractSlice e w.buffer).1 h
    simpa [BareWAD.entrySlice, index, he, DirEntry.extractSlice] using this
  · intro e he h
    have := (C06_extractSlice e w.buffer).2 h
    simpa [BareWAD.entrySlice, index, he, DirEntry.extractSlice] using this
  · intro h
    simp [BareWAD.entrySlice, index, List.getElem?_eq_none h]

/-- A parsed WAD may contain a lump outside the file, so the panic is reachable from `parse_wad`. -/
theorem C06_panic_reachable : ∃ b w, parseWad b = .ok w ∧ w.entrySlice 0 = .panic .bounds :=
  ⟨str "PWAD" ++ [1,0,0,0, 12,0,0,0] ++ [29,0,0,0, 0,0,0,0] ++ str "DATA" ++ [0,0,0,0], _, rfl, by decide⟩

example : ∃ w, parseWad sampleWad = .ok w ∧ w.entrySlice 0 = .ok [7, 8] ∧
    w.firstEntry (str "DATA") = .ok (some [7, 8]) := ⟨_, sampleWad_parse, by decide, by decide⟩

/-! ## C07 -/

/-- **C07** `first_entry(name)` answers for the earliest entry of that name: if entry `i` is called
`name` and no earlier one is, the answer is exactly what slicing entry `i` gives (bytes or panic). -/
theorem C07_firstEntry_some (w : BareWAD) (name : Bytes) (i : Nat) (e : DirEntry)
    (he : w.directory[i]? = some e) (hn : e.name = name)
    (hfirst : ∀ j e', j < i → w.directory[j]? = some e' → e'.name ≠ name) :
    w.firstEntry name = (w.entrySlice i).map some := by
  have hf : w.directory.find? (fun entry => entry.name == name) = some e := by
    rw [List.find?_eq_some_iff_getElem]
    obtain ⟨hi, hge⟩ := List.getElem?_eq_some_iff.mp he
    refine ⟨by simp [hn], i, hi, hge, ?_⟩
    intro j hj
    have := hfirst j w.directory[j] hj (List.getElem?_eq_getElem _)
    simpa using this
  unfold BareWAD.firstEntry BareWAD.entrySlice
  rw [hf, index, he]
  simp only [Res.mapOption, Res.bind_ok]
  cases slice w.buffer e.filepos.toNat (e.filepos.toNat + e.size.toNat) <;> rfl

/-- **C07** `first_entry(name)` is `None` iff no entry has that name. -/
theorem C07_firstEntry_none (w : BareWAD) (name : Bytes) :
    w.firstEntry name = .ok none ↔ ∀ e ∈ w.directory, e.name ≠ name := by
  unfold BareWAD.firstEntry
  rcases hf : w.directory.find? (fun entry => entry.name == name) with _ | e
  · rw [hf]
    simp only [Res.mapOption, true_iff]
    intro e he
    have := List.find?_eq_none.mp hf e he
    simpa using this
  · rw [hf]
    simp only [Res.mapOption]
    have hm := List.mem_of_find?_eq_some hf
    have hp := List.find?_some hf
    constructor
    · intro h
      cases hs : slice w.buffer e.filepos.toNat (e.filepos.toNat + e.size.toNat) <;> rw [hs] at h <;> simp at h
    · intro h
      exact absurd (by simpa using hp) (h e hm)

/-- With two entries of the same name the first one is used. -/
example : (BareWAD.mk [1, 2, 3] ⟨.PWAD, 2, 0⟩ [⟨0, 1, str "A"⟩, ⟨1, 1, str "A"⟩]).firstEntry (str "A")
    = .ok (some [1]) := by decide

end Idc
