import Verif.Props.WadParse
import Verif.Spec.WadWrite
/-!
# C04: serialise, then parse
-/

namespace Idc

theorem ofNat_mod_toNat (n : Nat) : (UInt8.ofNat (n % 256)).toNat = n % 256 := by
  simp

theorem leU32_le32 (n : Nat) (h : n < 2 ^ 32) (r : Bytes) :
    leU32 (le32 n ++ r) = .ok r (UInt32.ofNat n) := by
  simp only [le32, List.cons_append, List.nil_append, leU32, ofNat_mod_toNat]
  congr 2
  omega

theorem wadEntry_row (pos size : Nat) (name : Bytes) (hpos : pos < 2 ^ 32) (hsize : size < 2 ^ 32)
    (hn : Printable name) (hl : name.length ≤ 8) (r : Bytes) :
    wadEntry (le32 pos ++ le32 size ++ pad8 name ++ r) =
      .ok r { filepos := UInt32.ofNat pos, size := UInt32.ofNat size, name := name } := by
  unfold wadEntry
  rw [Parser.bind_def, List.append_assoc, List.append_assoc, leU32_le32 _ hpos]
  dsimp only
  rw [Parser.bind_def, leU32_le32 _ hsize]
  dsimp only
  rw [Parser.bind_def, pad8, C05_padded_name_reads_back name 8 r hn hl]
  rfl

/-- The directory the rows describe. -/
def dirOf (pos : Nat) : List Lump → List DirEntry
  | [] => []
  | l :: ls =>
    { filepos := UInt32.ofNat pos, size := UInt32.ofNat l.data.length, name := l.name } ::
      dirOf (pos + l.data.length) ls

theorem lumpData_cons (l : Lump) (ls : List Lump) : lumpData (l :: ls) = l.data ++ lumpData ls := rfl

theorem wadEntries_rows (pos : Nat) (ls : List Lump)
    (hn : ∀ l ∈ ls, Printable l.name ∧ l.name.length ≤ 8)
    (hs : pos + (lumpData ls).length < 2 ^ 32) (r : Bytes) :
    wadEntries ls.length (lumpRows pos ls ++ r) = .ok r (dirOf pos ls) := by
  induction ls generalizing pos with
  | nil => simp [wadEntries, lumpRows, dirOf]
  | cons l ls ih =>
    have hl := hn l (by simp)
    simp only [lumpData_cons, List.length_append] at hs
    simp only [List.length_cons, wadEntries, lumpRows]
    rw [List.append_assoc, wadEntry_row pos l.data.length l.name (by omega) (by omega) hl.1 hl.2]
    dsimp only
    rw [ih (pos + l.data.length) (fun l' h' => hn l' (by simp [h'])) (by omega)]
    rfl

theorem le32_length (n : Nat) : (le32 n).length = 4 := rfl

theorem magicOf_length (t : WADType) : (magicOf t).length = 4 := by cases t <;> rfl

theorem pad8_length (s : Bytes) (h : s.length ≤ 8) : (pad8 s).length = 8 := by simp [pad8]; omega

theorem lumpRows_length (pos : Nat) (ls : List Lump) (hn : ∀ l ∈ ls, l.name.length ≤ 8) :
    (lumpRows pos ls).length = 16 * ls.length := by
  induction ls generalizing pos with
  | nil => rfl
  | cons l ls ih =>
    simp only [lumpRows, List.length_append, le32_length, pad8_length _ (hn l (by simp)),
      ih _ (fun l' h' => hn l' (by simp [h'])), List.length_cons]
    omega

theorem wadHeader_encode (t : WADType) (n ofs : Nat) (hn : n < 2 ^ 32) (ho : ofs < 2 ^ 32) (r : Bytes) :
    wadHeader (magicOf t ++ le32 n ++ le32 ofs ++ r) =
      .ok r { identification := t, numlumps := UInt32.ofNat n, infotableofs := UInt32.ofNat ofs } := by
  unfold wadHeader
  have hh : returnError (.custom 1) (alt2 iwadTag pwadTag) (magicOf t ++ le32 n ++ le32 ofs ++ r) =
      .ok (le32 n ++ le32 ofs ++ r) t := by
    cases t <;>
      simp [returnError, alt2, iwadTag, pwadTag, value, tag, str_IWAD, str_PWAD, magicOf, tagGo]
  rw [Parser.bind_def, hh]
  dsimp only
  rw [Parser.bind_def, List.append_assoc, leU32_le32 _ hn]
  dsimp only
  rw [Parser.bind_def, leU32_le32 _ ho]
  rfl

theorem parseWad_encode (t : WADType) (ls : List Lump) (h : Storable ls) :
    parseWad (encodeWad t ls) = .ok {
      buffer := encodeWad t ls
      header := { identification := t, numlumps := UInt32.ofNat ls.length,
                  infotableofs := UInt32.ofNat (12 + (lumpData ls).length) }
      directory := dirOf 12 ls } := by
  have hrows := lumpRows_length 12 ls (fun l hl => (h.names l hl).2)
  have hhdr : wadHeader (encodeWad t ls) = .ok (lumpData ls ++ lumpRows 12 ls)
      { identification := t, numlumps := UInt32.ofNat ls.length,
        infotableofs := UInt32.ofNat (12 + (lumpData ls).length) } := by
    unfold encodeWad
    rw [List.append_assoc _ (lumpData ls), wadHeader_encode t _ _ h.count h.size]
  have hdir : wadDirectory (encodeWad t ls)
      { identification := t, numlumps := UInt32.ofNat ls.length,
        infotableofs := UInt32.ofNat (12 + (lumpData ls).length) } = .ok [] (dirOf 12 ls) := by
    unfold wadDirectory
    have h1 : (UInt32.ofNat ls.length).toNat = ls.length := UInt32.toNat_ofNat_of_lt h.count
    have h2 : (UInt32.ofNat (12 + (lumpData ls).length)).toNat = 12 + (lumpData ls).length :=
      UInt32.toNat_ofNat_of_lt h.size
    simp only [h1, h2]
    rw [if_neg]
    · have : (encodeWad t ls).drop (12 + (lumpData ls).length) = lumpRows 12 ls ++ [] := by
        unfold encodeWad
        rw [List.drop_append_of_le_length (by simp [magicOf_length, le32_length]; omega),
          List.drop_of_length_le (by simp [magicOf_length, le32_length]; omega)]
        simp
      rw [this, wadEntries_rows 12 ls h.names h.size]
    · simp [encodeWad, magicOf_length, le32_length, hrows]; omega
  unfold parseWad
  rw [hhdr]
  simp only [nomToResult, Res.bind_ok, hdir, Res.pure_eq]

theorem dirOf_length (pos : Nat) (ls : List Lump) : (dirOf pos ls).length = ls.length := by
  induction ls generalizing pos with
  | nil => rfl
  | cons l ls ih => simp [dirOf, ih]

/-- Entry `k` of the directory points at lump `k`'s bytes. -/
theorem dirOf_get (ls : List Lump) (pos : Nat) (pre post : Bytes) (hpos : pre.length = pos)
    (hs : pos + (lumpData ls).length < 2 ^ 32) (k : Nat) (l : Lump) (hk : ls[k]? = some l) :
    ∃ e, (dirOf pos ls)[k]? = some e ∧ e.name = l.name ∧
      slice (pre ++ lumpData ls ++ post) e.filepos.toNat (e.filepos.toNat + e.size.toNat) = .ok l.data := by
  induction ls generalizing pos pre k with
  | nil => simp at hk
  | cons l0 ls ih =>
    simp only [lumpData_cons, List.length_append] at hs
    rcases k with _ | k
    · simp only [List.getElem?_cons_zero, Option.some.injEq] at hk
      subst hk
      refine ⟨_, rfl, rfl, ?_⟩
      dsimp only
      have h1 : (UInt32.ofNat pos).toNat = pos := UInt32.toNat_ofNat_of_lt (show pos < 2 ^ 32 by omega)
      have h2 : (UInt32.ofNat l0.data.length).toNat = l0.data.length :=
        UInt32.toNat_ofNat_of_lt (show l0.data.length < 2 ^ 32 by omega)
      rw [h1, h2, slice, if_pos (by simp [lumpData_cons]; omega)]
      congr 1
      subst hpos
      simp [lumpData_cons]
    · simp only [List.getElem?_cons_succ] at hk
      obtain ⟨e, he, hn, hsl⟩ := ih (pos + l0.data.length) (pre ++ l0.data) (by simp; omega) (by omega) k hk
      refine ⟨e, by simpa [dirOf] using he, hn, ?_⟩
      rw [← hsl]
      simp [lumpData_cons]

/-- **C04** Parsing a serialised WAD gives back its type, its lump names in order, and every lump's
bytes. -/
theorem C04_wad_roundtrip (t : WADType) (ls : List Lump) (h : Storable ls) :
    ∃ w, parseWad (encodeWad t ls) = .ok w ∧ w.header.identification = t ∧
      w.directory.length = ls.length ∧
      ∀ k l, ls[k]? = some l →
        (∃ e, w.directory[k]? = some e ∧ e.name = l.name) ∧ w.entrySlice k = .ok l.data := by
  refine ⟨_, parseWad_encode t ls h, rfl, dirOf_length _ _, ?_⟩
  intro k l hk
  obtain ⟨e, he, hn, hs⟩ := dirOf_get ls 12 (magicOf t ++ le32 ls.length ++ le32 (12 + (lumpData ls).length))
    (lumpRows 12 ls) (by simp [magicOf_length, le32_length]) h.size k l hk
  refine ⟨⟨e, he, hn⟩, ?_⟩
  unfold BareWAD.entrySlice index
  simp only [he, Res.bind_ok]
  simpa [encodeWad] using hs

/-- The hypotheses of C04 hold for a WAD with an empty marker, data, and a repeated name. -/
example : Storable [⟨str "MAP01", []⟩, ⟨str "THINGS", [1, 2, 3]⟩, ⟨str "THINGS", [4]⟩] := by
  constructor
  · decide
  · decide
  · decide

end Idc
