import Verif.Model.Nom
/-!
# WAD parsing and lump access

src/parse/util.rs, src/parse/wad.rs, src/archive/wad.rs (BareWAD part).
-/

namespace Idc

/-- src/parse/util.rs:11-26, the scanning loop of `fixed_length_ascii`: `before` is `input[..i]`,
`k` the number of bytes still to look at.  `orig`/`len` give the final `&input[len..]`. -/
def asciiGo (orig : Bytes) (len : Nat) (before : Bytes) : Nat → Bytes → IResult Bytes
  | 0, _ => .ok (orig.drop len) before
  | _ + 1, [] => .err (.incomplete len)  -- unreachable: length was checked
  | k + 1, b :: bs =>
    if b = 0 then .ok (orig.drop len) before
    else if 32 ≤ b.toNat ∧ b.toNat ≤ 126 then asciiGo orig len (before ++ [b]) k bs
    else .err (.error (.code (b :: bs) (.custom 0)))

/-- src/parse/util.rs:6-29 `fixed_length_ascii`. -/
def fixedLengthAscii (len : Nat) : Parser Bytes := fun input =>
  if input.length < len then .err (.incomplete len)
  else asciiGo input len [] len input

/-- src/parse/util.rs:33-39 `naive_eof`. -/
def naiveEof : Parser Unit := fun i =>
  if i.length = 0 then .ok i () else .err (.error (.code i .eof))

/-- src/archive/wad.rs:12-17. -/
inductive WADType where
  | IWAD | PWAD
  deriving DecidableEq, Repr

/-- src/archive/wad.rs:284-288. -/
structure BareWADHeader where
  identification : WADType
  numlumps : UInt32
  infotableofs : UInt32
  deriving DecidableEq, Repr

/-- src/archive/wad.rs:291-295. -/
structure DirEntry where
  filepos : UInt32
  size : UInt32
  name : Bytes
  deriving DecidableEq, Repr

/-- src/archive/wad.rs:176-180. -/
structure BareWAD where
  buffer : Bytes
  header : BareWADHeader
  directory : List DirEntry
  deriving DecidableEq, Repr

/-- src/parse/wad.rs:10 `iwad_tag`. -/
def iwadTag : Parser WADType := value .IWAD (tag (str "IWAD"))
/-- src/parse/wad.rs:11 `pwad_tag`. -/
def pwadTag : Parser WADType := value .PWAD (tag (str "PWAD"))

/-- src/parse/wad.rs:13-20 `wad_header`. -/
def wadHeader : Parser BareWADHeader := do
  let identification ← returnError (.custom 1) (alt2 iwadTag pwadTag)
  let numlumps ← leU32
  let infotableofs ← leU32
  pure { identification, numlumps, infotableofs }

/-- src/parse/wad.rs:23-28 `wad_entry` (`dbg_dmp!` only prints). -/
def wadEntry : Parser DirEntry := do
  let filepos ← leU32
  let size ← leU32
  let name ← fixedLengthAscii 8
  pure { filepos, size, name }

/-- src/parse/wad.rs:42-46, the `for _ in 0..lumpct` loop (`try_parse!` returns errors as they are). -/
def wadEntries : Nat → Bytes → IResult (List DirEntry)
  | 0, i => .ok i []
  | n + 1, i =>
    match wadEntry i with
    | .ok rest e =>
      match wadEntries n rest with
      | .ok rest' es => .ok rest' (e :: es)
      | .err x => .err x
    | .err x => .err x

/-- src/parse/wad.rs:30-48 `wad_directory`.  `lumpct * 16 + offset < 2^37` cannot overflow a 64-bit
usize.  `&buf[offset..]` is in range because `offset ≤ buf.len()` was just checked. -/
def wadDirectory (buf : Bytes) (header : BareWADHeader) : IResult (List DirEntry) :=
  let lumpct := header.numlumps.toNat
  let offset := header.infotableofs.toNat
  let tablelen := lumpct * 16
  if buf.length < offset + tablelen then .err (.incomplete tablelen)
  else wadEntries lumpct (buf.drop offset)

/-- src/parse/wad.rs:59-65 `parse_wad`. -/
def parseWad (buf : Bytes) : Res BareWAD := do
  let header ← nomToResult "wad header" buf (wadHeader buf)
  let entries ← nomToResult "wad index" buf (wadDirectory buf header)
  pure { buffer := buf, header := header, directory := entries }

/-- src/archive/wad.rs:299-303 `BareWADDirectoryEntry::extract_slice` (64-bit usize: the sum of two
u32 cannot overflow). -/
def DirEntry.extractSlice (e : DirEntry) (buf : Bytes) : Res Bytes :=
  slice buf e.filepos.toNat (e.filepos.toNat + e.size.toNat)

/-- src/archive/wad.rs:203-208 `BareWAD::entry_slice`. -/
def BareWAD.entrySlice (w : BareWAD) (i : Nat) : Res Bytes := do
  let entry ← index w.directory i
  slice w.buffer entry.filepos.toNat (entry.filepos.toNat + entry.size.toNat)

/-- src/archive/wad.rs:210-219 `BareWAD::first_entry`. -/
def BareWAD.firstEntry (w : BareWAD) (name : Bytes) : Res (Option Bytes) :=
  Res.mapOption (fun entry => slice w.buffer entry.filepos.toNat (entry.filepos.toNat + entry.size.toNat))
    (w.directory.find? fun entry => entry.name == name)

/-- src/archive/wad.rs:21-24 `WADEntry`. -/
structure WADEntry where
  name : Bytes
  data : Bytes
  deriving DecidableEq, Repr

/-- State of `BareWADBetweenIterator` (src/archive/wad.rs:249-255): the entries not yet visited
(`directory[next_index..]`) and the `between_markers` flag. -/
structure BetweenState where
  todo : List DirEntry
  between : Bool

/-- src/archive/wad.rs:259-281 `BareWADBetweenIterator::next`: the loop is the recursion. -/
def betweenNext (buf : Bytes) (bm em : Bytes) : List DirEntry → Bool →
    Res (Option (WADEntry × BetweenState))
  | [], _ => .ok none
  | entry :: rest, between =>
    if between && entry.name == em then betweenNext buf bm em rest false
    else if !between && entry.name == bm then betweenNext buf bm em rest true
    else if between then
      match entry.extractSlice buf with
      | .ok d => .ok (some ({ name := entry.name, data := d }, { todo := rest, between := between }))
      | .err e => .err e
      | .panic p => .panic p
      | .diverge => .diverge
    else betweenNext buf bm em rest between

theorem betweenNext_todo_lt {buf bm em : Bytes} {l : List DirEntry} {b : Bool} {x s}
    (h : betweenNext buf bm em l b = .ok (some (x, s))) : s.todo.length < l.length := by
  induction l generalizing b with
  | nil => simp [betweenNext] at h
  | cons e rest ih =>
    unfold betweenNext at h
    split at h
    · have := ih h; simp; omega
    · split at h
      · have := ih h; simp; omega
      · split at h
        · cases he : e.extractSlice buf <;> rw [he] at h <;> simp at h
          obtain ⟨_, rfl⟩ := h; simp
        · have := ih h; simp; omega

/-- Exhausting the iterator with `for`/`collect`. -/
def betweenAll (buf : Bytes) (bm em : Bytes) (l : List DirEntry) (between : Bool) : Res (List WADEntry) :=
  match h : betweenNext buf bm em l between with
  | .ok none => .ok []
  | .ok (some (x, s)) =>
    have := betweenNext_todo_lt h
    match betweenAll buf bm em s.todo s.between with
    | .ok xs => .ok (x :: xs)
    | .err e => .err e
    | .panic p => .panic p
    | .diverge => .diverge
  | .err e => .err e
  | .panic p => .panic p
  | .diverge => .diverge
termination_by l.length

/-- src/archive/wad.rs:221-229 `BareWAD::iter_entries_between`, collected. -/
def BareWAD.iterEntriesBetween (w : BareWAD) (bm em : Bytes) : Res (List WADEntry) :=
  betweenAll w.buffer bm em w.directory false

end Idc
