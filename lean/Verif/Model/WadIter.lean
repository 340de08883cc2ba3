import Verif.Model.MapName
/-!
# Iterating over a WAD: src/archive/wad.rs:231-246, 305-472
-/

namespace Idc

/-- src/map.rs:11-15 `MapFormat`. -/
inductive MapFormat where
  | Doom | Hexen | UDMF
  deriving DecidableEq, Repr

/-- src/archive/wad.rs:448-467 `WADMapEntryBlock`. -/
structure MapEntryBlock where
  format : MapFormat
  name : MapName
  marker_index : Nat
  last_index : Nat
  things_index : Option Nat := none
  linedefs_index : Option Nat := none
  sidedefs_index : Option Nat := none
  vertexes_index : Option Nat := none
  segs_index : Option Nat := none
  ssectors_index : Option Nat := none
  nodes_index : Option Nat := none
  sectors_index : Option Nat := none
  reject_index : Option Nat := none
  blockmap_index : Option Nat := none
  behavior_index : Option Nat := none
  textmap_index : Option Nat := none
  deriving DecidableEq, Repr

/-- src/archive/wad.rs:325-330 `WADItem`.  The Rust items hold a reference into the directory; the
model carries the index that reference denotes as well. -/
inductive WADItem where
  | map (b : MapEntryBlock)
  | startMarker (i : Nat) (e : DirEntry)
  | endMarker (i : Nat) (e : DirEntry)
  | entry (i : Nat) (e : DirEntry)
  deriving DecidableEq, Repr

/-- src/archive/wad.rs:309-321 `MAP_LUMP_ORDER`. -/
def mapLumpOrder : List (Bytes × Bool) := [
  (str "THINGS", true),
  (str "LINEDEFS", true),
  (str "SIDEDEFS", true),
  (str "VERTEXES", true),
  (str "SEGS", false),
  (str "SSECTORS", false),
  (str "NODES", false),
  (str "SECTORS", true),
  (str "REJECT", false),
  (str "BLOCKMAP", false),
  (str "BEHAVIOR", false)]

/-- src/archive/wad.rs:392-415, the `match entry.name` that stores an index.  The last arm (`break`)
cannot be reached, because the name was just compared equal to one in the table. -/
def MapEntryBlock.setLump (b : MapEntryBlock) (n : Bytes) (i : Nat) : MapEntryBlock :=
  if n = str "THINGS" then { b with things_index := some i }
  else if n = str "LINEDEFS" then { b with linedefs_index := some i }
  else if n = str "SIDEDEFS" then { b with sidedefs_index := some i }
  else if n = str "VERTEXES" then { b with vertexes_index := some i }
  else if n = str "SEGS" then { b with segs_index := some i }
  else if n = str "SSECTORS" then { b with ssectors_index := some i }
  else if n = str "NODES" then { b with nodes_index := some i }
  else if n = str "SECTORS" then { b with sectors_index := some i }
  else if n = str "REJECT" then { b with reject_index := some i }
  else if n = str "BLOCKMAP" then { b with blockmap_index := some i }
  else if n = str "BEHAVIOR" then { b with behavior_index := some i, format := .Hexen }
  else if n = str "TEXTMAP" then { b with textmap_index := some i }
  else b

/-- src/archive/wad.rs:389-438, the `for` loop over `MAP_LUMP_ORDER`.  `(i, entry)` is the peeked
entry and `rest` what follows it.  Returns the block and the final `i` (or `None`), and the entries
left in the iterator. -/
def mapLoop : List (Bytes × Bool) → MapEntryBlock → Nat → DirEntry → List (Nat × DirEntry) →
    Option (MapEntryBlock × Nat) × List (Nat × DirEntry)
  | [], range, i, entry, rest => (some (range, i), (i, entry) :: rest)
  | (lumpName, isRequired) :: ls, range, i, entry, rest =>
    if entry.name = lumpName then
      let range' := range.setLump entry.name i
      match rest with
      | [] => (some (range', i), [])
      | (j, next) :: rest' => mapLoop ls range' j next rest'
    else if isRequired then (none, (i, entry) :: rest)
    else mapLoop ls range i entry rest

/-- `str::ends_with`. -/
def endsWith (s suffix : Bytes) : Bool := suffix.isSuffixOf s

/-- src/archive/wad.rs:338-444 `WADIterator::next`: the item and the entries left. -/
def wadNext : List (Nat × DirEntry) → Option WADItem × List (Nat × DirEntry)
  | [] => (none, [])
  | (i, entry) :: rest =>
    match mapNameOf entry.name with
    | none =>
      if endsWith entry.name (str "_START") then (some (.startMarker i entry), rest)
      else if endsWith entry.name (str "_END") then (some (.endMarker i entry), rest)
      else (some (.entry i entry), rest)
    | some name =>
      match rest with
      | [] => (none, [])
      | (j, first) :: rest' =>
        let range : MapEntryBlock := { format := .Doom, name := name, marker_index := i, last_index := i }
        let range := if first.name = str "TEXTMAP" then { range with format := .UDMF } else range
        match mapLoop mapLumpOrder range j first rest' with
        | (some (range, last), todo) => (some (.map { range with last_index := last }), todo)
        | (none, todo) => (none, todo)

theorem mapLoop_length (ls : List (Bytes × Bool)) (b : MapEntryBlock) (i : Nat) (e : DirEntry)
    (rest : List (Nat × DirEntry)) : (mapLoop ls b i e rest).2.length ≤ rest.length + 1 := by
  induction ls generalizing b i e rest with
  | nil => simp [mapLoop]
  | cons l ls ih =>
    obtain ⟨n, r⟩ := l
    unfold mapLoop
    split
    · split
      · simp
      · rename_i j next rest'
        have := ih (b.setLump e.name i) j next rest'
        simp only [List.length_cons]; omega
    · split
      · simp
      · exact ih b i e rest

theorem wadNext_length {todo todo' : List (Nat × DirEntry)} {x : WADItem}
    (h : wadNext todo = (some x, todo')) : todo'.length < todo.length := by
  rcases todo with _ | ⟨⟨i, entry⟩, rest⟩
  · simp [wadNext] at h
  · simp only [wadNext] at h
    rcases hn : mapNameOf entry.name with _ | name
    · rw [hn] at h
      simp only at h
      split at h
      · simp at h; obtain ⟨_, rfl⟩ := h; simp
      · split at h
        · simp at h; obtain ⟨_, rfl⟩ := h; simp
        · simp at h; obtain ⟨_, rfl⟩ := h; simp
    · rw [hn] at h
      simp only at h
      rcases rest with _ | ⟨⟨j, first⟩, rest'⟩
      · simp at h
      · simp only at h
        split at h
        · rename_i range last t hm
          simp only [Prod.mk.injEq, Option.some.injEq] at h
          obtain ⟨_, rfl⟩ := h
          have hl : t.length ≤ rest'.length + 1 :=
            Nat.le_trans (Nat.le_of_eq (congrArg (fun r => r.2.length) hm.symm)) (mapLoop_length mapLumpOrder _ j first rest')
          simp only [List.length_cons]
          omega
        · simp at h

/-- Running the iterator to its first `None` (`for` loops and adaptors stop there). -/
def wadItems (todo : List (Nat × DirEntry)) : List WADItem :=
  match h : wadNext todo with
  | (some x, todo') =>
    have := wadNext_length h
    x :: wadItems todo'
  | (none, _) => []
termination_by todo.length

/-- `iter().enumerate()` from index `n`. -/
def enumFrom (n : Nat) : List DirEntry → List (Nat × DirEntry)
  | [] => []
  | e :: es => (n, e) :: enumFrom (n + 1) es

/-- src/archive/wad.rs:240-245 `BareWAD::iter`, exhausted. -/
def BareWAD.items (w : BareWAD) : List WADItem := wadItems (enumFrom 0 w.directory)

/-- src/archive/wad.rs:229-238 `BareWAD::iter_maps`, exhausted. -/
def BareWAD.iterMaps (w : BareWAD) : List MapEntryBlock :=
  w.items.filterMap fun item =>
    match item with
    | .map b => some b
    | _ => none

end Idc
