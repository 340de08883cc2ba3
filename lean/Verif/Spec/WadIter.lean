import Verif.Model.WadIter
/-!
# Specification vocabulary for WAD iteration
-/

namespace Idc

/-- The standard map lumps, in order. -/
def standardLumps : List Bytes :=
  [str "THINGS", str "LINEDEFS", str "SIDEDEFS", str "VERTEXES", str "SEGS", str "SSECTORS",
   str "NODES", str "SECTORS", str "REJECT", str "BLOCKMAP", str "BEHAVIOR"]

/-- The lumps every map must have. -/
def requiredLumps : List Bytes :=
  [str "THINGS", str "LINEDEFS", str "SIDEDEFS", str "VERTEXES", str "SECTORS"]

/-- The lumps of a block in standard order, each with the directory index the block claims. -/
def MapEntryBlock.lumps (b : MapEntryBlock) : List (Bytes × Nat) :=
  [(str "THINGS", b.things_index), (str "LINEDEFS", b.linedefs_index), (str "SIDEDEFS", b.sidedefs_index),
   (str "VERTEXES", b.vertexes_index), (str "SEGS", b.segs_index), (str "SSECTORS", b.ssectors_index),
   (str "NODES", b.nodes_index), (str "SECTORS", b.sectors_index), (str "REJECT", b.reject_index),
   (str "BLOCKMAP", b.blockmap_index), (str "BEHAVIOR", b.behavior_index)].filterMap
    fun p => p.2.map fun i => (p.1, i)

/-- The directory indices an item accounts for, in order. -/
def WADItem.span : WADItem → List Nat
  | .map b => b.marker_index :: b.lumps.map (·.2)
  | .startMarker i _ => [i]
  | .endMarker i _ => [i]
  | .entry i _ => [i]

/-- `names` (the lumps after a map marker) begin with a complete map: some initial run of them is in
standard order and includes every required lump. -/
def CompleteMap (names : List Bytes) : Prop :=
  ∃ k, (names.take k).Sublist standardLumps ∧ ∀ r ∈ requiredLumps, r ∈ names.take k

/-- Every map marker in the directory is followed by a complete map. -/
def AllMapsComplete (dir : List DirEntry) : Prop :=
  ∀ i e, dir[i]? = some e → (mapNameOf e.name).isSome → CompleteMap ((dir.drop (i + 1)).map (·.name))

end Idc
