import Verif.Model.Archive
import Verif.Spec.BinMap
import Verif.Spec.WadIter
/-!
# Specification vocabulary for archives
-/

namespace Idc

/-- `e` is a copy of directory entry `i`: same name, same bytes. -/
def CopyOf (w : BareWAD) (ns : Namespace) (i : Nat) (e : Entry) : Prop :=
  (∃ d, w.directory[i]? = some d ∧ e.name = d.name) ∧ LumpIs w i e.data ∧ e.nspace = ns

/-- An optional lump and its copy. -/
def OptCopyOf (w : BareWAD) (ns : Namespace) : Option Nat → Option Entry → Prop
  | none, none => True
  | some i, some e => CopyOf w ns i e
  | _, _ => False

/-- `b` is a copy of the map `r`. -/
structure MapCopy (w : BareWAD) (r : MapEntryBlock) (b : MapBlock) : Prop where
  format : b.format = r.format
  name : b.name = r.name
  marker : CopyOf w .Map r.marker_index b.marker
  things : OptCopyOf w .Map r.things_index b.things
  linedefs : OptCopyOf w .Map r.linedefs_index b.linedefs
  sidedefs : OptCopyOf w .Map r.sidedefs_index b.sidedefs
  vertexes : OptCopyOf w .Map r.vertexes_index b.vertexes
  segs : OptCopyOf w .Map r.segs_index b.segs
  ssectors : OptCopyOf w .Map r.ssectors_index b.ssectors
  nodes : OptCopyOf w .Map r.nodes_index b.nodes
  sectors : OptCopyOf w .Map r.sectors_index b.sectors
  reject : OptCopyOf w .Map r.reject_index b.reject
  blockmap : OptCopyOf w .Map r.blockmap_index b.blockmap
  behavior : OptCopyOf w .Map r.behavior_index b.behavior
  textmap : OptCopyOf w .Map r.textmap_index b.textmap

/-- An archive item is a copy of an iterated item. -/
def ItemCopy (w : BareWAD) : WADItem → Item → Prop
  | .map r, .map b => MapCopy w r b
  | .entry i _, .entry e => CopyOf w .Unknown i e
  | _, _ => False

/-- Markers are not copied. -/
def WADItem.isMarker : WADItem → Bool
  | .startMarker _ _ => true
  | .endMarker _ _ => true
  | _ => false

/-- The items of the WAD that are copied. -/
def BareWAD.copiedItems (w : BareWAD) : List WADItem := w.items.filter fun x => !x.isMarker

/-- The maps of an archive, in order. -/
def WADArchive.maps (a : WADArchive) : List MapBlock :=
  a.contents.filterMap fun x => match x with | .map b => some b | .entry _ => none

/-- Two lists are related position by position. -/
def Pairs {α β : Type} (R : α → β → Prop) : List α → List β → Prop
  | [], [] => True
  | a :: as, b :: bs => R a b ∧ Pairs R as bs
  | _, _ => False

end Idc
