import Verif.Spec.Route
/-!
# Where a new chunk has to begin, and maps in which none has to
-/

namespace Idc

variable {F : Type} [FloatOps F]

/-- There is a reason not to walk from contour number `i` to number `j`: a line that blocks the player, floors more than 24 units apart, or different tags. -/
def Separates (m : FullMap F) (refs : List PolygonRef) (contours : List (Contour F)) (i j : Nat) : Prop :=
  ∃ c d, contours[i]? = some c ∧ contours[j]? = some d ∧ (Blocked refs d ∨ ∃ h k, FloorOf m refs c h ∧ FloorOf m refs d k ∧
    (24 < h - k ∨ 24 < k - h ∨ ¬ ∀ t, HasTag m refs c t ↔ HasTag m refs d t))

/-- Each chunk has a contour from which one can walk to all others in it, and which the player starts in or an area of an earlier chunk touches, with a reason not to walk from there. -/
def ChunksBegin (m : FullMap F) (refs : List PolygonRef) (start : Pt F) (contours : List (Contour F)) (chunks : List (List Nat)) : Prop :=
  ∀ (k : Nat) chunk, chunks[k]? = some chunk → ∃ seed ∈ chunk,
    (∀ i ∈ chunk, Relation.ReflTransGen (fun a b => a ∈ chunk ∧ b ∈ chunk ∧ Touches contours a b ∧ Walkable m refs contours a b) seed i) ∧
    (AtStart start contours seed ∨ ∃ i ∈ (chunks.take k).flatten, Touches contours i seed ∧ Separates m refs contours i seed)

/-- A level map: no line blocks the player, no two floors are more than 24 units apart, and all sectors have the same tag, where 0 (no tag) and 13 count as the same. -/
structure FullMap.Level (m : FullMap F) : Prop where
  open_ : ∀ l ∈ m.lines, l.flags &&& 1 = 0
  floors : ∀ a ∈ m.sectors, ∀ b ∈ m.sectors, a.floor_height.toInt - b.floor_height.toInt ≤ 24
  tags : ∀ a ∈ m.sectors, ∀ b ∈ m.sectors, a.tag = b.tag ∨ (a.tag = 0 ∨ a.tag = 13) ∧ (b.tag = 0 ∨ b.tag = 13)

end Idc
