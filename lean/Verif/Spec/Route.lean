import Verif.Model.Route
import Mathlib.Logic.Relation
/-!
# What the route finder should compute
-/

namespace Idc

open FloatOps

variable {F : Type} [FloatOps F]

/-- Contour number `j` can be next after number `i`: they are neighbours, or `j` is a neighbour of a hole of `i`. -/
def Touches (contours : List (Contour F)) (i j : Nat) : Prop :=
  ∃ c, contours[i]? = some c ∧
    (c.neighbors[j]? = some true ∨ ∃ h ∈ c.holes, ∃ hole, contours[h]? = some hole ∧ hole.neighbors[j]? = some true)

/-- Where a contour's search can begin: its bounding box contains the starting point, the right and top edges not counted. -/
def AtStart (start : Pt F) (contours : List (Contour F)) (i : Nat) : Prop :=
  ∃ c, contours[i]? = some c ∧ le c.bbox.x start.x = true ∧ lt start.x (add c.bbox.x c.bbox.width) = true ∧
    le c.bbox.y start.y = true ∧ lt start.y (add c.bbox.y c.bbox.height) = true

/-- Contour number `i` can be reached from the starting point through neighbours, passable or not. -/
inductive RouteReachable (start : Pt F) (contours : List (Contour F)) : Nat → Prop
  | start {i : Nat} : AtStart start contours i → RouteReachable start contours i
  | step {i j : Nat} : RouteReachable start contours i → Touches contours i j → RouteReachable start contours j

/-- Sector number `s` is on the side `h`, if there is one. -/
def SideIn (m : FullMap F) (side : Option Nat) (s : Nat) : Prop := ∃ h sd, side = some h ∧ m.sides[h]? = some sd ∧ sd.sector = s

/-- The contour is in sector `s`: it comes from the sector itself, or from a line with a side in the sector. -/
def InSector (m : FullMap F) (refs : List PolygonRef) (c : Contour F) (s : Nat) : Prop :=
  ∃ (p : Nat), c.from_polygons[p]? = some true ∧
    (refs[p]? = some (.sector s) ∨ ∃ l, refs[p]? = some (.line l) ∧ (SideIn m l.front s ∨ SideIn m l.back s))

/-- The contour is in a sector with tag `t` (not counting 0, which means none, and 13). -/
def HasTag (m : FullMap F) (refs : List PolygonRef) (c : Contour F) (t : UInt32) : Prop :=
  t ≠ 0 ∧ t ≠ 13 ∧ ∃ (s : Nat) (sec : Sector), InSector m refs c s ∧ m.sectors[s]? = some sec ∧ sec.tag = t

/-- The highest floor of the sectors the contour is in. -/
def FloorOf (m : FullMap F) (refs : List PolygonRef) (c : Contour F) (h : Int) : Prop :=
  (∃ (s : Nat) (sec : Sector), InSector m refs c s ∧ m.sectors[s]? = some sec ∧ sec.floor_height.toInt = h) ∧
  ∀ (s : Nat) (sec : Sector), InSector m refs c s → m.sectors[s]? = some sec → sec.floor_height.toInt ≤ h

/-- The contour is part of the forbidden zone of a line that blocks the player (bit 0 of its flags). -/
def Blocked (refs : List PolygonRef) (c : Contour F) : Prop :=
  ∃ (p : Nat) (l : Line), c.from_polygons[p]? = some true ∧ refs[p]? = some (.line l) ∧ l.flags &&& 1 ≠ 0

/-- One can walk from contour number `i` to number `j`: same tags, nothing blocks the player there, and
the floors differ by at most 24. -/
def Walkable (m : FullMap F) (refs : List PolygonRef) (contours : List (Contour F)) (i j : Nat) : Prop :=
  ∃ c d, contours[i]? = some c ∧ contours[j]? = some d ∧ (∀ t, HasTag m refs c t ↔ HasTag m refs d t) ∧ ¬ Blocked refs d ∧
    ∃ h k, FloorOf m refs c h ∧ FloorOf m refs d k ∧ h - k ≤ 24 ∧ k - h ≤ 24

/-- The chunks: no contour is in two chunks or twice in one, exactly the contours that can be reached are
in a chunk, and the distance of a contour is the number of its chunk counted from 1, or 0. -/
structure ChunksPartition (start : Pt F) (contours : List (Contour F)) (distance : List Int) (chunks : List (List Nat)) : Prop where
  once : chunks.flatten.Nodup
  reached : ∀ (i : Nat), i ∈ chunks.flatten ↔ RouteReachable start contours i
  length : distance.length = contours.length
  inChunk : ∀ (k : Nat) chunk, chunks[k]? = some chunk → ∀ i ∈ chunk, distance[i]? = some ((k : Int) + 1)
  outside : ∀ (i : Nat), i < contours.length → i ∉ chunks.flatten → distance[i]? = some 0

/-- Within a chunk one can walk from its seed to everywhere without leaving the chunk, and from no contour
of a chunk can one walk to a neighbour that is in a later chunk. -/
structure ChunksConnected (m : FullMap F) (refs : List PolygonRef) (contours : List (Contour F)) (chunks : List (List Nat)) : Prop where
  paths : ∀ chunk ∈ chunks, ∃ seed ∈ chunk, ∀ i ∈ chunk,
    Relation.ReflTransGen (fun a b => a ∈ chunk ∧ b ∈ chunk ∧ Touches contours a b ∧ Walkable m refs contours a b) seed i
  maximal : ∀ (k : Nat) chunk, chunks[k]? = some chunk → ∀ i ∈ chunk, ∀ j, Touches contours i j → Walkable m refs contours i j →
    j ∈ (chunks.take (k + 1)).flatten

end Idc
