import Verif.Model.Route
import Verif.Props.ComputeExamples
import Verif.Props.Tables
/-!
# Small maps for C62, C63, C71 and C73

(`Tables` is imported only so that the evaluations there and the ones here are not made at the same time: both need
much memory.)
-/

namespace Idc

open FloatOps

/-! ### Examples -/

/-- A line. -/
def exLine (i a b : Nat) (front back : Option Nat) (flags : UInt32 := 0) : Line := ⟨i, a, b, flags, 0, 0, front, back⟩
/-- A side in a sector. -/
def exSide (s : Nat) : Side := ⟨0, [], [], [], s⟩

/-- Two rooms with a line between them; the player starts in the first, the floor of the second is at `floor`. -/
def exRooms (flags : UInt32) (floor : Int32) : FullMap Rat where
  vertices := [⟨0, 0⟩, ⟨0, 100⟩, ⟨100, 100⟩, ⟨200, 100⟩, ⟨200, 0⟩, ⟨100, 0⟩]
  lines := [exLine 0 0 1 (some 0) none, exLine 1 1 2 (some 0) none, exLine 2 2 3 (some 1) none, exLine 3 3 4 (some 1) none,
    exLine 4 4 5 (some 1) none, exLine 5 5 0 (some 0) none, exLine 6 2 5 (some 1) (some 0) flags]
  sides := [exSide 0, exSide 1]
  sectors := [⟨0, 0, 0, 128, 160⟩, ⟨0, 0, floor, 128, 160⟩]
  things := [⟨⟨50, 50⟩, 1⟩]

/-- What is shown of a result. -/
def exRoute (m : FullMap Rat) : Res (List (List (Rat × Rat)) × List Int × List (List Nat)) :=
  (routeMap listLib 400 m).map fun r => (r.1.contours.map fun c => c.points.map fun p => (p.x, p.y), r.2)

/-- A line outside the rooms, and another across it that blocks the player; the player starts at the first. -/
def exVoid : FullMap Rat where
  vertices := [⟨0, 0⟩, ⟨0, 100⟩, ⟨100, 100⟩, ⟨100, 0⟩, ⟨200, 200⟩, ⟨300, 201⟩, ⟨250, 150⟩, ⟨251, 250⟩]
  lines := [exLine 0 0 1 (some 0) none, exLine 1 1 2 (some 0) none, exLine 2 2 3 (some 0) none, exLine 3 3 0 (some 0) none,
    exLine 4 4 5 (some 0) (some 0), exLine 5 6 7 (some 0) (some 0) 1]
  sides := [exSide 0]
  sectors := [⟨0, 0, 0, 128, 160⟩]
  things := [⟨⟨205, 200⟩, 1⟩]

end Idc
