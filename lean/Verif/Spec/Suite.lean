import Verif.Spec.Room
/-!
# A map with two rectangular rooms side by side
-/

namespace Idc

/-- The map is two rectangular rooms side by side, `W` and `V` wide and `H` high, with the lower left corner `(x, y)`.  Lines 0 to 5 are the outer walls, one-sided and clockwise from the
left one; line 6 is the opening between the rooms, with sector 0, the left room, in front and sector 1, the right room, behind.  Heights, tags, textures, flags and specials are whatever they
are, and so are the things. -/
structure IsSuite (m : FullMap ℝ) (x y W V H : ℤ) : Prop where
  vertices : m.vertices = [⟨x, y⟩, ⟨x, y + H⟩, ⟨x + W, y + H⟩, ⟨x + W + V, y + H⟩, ⟨x + W + V, y⟩, ⟨x + W, y⟩]
  lines : m.lines.length = 7
  ends : ∀ (i : Nat) (l : Line), m.lines[i]? = some l → (l.start, l.stop) = if i = 6 then (2, 5) else (i, (i + 1) % 6)
  walls : ∀ (i : Nat) (l : Line), m.lines[i]? = some l → i < 6 → l.back = none ∧ ∃ h sd, l.front = some h ∧ m.sides[h]? = some sd ∧ sd.sector = if i ∈ [0, 1, 5] then 0 else 1
  opening : ∀ l, m.lines[6]? = some l → ∃ h h' sd sd', l.front = some h ∧ m.sides[h]? = some sd ∧ sd.sector = 0 ∧ l.back = some h' ∧ m.sides[h']? = some sd' ∧ sd'.sector = 1
  sides : ∀ s ∈ m.sides, s.sector < 2
  sectors : m.sectors.length = 2

/-- The tag of a sector as the route finder sees it: nothing for 0 (no tag) and for 13. -/
def tagSet (t : UInt32) : List UInt32 := if t = 0 ∨ t = 13 then [] else [t]

/-- The floor of `b` is at most 24 units above that of `a`, and `b` has no tag that `a` has not. -/
def CanClimb (a b : Sector) : Prop := b.floor_height.toInt - a.floor_height.toInt ≤ 24 ∧ ∀ t ∈ tagSet b.tag, t ∈ tagSet a.tag

instance (a b : Sector) : Decidable (CanClimb a b) := by unfold CanClimb; infer_instance

/-- The player starts in the rectangle; the left and the lower side belong to it. -/
def FullMap.StartsIn (m : FullMap ℝ) (x y x' y' : ℝ) : Prop := x ≤ m.startPoint.x ∧ m.startPoint.x < x' ∧ y ≤ m.startPoint.y ∧ m.startPoint.y < y'

/-- The areas the route finder finds in two rooms: the left room without what is within 16 units of its walls and of the opening, what is within 16 units of the opening, and the right room. -/
noncomputable def suiteAreas (x y W V H : ℤ) : List (Contour ℝ) :=
  [⟨[⟨x + 16, y + 16⟩, ⟨x + W - 16, y + 16⟩, ⟨x + W - 16, y + H - 16⟩, ⟨x + 16, y + H - 16⟩], [], [true, false, false, false, false, false, false, false, false], [false, true, false], true, some false⟩,
    ⟨[⟨x + W - 16, y + 16⟩, ⟨x + W, y + 16⟩, ⟨x + W + 16, y + 16⟩, ⟨x + W + 16, y + H - 16⟩, ⟨x + W, y + H - 16⟩, ⟨x + W - 16, y + H - 16⟩], [],
      [true, true, false, false, false, false, false, false, true], [true, false, true], true, some false⟩,
    ⟨[⟨x + W + 16, y + 16⟩, ⟨x + W + V - 16, y + 16⟩, ⟨x + W + V - 16, y + H - 16⟩, ⟨x + W + 16, y + H - 16⟩], [], [false, true, false, false, false, false, false, false, false], [false, true, false],
      true, some false⟩]

end Idc
