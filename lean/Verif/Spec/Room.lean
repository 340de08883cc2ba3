import Verif.Model.Route
import Verif.Spec.Float
/-!
# A map with a single rectangular room
-/

namespace Idc

/-- The map is a rectangular room, `W` wide and `H` high, with the lower left corner `(x, y)`: four one-sided lines, clockwise from the left one, whose front sides are
in the only sector.  Heights, tags, textures, flags and specials are whatever they are, and so are the things. -/
structure IsRoom (m : FullMap ℝ) (x y W H : ℤ) : Prop where
  vertices : m.vertices = [⟨x, y⟩, ⟨x, y + H⟩, ⟨x + W, y + H⟩, ⟨x + W, y⟩]
  lines : m.lines.length = 4
  ends : ∀ (i : Nat) (l : Line), m.lines[i]? = some l → l.start = i ∧ l.stop = (i + 1) % 4
  sided : ∀ l ∈ m.lines, l.back = none ∧ ∃ h, l.front = some h ∧ h < m.sides.length
  sides : ∀ s ∈ m.sides, s.sector = 0
  sectors : m.sectors.length = 1

/-- Where the player starts; at the origin if there is no start. -/
noncomputable def FullMap.startPoint (m : FullMap ℝ) : Pt ℝ := m.findPlayerStart.getD ⟨0, 0⟩

end Idc
