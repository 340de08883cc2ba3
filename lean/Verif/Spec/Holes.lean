import Verif.Model.Holes
import Verif.Spec.Lib
/-!
# Hole forests
-/

namespace Idc

variable {F : Type} [FloatOps F]

/-- A contour nothing has been computed about: no holes, external. -/
def Contour.Fresh (c : Contour F) : Prop := c.holes = [] ∧ c.external = true

/-- `out` is `inp` organised as a forest, where `parent i` is the contour that `i` is a hole of:
parents come before their holes in some ranking (so there are no cycles); the `holes` list of a contour
has exactly the contours it is the parent of, once each; a contour is external iff it has no parent;
contours without a parent report counterclockwise and the others the opposite of what their parent
reports; and the points are the original ones or their reversal. -/
structure IsHoleForest (inp out : List (Contour F)) (parent : Nat → Option Nat) : Prop where
  length : out.length = inp.length
  indices : ∀ i p, parent i = some p → i < out.length ∧ p < out.length
  acyclic : ∃ rank : Nat → Nat, ∀ i p, parent i = some p → rank p < rank i
  external : ∀ i c, out[i]? = some c → (c.external = true ↔ parent i = none)
  holes : ∀ i c, out[i]? = some c → c.holes.Nodup ∧ ∀ j, j ∈ c.holes ↔ parent j = some i
  root : ∀ i c, out[i]? = some c → parent i = none → c.clockwise = .ok (false, c)
  opposite : ∀ i p c d, out[i]? = some c → parent i = some p → out[p]? = some d →
    ∃ b, d.clockwise = .ok (b, d) ∧ c.clockwise = .ok (!b, c)
  points : ∀ (i : Nat) (c c₀ : Contour F), out[i]? = some c → inp[i]? = some c₀ → c.points = c₀.points ∨ c.points = c₀.points.reverse

end Idc
