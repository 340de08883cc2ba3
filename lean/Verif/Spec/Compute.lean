import Verif.Model.Compute
/-!
# What `compute` may return
-/

namespace Idc

open FloatOps

variable {F : Type} [FloatOps F]

/-- Two points that the code takes for the same: identical, or equal by `==`. -/
def SamePoint (a b : Pt F) : Prop := a = b ∨ a.beq b = true ∨ b.beq a = true

/-- The edge number `k` of a closed chain of points: from the `k`-th to the next, the last leading back to
the first. -/
def IsEdge (points : List (Pt F)) (k : Nat) (a b : Pt F) : Prop :=
  points[k]? = some a ∧ points[(k + 1) % points.length]? = some b

/-- `p` is where the two segments meet according to `intersect_segments`: the crossing point, or, if they
overlap, an end of one of them. -/
def Meet (a b c d p : Pt F) : Prop :=
  intersectSegments (a, b) (c, d) = .point p ∨
  (∃ x y, intersectSegments (a, b) (c, d) = .segment x y) ∧ (p = a ∨ p = b ∨ p = c ∨ p = d)

/-- A piece of an edge of polygon number `k`: an edge, or what is left after cutting a piece where it meets
another piece. -/
inductive Piece (polygons : List (Polygon F × PolygonMode)) : Nat → Pt F → Pt F → Prop
  | edge {k i : Nat} {a b : Pt F} {poly : Polygon F} {mode : PolygonMode} {c : Contour F} : polygons[k]? = some (poly, mode) →
      c ∈ poly.contours → IsEdge c.points i a b → Piece polygons k a b
  | turn {k : Nat} {a b : Pt F} : Piece polygons k a b → Piece polygons k b a
  | cut {k k' : Nat} {a b c d p : Pt F} : Piece polygons k a b → Piece polygons k' c d → Meet a b c d p ∨ Meet c d a b p →
      Piece polygons k a p
  | rest {k k' : Nat} {a b c d p : Pt F} : Piece polygons k a b → Piece polygons k' c d → Meet a b c d p ∨ Meet c d a b p →
      Piece polygons k p b

/-- A piece of an edge that is meant to be in the result: of a polygon whose edges are not removed. -/
def KeptPiece (polygons : List (Polygon F × PolygonMode)) (a b : Pt F) : Prop :=
  ∃ k poly mode, polygons[k]? = some (poly, mode) ∧ mode ≠ .removeEdges ∧ Piece polygons k a b

/-- The exception: the first edge of contour number `j`, from `x` to `y`, goes astray if it has length zero,
or leads to one of the first two points of contour number 0. -/
def Astray (contours : List (Contour F)) (j : Nat) (x y : Pt F) : Prop :=
  x = y ∨ 0 < j ∧ ∃ c₀ q, contours[0]? = some c₀ ∧ q ∈ c₀.points.take 2 ∧ SamePoint y q

/-- The edge number `k` of contour number `j` leads, up to `==`, from `a` to `b`; if it goes astray, only
where it leads to is claimed. -/
def FollowsAt (contours : List (Contour F)) (j k : Nat) (a b : Pt F) : Prop :=
  ∃ c x y, contours[j]? = some c ∧ IsEdge c.points k x y ∧ SamePoint y b ∧ (SamePoint x a ∨ k = 0 ∧ Astray contours j x y)

/-- The polygons a region is said to be part of: one flag per polygon, at least one set, and none for a
polygon whose interior is removed. -/
def FlagsOk (polygons : List (Polygon F × PolygonMode)) (flags : List Bool) : Prop :=
  flags.length = polygons.length ∧ true ∈ flags ∧
  ∀ (i : Nat) (poly : Polygon F) (mode : PolygonMode), polygons[i]? = some (poly, mode) → flags[i]? = some true → mode ≠ .removeInterior

/-- The holes of a result: a contour that is not external is in exactly one `holes` list, once, and an
external one in none; the list is that of a contour which is not later; and holes are clockwise. -/
structure HolesOk (contours : List (Contour F)) : Prop where
  once : ∀ (i : Nat) (c : Contour F), contours[i]? = some c → (contours.flatMap fun c => c.holes).count i = if c.external then 0 else 1
  order : ∀ (p : Nat) c, contours[p]? = some c → ∀ j ∈ c.holes, p ≤ j ∧ j < contours.length
  clockwise : ∀ c ∈ contours, c.external = false → ∃ area, areaOf c.points = .ok area ∧ lt area (ofInt 0) = true

/-- The neighbours of a result: one flag per contour, symmetric, and neighbours have an edge in common,
followed in opposite directions (unless it goes astray). -/
structure NeighborsOk (contours : List (Contour F)) : Prop where
  length : ∀ c ∈ contours, c.neighbors.length = contours.length
  symm : ∀ (i j : Nat) (ci cj : Contour F), contours[i]? = some ci → contours[j]? = some cj → ci.neighbors[j]? = cj.neighbors[i]?
  common : ∀ (i j : Nat) (ci : Contour F), contours[i]? = some ci → ci.neighbors[j]? = some true →
    ∃ k l a b, FollowsAt contours i k a b ∧ FollowsAt contours j l b a

end Idc
