import Verif.Model.Svg
import Verif.Spec.Route
/-!
# What the drawing of the route finder's result shows
-/

namespace Idc

variable {F : Type} [FloatOps F]

/-- The path once around a contour, from its last point. -/
def roundPath (points : List (Pt F)) : List (PathCmd F) :=
  (points.getLast?.map fun p => PathCmd.moveTo p.x p.y).toList ++ points.map fun p => .lineTo p.x p.y

/-- The numbers of the external contours, in order. -/
def externals (contours : List (Contour F)) : List Nat :=
  (List.range contours.length).filter fun i => contours[i]?.any fun c => c.external

/-- The numbers of all contours that are drawn: external ones and the holes of those. -/
def drawnContours (contours : List (Contour F)) : List Nat :=
  externals contours ++ (externals contours).flatMap fun i => (contours[i]?.map fun c => c.holes).getD []

/-- The shape `s` shows an area: the contour with its number and the holes of that, its distance and the sectors and
lines it is part of. -/
def AreaDrawn (refs : List PolygonRef) (contours : List (Contour F)) (distance : List Int) (s : RouteShape F) : Prop :=
  ∃ (c : Contour F) (holes : List (Contour F)), contours[s.id]? = some c ∧ c.external = true ∧
    c.holes.map (fun h => contours[h]?) = holes.map some ∧
    s.data = roundPath c.points ++ holes.flatMap (fun h => roundPath h.points) ∧
    distance[s.id]? = some s.distance ∧
    ∀ o, o ∈ s.origins ↔ ∃ p : Nat, c.from_polygons[p]? = some true ∧ refs[p]? = some o

end Idc
