import Verif.Spec.FullMap
import Verif.Spec.Outline
import Verif.Spec.Dilate
import Verif.Model.Svg
/-!
# What a chart shows

Charts are drawn upside down: a point (x, y) of the map is seen at (x, -y).
-/

namespace Idc

variable {L T : Type} [BareBinaryLine L] [BareBinaryThing T]

/-- Where the vertices and things of a map are seen. -/
def seenPoints (m : BareBinaryMap L T) : List (Int × Int) :=
  (m.vertices.map fun v => (v.x.toInt, -v.y.toInt)) ++
  m.things.map fun t => ((BareBinaryThing.coords t).1.toInt, -(BareBinaryThing.coords t).2.toInt)

/-- A path along some points and back to the first. -/
def closedPath {C : Type} : List (C × C) → List (PathCmd C)
  | [] => []
  | p :: ps => .moveTo p.1 p.2 :: (ps ++ [p]).map fun q => .lineTo q.1 q.2

/-- The classes that tell how many sides a line has. -/
def SidesClass (hasFront hasBack : Prop) (c : String) : Prop :=
  (c = "zero-sided" ∧ ¬ hasFront ∧ ¬ hasBack) ∨ (c = "one-sided" ∧ (hasFront ∧ ¬ hasBack ∨ ¬ hasFront ∧ hasBack)) ∨
  (c = "two-sided" ∧ hasFront ∧ hasBack)

/-- How a line of a bare map is drawn: between the positions of its vertices, with the classes that apply. -/
def BareLineDrawn (m : BareBinaryMap L T) (l : L) (s : SvgShape Int16) : Prop :=
  ∃ (v0 v1 : BareVertex) (classes : List String),
    m.vertices[(BareBinaryLine.vertexIndices l).1.toInt.toNat]? = some v0 ∧
    m.vertices[(BareBinaryLine.vertexIndices l).2.toInt.toNat]? = some v1 ∧
    s = .line v0.x v0.y v1.x v1.y classes ∧
    ∀ c, c ∈ classes ↔ c = "line" ∨
      SidesClass ((BareBinaryLine.sideIndices l).1.toInt ≠ -1) ((BareBinaryLine.sideIndices l).2.toInt ≠ -1) c ∨
      (c = "has-special" ∧ BareBinaryLine.hasSpecial l = true)

/-- A point with 16-bit coordinates in the plane. -/
def realPoint (p : Int16 × Int16) : ℝ × ℝ := ((p.1.toInt : ℝ), (p.2.toInt : ℝ))

/-- How the zone around a line of a bare map is drawn: the (implicitly closed) path runs clockwise around exactly the
points where the player would touch the line. -/
def BareZoneDrawn (m : BareBinaryMap L T) (l : L) (s : SvgShape Int16) : Prop :=
  ∃ (v0 v1 : BareVertex) (p : Int16 × Int16) (ps : List (Int16 × Int16)),
    m.vertices[(BareBinaryLine.vertexIndices l).1.toInt.toNat]? = some v0 ∧
    m.vertices[(BareBinaryLine.vertexIndices l).2.toInt.toNat]? = some v1 ∧
    s = .dilation (.moveTo p.1 p.2 :: ps.map fun q => .lineTo q.1 q.2) ∧
    ClockwiseConvex ((p :: ps).map realPoint) ∧
    {q | PlayerTouches (realPoint (v0.x, v0.y)) (realPoint (v1.x, v1.y)) q} = convexHull ℝ {q | q ∈ (p :: ps).map realPoint}

/-- Colour and radius of things numbered `n`: those of the entry of the table of things with that number. -/
def ThingLook (n : Int) (fill : String) (radius : Nat) : Prop :=
  (∃ a ∈ doom2Actors, ∃ d, a.doomednum = some d ∧ (d.toNat : Int) = n ∧ radius = a.radius ∧
    fill = if a.category = .PlayerStart then "green" else if a.category = .Monster then "red"
      else if a.category = .Miscellaneous then "gray" else "magenta") ∨
  ((∀ a ∈ doom2Actors, ∀ d, a.doomednum = some d → (d.toNat : Int) ≠ n) ∧ radius = 8 ∧ fill = "gray")

/-- How a thing of a bare map is drawn: as a square around its position. -/
def BareThingDrawn (t : T) (s : SvgShape Int16) : Prop :=
  ∃ (x y : Int16) (radius : Nat) (fill : String), s = .thing x y (2 * radius) (2 * radius) fill ∧
    x.toInt + radius = (BareBinaryThing.coords t).1.toInt ∧ y.toInt + radius = (BareBinaryThing.coords t).2.toInt ∧
    ThingLook (BareBinaryThing.doomednum t).toInt fill radius

/-- How a sector of a bare map is drawn: as closed paths along its boundary lines. -/
def BareSectorDrawn (m : BareBinaryMap L T) (n : Nat) (sec : BareSector) (s : SvgShape Int16) : Prop :=
  ∃ (outlines : List (List Nat)) (points : List (List (Int16 × Int16))) (tag : Option Int) (classes : List String),
    s = .sector (points.flatMap closedPath) tag none classes ∧
    outlines.map (fun o => o.map fun v => m.vertices[v]?.map fun v => (v.x, v.y)) = points.map (fun o => o.map some) ∧
    (∀ o ∈ outlines, o ≠ []) ∧ outlines.flatten.Nodup ∧ (∀ v, v ∈ outlines.flatten ↔ IsEnd (m.bin.boundary n) v) ∧
    (∀ o ∈ outlines, Consecutive (fun a b => ∃ e, Joins (m.bin.boundary n) e a b) o) ∧
    (∀ k, tag = some k ↔ k ≠ 0 ∧ sec.sector_tag.toInt = k) ∧
    ∀ c, c ∈ classes ↔ c = "sector" ∨ (c = "secret" ∧ sec.sector_type.toInt = 9)

/-! ### Full maps -/

variable {F : Type} [FloatOps F]

/-- The player can step over the border of two sectors: the floors differ by 24 at most and the opening is 56 high. -/
def CanStep (a b : Sector) : Prop :=
  |a.floor_height.toInt - b.floor_height.toInt| ≤ 24 ∧
  ∀ f c, (f = a.floor_height.toInt ∨ f = b.floor_height.toInt) → (c = a.ceiling_height.toInt ∨ c = b.ceiling_height.toInt) → 56 ≤ c - f

/-- How a line of a map is drawn. -/
def LineDrawn (m : FullMap F) (l : Line) (s : SvgShape F) : Prop :=
  ∃ (v0 v1 : Pt F) (classes : List String),
    m.vertices[l.start]? = some v0 ∧ m.vertices[l.stop]? = some v1 ∧ s = .line v0.x v0.y v1.x v1.y classes ∧
    ∀ c, c ∈ classes ↔ c = "line" ∨ SidesClass (l.front ≠ none) (l.back ≠ none) c ∨
      (c = "has-special" ∧ l.special ≠ 0) ∨ (c = "blocking" ∧ l.flags.toNat % 2 = 1) ∨
      (c = "step" ∧ ∃ f b front back, facing m l.front = some f ∧ facing m l.back = some b ∧
        m.sectors[f]? = some front ∧ m.sectors[b]? = some back ∧ CanStep front back)

/-- How a thing of a map is drawn. -/
def ThingDrawn (t : Thing F) (s : SvgShape F) : Prop :=
  ∃ (radius : Nat) (fill : String),
    s = .thing (FloatOps.sub t.point.x (FloatOps.ofInt radius)) (FloatOps.sub t.point.y (FloatOps.ofInt radius)) (2 * radius) (2 * radius) fill ∧
    ThingLook t.doomednum.toNat fill radius

/-- How a sector of a map is drawn. -/
def SectorDrawn (m : FullMap F) (n : Nat) (sec : Sector) (s : SvgShape F) : Prop :=
  ∃ (outlines : List (List (Pt F))) (ts : List (List Nat × List (Pt F))) (tag : Option Int) (classes : List String),
    s = .sector (outlines.flatMap fun o => closedPath (o.map fun p => (p.x, p.y))) tag (some sec.light.toNat) classes ∧
    Tracing m (boundary m n) outlines ts ∧
    (∀ k, tag = some k ↔ k ≠ 0 ∧ (sec.tag.toNat : Int) = k) ∧
    ∀ c, c ∈ classes ↔ c = "sector" ∨ (c = "secret" ∧ sec.special.toNat = 9) ∨
      (c = "implicit-tag" ∧ ∃ l ∈ m.lines, facing m l.back = some n ∧ l.special ≠ 0 ∧ l.sector_tag.toNat = 0)

end Idc
