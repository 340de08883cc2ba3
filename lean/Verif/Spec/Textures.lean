import Verif.Spec.Outline
import Verif.Model.Textures
import Verif.Spec.Float
/-!
# What texture usage means

A charge is a texture name and the height of the wall part it covers.  `Visible` is what a user
expects; `Charged` is what the code charges.
-/

namespace Idc

open FloatOps

/-- The side numbered `i`, with its sector. -/
def BinMap.sideAt (m : BinMap) (i : Int16) : Option (BareSide × BareSector) :=
  if 0 ≤ i.toInt then (m.sides[i.toInt.toNat]?).bind fun s =>
    if 0 ≤ s.sector.toInt then (m.sectors[s.sector.toInt.toNat]?).map fun c => (s, c) else none
  else none

/-- The wall parts of a line with sides `f` and `b`: the texture of each part and its height.  The upper
part belongs to the side whose ceiling is higher, the lower part to the side whose floor is lower, and
the middle part of both sides is the opening between the higher floor and the lower ceiling, if any. -/
def wallParts : Option (BareSide × BareSector) → Option (BareSide × BareSector) → List (Bytes × Int)
  | none, none => []
  | some (s, c), none | none, some (s, c) => [(s.middle_texture, c.ceiling_height.toInt - c.floor_height.toInt)]
  | some (f, fc), some (b, bc) =>
    let opening := min fc.ceiling_height.toInt bc.ceiling_height.toInt - max fc.floor_height.toInt bc.floor_height.toInt
    [(if fc.ceiling_height.toInt < bc.ceiling_height.toInt then b.upper_texture else f.upper_texture,
        |fc.ceiling_height.toInt - bc.ceiling_height.toInt|),
      (if fc.floor_height.toInt > bc.floor_height.toInt then b.lower_texture else f.lower_texture,
        |fc.floor_height.toInt - bc.floor_height.toInt|)] ++
      if 0 < opening then [(f.middle_texture, opening), (b.middle_texture, opening)] else []

/-- What the code charges instead: the upper part always to the front side, and the "opening" measured
from the *lower* floor. -/
def chargedParts : Option (BareSide × BareSector) → Option (BareSide × BareSector) → List (Bytes × Int)
  | some (f, fc), some (b, bc) =>
    let opening := min fc.ceiling_height.toInt bc.ceiling_height.toInt - min fc.floor_height.toInt bc.floor_height.toInt
    [(f.upper_texture, |fc.ceiling_height.toInt - bc.ceiling_height.toInt|),
      (if fc.floor_height.toInt > bc.floor_height.toInt then b.lower_texture else f.lower_texture,
        |fc.floor_height.toInt - bc.floor_height.toInt|)] ++
      if 0 < opening then [(f.middle_texture, opening), (b.middle_texture, opening)] else []
  | f, b => wallParts f b

/-- The length of a line from vertex `a` to vertex `b`. -/
def lineLength {F : Type} [FloatOps F] (a b : BareVertex) : F :=
  sqrt (add (mul (ofInt (b.x.toInt - a.x.toInt)) (ofInt (b.x.toInt - a.x.toInt)))
    (mul (ofInt (b.y.toInt - a.y.toInt)) (ofInt (b.y.toInt - a.y.toInt))))

/-- A rule that says what the wall parts of a line are, given its front and back side. -/
abbrev PartRule := Option (BareSide × BareSector) → Option (BareSide × BareSector) → List (Bytes × Int)

/-- The wall parts of one line under a rule: texture and area. -/
def BinMap.lineAreas {F : Type} [FloatOps F] (parts : PartRule) (m : BinMap) (l : BinLine) : List (Bytes × F) :=
  match m.vertices[l.v0.toInt.toNat]?, m.vertices[l.v1.toInt.toNat]? with
  | some a, some b => (parts (m.sideAt l.front) (m.sideAt l.back)).map fun p => (p.1, mul (lineLength a b) (ofInt p.2))
  | _, _ => []

/-- Every wall part of the map under a rule, in line order: texture and area. -/
def BinMap.wallAreas {F : Type} [FloatOps F] (parts : PartRule) (m : BinMap) : List (Bytes × F) :=
  m.lines.flatMap (m.lineAreas parts)

/-- `counts` reports exactly the wall parts `areas`: no entry for "-"; each other texture with the number
of its wall parts and the sum of their areas (added up in line order, from 0), if there is any. -/
structure Reports {F : Type} [FloatOps F] (counts : TexCounts F) (areas : List (Bytes × F)) : Prop where
  once : (counts.map (·.1)).Nodup
  entries : ∀ tex n area, (tex, n, area) ∈ counts ↔
    tex ≠ str "-" ∧ n = areas.countP (·.1 = tex) ∧ 0 < n ∧
      area = ((areas.filter (·.1 = tex)).map (·.2)).foldl add (ofInt 0)

/-- The difference of two numbers fits an `i16` (and so does its negation). -/
def DiffFits (a b : Int16) : Prop := |a.toInt - b.toInt| ≤ 32767

/-- No height or coordinate difference the code computes overflows: the map's vertices are at most 32767
apart, and so are its sectors' heights. -/
structure BinMap.Moderate (m : BinMap) : Prop where
  xs : ∀ a ∈ m.vertices, ∀ b ∈ m.vertices, DiffFits a.x b.x ∧ DiffFits a.y b.y
  heights : ∀ a ∈ m.sectors, ∀ b ∈ m.sectors, DiffFits a.ceiling_height b.ceiling_height ∧
    DiffFits a.floor_height b.floor_height ∧ DiffFits a.ceiling_height b.floor_height

/-- Comparison of small integers with zero is exact (true of `f32` and `f64`). -/
class SmallIntOrder (F : Type) [FloatOps F] : Prop where
  pos : ∀ n : Int, |n| ≤ 32768 → lt (ofInt 0 : F) (ofInt n) = decide (0 < n)

end Idc
