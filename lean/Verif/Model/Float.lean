import Verif.Model.Prim
/-!
# Floating point and the parts of euclid used

The code computes with `f64`.  The model is parametric in the arithmetic: `FloatOps F` lists the
operations used, with no laws.  A theorem about an arbitrary `FloatOps F` holds whatever the
rounding, NaN and infinity behaviour.  Theorems that need arithmetic say which laws they use
(`IntExact`, in `Verif.Spec.Float`) or are about exact real arithmetic (`FloatOps ℝ` there).
-/

namespace Idc

/-- The `f64` operations the code uses. -/
class FloatOps (F : Type) where
  /-- `x as f64` and integer literals -/
  ofInt : Int → F
  /-- `m·10^-k`, decimal literals -/
  lit : Int → Nat → F
  nan : F
  add : F → F → F
  sub : F → F → F
  mul : F → F → F
  div : F → F → F
  sqrt : F → F
  abs : F → F
  fract : F → F
  round : F → F
  min : F → F → F
  max : F → F → F
  /-- `a < b` -/
  lt : F → F → Bool
  /-- `a == b` -/
  eq : F → F → Bool

open FloatOps

/-- `a <= b` (IEEE 754: less or equal; false on NaN). -/
def FloatOps.le {F : Type} [FloatOps F] (a b : F) : Bool := lt a b || eq a b

/-- `a.partial_cmp(&b)` for `f64` (std): `None` when unordered. -/
def FloatOps.cmp {F : Type} [FloatOps F] (a b : F) : Option Ordering :=
  if lt a b then some .lt else if eq a b then some .eq else if lt b a then some .gt else none

/-- `Option::unwrap`. -/
def unwrap {α : Type u} : Option α → Res α
  | some a => .ok a
  | none => .panic .unwrap

/-- src/geom.rs:7 `Point` (euclid 0.16 `TypedPoint2D<f64, MapSpace>`), also src/shapeops.rs:35
`MapPoint`, and `TypedVector2D`. -/
structure Pt (F : Type) where
  x : F
  y : F
  deriving DecidableEq, Repr

variable {F : Type} [FloatOps F]

/-- euclid: `==` on points compares both coordinates with `f64`'s `==`. -/
def Pt.beq (a b : Pt F) : Bool := eq a.x b.x && eq a.y b.y

/-- euclid: `a - b` as a vector. -/
def Pt.sub (a b : Pt F) : Pt F := ⟨FloatOps.sub a.x b.x, FloatOps.sub a.y b.y⟩

/-- euclid: `p + v`. -/
def Pt.add (a b : Pt F) : Pt F := ⟨FloatOps.add a.x b.x, FloatOps.add a.y b.y⟩

/-- euclid: `v * s`. -/
def Pt.scale (a : Pt F) (s : F) : Pt F := ⟨mul a.x s, mul a.y s⟩

/-- euclid: `a.dot(b)`. -/
def Pt.dot (a b : Pt F) : F := FloatOps.add (mul a.x b.x) (mul a.y b.y)

/-- euclid: `a.cross(b) = a.x*b.y - a.y*b.x`. -/
def Pt.cross (a b : Pt F) : F := FloatOps.sub (mul a.x b.y) (mul a.y b.x)

/-- euclid: `v.square_length()`. -/
def Pt.sqLength (v : Pt F) : F := FloatOps.add (mul v.x v.x) (mul v.y v.y)

/-- euclid: `v.length()`. -/
def Pt.length (v : Pt F) : F := sqrt v.sqLength

/-- src/geom.rs:8 `Rect` (euclid 0.16 `TypedRect`): origin and size. -/
structure Rect (F : Type) where
  x : F
  y : F
  width : F
  height : F
  deriving DecidableEq, Repr

/-- euclid: `rect.max_x()`. -/
def Rect.maxX (r : Rect F) : F := FloatOps.add r.x r.width
/-- euclid: `rect.max_y()`. -/
def Rect.maxY (r : Rect F) : F := FloatOps.add r.y r.height

/-- euclid: `TypedRect::zero()`. -/
def Rect.zero : Rect F := ⟨ofInt 0, ofInt 0, ofInt 0, ofInt 0⟩

/-- euclid 0.16 `TypedRect::from_points`, loop over the points after the first; the state is
(min_x, min_y, max_x, max_y). -/
def fromPointsLoop : List (Pt F) → F × F × F × F → F × F × F × F
  | [], s => s
  | p :: ps, (minX, minY, maxX, maxY) =>
    let minX := if lt p.x minX then p.x else minX
    let maxX := if lt maxX p.x then p.x else maxX
    let minY := if lt p.y minY then p.y else minY
    let maxY := if lt maxY p.y then p.y else maxY
    fromPointsLoop ps (minX, minY, maxX, maxY)

/-- euclid 0.16 `TypedRect::from_points`. -/
def Rect.fromPoints : List (Pt F) → Rect F
  | [] => Rect.zero
  | p :: ps =>
    let (minX, minY, maxX, maxY) := fromPointsLoop ps (p.x, p.y, p.x, p.y)
    ⟨minX, minY, FloatOps.sub maxX minX, FloatOps.sub maxY minY⟩

end Idc
