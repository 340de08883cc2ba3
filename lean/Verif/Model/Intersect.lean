import Verif.Model.Shape
/-!
# Intersecting segments: src/shapeops.rs:66-171
-/

namespace Idc

open FloatOps

variable {F : Type} [FloatOps F]

/-- src/shapeops.rs:66-82 `check_span_overlap`. -/
def checkSpanOverlap (u0 u1 v0 v1 : F) : Option (F × F) :=
  if lt u1 v0 || lt v1 u0 then none
  else if lt v0 u1 then
    if lt u0 v1 then some (FloatOps.max u0 v0, FloatOps.min u1 v1)
    else some (u0, u0)
  else some (u1, u1)

/-- src/shapeops.rs:84-89 `SegmentIntersection`. -/
inductive SegmentIntersection (F : Type) where
  | none
  | point (p : Pt F)
  | segment (a b : Pt F)
  deriving DecidableEq, Repr

/-- src/shapeops.rs:91 `SQR_EPSILON`. -/
def sqrEpsilon : F := lit 1 7
/-- src/shapeops.rs:92 `EPSILON`. -/
def epsilon : F := lit 1 15
/-- src/shapeops.rs:130 the threshold `1e-9`. -/
def fractEps : F := lit 1 9

/-- src/shapeops.rs:116-120, also 155-159: snap to the endpoints, one after the other. -/
def snap : Pt F → List (Pt F) → Pt F
  | i, [] => i
  | i, e :: es => snap (if lt (i.sub e).sqLength epsilon then e else i) es

/-- src/shapeops.rs:130-135: round one coordinate if it is almost an integer. -/
def roundCoord (x : F) : F := if lt (abs (fract x)) fractEps then round x else x

/-- src/shapeops.rs:93-171 `intersect_segments`. -/
def intersectSegments (seg0 seg1 : Pt F × Pt F) : SegmentIntersection F :=
  let p0 := seg0.1
  let d0 := seg0.2.sub p0
  let p1 := seg1.1
  let d1 := seg1.2.sub p1
  let sep := p1.sub p0
  let kross := d0.cross d1
  let d0len2 := d0.sqLength
  let d1len2 := d1.sqLength
  if lt (mul (mul sqrEpsilon d0len2) d1len2) (mul kross kross) then
    let s := div (sep.cross d1) kross
    if lt s (ofInt 0) || lt (ofInt 1) s then .none
    else
      let t := div (sep.cross d0) kross
      if lt t (ofInt 0) || lt (ofInt 1) t then .none
      else
        let i := snap (p0.add (d0.scale s)) [seg0.1, seg0.2, seg1.1, seg1.2]
        .point ⟨roundCoord i.x, roundCoord i.y⟩
  else
    let kross := sep.cross d0
    if lt (mul (mul sqrEpsilon d0len2) sep.sqLength) (mul kross kross) then .none
    else
      let s0 := div (d0.dot sep) d0len2
      let s1 := add s0 (div (d0.dot d1) d0len2)
      let smin := FloatOps.min s0 s1
      let smax := FloatOps.max s0 s1
      match checkSpanOverlap (ofInt 0) (ofInt 1) smin smax with
      | some (b, e) =>
        let i := snap (p0.add (d0.scale b)) [seg0.1, seg0.2, seg1.1, seg1.2]
        if eq b e then .point i
        else .segment i (p0.add (d0.scale e))
      | none => .none

end Idc
