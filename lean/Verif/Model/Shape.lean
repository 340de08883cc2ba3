import Verif.Model.FullMap
/-!
# Contours and polygons: src/shapeops.rs:34-64, 412-618
-/

namespace Idc

open FloatOps

variable {F : Type} [FloatOps F]

/-- src/shapeops.rs:52-54 `compare_points`: both comparisons are made (and unwrapped) before `then`. -/
def comparePoints (a b : Pt F) : Res Ordering := do
  let cx ← unwrap (cmp a.x b.x)
  let cy ← unwrap (cmp a.y b.y)
  pure (cx.then cy)

/-- src/shapeops.rs:62-64 `triangle_signed_area`. -/
def triangleSignedArea (a b c : Pt F) : F :=
  sub (mul (sub a.x c.x) (sub b.y c.y)) (mul (sub b.x c.x) (sub a.y c.y))

/-! ### bit_vec 0.5 -/

/-- `BitVec::union`: asserts equal lengths. -/
def bvUnion (a b : List Bool) : Res (List Bool) :=
  if a.length = b.length then .ok (List.zipWith (· || ·) a b) else .panic .explicit

/-- `BitVec::set`: asserts the index is in range. -/
def bvSet (a : List Bool) (i : Nat) (x : Bool) : Res (List Bool) :=
  if i < a.length then .ok (a.set i x) else .panic .explicit

/-- `v[i]` on a `BitVec`. -/
def bvGet (a : List Bool) (i : Nat) : Res Bool := index a i

/-- `BitVec::clear`: all bits false, the length unchanged. -/
def bvClear (a : List Bool) : List Bool := a.map fun _ => false

/-- `BitVec::none`: no bit is set. -/
def bvNone (a : List Bool) : Bool := a.all (!·)

/-- `BitVec::grow(n, value)`. -/
def bvGrow (a : List Bool) (n : Nat) (x : Bool) : List Bool := a ++ List.replicate n x

/-! ### Contours -/

/-- src/shapeops.rs:412-424 `Contour`.  The `Cell` around the cached orientation is a plain field. -/
structure Contour (F : Type) where
  points : List (Pt F)
  holes : List Nat
  from_polygons : List Bool
  neighbors : List Bool
  external : Bool
  is_clockwise : Option Bool
  deriving DecidableEq, Repr

/-- src/shapeops.rs:427-436 `Contour::new`. -/
def Contour.new : Contour F where
  points := []
  holes := []
  from_polygons := []
  neighbors := []
  external := true
  is_clockwise := none

/-- src/shapeops.rs:446-451, the loop of `Contour::bbox`: (min_x, min_y, max_x, max_y). -/
def bboxLoop : List (Pt F) → F × F × F × F → F × F × F × F
  | [], s => s
  | p :: ps, (minX, minY, maxX, maxY) =>
    bboxLoop ps (FloatOps.min minX p.x, FloatOps.min minY p.y, FloatOps.max maxX p.x, FloatOps.max maxY p.y)

/-- src/shapeops.rs:438-453 `Contour::bbox`. -/
def Contour.bbox (c : Contour F) : Rect F :=
  match c.points with
  | [] => Rect.zero
  | p :: ps =>
    let (minX, minY, maxX, maxY) := bboxLoop ps (p.x, p.y, p.x, p.y)
    ⟨minX, minY, sub maxX minX, sub maxY minY⟩

/-- src/shapeops.rs:462-465: the cross products of consecutive points, added up. -/
def areaLoop : F → List (Pt F × Pt F) → F
  | area, [] => area
  | area, (a, b) :: rest => areaLoop (add area (a.cross b)) rest

/-- src/shapeops.rs:462-465: twice the signed area; `None` (a panic) without points. -/
def areaOf (points : List (Pt F)) : Res F := do
  let last ← unwrap points.getLast?
  let first ← index points 0
  pure (areaLoop (last.cross first) (points.zip (points.drop 1)))

/-- src/shapeops.rs:457-469 `Contour::clockwise`: the answer, and the contour with the answer cached. -/
def Contour.clockwise (c : Contour F) : Res (Bool × Contour F) :=
  match c.is_clockwise with
  | some ret => .ok (ret, c)
  | none => do
    let area ← areaOf c.points
    let r := lt area (ofInt 0)
    pure (r, { c with is_clockwise := some r })

/-- src/shapeops.rs:470-472 `Contour::counterclockwise`. -/
def Contour.counterclockwise (c : Contour F) : Res (Bool × Contour F) := do
  let (r, c) ← c.clockwise
  pure (!r, c)

/-- src/shapeops.rs:490-495 `Contour::change_orientation`. -/
def Contour.changeOrientation (c : Contour F) : Contour F :=
  { c with points := c.points.reverse, is_clockwise := c.is_clockwise.map (!·) }

/-- src/shapeops.rs:496-500 `Contour::set_clockwise`. -/
def Contour.setClockwise (c : Contour F) : Res (Contour F) := do
  let (r, c) ← c.counterclockwise
  pure (if r then c.changeOrientation else c)

/-- src/shapeops.rs:501-505 `Contour::set_counterclockwise`. -/
def Contour.setCounterclockwise (c : Contour F) : Res (Contour F) := do
  let (r, c) ← c.clockwise
  pure (if r then c.changeOrientation else c)

/-- src/shapeops.rs:507-509 `Contour::add`. -/
def Contour.add (c : Contour F) (s : Pt F) : Contour F := { c with points := c.points ++ [s] }

/-- src/shapeops.rs:520-522 `Contour::add_hole`. -/
def Contour.addHole (c : Contour F) (ind : Nat) : Contour F := { c with holes := c.holes ++ [ind] }

/-- src/shapeops.rs:526-528 `Contour::set_external`. -/
def Contour.setExternal (c : Contour F) (e : Bool) : Contour F := { c with external := e }

/-! ### Segments of a contour -/

/-- src/shapeops.rs:531-534 `ContourSegments`. -/
structure ContourSegments (F : Type) where
  contour : Contour F
  index : Nat

/-- src/shapeops.rs:483-488 `Contour::iter_segments`. -/
def Contour.iterSegments (c : Contour F) : ContourSegments F := ⟨c, 0⟩

/-- src/shapeops.rs:539-557 `ContourSegments::next`. -/
def ContourSegments.next (it : ContourSegments F) : Res (Option (Pt F × Pt F) × ContourSegments F) :=
  let len := it.contour.points.length
  if len = 0 then .ok (none, it)
  else
    let i := it.index
    let it := { it with index := it.index + 1 }
    if i < len - 1 then do
      let a ← Idc.index it.contour.points i
      let b ← Idc.index it.contour.points (i + 1)
      pure (some (a, b), it)
    else if i = len - 1 then do
      let a ← Idc.index it.contour.points i
      let b ← Idc.index it.contour.points 0
      pure (some (a, b), it)
    else .ok (none, it)

/-- A `for` loop over `iter_segments()`: all items up to the first `None`, fuelled. -/
def ContourSegments.collect : Nat → ContourSegments F → Res (List (Pt F × Pt F))
  | 0, _ => .diverge
  | fuel + 1, it => do
    let (r, it) ← it.next
    match r with
    | none => pure []
    | some s => do
      let rest ← ContourSegments.collect fuel it
      pure (s :: rest)

/-- All segments of a contour; `next` returns `None` after at most `len` items (`C52`). -/
def Contour.segments (c : Contour F) : Res (List (Pt F × Pt F)) :=
  ContourSegments.collect (c.points.length + 1) c.iterSegments

/-! ### Polygons -/

/-- src/shapeops.rs:579-583 `Polygon`. -/
structure Polygon (F : Type) where
  contours : List (Contour F)
  deriving DecidableEq, Repr

/-- src/shapeops.rs:586-588 `Polygon::new`. -/
def Polygon.new : Polygon F := ⟨[]⟩

/-- euclid 0.16 `TypedRect::union`: a rectangle of size zero is ignored. -/
def Rect.union (a b : Rect F) : Rect F :=
  if eq a.width (ofInt 0) && eq a.height (ofInt 0) then b
  else if eq b.width (ofInt 0) && eq b.height (ofInt 0) then a
  else
    let x := if le a.x b.x then a.x else b.x
    let y := if le a.y b.y then a.y else b.y
    let x1 := if le a.maxX b.maxX then b.maxX else a.maxX
    let y1 := if le a.maxY b.maxY then b.maxY else a.maxY
    ⟨x, y, sub x1 x, sub y1 y⟩

/-- src/shapeops.rs:609-618 `Polygon::bbox`. -/
def Polygon.bbox (p : Polygon F) : Rect F :=
  match p.contours with
  | [] => Rect.zero
  | c :: cs => cs.foldl (fun b c => b.union c.bbox) c.bbox

/-- src/shapeops.rs:605-607 `Polygon::nvertices`. -/
def Polygon.nvertices (p : Polygon F) : Nat := (p.contours.map fun c => c.points.length).sum

end Idc
