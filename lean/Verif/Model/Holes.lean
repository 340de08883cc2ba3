import Verif.Model.Segment
/-!
# `Polygon::compute_holes`: src/shapeops.rs:626-739
-/

namespace Idc

open FloatOps

variable {F : Type} [FloatOps F]

/-- A segment of `compute_holes`: its data is (contour_id, point_id). -/
abbrev HoleSegment (F : Type) := SweepSegment F (Nat × Nat)

/-- src/shapeops.rs:639-647: the segments of one contour that are not vertical. -/
def holeSegmentsOf (contourId : Nat) : Nat → List (Pt F × Pt F) → List (HoleSegment F) → Res (List (HoleSegment F))
  | _, [], segs => .ok segs
  | pointId, (p0, p1) :: rest, segs =>
    if eq p0.x p1.x then holeSegmentsOf contourId (pointId + 1) rest segs
    else do
      let s ← SweepSegment.new p0 p1 segs.length 0 (contourId, pointId)
      holeSegmentsOf contourId (pointId + 1) rest (segs ++ [s])

/-- src/shapeops.rs:634-648: make every contour counterclockwise and collect its segments. -/
def holeSegments : Nat → List (Contour F) → List (Contour F) → List (HoleSegment F) → Res (List (Contour F) × List (HoleSegment F))
  | _, [], done, segs => .ok (done, segs)
  | contourId, c :: cs, done, segs => do
    let c ← c.setCounterclockwise
    let edges ← c.segments
    let segs ← holeSegmentsOf contourId 0 edges segs
    holeSegments (contourId + 1) cs (done ++ [c]) segs

/-- The state of the sweep in `compute_holes`, src/shapeops.rs:671-677. -/
structure HoleState (F : Type) where
  contours : List (Contour F)
  active : List (HoleSegment F)
  processed : List Bool
  hole_of : List (Option Nat)
  nprocessed : Nat

/-- `self.contours[i] = f(self.contours[i])`. -/
def modifyContour (cs : List (Contour F)) (i : Nat) (f : Contour F → Res (Contour F)) : Res (List (Contour F)) := do
  let c ← index cs i
  let c ← f c
  pure (cs.set i c)

/-- src/shapeops.rs:714-722, also 725-733: contour `id` becomes a hole of `parent`. -/
def makeHole (st : HoleState F) (id parent : Nat) : Res (HoleState F) := do
  let hole_of := st.hole_of.set id (some parent)
  let cs ← modifyContour st.contours id fun c => .ok (c.setExternal false)
  let cs ← modifyContour cs parent fun c => .ok (c.addHole id)
  let p ← index cs parent
  let (ccw, p) ← p.counterclockwise
  let cs := cs.set parent p
  let cs ← modifyContour cs id fun c => if ccw then c.setClockwise else c.setCounterclockwise
  pure { st with contours := cs, hole_of := hole_of }

/-- src/shapeops.rs:684-737, one turn of the loop after the early exit; `processed[contour_id]` and
`hole_of[..]` are bounds-checked. -/
def holeStep (lib : Lib) (st : HoleState F) (segment : HoleSegment F) (e : SegmentEnd) : Res (HoleState F) :=
  match e with
  | .right => do
    let active ← lib.setRemove SweepSegment.cmp segment st.active
    pure { st with active := active }
  | .left => do
    let active ← lib.setInsert SweepSegment.cmp segment st.active
    let st := { st with active := active }
    let id := segment.data.1
    let p ← index st.processed id
    if p then pure st
    else do
      let st := { st with processed := st.processed.set id true, nprocessed := st.nprocessed + 1 }
      let prev ← lib.setPrev SweepSegment.cmp segment st.active
      match prev with
      | none => do
        let cs ← modifyContour st.contours id Contour.setCounterclockwise
        pure { st with contours := cs }
      | some prev =>
        let prevId := prev.data.1
        if !prev.faces_outwards then makeHole st id prevId
        else do
          let h ← index st.hole_of prevId
          match h with
          | some parent => makeHole st id parent
          | none => do
            let cs ← modifyContour st.contours id Contour.setCounterclockwise
            pure { st with contours := cs }

/-- src/shapeops.rs:678-738: the loop, left early once every contour has been seen. -/
def holeLoop (lib : Lib) : List (HoleSegment F × SegmentEnd) → HoleState F → Res (HoleState F)
  | [], st => .ok st
  | (s, e) :: rest, st =>
    if st.contours.length ≤ st.nprocessed then .ok st
    else do
      let st ← holeStep lib st s e
      holeLoop lib rest st

/-- src/shapeops.rs:652-656: the endpoints of the segments. -/
def holeEndpoints (segs : List (HoleSegment F)) : List (HoleSegment F × SegmentEnd) :=
  segs.flatMap fun s => [(s, .left), (s, .right)]

/-- src/shapeops.rs:626-739 `Polygon::compute_holes`. -/
def Polygon.computeHoles (lib : Lib) (p : Polygon F) : Res (Polygon F) :=
  match p.contours with
  | [] => .ok p
  | [c] => do
    let (cw, c) ← c.clockwise
    pure ⟨[if cw then c.changeOrientation else c]⟩
  | cs => do
    let (cs, segs) ← holeSegments 0 cs [] []
    let endpoints ← lib.sort (fun a b => endpointCmp a.1 a.2 b.1 b.2) (holeEndpoints segs)
    let st : HoleState F := ⟨cs, [], List.replicate cs.length false, List.replicate cs.length none, 0⟩
    let st ← holeLoop lib endpoints st
    pure ⟨st.contours⟩

end Idc
