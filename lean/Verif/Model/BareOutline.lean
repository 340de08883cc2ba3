import Verif.Model.FullMap
/-!
# Generic binary maps: src/parse/map.rs:193-226, 349-356, 478-592

`BareBinaryMap` is generic in its line and thing types; the methods modelled here use only a line's
vertex and side numbers, so a line is reduced to those (`BinLine`).
-/

namespace Idc

/-- What `BareBinaryLine` exposes (src/parse/map.rs:193-198): `vertex_indices` and `side_indices`. -/
structure BinLine where
  v0 : Int16
  v1 : Int16
  front : Int16
  back : Int16
  deriving DecidableEq, Repr

/-- The parts of `BareBinaryMap` (src/parse/map.rs:350-356) its methods use. -/
structure BinMap where
  vertices : List BareVertex
  sectors : List BareSector
  sides : List BareSide
  lines : List BinLine
  deriving DecidableEq, Repr

/-- A Doom map as a `BareBinaryMap` (src/parse/map.rs:199-212). -/
def BareDoomMap.bin (m : BareDoomMap) : BinMap :=
  { vertices := m.vertices, sectors := m.sectors, sides := m.sides,
    lines := m.lines.map fun l => ⟨l.v0, l.v1, l.front_sidedef, l.back_sidedef⟩ }

/-- A Hexen map as a `BareBinaryMap` (src/parse/map.rs:213-226). -/
def BareHexenMap.bin (m : BareHexenMap) : BinMap :=
  { vertices := m.vertices, sectors := m.sectors, sides := m.sides,
    lines := m.lines.map fun l => ⟨l.v0, l.v1, l.front_sidedef, l.back_sidedef⟩ }

/-- src/parse/map.rs:500-527, one side of one line. -/
def BinMap.pushSideEdge (m : BinMap) (s : Nat) (l : BinLine) (t : EdgeTable) (sideid : Int16) : Res EdgeTable :=
  if sideid = -1 then .ok t
  else do
    let side ← index m.sides (i16AsUsize sideid)
    if i16AsUsize side.sector = s then
      let _ ← index m.vertices (i16AsUsize l.v0)
      let _ ← index m.vertices (i16AsUsize l.v1)
      let edges := t.edges ++ [{ v0 := i16AsUsize l.v0, v1 := i16AsUsize l.v1, done := false }]
      let t1 := entryPush t.byVertex (i16AsUsize l.v0) (edges.length - 1)
      let t2 := entryPush t1 (i16AsUsize l.v1) (edges.length - 1)
      pure { edges := edges, byVertex := t2 }
    else pure t

/-- src/parse/map.rs:493-528, one line. -/
def BinMap.pushLineEdges (m : BinMap) (s : Nat) (t : EdgeTable) (l : BinLine) : Res EdgeTable := do
  let selfRef ← (if l.front ≠ -1 ∧ l.back ≠ -1 then do
      let f ← index m.sides (i16AsUsize l.front)
      let b ← index m.sides (i16AsUsize l.back)
      pure (f.sector == b.sector)
    else pure false : Res Bool)
  if selfRef then pure t
  else do
    let t ← m.pushSideEdge s l t l.front
    m.pushSideEdge s l t l.back

/-- src/parse/map.rs:490-528. -/
def BinMap.sectorEdges (m : BinMap) (s : Nat) : Res EdgeTable :=
  forEach (m.pushLineEdges s) m.lines { edges := [], byVertex := [] }

/-- src/parse/map.rs:535-546: the first vertex not seen yet, in edge order. -/
def firstUnseen (seen : List Nat) : List Edge → Option Nat
  | [] => none
  | e :: es =>
    if !seen.contains e.v0 then some e.v0
    else if !seen.contains e.v1 then some e.v1
    else firstUnseen seen es

/-- src/parse/map.rs:567-583: mark the first edge not done; queue its unseen end. -/
def followFirst (edges : List Edge) (seen next : List Nat) : List Nat → Res (List Edge × List Nat)
  | [] => .ok (edges, next)
  | e :: es => do
    let edge ← index edges e
    if edge.done then followFirst edges seen next es
    else do
      let edges ← indexMut edges e fun x => { x with done := true }
      if !seen.contains edge.v0 then pure (edges, next ++ [edge.v0])
      else if !seen.contains edge.v1 then pure (edges, next ++ [edge.v1])
      else pure (edges, next)

/-- The mutable variables of the tracing loops (src/parse/map.rs:532-551); references to vertices are
modelled by their index, `seen_vertices` by the list of its keys. -/
structure TraceState where
  edges : List Edge
  seen : List Nat
  outline : List Nat
  next : List Nat
  deriving DecidableEq, Repr

/-- src/parse/map.rs:555-584, one vertex. -/
def visitVertex (byVertex : List (Nat × List Nat)) (st : TraceState) (v : Nat) : Res TraceState :=
  if st.seen.contains v then .ok st
  else do
    let seen := v :: st.seen
    let es ← unwrap (entryGet byVertex v)
    let (edges, next) ← followFirst st.edges seen st.next es
    pure { edges := edges, seen := seen, outline := st.outline ++ [v], next := next }

/-- src/parse/map.rs:552-585, `while next_vertices.len() > 0`, fuelled. -/
def traceLoop (byVertex : List (Nat × List Nat)) : Nat → TraceState → Res TraceState
  | 0, _ => .diverge
  | fuel + 1, st =>
    match st.next with
    | [] => .ok st
    | v :: vs => do
      let st ← forEach (visitVertex byVertex) (v :: vs) { st with next := [] }
      traceLoop byVertex fuel st

/-- src/parse/map.rs:534-589, `while edges.len() > 0`, fuelled (inner loops cut off after `inner`
iterations). -/
def bareOutlineLoop (byVertex : List (Nat × List Nat)) (inner : Nat) :
    Nat → List Edge → List Nat → List (List Nat) → Res (List (List Nat))
  | 0, _, _, _ => .diverge
  | fuel + 1, edges, seen, outlines =>
    if edges.length > 0 then
      match firstUnseen seen edges with
      | none => .ok outlines
      | some v => do
        let st ← traceLoop byVertex inner { edges := edges, seen := seen, outline := [], next := [v] }
        let outlines := if st.outline.length > 0 then outlines ++ [st.outline] else outlines
        bareOutlineLoop byVertex inner fuel st.edges st.seen outlines
    else .ok outlines

/-- src/parse/map.rs:480-592 `BareBinaryMap::sector_to_polygons`; every loop cut off after `fuel`
iterations.  The outlines are lists of vertex references, here indices. -/
def BinMap.sectorToPolygons (m : BinMap) (s fuel : Nat) : Res (List (List Nat)) := do
  let t ← m.sectorEdges s
  bareOutlineLoop t.byVertex fuel fuel t.edges [] []

end Idc
