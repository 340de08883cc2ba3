import Verif.Model.BinMap
/-!
# The `flip` command: programs/src/idchoppers.rs:512-603

Simplifications: the output file is modelled by its final contents (`File::create` and the writes to
it are assumed to succeed and to write everything); `println!` is ignored.
-/

namespace Idc

/-- The three mutable variables of `do_flip` (programs/src/idchoppers.rs:513-515). -/
structure FlipState where
  buffer : Bytes
  directory : List DirEntry
  filepos : Nat
  deriving DecidableEq, Repr

/-- programs/src/idchoppers.rs:527-529. -/
def flipThing (pr : Profile) (t : BareDoomThing) : Res BareDoomThing := do
  let y ← negI16 pr t.y
  let angle ← negI16 pr t.angle
  pure { t with y := y, angle := angle }

/-- programs/src/idchoppers.rs:540. -/
def flipLine (l : BareDoomLine) : BareDoomLine := { l with v0 := l.v1, v1 := l.v0 }

/-- programs/src/idchoppers.rs:563. -/
def flipVertex (pr : Profile) (v : BareVertex) : Res BareVertex := do
  let y ← negI16 pr v.y
  pure { v with y := y }

/-- programs/src/idchoppers.rs:519-523, the empty marker lump. -/
def FlipState.pushMarker (s : FlipState) (name : Bytes) : FlipState :=
  { s with directory := s.directory ++ [{ filepos := UInt32.ofNat (s.filepos + 12), size := 0, name := name }] }

/-- programs/src/idchoppers.rs:526-536 (and the four similar passages): append the lump's bytes to the
buffer and its row to the directory. -/
def FlipState.pushLump (s : FlipState) (name : Bytes) (data : Bytes) : FlipState :=
  let buffer := s.buffer ++ data
  { buffer := buffer
    directory := s.directory ++ [{ filepos := UInt32.ofNat (s.filepos + 12),
                                   size := UInt32.ofNat (buffer.length - s.filepos), name := name }]
    filepos := buffer.length }

/-- programs/src/idchoppers.rs:516-585, one iteration of the loop over maps. -/
def flipMap (pr : Profile) (w : BareWAD) (s : FlipState) (range : MapEntryBlock) : Res FlipState := do
  let bareMap ← parseDoomMap w range
  match bareMap with
  | .hexen _ => .ok s
  | .doom map => do
    let marker ← index w.directory range.marker_index
    let s := s.pushMarker marker.name
    let things ← Res.mapList (flipThing pr) map.things
    let s := s.pushLump (str "THINGS") (things.flatMap BareDoomThing.writeTo)
    let s := s.pushLump (str "LINEDEFS") ((map.lines.map flipLine).flatMap BareDoomLine.writeTo)
    let s := s.pushLump (str "SIDEDEFS") (map.sides.flatMap BareSide.writeTo)
    let vertices ← Res.mapList (flipVertex pr) map.vertices
    let s := s.pushLump (str "VERTEXES") (vertices.flatMap BareVertex.writeTo)
    let s := s.pushLump (str "SECTORS") (map.sectors.flatMap BareSector.writeTo)
    pure s

/-- programs/src/idchoppers.rs:516-585, the loop. -/
def flipLoop (pr : Profile) (w : BareWAD) : List MapEntryBlock → FlipState → Res FlipState
  | [], s => .ok s
  | r :: rs, s => do
    let s ← flipMap pr w s r
    flipLoop pr w rs s

/-- programs/src/idchoppers.rs:586-599, the file written. -/
def FlipState.file (s : FlipState) : Bytes :=
  str "PWAD" ++ wU32 (UInt32.ofNat s.directory.length) ++ wU32 (UInt32.ofNat (12 + s.buffer.length)) ++ s.buffer ++
    s.directory.flatMap fun e => wU32 e.filepos ++ wU32 e.size ++ e.name ++ List.replicate (8 - e.name.length) 0

/-- programs/src/idchoppers.rs:512-603 `do_flip`: the contents of flipped.wad. -/
def doFlip (pr : Profile) (w : BareWAD) : Res Bytes := do
  let s ← flipLoop pr w w.iterMaps { buffer := [], directory := [], filepos := 0 }
  pure s.file

end Idc
