import Verif.Model.Cli
/-!
# The program: programs/src/idchoppers.rs:22-88, 610-709, and src/input_buffer.rs

The operating system is a parameter: what standard input yields, what the files contain, where one may write.  Not modelled:
how clap turns the command line into `Args`, the text of messages, colours, progress output.
-/

namespace Idc

open FloatOps

variable {F : Type} [FloatOps F]

/-! ### src/input_buffer.rs -/

/-- A read-only memory map: the file and the length at the time of mapping (memmap 0.6.2 maps `MAP_SHARED`). -/
structure Mmap where
  path : Bytes
  len : Nat
  deriving DecidableEq, Repr

/-- src/input_buffer.rs:14-17 `InputBuffer`. -/
inductive InputBuffer where
  | stdin (v : Bytes)
  | file (m : Mmap)
  deriving DecidableEq, Repr

/-- What the operating system offers at one moment. -/
structure World where
  /-- what reading standard input to its end gives; `none`: an error -/
  stdin : Option Bytes
  /-- the contents of the files; `none`: no such file, or it may not be read -/
  file : Bytes → Option Bytes
  /-- may a file of this name be created or overwritten? -/
  writable : Bytes → Bool

/-- src/input_buffer.rs:25-30 `new_from_stdin`. -/
def InputBuffer.newFromStdin (w : World) : Res InputBuffer :=
  match w.stdin with
  | some v => .ok (.stdin v)
  | none => .err .io

/-- src/input_buffer.rs:37-45 `new_from_file`.  Mapping an empty file is an error (memmap 0.6.2: "memory map must have a
non-zero length"). -/
def InputBuffer.newFromFile (w : World) (path : Bytes) : Res InputBuffer :=
  match w.file path with
  | some v => if v.length = 0 then .err .io else .ok (.file ⟨path, v.length⟩)
  | none => .err .io

/-- src/input_buffer.rs:48-53 `bytes`, and reading all of the slice while the world is `w`.  `none`: the process is killed
(SIGBUS), because the file is now shorter than the mapping. -/
def InputBuffer.bytes (b : InputBuffer) (w : World) : Option Bytes :=
  match b with
  | .stdin v => some v
  | .file m =>
    match w.file m.path with
    | some v => if m.len ≤ v.length then some (v.take m.len) else none
    | none => none

/-! ### programs/src/idchoppers.rs -/

/-- programs/src/idchoppers.rs:49-63: the subcommands clap knows. -/
inductive Subcommand where
  | info
  | chart (outfile : Bytes)
  | shapeops
  | route (outfile : Bytes)
  deriving DecidableEq, Repr

/-- programs/src/idchoppers.rs:45-64: the command line, parsed. -/
structure Args where
  file : Bytes
  sub : Option Subcommand
  deriving DecidableEq, Repr

/-- programs/src/idchoppers.rs:674-706: a contour of the drawing `shapeops` saves, with its number. -/
structure DemoShape (F : Type) where
  data : List (PathCmd F)
  label : Nat
  labelX : F
  labelY : F
  deriving DecidableEq, Repr

/-- What `shapeops` saves. -/
structure DemoDoc (F : Type) where
  viewBox : F × F × F × F
  shapes : List (DemoShape F)
  deriving DecidableEq, Repr

/-- A file written by the program. -/
inductive Saved (F : Type) where
  | chart (d : Chart F)
  | route (d : RouteDoc F)
  | demo (d : DemoDoc F)
  deriving DecidableEq, Repr

/-- What `println!` puts on standard output; progress messages are left out. -/
inductive OutLine where
  | info (l : InfoLine)
  /-- line 84 -/
  | bogus
  deriving DecidableEq, Repr

/-- What a run did: printed, saved (name and contents), and how `run` ended. -/
structure Effects (F : Type) where
  printed : List OutLine
  saved : List (Bytes × Saved F)
  outcome : Res Unit
  deriving DecidableEq, Repr

/-- Nothing but an end. -/
def Effects.ends (r : Res Unit) : Effects F := ⟨[], [], r⟩

/-- programs/src/idchoppers.rs:206, also 211 and 727: `svg::save(..).unwrap()`. -/
def saveUnwrap (w : World) (name : Bytes) (s : Saved F) : Effects F :=
  if w.writable name then ⟨[], [(name, s)], .ok ()⟩ else .ends (.panic .unwrap)

/-- programs/src/idchoppers.rs:706: `svg::save(..)?`. -/
def saveTry (w : World) (name : Bytes) (s : Saved F) : Effects F :=
  if w.writable name then ⟨[], [(name, s)], .ok ()⟩ else .ends (.err .io)

/-- The end of a command which saves at most one file. -/
def saveIf {α : Type} (r : Res (Option α)) (save : α → Effects F) : Effects F :=
  match r with
  | .ok (some d) => save d
  | .ok none => .ends (.ok ())
  | .err e => .ends (.err e)
  | .panic p => .ends (.panic p)
  | .diverge => .ends .diverge

/-- A polygon with one contour, given by whole coordinates: programs/src/idchoppers.rs:622-624, also 643-645, 664-671. -/
def demoPolygon (points : List (Int × Int)) : Polygon F :=
  ⟨[{ (Contour.new : Contour F) with points := points.map fun p => ⟨ofInt p.1, ofInt p.2⟩ }]⟩

/-- programs/src/idchoppers.rs:611-624: `poly1`, before `compute_holes`. -/
def demoPoly1 : Polygon F := demoPolygon [(0, 0), (0, 64), (32, 64), (32, 0)]
/-- programs/src/idchoppers.rs:632-646: `poly2`. -/
def demoPoly2 : Polygon F := demoPolygon [(0, 0), (0, 64), (64, 64), (64, 0)]
/-- programs/src/idchoppers.rs:663-671: `poly3`. -/
def demoPoly3 : Polygon F := demoPolygon [(0, 0), (64, 0), (64, 32), (0, 32)]

/-- programs/src/idchoppers.rs:685-704: draw one contour; `unwrap` and `points[0]` panic if it has no points.
Negation is subtraction from zero (they differ in the sign of zero only). -/
def demoShape (i : Nat) (c : Contour F) : Res (DemoShape F) := do
  let last ← unwrap c.points.getLast?
  let first ← index c.points 0
  let neg (y : F) : F := sub (ofInt 0) y
  pure ⟨.moveTo last.x (neg last.y) :: c.points.map fun p => .lineTo p.x (neg p.y), i, add first.x (ofInt 8), sub (neg first.y) (ofInt 8)⟩

/-- programs/src/idchoppers.rs:682-705: draw the contours, numbered from `i`. -/
def demoShapes : Nat → List (Contour F) → Res (List (DemoShape F))
  | _, [] => .ok []
  | i, c :: cs => do
    let s ← demoShape i c
    let rest ← demoShapes (i + 1) cs
    pure (s :: rest)

/-- programs/src/idchoppers.rs:610-706 `do_shapeops`, up to saving: the document.  The messages, which call `clockwise`,
`external` and `bbox` on polygons that are not changed by it, are not modelled. -/
def demoDoc (lib : Lib) (fuel : Nat) : Res (DemoDoc F) := do
  let poly1 ← demoPoly1.computeHoles lib
  let result ← compute lib fuel [(poly1, .normal), (demoPoly2, .normal), (demoPoly3, .normal)] .union
  let bbox := result.bbox
  let margin : F := ofInt 16
  let shapes ← demoShapes 0 result.contours
  pure ⟨(sub bbox.x margin, sub (sub (ofInt 0) bbox.maxY) margin, add bbox.width (ofInt 32), add bbox.height (ofInt 32)), shapes⟩

/-- The name of the file `shapeops` writes, programs/src/idchoppers.rs:706. -/
def demoFile : Bytes := str "idchoppers-shapeops.svg"

/-- programs/src/idchoppers.rs:78-85: dispatch.  The arm for `flip` is left out: clap does not know such a subcommand, so it
is never taken. -/
def dispatch (pr : Profile) (lib : Lib) (order : List Bytes → List Bytes) (fuel : Nat) (w : World) (wad : BareWAD) : Option Subcommand → Effects F
  | some .info =>
    let p := doInfo F order wad
    ⟨p.lines.map .info, [], p.outcome⟩
  | some (.chart outfile) => saveIf (doChart pr fuel wad) fun d => saveUnwrap w outfile (.chart d)
  | some .shapeops => saveIf ((demoDoc lib fuel : Res (DemoDoc F)).map some) fun d => saveTry w demoFile (.demo d)
  | some (.route outfile) => saveIf (doRoute lib fuel wad) fun d => saveUnwrap w outfile (.route d)
  | none => ⟨[.bogus], [], .ok ()⟩

/-- programs/src/idchoppers.rs:70-73: the input; `-` is standard input. -/
def openInput (w : World) (file : Bytes) : Res InputBuffer :=
  if file = str "-" then InputBuffer.newFromStdin w else InputBuffer.newFromFile w file

/-- programs/src/idchoppers.rs:43-88 `run`.  Nobody changes the input file during the run (see C66). -/
def run (pr : Profile) (lib : Lib) (order : List Bytes → List Bytes) (fuel : Nat) (w : World) (args : Args) : Effects F :=
  match openInput w args.file with
  | .ok input =>
    match input.bytes w with
    | some bytes =>
      match parseWad bytes with
      | .ok wad => dispatch pr lib order fuel w wad args.sub
      | .err e => .ends (.err e)
      | .panic p => .ends (.panic p)
      | .diverge => .ends .diverge
    | none => .ends (.panic .explicit)
  | .err e => .ends (.err e)
  | .panic p => .ends (.panic p)
  | .diverge => .ends .diverge

/-- How the process ends. -/
inductive Exit where
  /-- exit status -/
  | status (n : Nat)
  /-- it runs on -/
  | running
  deriving DecidableEq, Repr

/-- What is seen of the process from outside: standard output, files, the error on standard error, the end. -/
structure Process (F : Type) where
  printed : List OutLine
  saved : List (Bytes × Saved F)
  error : Option ErrorKind
  exit : Exit
  deriving DecidableEq, Repr

/-- programs/src/idchoppers.rs:22-41 `main`, `write_err`: an error is printed to standard error (failures to do so are
dropped), and `main` returns.  A panic ends a Rust process with status 101. -/
def mainProcess (e : Effects F) : Process F :=
  match e.outcome with
  | .ok () => ⟨e.printed, e.saved, none, .status 0⟩
  | .err k => ⟨e.printed, e.saved, some k, .status 0⟩
  | .panic _ => ⟨e.printed, e.saved, none, .status 101⟩
  | .diverge => ⟨e.printed, e.saved, none, .running⟩

end Idc
