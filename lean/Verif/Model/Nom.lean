import Verif.Model.Prim
/-!
# The part of nom 4 (feature `verbose-errors`) that idchoppers uses

idchoppers depends on `nom = "^4.0"` with `verbose-errors` (Cargo.toml:19-21).  nom's source is not
in /repo; these definitions follow nom 4's macros and are part of the trusted base.
The input type is always `&[u8]`, i.e. a *partial* input: running out of bytes is `Incomplete`.
-/

namespace Idc

/-- `nom::ErrorKind`, the kinds that can occur here. -/
inductive NomKind where
  | tag | alt | verify | mapRes | eof | count | many0 | complete
  | custom (n : Nat)
  deriving DecidableEq, Repr

/-- `nom::Context` with `verbose-errors`: a single code, or a list of them. -/
inductive NomCtx where
  | code (at_ : Bytes) (k : NomKind)
  | list (l : List (Bytes × NomKind))
  deriving DecidableEq, Repr

/-- `nom::Err`. -/
inductive NomErr where
  | incomplete (needed : Nat)
  | error (c : NomCtx)
  | failure (c : NomCtx)
  deriving DecidableEq, Repr

/-- `nom::IResult<&[u8], α>`: remaining input and value, or an error. -/
inductive IResult (α : Type u) where
  | ok (rest : Bytes) (a : α)
  | err (e : NomErr)
  deriving DecidableEq, Repr

/-- A parser over `&[u8]`. -/
def Parser (α : Type) := Bytes → IResult α

namespace Parser

/-- `do_parse!` sequencing: run one parser, then the next on the remaining input. -/
def bind {α β : Type} (p : Parser α) (f : α → Parser β) : Parser β := fun i =>
  match p i with
  | .ok rest a => f a rest
  | .err e => .err e

instance : Monad Parser where
  pure a := fun i => .ok i a
  bind := bind

theorem bind_def {α β : Type} (p : Parser α) (f : α → Parser β) (i : Bytes) :
    (p >>= f) i = (match p i with | .ok rest a => f a rest | .err e => .err e) := rfl

theorem pure_def {α : Type} (a : α) (i : Bytes) : (pure a : Parser α) i = .ok i a := rfl

end Parser

/-- `Compare for &[u8]`: first difference wins, otherwise too short is Incomplete. -/
def tagGo (whole : Bytes) (n : Nat) : Bytes → Bytes → IResult Unit
  | rest, [] => .ok rest ()
  | [], _ :: _ => .err (.incomplete n)
  | b :: bs, t :: ts => if b = t then tagGo whole n bs ts else .err (.error (.code whole .tag))

/-- `tag!(t)`. -/
def tag (t : Bytes) : Parser Unit := fun i => tagGo i t.length i t

/-- `le_u8`. -/
def leU8 : Parser UInt8
  | a :: r => .ok r a
  | _ => .err (.incomplete 1)

/-- `le_u16`. -/
def leU16 : Parser UInt16
  | a :: b :: r => .ok r (UInt16.ofNat (a.toNat + 256 * b.toNat))
  | _ => .err (.incomplete 2)

/-- `le_i16`: the same bits as `le_u16`. -/
def leI16 : Parser Int16
  | a :: b :: r => .ok r (UInt16.ofNat (a.toNat + 256 * b.toNat)).toInt16
  | _ => .err (.incomplete 2)

/-- `le_u32`. -/
def leU32 : Parser UInt32
  | a :: b :: c :: d :: r =>
    .ok r (UInt32.ofNat (a.toNat + 256 * b.toNat + 65536 * c.toNat + 16777216 * d.toNat))
  | _ => .err (.incomplete 4)

/-- `le_i32`: the same bits as `le_u32`. -/
def leI32 : Parser Int32
  | a :: b :: c :: d :: r =>
    .ok r (UInt32.ofNat (a.toNat + 256 * b.toNat + 65536 * c.toNat + 16777216 * d.toNat)).toInt32
  | _ => .err (.incomplete 4)

/-- `take!(n)`. -/
def take (n : Nat) : Parser Bytes := fun i =>
  if i.length < n then .err (.incomplete n) else .ok (i.drop n) (i.take n)

/-- `alt!(a | b)`: only a recoverable `Error` tries the next alternative; if all fail the error is
`Alt` at the start position. -/
def alt2 {α : Type} (p q : Parser α) : Parser α := fun i =>
  match p i with
  | .err (.error _) =>
    match q i with
    | .err (.error _) => .err (.error (.code i .alt))
    | r => r
  | r => r

/-- `error_node_position!` with verbose errors: extend the error list. -/
def errorNode (i : Bytes) (k : NomKind) : NomCtx → NomCtx
  | .code j e => .list [(j, e), (i, k)]
  | .list l => .list (l ++ [(i, k)])

/-- `return_error!(k, p)`: turn errors into failures, adding a context. -/
def returnError {α : Type} (k : NomKind) (p : Parser α) : Parser α := fun i =>
  match p i with
  | .err (.error c) => .err (.failure (errorNode i k c))
  | .err (.failure c) => .err (.failure (errorNode i k c))
  | r => r

/-- `value!(v, p)`. -/
def value {α β : Type} (v : α) (p : Parser β) : Parser α := fun i =>
  match p i with
  | .ok rest _ => .ok rest v
  | .err e => .err e

/-- `verify!(p, f)`. -/
def verify {α : Type} (p : Parser α) (f : α → Bool) : Parser α := fun i =>
  match p i with
  | .ok rest a => if f a then .ok rest a else .err (.error (.code i .verify))
  | .err e => .err e

/-- `map_res!(p, f)`. -/
def mapRes {α β : Type} (p : Parser α) (f : α → Option β) : Parser β := fun i =>
  match p i with
  | .ok rest a =>
    match f a with
    | some b => .ok rest b
    | none => .err (.error (.code i .mapRes))
  | .err e => .err e

/-- `complete!(p)`: out of input becomes a recoverable error. -/
def complete {α : Type} (p : Parser α) : Parser α := fun i =>
  match p i with
  | .err (.incomplete _) => .err (.error (.code i .complete))
  | r => r

/-- `count!(p, n)` / `count_fixed!(p, n)`. -/
def count {α : Type} (p : Parser α) (start : Bytes) : Nat → Parser (List α)
  | 0 => fun i => .ok i []
  | n + 1 => fun i =>
    match p i with
    | .ok rest a =>
      match count p start n rest with
      | .ok rest' as => .ok rest' (a :: as)
      | .err e => .err e
    | .err (.error _) => .err (.error (.code start .count))
    | .err e => .err e

/-- `many0!(p)`: repeat until a recoverable error; a parser that consumes nothing is an error.
(The length test is implied by nom's `i == input` test for parsers that return a suffix of their
input; it is there for termination.) -/
def many0 {α : Type} (p : Parser α) (i : Bytes) : IResult (List α) :=
  match p i with
  | .ok rest a =>
    if _h : rest.length < i.length then
      match many0 p rest with
      | .ok rest' as => .ok rest' (a :: as)
      | .err e => .err e
    else .err (.error (.code i .many0))
  | .err (.error _) => .ok i []
  | .err e => .err e
termination_by i.length

/-- src/errors.rs:36-69 `nom_to_result`.  The `println!` in the `Code` branch indexes `pos[0]` and
`input[0]`, so it panics if either is empty (line 61). -/
def nomToResult {α : Type} (whence : String) (input : Bytes) : IResult α → Res α
  | .ok _ a => .ok a
  | .err (.incomplete _) => .err (.truncatedData whence)
  | .err (.error c) | .err (.failure c) =>
    match c with
    | .list _ => .err .parseError
    | .code pos k =>
      if pos = [] ∨ input = [] then .panic .bounds
      else if k = .custom 1 then .err .invalidMagic
      else .err .parseError

end Idc
