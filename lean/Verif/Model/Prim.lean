/-!
# Rust primitives

Bytes, panics, results, fixed-width integers.  Everything else in the model is built on these.
-/

namespace Idc

/-- `&[u8]`, `Vec<u8>` and `&str` contents (the strings handled here are byte strings that
`fixed_length_ascii` checked, src/parse/util.rs:6-29).  Simplification: no capacity limits. -/
abbrev Bytes := List UInt8

/-- A Rust byte/str literal such as `b"IWAD"` or `"THINGS"`. -/
def str (s : String) : Bytes := s.toList.map fun c => UInt8.ofNat c.toNat

/-- Why a Rust thread panicked. -/
inductive Panic where
  /-- slice or Vec index out of bounds -/
  | bounds
  /-- integer overflow in a debug build -/
  | overflow
  /-- `Option::unwrap` on `None` -/
  | unwrap
  /-- `panic!` / `unreachable!` -/
  | explicit
  deriving DecidableEq, Repr

/-- src/errors.rs:7-33, the `error_chain!` kinds (`Io` carries no payload here). -/
inductive ErrorKind where
  | io
  | parseError
  | truncatedData (whence : String)
  | invalidMagic
  | missingMapLump (lump : String)
  | negativeOffset (lump : String) (index : Nat) (value : Int)
  deriving DecidableEq, Repr

/-- Outcome of a call: a `Result`, a panic, or (only for fuelled loops) "still running". -/
inductive Res (α : Type u) where
  | ok (a : α)
  | err (e : ErrorKind)
  | panic (p : Panic)
  | diverge
  deriving DecidableEq, Repr

namespace Res

/-- `?` / sequencing. -/
def bind {α : Type u} {β : Type v} : Res α → (α → Res β) → Res β
  | ok a, f => f a
  | err e, _ => err e
  | panic p, _ => panic p
  | diverge, _ => diverge

instance : Monad Res where
  pure := ok
  bind := bind

def map {α : Type u} {β : Type v} (f : α → β) : Res α → Res β
  | ok a => ok (f a)
  | err e => err e
  | panic p => panic p
  | diverge => diverge

@[simp] theorem bind_ok (a : α) (f : α → Res β) : (ok a >>= f) = f a := rfl
@[simp] theorem bind_err (e) (f : α → Res β) : ((err e : Res α) >>= f) = err e := rfl
@[simp] theorem bind_panic (p) (f : α → Res β) : ((panic p : Res α) >>= f) = panic p := rfl
@[simp] theorem bind_diverge (f : α → Res β) : ((diverge : Res α) >>= f) = diverge := rfl
@[simp] theorem pure_eq (a : α) : (pure a : Res α) = ok a := rfl

/-- Run `f` over a list in order, stopping at the first failure (`for x in xs { ..?; }`). -/
def mapList {α : Type u} {β : Type v} (f : α → Res β) : List α → Res (List β)
  | [] => .ok []
  | x :: xs =>
    match f x with
    | .ok y =>
      match mapList f xs with
      | .ok ys => .ok (y :: ys)
      | .err e => .err e
      | .panic p => .panic p
      | .diverge => .diverge
    | .err e => .err e
    | .panic p => .panic p
    | .diverge => .diverge

/-- `Option::map` with a function that may panic (closures passed to `.map`). -/
def mapOption {α : Type u} {β : Type v} (f : α → Res β) : Option α → Res (Option β)
  | none => .ok none
  | some x =>
    match f x with
    | .ok y => .ok (some y)
    | .err e => .err e
    | .panic p => .panic p
    | .diverge => .diverge

/-- Did the call panic? -/
def isPanic : Res α → Bool
  | panic _ => true
  | _ => false

end Res

/-- `&buf[start..end]`. -/
def slice (b : Bytes) (s e : Nat) : Res Bytes :=
  if s ≤ e ∧ e ≤ b.length then .ok ((b.drop s).take (e - s)) else .panic .bounds

/-- `v[i]` on a Vec / slice. -/
def index {α : Type u} (l : List α) (i : Nat) : Res α :=
  match l[i]? with
  | some a => .ok a
  | none => .panic .bounds

/-- Build profile: debug builds panic on integer overflow, release builds wrap. -/
inductive Profile where
  | debug
  | release
  deriving DecidableEq, Repr

/-- `x as usize` for an `i16`, 64-bit: sign extension. -/
def i16AsUsize (x : Int16) : Nat :=
  if 0 ≤ x.toInt then x.toInt.toNat else (2 ^ 64 + x.toInt).toNat

/-- `x as usize` for an `i32`, 64-bit: sign extension. -/
def i32AsUsize (x : Int32) : Nat :=
  if 0 ≤ x.toInt then x.toInt.toNat else (2 ^ 64 + x.toInt).toNat

/-- `x as u32` for an `i16`: sign extension modulo 2^32. -/
def i16AsU32 (x : Int16) : UInt32 := x.toInt32.toUInt32

/-- `x as u8` for an `i16`: truncation. -/
def i16AsU8 (x : Int16) : UInt8 := x.toInt8.toUInt8

/-- An `i16` arithmetic result: `wide` is the mathematical value, which panics in a debug build if
it does not fit and wraps in a release build. -/
def i16Arith (pr : Profile) (wide : Int) : Res Int16 :=
  if -32768 ≤ wide ∧ wide ≤ 32767 then .ok (Int16.ofInt wide)
  else match pr with
    | .debug => .panic .overflow
    | .release => .ok (Int16.ofInt wide)

/-- `-x` -/
def negI16 (pr : Profile) (x : Int16) : Res Int16 := i16Arith pr (-x.toInt)
/-- `a - b` -/
def subI16 (pr : Profile) (a b : Int16) : Res Int16 := i16Arith pr (a.toInt - b.toInt)
/-- `a + b` -/
def addI16 (pr : Profile) (a b : Int16) : Res Int16 := i16Arith pr (a.toInt + b.toInt)

/-- `write_u16::<LittleEndian>` (byteorder). -/
def wU16 (x : UInt16) : Bytes := [UInt8.ofNat (x.toNat % 256), UInt8.ofNat (x.toNat / 256)]

/-- `write_i16::<LittleEndian>` (byteorder): two's complement. -/
def wI16 (x : Int16) : Bytes := wU16 x.toUInt16

/-- `write_u32::<LittleEndian>` (byteorder). -/
def wU32 (x : UInt32) : Bytes :=
  [UInt8.ofNat (x.toNat % 256), UInt8.ofNat (x.toNat / 256 % 256),
   UInt8.ofNat (x.toNat / 65536 % 256), UInt8.ofNat (x.toNat / 16777216)]

end Idc
