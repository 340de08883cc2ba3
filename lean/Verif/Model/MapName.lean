import Verif.Model.Wad
/-!
# Map names: src/parse/mod.rs and src/map.rs:19-31
-/

namespace Idc

/-- src/map.rs:19-22 `MapName`. -/
inductive MapName where
  | ExMy (e m : UInt8)
  | MAPxx (x : UInt8)
  deriving DecidableEq, Repr

/-- nom's `is_digit`. -/
def isDigit (b : UInt8) : Bool := 48 ≤ b.toNat && b.toNat ≤ 57

/-- src/parse/mod.rs:18-25 `exmy_map_name`. -/
def exmyMapName : Parser MapName := do
  tag (str "E")
  let e ← verify leU8 isDigit
  tag (str "M")
  let m ← verify leU8 isDigit
  naiveEof
  pure (.ExMy (e - 48) (m - 48))

/-- One decimal digit of `from_str_radix(10)`. -/
def digitVal (b : UInt8) : Option Nat := if isDigit b then some (b.toNat - 48) else none

/-- The digit loop of `from_str_radix(10)` for `u8` (checked multiply and add). -/
def u8Digits : Nat → Bytes → Option UInt8
  | acc, [] => some (UInt8.ofNat acc)
  | acc, b :: bs =>
    match digitVal b with
    | none => none
    | some d => if acc * 10 + d < 256 then u8Digits (acc * 10 + d) bs else none

/-- `u8::from_str` (std): an optional leading `+`, then at least one digit. -/
def u8FromStr : Bytes → Option UInt8
  | [] => none
  | b :: bs =>
    if b = 43 then (if bs = [] then none else u8Digits 0 bs)
    else u8Digits 0 (b :: bs)

/-- src/parse/mod.rs:27-41 `mapxx_map_name`.  Simplification: the inner `map_res!(take!(2),
str::from_utf8)` is folded into the outer `map_res!`: text that is not UTF-8 has a byte above 127,
on which `u8::from_str` fails too, with the same error kind at the same position. -/
def mapxxMapName : Parser MapName := do
  tag (str "MAP")
  let xx ← verify (mapRes (take 2) u8FromStr) (fun v => decide (1 ≤ v.toNat) && decide (v.toNat ≤ 32))
  naiveEof
  pure (.MAPxx xx)

/-- src/parse/mod.rs:43 `vanilla_map_name`. -/
def vanillaMapName : Parser MapName := alt2 exmyMapName mapxxMapName

/-- What `if let Ok((_, name)) = vanilla_map_name(..)` sees. -/
def mapNameOf (s : Bytes) : Option MapName :=
  match vanillaMapName s with
  | .ok _ n => some n
  | .err _ => none

/-- `{}` of a `u8` (std): decimal without leading zeros. -/
def showU8 (x : UInt8) : Bytes :=
  let n := x.toNat
  if n < 10 then [UInt8.ofNat (48 + n)]
  else if n < 100 then [UInt8.ofNat (48 + n / 10), UInt8.ofNat (48 + n % 10)]
  else [UInt8.ofNat (48 + n / 100), UInt8.ofNat (48 + n / 10 % 10), UInt8.ofNat (48 + n % 10)]

/-- `{:02}` of a `u8` (std): at least two digits, zero padded. -/
def showU8Pad2 (x : UInt8) : Bytes :=
  if x.toNat < 10 then 48 :: showU8 x else showU8 x

/-- src/map.rs:24-31 `Display for MapName`. -/
def MapName.display : MapName → Bytes
  | .ExMy x y => str "E" ++ showU8 x ++ str "M" ++ showU8 y
  | .MAPxx x => str "MAP" ++ showU8Pad2 x

end Idc
