import Verif.Model.Float
/-!
# Double precision: IEEE 754 binary64

The arithmetic the code runs with: 53 significant bits, smallest exponent -1074, round to nearest with ties to even, two
zeros, two infinities, NaN.  (std; the Rust reference, "Floating-point types".)  NaNs are not told apart.

The operations can be evaluated.  That they are what IEEE 754 says is not proved (nor is it of the hardware); the laws that the
theorems use are `Double` in Verif.Spec.Double, and proved of these definitions in Verif.Props.F64.
-/

namespace Idc

/-- A double-precision number: the sign and the magnitude.  (A magnitude that double precision does not have, such as 1/3,
is never the result of an operation.) -/
inductive F64 where
  | nan
  | inf (neg : Bool)
  | num (neg : Bool) (mag : Rat)
  deriving DecidableEq

namespace F64

/-- The quotient of `n` and `d`, rounded to the nearest whole number, ties to even. -/
def divRound (n d : Nat) : Nat :=
  let m := n / d
  let r := 2 * (n % d)
  if r < d then m else if d < r then m + 1 else if m % 2 = 0 then m else m + 1

/-- The exponent of `n / d > 0`: the largest `e` with `2^e ≤ n / d`. -/
def expo (n d : Nat) : Int :=
  let k : Int := (n.log2 : Int) - (d.log2 : Int)
  if (if 0 ≤ k then d * 2 ^ k.toNat ≤ n else d ≤ n * 2 ^ (-k).toNat) then k else k - 1

/-- The exponent of the last bit kept. -/
def lastBit (n d : Nat) : Int := max (expo n d - 52) (-1074)

/-- `m·2^e`. -/
def scale (m : Nat) (e : Int) : Rat := if 0 ≤ e then ((m * 2 ^ e.toNat : Nat) : Rat) else mkRat m (2 ^ (-e).toNat)

/-- Round `n / d`, whatever its size. -/
def roundNat (n d : Nat) : Rat :=
  let e := lastBit n d
  scale (if 0 ≤ e then divRound n (d * 2 ^ e.toNat) else divRound (n * 2 ^ (-e).toNat) d) e

/-- Round a magnitude, whatever its size. -/
def roundMag (q : Rat) : Rat := roundNat q.num.toNat q.den

/-- The result of an operation with the given sign and exact magnitude: too large numbers become infinite. -/
def ofMag (neg : Bool) (q : Rat) : F64 :=
  let r := roundMag q
  if 2 ^ 1024 ≤ r then .inf neg else .num neg r

/-- The value. -/
def val : F64 → Rat
  | .num neg q => if neg then -q else q
  | _ => 0

/-- The result of an operation with the given exact value; an exact zero has the given sign. -/
def ofRat (zero : Bool) (q : Rat) : F64 :=
  if q = 0 then .num zero 0 else if q < 0 then ofMag true (-q) else ofMag false q

/-- Negation. -/
def neg : F64 → F64
  | .nan => .nan
  | .inf s => .inf !s
  | .num s q => .num (!s) q

/-- Addition. -/
def add : F64 → F64 → F64
  | .nan, _ => .nan
  | _, .nan => .nan
  | .inf s, .inf t => if s = t then .inf s else .nan
  | .inf s, _ => .inf s
  | _, .inf t => .inf t
  | .num s a, .num t b => ofRat (s && t) (val (.num s a) + val (.num t b))

/-- Multiplication. -/
def mul : F64 → F64 → F64
  | .nan, _ => .nan
  | _, .nan => .nan
  | .inf s, .inf t => .inf (s != t)
  | .inf s, .num t b => if b = 0 then .nan else .inf (s != t)
  | .num s a, .inf t => if a = 0 then .nan else .inf (s != t)
  | .num s a, .num t b => ofMag (s != t) (a * b)

/-- Division. -/
def div : F64 → F64 → F64
  | .nan, _ => .nan
  | _, .nan => .nan
  | .inf _, .inf _ => .nan
  | .inf s, .num t _ => .inf (s != t)
  | .num s _, .inf t => .num (s != t) 0
  | .num s a, .num t b => if b = 0 then (if a = 0 then .nan else .inf (s != t)) else ofMag (s != t) (a / b)

/-- Square root: the root of `q·4^k`, rounded down, has at least 55 bits; if it is not exact, half a unit is added,
which rounds the same way as the exact root. -/
def sqrtMag (q : Rat) : Rat :=
  let k := 60 + q.den.log2
  let n := q.num.toNat * 4 ^ k / q.den
  let m := Nat.sqrt n
  if m * m * q.den = q.num.toNat * 4 ^ k then roundNat m (2 ^ k) else roundNat (2 * m + 1) (2 ^ (k + 1))

/-- `f64::sqrt`. -/
def sqrt : F64 → F64
  | .nan => .nan
  | .inf s => if s then .nan else .inf false
  | .num s q => if q = 0 then .num s 0 else if s then .nan else .num false (sqrtMag q)

/-- `f64::abs`. -/
def abs : F64 → F64
  | .nan => .nan
  | .inf _ => .inf false
  | .num _ q => .num false q

/-- `f64::fract`: `self - self.trunc()`.  (The difference of equal numbers is the positive zero.) -/
def fract : F64 → F64
  | .nan => .nan
  | .inf _ => .nan
  | .num s q => let f := q - q.floor; if f = 0 then .num false 0 else .num s f

/-- `f64::round`: half away from zero. -/
def round : F64 → F64
  | .nan => .nan
  | .inf s => .inf s
  | .num s q => .num s (q + 1 / 2).floor

/-- `a < b`. -/
def lt : F64 → F64 → Bool
  | .nan, _ => false
  | _, .nan => false
  | .inf s, .inf t => s && !t
  | .inf s, .num _ _ => s
  | .num _ _, .inf t => !t
  | .num s a, .num t b => decide (val (.num s a) < val (.num t b))

/-- `a == b`. -/
def eq : F64 → F64 → Bool
  | .nan, _ => false
  | _, .nan => false
  | .inf s, .inf t => s == t
  | .inf _, .num _ _ => false
  | .num _ _, .inf _ => false
  | .num s a, .num t b => decide (val (.num s a) = val (.num t b))

/-- `f64::min`: NaN is ignored.  (Which of two zeros is returned is not specified.) -/
def min (a b : F64) : F64 := if a = .nan then b else if b = .nan then a else if lt b a then b else a

/-- `f64::max`. -/
def max (a b : F64) : F64 := if a = .nan then b else if b = .nan then a else if lt a b then b else a

end F64

/-- The `f64` operations. -/
instance : FloatOps F64 where
  ofInt n := F64.ofRat false n
  lit m k := F64.ofRat false (mkRat m (10 ^ k))
  nan := .nan
  add := F64.add
  sub a b := F64.add a (F64.neg b)
  mul := F64.mul
  div := F64.div
  sqrt := F64.sqrt
  abs := F64.abs
  fract := F64.fract
  round := F64.round
  min := F64.min
  max := F64.max
  lt := F64.lt
  eq := F64.eq

end Idc
