/-
Executable bit-level model of IEEE-754 binary floating point, used for Rust's `f32` and `f64`.

`/repo/src/math/scalar.rs` implements `Scalar`/`SignedScalar`/`GFloat` for `f32` (lines 341-375, 376-570)
and `f64` (lines 355-375, 571-766) on top of the primitive operations of Rust's float types.  Those primitive
operations are not code of the repository; they are modelled here from IEEE-754 (round to nearest, ties to
even), which Rust guarantees for `+ - * / sqrt`, comparisons and `as` casts.

Key idea: a non-negative float with magnitude bits `i` (all bits but the sign) denotes the natural number
`magN mw i` of "smallest subnormals" (`2^-(fK mw ew)`); `magN` is strictly increasing in `i`.
-/

namespace Scarlet

/-- A binary floating-point number with `mw` mantissa bits and `ew` exponent bits, as its raw bits
(Rust: `f32::to_bits`, `f64::to_bits`). -/
structure Flt (mw ew : Nat) where
  bits : BitVec (mw + ew + 1)
deriving DecidableEq, Repr

/-- Rust's `f32`. -/
abbrev F32 := Flt 23 8
/-- Rust's `f64`. -/
abbrev F64 := Flt 52 11

/-- Side conditions on a format (satisfied by binary32 and binary64). -/
class Fmt (mw ew : Nat) : Prop where
  hmw : 2 ≤ mw
  hew : 3 ≤ ew

instance : Fmt 23 8 := ⟨by decide, by decide⟩
instance : Fmt 52 11 := ⟨by decide, by decide⟩

/-- The magnitude, in units of the smallest subnormal, denoted by magnitude bits `i`
(biased exponent `i / 2^mw`, mantissa field `i % 2^mw`), with no upper limit on the exponent. -/
def magN (mw i : Nat) : Nat :=
  if i < 2 ^ mw then i else (2 ^ mw + i % 2 ^ mw) * 2 ^ (i / 2 ^ mw - 1)

/-- Largest `i` with `magN mw i ≤ n`. -/
def floorIdx (mw n : Nat) : Nat :=
  if n < 2 ^ mw then n else
    let e := Nat.log2 n - mw
    e * 2 ^ mw + n / 2 ^ e

/-- Choice between neighbours `i` and `i+1` given how the exact value compares with their midpoint:
round to nearest, ties to even. -/
def rneStep (i : Nat) : Ordering → Nat
  | .lt => i
  | .gt => i + 1
  | .eq => if i % 2 = 0 then i else i + 1

/-- Magnitude bits nearest to the rational `n / d` (in smallest-subnormal units). -/
def roundRat (mw n d : Nat) : Nat :=
  let i := floorIdx mw (n / d)
  rneStep i (compare (2 * n) (d * (magN mw i + magN mw (i + 1))))

/-- Integer square root, two bits per step, with fuel. -/
def isqrtAux : Nat → Nat → Nat
  | 0, _ => 0
  | fuel + 1, n =>
    let s := 2 * isqrtAux fuel (n / 4)
    if (s + 1) * (s + 1) ≤ n then s + 1 else s

/-- `⌊√n⌋`. -/
def isqrt (n : Nat) : Nat := isqrtAux (Nat.log2 n + 1) n

/-- Magnitude bits nearest to `√n` (in smallest-subnormal units). -/
def roundSqrt (mw n : Nat) : Nat :=
  let i := floorIdx mw (isqrt n)
  rneStep i (compare (4 * n) ((magN mw i + magN mw (i + 1)) ^ 2))

namespace Flt

variable {mw ew : Nat}

/-- Scale: the smallest subnormal is `2^-(fK)` (149 for f32, 1074 for f64). -/
def fK (mw ew : Nat) : Nat := mw + (2 ^ (ew - 1) - 1) - 1

/-- Magnitude bits of infinity (all-ones exponent, zero mantissa). -/
def infIdx (mw ew : Nat) : Nat := (2 ^ ew - 1) * 2 ^ mw

/-- Sign bit. -/
def sgn (x : Flt mw ew) : Bool := decide (2 ^ (mw + ew) ≤ x.bits.toNat)

/-- All bits but the sign. -/
def idx (x : Flt mw ew) : Nat := x.bits.toNat % 2 ^ (mw + ew)

/-- Assemble a float from sign and magnitude bits. -/
def ofIdx (mw ew : Nat) (s : Bool) (i : Nat) : Flt mw ew :=
  ⟨BitVec.ofNat _ ((if s then 2 ^ (mw + ew) else 0) + i)⟩

/-- Assemble a rounded result; magnitudes that do not fit overflow to infinity. -/
def pack (mw ew : Nat) (s : Bool) (i : Nat) : Flt mw ew :=
  ofIdx mw ew s (min i (infIdx mw ew))

/-- `f32::is_nan` -/
def isNaN (x : Flt mw ew) : Bool := decide (infIdx mw ew < x.idx)
/-- `f32::is_infinite` (the std method, not scarlet's) -/
def isInf (x : Flt mw ew) : Bool := decide (x.idx = infIdx mw ew)
/-- `f32::is_finite` -/
def isFin (x : Flt mw ew) : Bool := decide (x.idx < infIdx mw ew)
/-- is `±0` -/
def isZero (x : Flt mw ew) : Bool := decide (x.idx = 0)

/-- `f32::NAN` (canonical quiet NaN). -/
def nan (mw ew : Nat) : Flt mw ew := ofIdx mw ew false (infIdx mw ew + 2 ^ (mw - 1))
/-- `±∞` -/
def inf (mw ew : Nat) (s : Bool) : Flt mw ew := ofIdx mw ew s (infIdx mw ew)
/-- `±0` -/
def zero (mw ew : Nat) (s : Bool) : Flt mw ew := ofIdx mw ew s 0
/-- `f32::MAX` with either sign. -/
def maxFin (mw ew : Nat) (s : Bool) : Flt mw ew := ofIdx mw ew s (infIdx mw ew - 1)

/-- Position of a float in the numeric order: `±` the magnitude bits (both zeros at `0`). -/
def key (x : Flt mw ew) : Int := if x.sgn then -(x.idx : Int) else x.idx

/-- Signed magnitude in smallest-subnormal units (meaningful for finite floats). -/
def sval (x : Flt mw ew) : Int := if x.sgn then -(magN mw x.idx : Int) else magN mw x.idx

/-- Unary minus: flips the sign bit. -/
def neg (x : Flt mw ew) : Flt mw ew := ⟨x.bits ^^^ BitVec.ofNat _ (2 ^ (mw + ew))⟩

/-- std's inherent `f32::abs`: clears the sign bit. -/
def iabs (x : Flt mw ew) : Flt mw ew := ofIdx mw ew false x.idx

/-- IEEE addition. -/
def add (x y : Flt mw ew) : Flt mw ew :=
  if x.isNaN || y.isNaN then nan mw ew
  else if x.isInf then (if y.isInf && (x.sgn != y.sgn) then nan mw ew else x)
  else if y.isInf then y
  else
    let s := x.sval + y.sval
    if s = 0 then zero mw ew (x.sgn && y.sgn)
    else pack mw ew (decide (s < 0)) (roundRat mw s.natAbs 1)

/-- IEEE subtraction. -/
def sub (x y : Flt mw ew) : Flt mw ew := add x (neg y)

/-- IEEE multiplication. -/
def mul (x y : Flt mw ew) : Flt mw ew :=
  if x.isNaN || y.isNaN then nan mw ew
  else if x.isInf || y.isInf then
    (if x.isZero || y.isZero then nan mw ew else inf mw ew (x.sgn != y.sgn))
  else pack mw ew (x.sgn != y.sgn) (roundRat mw (magN mw x.idx * magN mw y.idx) (2 ^ fK mw ew))

/-- IEEE division. -/
def div (x y : Flt mw ew) : Flt mw ew :=
  if x.isNaN || y.isNaN then nan mw ew
  else if x.isInf then (if y.isInf then nan mw ew else inf mw ew (x.sgn != y.sgn))
  else if y.isInf then zero mw ew (x.sgn != y.sgn)
  else if y.isZero then (if x.isZero then nan mw ew else inf mw ew (x.sgn != y.sgn))
  else pack mw ew (x.sgn != y.sgn) (roundRat mw (magN mw x.idx * 2 ^ fK mw ew) (magN mw y.idx))

/-- IEEE square root. -/
def sqrt (x : Flt mw ew) : Flt mw ew :=
  if x.isNaN then nan mw ew
  else if x.isZero then x
  else if x.sgn then nan mw ew
  else if x.isInf then x
  else pack mw ew false (roundSqrt mw (magN mw x.idx * 2 ^ fK mw ew))

/-- `<` -/
def lt (x y : Flt mw ew) : Bool := !x.isNaN && !y.isNaN && decide (x.key < y.key)
/-- `<=` -/
def le (x y : Flt mw ew) : Bool := !x.isNaN && !y.isNaN && decide (x.key ≤ y.key)
/-- `==` -/
def feq (x y : Flt mw ew) : Bool := !x.isNaN && !y.isNaN && decide (x.key = y.key)

/-- std's inherent `f32::min`: NaN-ignoring. (Which zero is returned for `min(+0,-0)` is unspecified in Rust;
the model returns the second.) -/
def imin (x y : Flt mw ew) : Flt mw ew :=
  if x.isNaN then y else if y.isNaN then x else if x.lt y then x else y
/-- std's inherent `f32::max`: NaN-ignoring. -/
def imax (x y : Flt mw ew) : Flt mw ew :=
  if x.isNaN then y else if y.isNaN then x else if y.lt x then x else y

/-- The correctly rounded float for the rational `(-1)^s * n / d`; decimal literals and integer casts. -/
def ofRat (mw ew : Nat) (s : Bool) (n d : Nat) : Flt mw ew :=
  pack mw ew s (roundRat mw (n * 2 ^ fK mw ew) d)

/-- `i64 as f32` / `i64 as f64`. -/
def ofInt (mw ew : Nat) (n : Int) : Flt mw ew := ofRat mw ew (decide (n < 0)) n.natAbs 1

/-- `f32 as i64`: truncation toward zero, saturating, NaN to 0. -/
def toI64 (x : Flt mw ew) : Int :=
  if x.isNaN then 0
  else
    let m : Int := if x.isInf then 2 ^ 63 else ((magN mw x.idx / 2 ^ fK mw ew : Nat) : Int)
    if x.sgn then max (-m) (-(2 ^ 63)) else min m (2 ^ 63 - 1)

/-- `as` cast between float types. -/
def cast {mw ew : Nat} (mw' ew' : Nat) (x : Flt mw ew) : Flt mw' ew' :=
  if x.isNaN then nan mw' ew'
  else if x.isInf then inf mw' ew' x.sgn
  else pack mw' ew' x.sgn (roundRat mw' (magN mw x.idx * 2 ^ fK mw' ew') (2 ^ fK mw ew))

end Flt
end Scarlet
