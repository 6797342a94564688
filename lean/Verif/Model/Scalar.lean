import Verif.Float.Basic

/-!
Model of `/repo/src/math/scalar.rs`: the traits `Scalar`, `SignedScalar`, `GFloat`, their default methods and
their implementations for the integer types, `f32` and `f64`.

* Rust trait = Lean type class with the required methods (and the default methods that some implementation
  overrides) as fields; default methods that nobody overrides are plain definitions.
* `+ - * / -x` are ordinary Lean operator instances (`Add`, `Sub`, `Mul`, `Div`, `Neg`), as Rust uses `std::ops`.
* `GFloat` is split into `GFloat` (no libm) and `GTrig` (the seven libm functions), so that libm stays a parameter.
* `Rem`, `RemAssign` and `Debug` are not modelled.
-/

namespace Scarlet

/-- `trait Scalar` (scalar.rs:24-85).  `eq`/`pcmp` are `PartialEq::eq` and `PartialOrd::partial_cmp`.
`min`, `max`, `square` are default methods overridden by `Interval`. -/
class Scalar (T : Type) where
  zero : T
  one : T
  lowest : T
  highest : T
  eq : T → T → Bool
  pcmp : T → T → Option Ordering
  min : T → T → T := fun a b => if pcmp a b == some .lt then a else b
  max : T → T → T := fun a b => if pcmp a b == some .gt then a else b
  square : T → T

namespace Scalar
variable {T : Type} [Scalar T]

/-- `<` as derived by `PartialOrd` from `partial_cmp`. -/
def lt (a b : T) : Bool := pcmp a b == some .lt
/-- `<=` -/
def le (a b : T) : Bool := pcmp a b == some .lt || pcmp a b == some .eq
/-- `>` -/
def gt (a b : T) : Bool := pcmp a b == some .gt
/-- `>=` -/
def ge (a b : T) : Bool := pcmp a b == some .gt || pcmp a b == some .eq
/-- `Scalar::two` (scalar.rs:30-33) -/
def two [Add T] : T := (one : T) + one
/-- `Scalar::is_one` (scalar.rs:35-38) -/
def isOne (x : T) : Bool := eq x one
/-- `Scalar::is_zero` (scalar.rs:39-42) -/
def isZero (x : T) : Bool := eq x zero
/-- default `Scalar::min` (scalar.rs:43-50); the class field defaults to the same expression. -/
def minDefault (a b : T) : T := if lt a b then a else b
/-- default `Scalar::max` (scalar.rs:51-58) -/
def maxDefault (a b : T) : T := if gt a b then a else b
/-- `Scalar::min_max` (scalar.rs:59-66) -/
def minMax (a b : T) : T × T := if lt a b then (a, b) else (b, a)
/-- `Scalar::clamp` (scalar.rs:67-76) -/
def clamp (x lo hi : T) : T := if lt x lo then lo else if gt x hi then hi else x
/-- `Scalar::in_range` (scalar.rs:77-80) -/
def inRange (x lo hi : T) : Bool := ge x lo && le x hi
/-- `SignedScalar::is_positive` (scalar.rs:88-91) -/
def isPositive (x : T) : Bool := gt x zero
/-- `SignedScalar::is_negative` (scalar.rs:92-95) -/
def isNegative (x : T) : Bool := lt x zero
/-- `SignedScalar::is_nonpositive` (scalar.rs:96-99) -/
def isNonpositive (x : T) : Bool := le x zero
/-- `SignedScalar::is_nonnegative` (scalar.rs:100-103) -/
def isNonnegative (x : T) : Bool := ge x zero
/-- `SignedScalar::signum` (scalar.rs:104-113) -/
def signum [Neg T] (x : T) : T := if isPositive x then one else if isNegative x then -one else zero
/-- default `SignedScalar::abs` (scalar.rs:114-121) -/
def absDefault [Neg T] (x : T) : T := if isNegative x then -x else x
end Scalar

/-- `trait SignedScalar` (scalar.rs:87-122): `abs` is the only method overridden anywhere (by `Interval`). -/
class SignedScalar (T : Type) where
  abs : T → T

/-- `trait GFloat` (scalar.rs:124-208) without the libm functions. -/
class GFloat (T : Type) where
  nextUp : T → T
  nextDown : T → T
  toI64 : T → Int
  toF32 : T → F32
  toF64 : T → F64
  fromI64 : Int → T
  fromF32 : F32 → T
  fromF64 : F64 → T
  nan : T
  infinity : T
  negInfinity : T
  negZero : T
  minPositive : T
  isNan : T → Bool
  isFinite : T → Bool
  isInfinite : T → Bool
  half : T
  pi : T
  tau : T
  fracPi2 : T
  fracPi4 : T
  absEpsilon : T
  relEpsilon : T
  piLower : T := nextDown pi
  piUpper : T := nextUp pi
  tauLower : T := nextDown tau
  tauUpper : T := nextUp tau
  fracPi2Lower : T := nextDown fracPi2
  fracPi2Upper : T := nextUp fracPi2
  fracPi4Lower : T := nextDown fracPi4
  fracPi4Upper : T := nextUp fracPi4
  sqrt : T → T

/-- The libm part of `trait GFloat` (scalar.rs:187-194). -/
class GTrig (T : Type) where
  sin : T → T
  cos : T → T
  sinCos : T → T × T
  tan : T → T
  asin : T → T
  acos : T → T
  atan : T → T
  atan2 : T → T → T

/-- `GFloat::recip` (scalar.rs:182-185) -/
def GFloat.recip {T : Type} [Scalar T] [Div T] (x : T) : T := Scalar.one / x

/-- `GFloat::fequals` (scalar.rs:196-207) -/
def GFloat.fequals {T : Type} [Sub T] [Mul T] [Scalar T] [SignedScalar T] [GFloat T] (a b : T) : Bool :=
  let diff := SignedScalar.abs (a - b)
  if Scalar.lt diff GFloat.absEpsilon then true
  else
    let largest := Scalar.max (SignedScalar.abs a) (SignedScalar.abs b)
    Scalar.lt diff (largest * GFloat.relEpsilon)

/-- std's *inherent* methods of `f32`, which Rust prefers over trait methods of the same name wherever the
receiver has the concrete type `Float = f32` (bbox.rs, sphere.rs, camera.rs). -/
class Inherent (T : Type) where
  min : T → T → T
  max : T → T → T
  abs : T → T
  clamp : T → T → T → T

/-! ### Integer implementations (scalar.rs:229-340, 369-372, 762-801)

Integers have `partial_cmp = Some(cmp)`.  Arithmetic is Lean's wrapping arithmetic (Rust release mode). -/

/-- `partial_cmp` of a totally ordered type. -/
def ordCmp {T : Type} [LT T] [DecidableEq T] [DecidableRel (α := T) (· < ·)] (a b : T) : Option Ordering :=
  if a < b then some .lt else if a = b then some .eq else some .gt

/-- scalar.rs:229-242 -/
instance : Scalar UInt8 := { zero := 0, one := 1, lowest := 0, highest := 255, eq := (· == ·), pcmp := ordCmp, square := fun x => x * x }
/-- scalar.rs:243-256 -/
instance : Scalar UInt16 := { zero := 0, one := 1, lowest := 0, highest := 65535, eq := (· == ·), pcmp := ordCmp, square := fun x => x * x }
/-- scalar.rs:257-270 -/
instance : Scalar UInt32 := { zero := 0, one := 1, lowest := 0, highest := 4294967295, eq := (· == ·), pcmp := ordCmp, square := fun x => x * x }
/-- scalar.rs:271-284 -/
instance : Scalar UInt64 := { zero := 0, one := 1, lowest := 0, highest := 18446744073709551615, eq := (· == ·), pcmp := ordCmp, square := fun x => x * x }
/-- scalar.rs:285-298 -/
instance : Scalar Int8 := { zero := 0, one := 1, lowest := -128, highest := 127, eq := (· == ·), pcmp := ordCmp, square := fun x => x * x }
/-- scalar.rs:299-312 -/
instance : Scalar Int16 := { zero := 0, one := 1, lowest := -32768, highest := 32767, eq := (· == ·), pcmp := ordCmp, square := fun x => x * x }
/-- scalar.rs:313-326 -/
instance : Scalar Int32 := { zero := 0, one := 1, lowest := -2147483648, highest := 2147483647, eq := (· == ·), pcmp := ordCmp, square := fun x => x * x }
/-- scalar.rs:327-340 -/
instance : Scalar Int64 := { zero := 0, one := 1, lowest := -9223372036854775808, highest := 9223372036854775807, eq := (· == ·), pcmp := ordCmp, square := fun x => x * x }

/-- scalar.rs:369-372: signed integers take the default `abs`. -/
instance : SignedScalar Int8 := ⟨Scalar.absDefault⟩
instance : SignedScalar Int16 := ⟨Scalar.absDefault⟩
instance : SignedScalar Int32 := ⟨Scalar.absDefault⟩
instance : SignedScalar Int64 := ⟨Scalar.absDefault⟩

/-! ### Float implementations -/

namespace Flt
variable {mw ew : Nat}

instance : Add (Flt mw ew) := ⟨add⟩
instance : Sub (Flt mw ew) := ⟨sub⟩
instance : Mul (Flt mw ew) := ⟨mul⟩
instance : Div (Flt mw ew) := ⟨div⟩
instance : Neg (Flt mw ew) := ⟨neg⟩

/-- `PartialOrd::partial_cmp` of floats (std): `None` exactly if an operand is NaN. -/
def pcmp (x y : Flt mw ew) : Option Ordering :=
  if x.isNaN || y.isNaN then none
  else if x.key < y.key then some .lt
  else if x.key = y.key then some .eq
  else some .gt

/-- scalar.rs:341-354 (`f32`), 355-368 (`f64`) -/
instance : Scalar (Flt mw ew) where
  zero := zero mw ew false
  one := ofRat mw ew false 1 1
  lowest := maxFin mw ew true
  highest := maxFin mw ew false
  eq := feq
  pcmp := pcmp
  square := fun x => x * x

/-- scalar.rs:373-374: default `abs`. -/
instance : SignedScalar (Flt mw ew) := ⟨Scalar.absDefault⟩

/-- std's inherent `f32::clamp` (panics for `lo > hi`; scarlet only calls it with constants `0, 1`). -/
def iclamp (x lo hi : Flt mw ew) : Flt mw ew :=
  let x := if x.lt lo then lo else x
  if hi.lt x then hi else x

instance : Inherent (Flt mw ew) := ⟨imin, imax, iabs, iclamp⟩

/-- `f32::MIN_POSITIVE`: the smallest normal number. -/
def minNormal (mw ew : Nat) : Flt mw ew := ofIdx mw ew false (2 ^ mw)

end Flt

/-- The items of `impl GFloat for f32` / `impl GFloat for f64` whose text differs between the two formats. -/
class FltImpl (mw ew : Nat) where
  nextUp : Flt mw ew → Flt mw ew
  nextDown : Flt mw ew → Flt mw ew
  pi : Flt mw ew
  tau : Flt mw ew
  fracPi2 : Flt mw ew
  fracPi4 : Flt mw ew
  absEpsilon : Flt mw ew
  relEpsilon : Flt mw ew
  piLower : Flt mw ew
  piUpper : Flt mw ew
  tauLower : Flt mw ew
  tauUpper : Flt mw ew
  fracPi2Lower : Flt mw ew
  fracPi2Upper : Flt mw ew
  fracPi4Lower : Flt mw ew
  fracPi4Upper : Flt mw ew

namespace F32

/-- `f32::next_up` (scalar.rs:378-398) -/
def nextUp (x : F32) : F32 :=
  let TINY_BITS : BitVec 32 := 0x1#32
  let CLEAR_SIGN_MASK : BitVec 32 := 0x7fffffff#32
  let INFINITY : BitVec 32 := 0x7f800000#32
  let bits : BitVec 32 := x.bits
  if x.isNaN || bits == INFINITY then x
  else
    let abs := bits &&& CLEAR_SIGN_MASK
    let nextBits := if abs == 0#32 then TINY_BITS else if bits == abs then bits + 1#32 else bits - 1#32
    ⟨nextBits⟩

/-- `f32::next_down` (scalar.rs:399-419) -/
def nextDown (x : F32) : F32 :=
  let NEG_TINY_BITS : BitVec 32 := 0x80000001#32
  let CLEAR_SIGN_MASK : BitVec 32 := 0x7fffffff#32
  let NEG_INFINITY : BitVec 32 := 0xff800000#32
  let bits : BitVec 32 := x.bits
  if x.isNaN || bits == NEG_INFINITY then x
  else
    let abs := bits &&& CLEAR_SIGN_MASK
    let nextBits := if abs == 0#32 then NEG_TINY_BITS else if bits == abs then bits - 1#32 else bits + 1#32
    ⟨nextBits⟩

/-- a `f32` literal that is a natural number -/
def lit (n : Nat) : F32 := Flt.ofRat 23 8 false n 1

/-- scalar.rs:496-500 -/
def piLower : F32 := lit 13176794 / Flt.ofInt 23 8 (2 ^ 22)
/-- scalar.rs:501-504 -/
def piUpper : F32 := lit 13176794 / Flt.ofInt 23 8 (2 ^ 22)

end F32

/-- `impl GFloat for f32` (scalar.rs:376-567), format-specific items.  `std::f32::consts` by their bits. -/
instance : FltImpl 23 8 where
  nextUp := F32.nextUp
  nextDown := F32.nextDown
  pi := ⟨0x40490FDB#32⟩
  tau := ⟨0x40C90FDB#32⟩
  fracPi2 := ⟨0x3FC90FDB#32⟩
  fracPi4 := ⟨0x3F490FDB#32⟩
  absEpsilon := Flt.ofRat 23 8 false 1 1000000
  relEpsilon := Flt.ofRat 23 8 false 1 10000
  piLower := F32.piLower
  piUpper := F32.piUpper
  tauLower := F32.piLower * F32.lit 2
  tauUpper := F32.piUpper * F32.lit 2
  fracPi2Lower := F32.piLower / F32.lit 2
  fracPi2Upper := F32.piUpper / F32.lit 2
  fracPi4Lower := F32.piLower / F32.lit 4
  fracPi4Upper := F32.piUpper / F32.lit 4

namespace F64

/-- `f64::next_up` (scalar.rs:571-591) -/
def nextUp (x : F64) : F64 :=
  let TINY_BITS : BitVec 64 := 0x1#64
  let CLEAR_SIGN_MASK : BitVec 64 := 0x7fffffffffffffff#64
  let INFINITY : BitVec 64 := 0x7ff0000000000000#64
  let bits : BitVec 64 := x.bits
  if x.isNaN || bits == INFINITY then x
  else
    let abs := bits &&& CLEAR_SIGN_MASK
    let nextBits := if abs == 0#64 then TINY_BITS else if bits == abs then bits + 1#64 else bits - 1#64
    ⟨nextBits⟩

/-- `f64::next_down` (scalar.rs:592-612) -/
def nextDown (x : F64) : F64 :=
  let NEG_TINY_BITS : BitVec 64 := 0x8000000000000001#64
  let CLEAR_SIGN_MASK : BitVec 64 := 0x7fffffffffffffff#64
  let NEG_INFINITY : BitVec 64 := 0xfff0000000000000#64
  let bits : BitVec 64 := x.bits
  if x.isNaN || bits == NEG_INFINITY then x
  else
    let abs := bits &&& CLEAR_SIGN_MASK
    let nextBits := if abs == 0#64 then NEG_TINY_BITS else if bits == abs then bits - 1#64 else bits + 1#64
    ⟨nextBits⟩

/-- a `f64` literal that is a natural number -/
def lit (n : Nat) : F64 := Flt.ofRat 52 11 false n 1

/-- scalar.rs:689-693 -/
def piLower : F64 := (lit 3373259426 + lit 273688 / Flt.ofInt 52 11 (2 ^ 21)) / Flt.ofInt 52 11 (2 ^ 30)
/-- scalar.rs:694-697 -/
def piUpper : F64 := (lit 3373259426 + lit 273689 / Flt.ofInt 52 11 (2 ^ 21)) / Flt.ofInt 52 11 (2 ^ 30)

end F64

/-- `impl GFloat for f64` (scalar.rs:569-760), format-specific items.  `std::f64::consts` by their bits. -/
instance : FltImpl 52 11 where
  nextUp := F64.nextUp
  nextDown := F64.nextDown
  pi := ⟨0x400921FB54442D18#64⟩
  tau := ⟨0x401921FB54442D18#64⟩
  fracPi2 := ⟨0x3FF921FB54442D18#64⟩
  fracPi4 := ⟨0x3FE921FB54442D18#64⟩
  absEpsilon := Flt.ofRat 52 11 false 1 1000000
  relEpsilon := Flt.ofRat 52 11 false 1 1000000
  piLower := F64.piLower
  piUpper := F64.piUpper
  tauLower := F64.piLower * F64.lit 2
  tauUpper := F64.piUpper * F64.lit 2
  fracPi2Lower := F64.piLower / F64.lit 2
  fracPi2Upper := F64.piUpper / F64.lit 2
  fracPi4Lower := F64.piLower / F64.lit 4
  fracPi4Upper := F64.piUpper / F64.lit 4

/-- `impl GFloat for f32` (scalar.rs:376-567) and `impl GFloat for f64` (scalar.rs:569-760), without libm.
The casts are Rust's `as`; a cast from a type to itself is the identity (for NaN: some NaN). -/
instance {mw ew : Nat} [FltImpl mw ew] : GFloat (Flt mw ew) where
  nextUp := FltImpl.nextUp
  nextDown := FltImpl.nextDown
  toI64 := Flt.toI64
  toF32 := Flt.cast 23 8
  toF64 := Flt.cast 52 11
  fromI64 := Flt.ofInt mw ew
  fromF32 := Flt.cast mw ew
  fromF64 := Flt.cast mw ew
  nan := Flt.nan mw ew
  infinity := Flt.inf mw ew false
  negInfinity := Flt.inf mw ew true
  negZero := Flt.zero mw ew true
  minPositive := Flt.minNormal mw ew
  isNan := Flt.isNaN
  isFinite := Flt.isFin
  isInfinite := Flt.isFin       -- scalar.rs:462-464 and 655-657 call `self.is_finite()`
  half := Flt.ofRat mw ew false 1 2
  pi := FltImpl.pi
  tau := FltImpl.tau
  fracPi2 := FltImpl.fracPi2
  fracPi4 := FltImpl.fracPi4
  absEpsilon := FltImpl.absEpsilon
  relEpsilon := FltImpl.relEpsilon
  piLower := FltImpl.piLower
  piUpper := FltImpl.piUpper
  tauLower := FltImpl.tauLower
  tauUpper := FltImpl.tauUpper
  fracPi2Lower := FltImpl.fracPi2Lower
  fracPi2Upper := FltImpl.fracPi2Upper
  fracPi4Lower := FltImpl.fracPi4Lower
  fracPi4Upper := FltImpl.fracPi4Upper
  sqrt := Flt.sqrt

/-- The platform's libm for a float format: a parameter of the model. -/
class Libm (mw ew : Nat) where
  sin : Flt mw ew → Flt mw ew
  cos : Flt mw ew → Flt mw ew
  tan : Flt mw ew → Flt mw ew
  asin : Flt mw ew → Flt mw ew
  acos : Flt mw ew → Flt mw ew
  atan : Flt mw ew → Flt mw ew
  atan2 : Flt mw ew → Flt mw ew → Flt mw ew

/-- scalar.rs:535-566 (`f32`), 728-759 (`f64`); std's `sin_cos` is `(sin, cos)`. -/
instance {mw ew : Nat} [Libm mw ew] : GTrig (Flt mw ew) where
  sin := Libm.sin
  cos := Libm.cos
  sinCos := fun x => (Libm.sin x, Libm.cos x)
  tan := Libm.tan
  asin := Libm.asin
  acos := Libm.acos
  atan := Libm.atan
  atan2 := Libm.atan2

/-! ### `AlmostEqual` (scalar.rs:210-212, 762-811) -/

/-- `trait AlmostEqual<U>` -/
class AlmostEqual (T U : Type) where
  almostEq : T → U → Bool

/-- scalar.rs:762-801: integers compare with `==`. -/
instance : AlmostEqual UInt8 UInt8 := ⟨(· == ·)⟩
instance : AlmostEqual UInt16 UInt16 := ⟨(· == ·)⟩
instance : AlmostEqual UInt32 UInt32 := ⟨(· == ·)⟩
instance : AlmostEqual UInt64 UInt64 := ⟨(· == ·)⟩
instance : AlmostEqual Int8 Int8 := ⟨(· == ·)⟩
instance : AlmostEqual Int16 Int16 := ⟨(· == ·)⟩
instance : AlmostEqual Int32 Int32 := ⟨(· == ·)⟩
instance : AlmostEqual Int64 Int64 := ⟨(· == ·)⟩
/-- scalar.rs:802-811 -/
instance {mw ew : Nat} [FltImpl mw ew] : AlmostEqual (Flt mw ew) (Flt mw ew) := ⟨GFloat.fequals⟩

end Scarlet
