import Verif.Model.Scalar

/-!
Model of `/repo/src/math/interval.rs` and `/repo/src/math/interval_as_gfloat.rs`.

* `Interval::new` contains `debug_assert!(sup >= inf)` (interval.rs:22-27).  The model is the release build (no
  assertion); `Interval.assertHolds` is the asserted condition, and property C20 says when it holds.
* Rust prefers the *inherent* methods (`is_positive`, `square`, `sqrt`, `in_range`, ...) of `Interval` over the trait
  methods of the same name when the type is known to be an `Interval`; generic code (`T: GFloat`) uses the trait
  methods.  Here: `Interval.isPositive` etc. are the inherent ones, `Scalar.isPositive` etc. the trait ones.
* `Rem` (`unimplemented!()`, interval.rs:391-401) is not modelled.
-/

namespace Scarlet

/-- `struct Interval<T>` (interval.rs:13-17) -/
structure Interval (T : Type) where
  inf : T
  sup : T
deriving DecidableEq, Repr

namespace Interval
variable {T : Type}

/-- `Interval::new` in a release build (interval.rs:20-29). -/
def new (inf sup : T) : Interval T := ⟨inf, sup⟩

/-- `From<T>` (interval.rs:127-132) -/
def from1 (t : T) : Interval T := new t t
/-- `From<(T, T)>` (interval.rs:133-138) -/
def from2 (t : T × T) : Interval T := new t.1 t.2

section cmp
variable [Scalar T]
/-- The condition asserted by `Interval::new` in a debug build (interval.rs:23). -/
def assertHolds (a : Interval T) : Bool := Scalar.ge a.sup a.inf
/-- interval.rs:30-33 -/
def isPositive (a : Interval T) : Bool := Scalar.gt a.inf Scalar.zero
/-- interval.rs:34-37 -/
def isNegative (a : Interval T) : Bool := Scalar.lt a.sup Scalar.zero
/-- interval.rs:38-41 -/
def isNonpositive (a : Interval T) : Bool := Scalar.le a.sup Scalar.zero
/-- interval.rs:42-45 -/
def isNonnegative (a : Interval T) : Bool := Scalar.ge a.inf Scalar.zero
/-- interval.rs:72-75 -/
def inRange (a : Interval T) (t0 t1 : T) : Bool := Scalar.ge a.inf t0 && Scalar.le a.sup t1
/-- interval.rs:76-79 -/
def isExact (a : Interval T) : Bool := Scalar.eq a.inf a.sup
/-- interval.rs:80-83 -/
def contains (a : Interval T) (t : T) : Bool := Scalar.ge a.sup t && Scalar.le a.inf t
/-- interval.rs:84-87 -/
def isSame (a b : Interval T) : Bool := Scalar.eq a.inf b.inf && Scalar.eq a.sup b.sup
/-- interval.rs:106-109 -/
def intersect (a b : Interval T) : Interval T := new (Scalar.max a.inf b.inf) (Scalar.min a.sup b.sup)
/-- interval.rs:110-113 -/
def union (a b : Interval T) : Interval T := new (Scalar.min a.inf b.inf) (Scalar.max a.sup b.sup)

/-- `PartialEq<Self>` (interval.rs:350-356) -/
def eq (a b : Interval T) : Bool := isExact a && isExact b && Scalar.eq a.inf b.inf
/-- `PartialOrd<Self>` (interval.rs:357-370) -/
def pcmp (a b : Interval T) : Option Ordering :=
  if eq a b then some .eq
  else if Scalar.lt a.sup b.inf then some .lt
  else if Scalar.lt b.sup a.inf then some .gt
  else none
/-- `PartialEq<T>` (interval.rs:371-376) -/
def eqS (a : Interval T) (t : T) : Bool := isExact a && Scalar.eq a.inf t
/-- `PartialOrd<T>` (interval.rs:377-390) -/
def pcmpS (a : Interval T) (t : T) : Option Ordering :=
  if eqS a t then some .eq
  else if Scalar.lt a.sup t then some .lt
  else if Scalar.lt t a.inf then some .gt
  else none
end cmp

section arith
variable [Add T] [Sub T] [Mul T] [Div T] [Neg T] [Scalar T] [SignedScalar T] [GFloat T]

/-- interval.rs:46-63 -/
def square (a : Interval T) : Interval T :=
  if isNonnegative a then new (GFloat.nextDown (a.inf * a.inf)) (GFloat.nextUp (a.sup * a.sup))
  else if isNonpositive a then new (GFloat.nextDown (a.sup * a.sup)) (GFloat.nextUp (a.inf * a.inf))
  else
    let absMax := Scalar.max (-a.inf) a.sup
    new Scalar.zero (GFloat.nextUp (absMax * absMax))
/-- inherent `sqrt` (interval.rs:64-67) -/
def sqrt (a : Interval T) : Interval T :=
  new (GFloat.nextDown (GFloat.sqrt a.inf)) (GFloat.nextUp (GFloat.sqrt a.sup))
/-- interval.rs:68-71 (also `From<Interval<f32>> for f32`, interval.rs:152-163) -/
def approx (a : Interval T) : T := (a.inf + a.sup) * GFloat.half
/-- interval.rs:88-91 -/
def extendByUlp (a : Interval T) : Interval T := new (GFloat.nextDown a.inf) (GFloat.nextUp a.sup)
/-- interval.rs:92-98 -/
def mapMonotonicInc (a : Interval T) (f : T → T) : Interval T := extendByUlp (new (f a.inf) (f a.sup))
/-- interval.rs:99-105 -/
def mapMonotonicDec (a : Interval T) (f : T → T) : Interval T := extendByUlp (new (f a.sup) (f a.inf))

/-- `AlmostEqual<Self>` (interval.rs:116-121) -/
def almostEq (a b : Interval T) : Bool := GFloat.fequals a.inf b.inf && GFloat.fequals a.sup b.sup
/-- `AlmostEqual<T>` (interval.rs:122-126) -/
def almostEqS (a : Interval T) (t : T) : Bool :=
  contains a t && GFloat.fequals a.inf t && GFloat.fequals a.sup t

/-- interval.rs:164-174 -/
def add (a b : Interval T) : Interval T := new (GFloat.nextDown (a.inf + b.inf)) (GFloat.nextUp (a.sup + b.sup))
/-- interval.rs:175-185 -/
def sub (a b : Interval T) : Interval T := new (GFloat.nextDown (a.inf - b.sup)) (GFloat.nextUp (a.sup - b.inf))
/-- interval.rs:186-193 -/
def addS (a : Interval T) (t : T) : Interval T := new (GFloat.nextDown (a.inf + t)) (GFloat.nextUp (a.sup + t))
/-- interval.rs:194-201 -/
def subS (a : Interval T) (t : T) : Interval T := new (GFloat.nextDown (a.inf - t)) (GFloat.nextUp (a.sup - t))
/-- interval.rs:202-247 -/
def mul (a b : Interval T) : Interval T :=
  if isNonnegative a then
    let x := if isNonnegative b then a.inf else a.sup
    let y := if isNonpositive b then a.inf else a.sup
    new (GFloat.nextDown (x * b.inf)) (GFloat.nextUp (y * b.sup))
  else if isNonpositive a then
    let x := if isNonpositive b then a.sup else a.inf
    let y := if isNonnegative b then a.sup else a.inf
    new (GFloat.nextDown (x * b.sup)) (GFloat.nextUp (y * b.inf))
  else if isNonnegative b then
    new (GFloat.nextDown (a.inf * b.sup)) (GFloat.nextUp (a.sup * b.sup))
  else if isNonpositive b then
    new (GFloat.nextDown (a.sup * b.inf)) (GFloat.nextUp (a.inf * b.inf))
  else
    new (GFloat.nextDown (Scalar.min (a.inf * b.sup) (a.sup * b.inf)))
      (GFloat.nextUp (Scalar.max (a.inf * a.inf) (b.sup * b.sup)))
/-- interval.rs:248-259 -/
def mulS (a : Interval T) (t : T) : Interval T :=
  if Scalar.isNonnegative t then new (GFloat.nextDown (a.inf * t)) (GFloat.nextUp (a.sup * t))
  else new (GFloat.nextDown (a.sup * t)) (GFloat.nextUp (a.inf * t))
/-- interval.rs:266-297 -/
def div (a b : Interval T) : Interval T :=
  if isPositive b then
    let x := if isNonnegative a then b.sup else b.inf
    let y := if isNonpositive a then b.sup else b.inf
    new (GFloat.nextDown (a.inf / x)) (GFloat.nextUp (a.sup / y))
  else if isNegative b then
    let x := if isNonpositive a then b.inf else b.sup
    let y := if isNonnegative a then b.inf else b.sup
    new (GFloat.nextDown (a.sup / x)) (GFloat.nextUp (a.inf / y))
  else new GFloat.negInfinity GFloat.infinity
/-- interval.rs:304-317 -/
def divS (a : Interval T) (t : T) : Interval T :=
  if Scalar.gt t Scalar.zero then new (GFloat.nextDown (a.inf / t)) (GFloat.nextUp (a.sup / t))
  else if Scalar.lt t Scalar.zero then new (GFloat.nextDown (a.sup / t)) (GFloat.nextUp (a.inf / t))
  else new GFloat.negInfinity GFloat.infinity
/-- interval.rs:342-349 -/
def neg (a : Interval T) : Interval T := new (-a.sup) (-a.inf)

instance : Add (Interval T) := ⟨add⟩
instance : Sub (Interval T) := ⟨sub⟩
instance : Mul (Interval T) := ⟨mul⟩
instance : Div (Interval T) := ⟨div⟩
instance : Neg (Interval T) := ⟨neg⟩
instance : HAdd (Interval T) T (Interval T) := ⟨addS⟩
instance : HSub (Interval T) T (Interval T) := ⟨subS⟩
instance : HMul (Interval T) T (Interval T) := ⟨mulS⟩
instance : HDiv (Interval T) T (Interval T) := ⟨divS⟩

/-- `impl Scalar for Interval` (interval.rs:403-432) -/
instance : Scalar (Interval T) where
  zero := new Scalar.zero Scalar.zero
  one := new Scalar.one Scalar.one
  lowest := new Scalar.lowest Scalar.lowest
  highest := new Scalar.highest Scalar.highest
  eq := eq
  pcmp := pcmp
  max := fun a b => new (Scalar.max a.inf b.inf) (Scalar.max a.sup b.sup)
  min := fun a b => new (Scalar.min a.inf b.inf) (Scalar.min a.sup b.sup)
  square := square

/-- `impl SignedScalar for Interval` (interval.rs:433-442) -/
instance : SignedScalar (Interval T) where
  abs := fun a =>
    if Scalar.isNegative a.inf then
      new Scalar.zero (Scalar.max (SignedScalar.abs a.inf) (SignedScalar.abs a.sup))
    else from2 (Scalar.minMax a.inf a.sup)

/-- `impl GFloat for Interval`, without trigonometry (interval_as_gfloat.rs:6-78, 189-234).  The `*_lower`/`*_upper`
constants keep the trait defaults (scalar.rs:156-179). -/
instance : GFloat (Interval T) where
  nextUp := fun a => new (GFloat.nextUp a.inf) (GFloat.nextUp a.sup)
  nextDown := fun a => new (GFloat.nextDown a.inf) (GFloat.nextDown a.sup)
  toI64 := fun a => GFloat.toI64 (approx a)
  toF32 := fun a => GFloat.toF32 (approx a)
  toF64 := fun a => GFloat.toF64 (approx a)
  fromI64 := fun n => from1 (GFloat.fromI64 n)
  fromF32 := fun x => from1 (GFloat.fromF32 x)
  fromF64 := fun x => from1 (GFloat.fromF64 x)
  nan := new GFloat.nan GFloat.nan
  infinity := new GFloat.infinity GFloat.infinity
  negInfinity := new GFloat.negInfinity GFloat.negInfinity
  negZero := new GFloat.negZero GFloat.negZero
  minPositive := new GFloat.minPositive GFloat.minPositive
  isNan := fun a => GFloat.isNan a.inf || GFloat.isNan a.sup
  isFinite := fun a => GFloat.isFinite a.inf && GFloat.isFinite a.sup
  isInfinite := fun a =>
    GFloat.isInfinite a.inf && GFloat.isInfinite a.sup && Scalar.eq (Scalar.signum a.inf) (Scalar.signum a.sup)
  half := from1 GFloat.half
  pi := ⟨GFloat.piLower, GFloat.piUpper⟩
  tau := ⟨GFloat.tauLower, GFloat.tauUpper⟩
  fracPi2 := ⟨GFloat.fracPi2Lower, GFloat.fracPi2Upper⟩
  fracPi4 := ⟨GFloat.fracPi4Lower, GFloat.fracPi4Upper⟩
  absEpsilon := ⟨GFloat.absEpsilon, GFloat.absEpsilon⟩
  relEpsilon := ⟨GFloat.relEpsilon, GFloat.relEpsilon⟩
  sqrt := fun a => from2 (Scalar.minMax (GFloat.nextDown (GFloat.sqrt a.inf)) (GFloat.nextUp (GFloat.sqrt a.sup)))

section trig
variable [GTrig T]

/-- interval_as_gfloat.rs:80-102 -/
def sin (a : Interval T) : Interval T :=
  let diff := a.sup - a.inf
  if Scalar.ge diff GFloat.tau then new (-Scalar.one) Scalar.one
  else
    let cosInf := GTrig.cos a.inf
    let cosSup := GTrig.cos a.sup
    if Scalar.eq (Scalar.signum cosInf) (Scalar.signum cosSup) then
      let t := Scalar.minMax (GTrig.sin a.inf) (GTrig.sin a.sup)
      new (GFloat.nextDown t.1) (GFloat.nextUp t.2)
    else if Scalar.isNegative cosInf then
      new (-Scalar.one) (GFloat.nextUp (Scalar.max (GTrig.sin a.inf) (GTrig.sin a.sup)))
    else new (GFloat.nextDown (Scalar.min (GTrig.sin a.inf) (GTrig.sin a.sup))) Scalar.one

/-- interval_as_gfloat.rs:103-125 -/
def cos (a : Interval T) : Interval T :=
  let diff := a.sup - a.inf
  if Scalar.ge diff GFloat.tau then new (-Scalar.one) Scalar.one
  else
    let sinInf := GTrig.sin a.inf
    let sinSup := GTrig.sin a.sup
    if Scalar.eq (Scalar.signum sinInf) (Scalar.signum sinSup) then
      let t := Scalar.minMax (GTrig.cos a.inf) (GTrig.cos a.sup)
      new (GFloat.nextDown t.1) (GFloat.nextUp t.2)
    else if Scalar.isPositive sinInf then
      new (-Scalar.one) (GFloat.nextUp (Scalar.max (GTrig.cos a.inf) (GTrig.cos a.sup)))
    else new (GFloat.nextDown (Scalar.min (GTrig.cos a.inf) (GTrig.cos a.sup))) Scalar.one

/-- interval_as_gfloat.rs:135-139 -/
def asin (a : Interval T) : Interval T :=
  intersect (mapMonotonicInc a GTrig.asin) (new Scalar.zero GFloat.fracPi2Upper)
/-- interval_as_gfloat.rs:140-144 -/
def acos (a : Interval T) : Interval T :=
  intersect (mapMonotonicDec a GTrig.acos) (new Scalar.zero GFloat.fracPi2Upper)
/-- interval_as_gfloat.rs:145-148 -/
def atan (a : Interval T) : Interval T := mapMonotonicInc a GTrig.atan

/-- interval_as_gfloat.rs:149-187.  The Rust function calls itself in its last branch with one bound of `x`
replaced by zero; those calls take an earlier branch, so the recursion depth is one.  The model uses fuel. -/
def atan2Fuel : Nat → Interval T → Interval T → Interval T
  | 0, _, _ => (Scalar.zero : Interval T)
  | fuel + 1, y, x =>
    if Scalar.isZero x || Scalar.isZero y then (Scalar.zero : Interval T)
    else if isNonnegative x then
      intersect (mapMonotonicInc (y / x) GTrig.atan) (new (-GFloat.fracPi2Upper) GFloat.fracPi2Upper)
    else if isNonpositive x then
      if isNonnegative y then
        intersect (mapMonotonicInc (y / x) GTrig.atan + (GFloat.pi : T)) (new GFloat.fracPi2Lower GFloat.piUpper)
      else if isNegative y then
        intersect (mapMonotonicInc (y / x) GTrig.atan - (GFloat.pi : T)) (new (-GFloat.piUpper) (-GFloat.fracPi2Lower))
      else new (-GFloat.piUpper) GFloat.piUpper
    else
      union (atan2Fuel fuel y (new x.inf Scalar.zero)) (atan2Fuel fuel y (new Scalar.zero x.sup))

/-- interval_as_gfloat.rs:149-187 -/
def atan2 (y x : Interval T) : Interval T := atan2Fuel 2 y x

/-- interval_as_gfloat.rs:80-187; `tan` (130-134) is `sin / cos`. -/
instance : GTrig (Interval T) where
  sin := sin
  cos := cos
  sinCos := fun a => (sin a, cos a)
  tan := fun a => sin a / cos a
  asin := asin
  acos := acos
  atan := atan
  atan2 := atan2

end trig
end arith
end Interval

instance {T : Type} [Add T] [Sub T] [Mul T] [Div T] [Neg T] [Scalar T] [SignedScalar T] [GFloat T] :
    AlmostEqual (Interval T) (Interval T) := ⟨Interval.almostEq⟩
instance {T : Type} [Add T] [Sub T] [Mul T] [Div T] [Neg T] [Scalar T] [SignedScalar T] [GFloat T] :
    AlmostEqual (Interval T) T := ⟨Interval.almostEqS⟩

end Scarlet
