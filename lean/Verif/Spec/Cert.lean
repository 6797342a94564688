import Verif.Model.Transform
import Verif.Model.Interval

/-!
Bookkeeping for runs of the library's generic code on intervals: a `Cert` is an interval together with a flag saying that
everything that led to it stayed within the conditions under which the interval operations enclose.

The flag is false as soon as an interval with an infinite or NaN bound occurs, two intervals that both contain zero strictly inside
are multiplied (C12), or a square root is taken of an interval that reaches below zero (C17).  Operations of the scalar traits that
the theorems about `Cert` do not need are not certified (the flag is false).
-/

namespace Scarlet
open Flt

/-- An interval and whether the computation that produced it is certified. -/
structure Cert (mw ew : Nat) where
  i : Interval (Flt mw ew)
  ok : Bool

namespace Cert
variable {mw ew : Nat} [FltImpl mw ew]

/-- both bounds finite -/
def fin (A : Interval (Flt mw ew)) : Bool := A.inf.isFin && A.sup.isFin
/-- zero strictly inside -/
def straddles (A : Interval (Flt mw ew)) : Bool := Scalar.lt A.inf Scalar.zero && Scalar.gt A.sup Scalar.zero
/-- an uncertified result -/
def bad (A : Interval (Flt mw ew)) : Cert mw ew := ⟨A, false⟩
/-- a given finite interval -/
def of (A : Interval (Flt mw ew)) : Cert mw ew := ⟨A, fin A⟩

instance : Add (Cert mw ew) := ⟨fun a b => ⟨a.i + b.i, a.ok && b.ok && fin (a.i + b.i)⟩⟩
instance : Sub (Cert mw ew) := ⟨fun a b => ⟨a.i - b.i, a.ok && b.ok && fin (a.i - b.i)⟩⟩
instance : Mul (Cert mw ew) := ⟨fun a b => ⟨a.i * b.i, a.ok && b.ok && fin (a.i * b.i) && !(straddles a.i && straddles b.i)⟩⟩
instance : Div (Cert mw ew) := ⟨fun a b => ⟨a.i / b.i, a.ok && b.ok && fin (a.i / b.i)⟩⟩
instance : Neg (Cert mw ew) := ⟨fun a => ⟨-a.i, a.ok⟩⟩

instance : Scalar (Cert mw ew) where
  zero := ⟨Scalar.zero, true⟩
  one := ⟨Scalar.one, true⟩
  lowest := bad Scalar.lowest
  highest := bad Scalar.highest
  eq := fun a b => Scalar.eq a.i b.i
  pcmp := fun a b => Scalar.pcmp a.i b.i
  min := fun a b => bad (Scalar.min a.i b.i)
  max := fun a b => bad (Scalar.max a.i b.i)
  square := fun a => ⟨Scalar.square a.i, a.ok && fin (Scalar.square a.i)⟩

instance : GFloat (Cert mw ew) where
  nextUp := fun a => bad (GFloat.nextUp a.i)
  nextDown := fun a => bad (GFloat.nextDown a.i)
  toI64 := fun a => GFloat.toI64 a.i
  toF32 := fun a => GFloat.toF32 a.i
  toF64 := fun a => GFloat.toF64 a.i
  fromI64 := fun n => bad (GFloat.fromI64 n)
  fromF32 := fun x => bad (GFloat.fromF32 x)
  fromF64 := fun x => bad (GFloat.fromF64 x)
  nan := bad GFloat.nan
  infinity := bad GFloat.infinity
  negInfinity := bad GFloat.negInfinity
  negZero := bad GFloat.negZero
  minPositive := bad GFloat.minPositive
  isNan := fun a => GFloat.isNan a.i
  isFinite := fun a => GFloat.isFinite a.i
  isInfinite := fun a => GFloat.isInfinite a.i
  half := bad GFloat.half
  pi := bad GFloat.pi
  tau := bad GFloat.tau
  fracPi2 := bad GFloat.fracPi2
  fracPi4 := bad GFloat.fracPi4
  absEpsilon := bad GFloat.absEpsilon
  relEpsilon := bad GFloat.relEpsilon
  sqrt := fun a => ⟨GFloat.sqrt a.i, a.ok && fin (GFloat.sqrt a.i : Interval (Flt mw ew)) && Scalar.ge a.i.inf Scalar.zero⟩

/-- Sine and cosine are certified if they are finite; that they enclose needs an interval at most π wide besides (C24), which the
theorems ask for separately. -/
instance [Libm mw ew] : GTrig (Cert mw ew) where
  sin := fun a => bad (GTrig.sin a.i)
  cos := fun a => bad (GTrig.cos a.i)
  sinCos := fun a => (⟨(GTrig.sinCos a.i).1, a.ok && fin (GTrig.sinCos a.i).1⟩, ⟨(GTrig.sinCos a.i).2, a.ok && fin (GTrig.sinCos a.i).2⟩)
  tan := fun a => bad (GTrig.tan a.i)
  asin := fun a => bad (GTrig.asin a.i)
  acos := fun a => bad (GTrig.acos a.i)
  atan := fun a => bad (GTrig.atan a.i)
  atan2 := fun a b => bad (GTrig.atan2 a.i b.i)

end Cert
end Scarlet
