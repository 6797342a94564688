import Verif.Model.Transform

/-!
Integer arithmetic that can panic.  The rest of the model gives `u8 … i64` Lean's total wrapping arithmetic, which is what
`+ - * -x` of /repo/src/math/scalar.rs:229-340 (the `Scalar` instances of the integer types) do in a release build.  Here
the same operations are modelled with their panics, in both builds of Rust (`/repo/Cargo.toml` sets no profile, so the
defaults hold: overflow checks on in debug, off in release):

* debug: `+ - *` and unary `-` panic when the exact result does not fit the type;
* release: they wrap;
* both: `/` panics when the divisor is zero and on `MIN / -1`, and otherwise truncates.

`Chk b T` is a computation of a `T` in build `b` that may panic.  It has the operators of `T`, so every generic definition
of `Vector.lean` and `Transform.lean` (`dot`, `cross`, `square_norm`, the matrix product, …) applies to it as it stands and
becomes the panicking version of that function: a panic in an operand panics the whole expression.  A vector or matrix is
returned when none of its components panicked.
-/

namespace Scarlet

/-- the two default build profiles of cargo -/
inductive Build | debug | release
  deriving DecidableEq

/-- the values of an integer type: `toZ x` is the value of `x`, which lies in `lo..=hi` -/
class IntWord (T : Type) where
  toZ : T → ℤ
  lo : ℤ
  hi : ℤ

/-- a computation that may panic (`none`) -/
@[ext] structure Chk (b : Build) (T : Type) where
  run : Option T

namespace Chk
variable {b : Build} {T : Type}

/-- a value already computed -/
def of (b : Build) (x : T) : Chk b T := ⟨some x⟩

section
variable [IntWord T]

/-- the exact result fits the type -/
def fitsB (T : Type) [IntWord T] (e : ℤ) : Bool := decide (IntWord.lo T ≤ e) && decide (e ≤ IntWord.hi T)

/-- `+ - *` on integers with the overflow check of build `b` -/
def arith (b : Build) (exact : ℤ) (wrapped : T) : Option T :=
  match b with
  | .debug => if fitsB T exact then some wrapped else none
  | .release => some wrapped

/-- both operands first, then the operation -/
def lift2 (f : T → T → Option T) (x y : Chk b T) : Chk b T := ⟨x.run.bind fun a => y.run.bind fun c => f a c⟩

open IntWord in
/-- `+` and `+=` of an integer type (`impl Scalar for …`, scalar.rs:229-340) -/
instance [Add T] : Add (Chk b T) := ⟨lift2 fun x y => arith b (toZ x + toZ y) (x + y)⟩
open IntWord in
/-- `-` and `-=` -/
instance [Sub T] : Sub (Chk b T) := ⟨lift2 fun x y => arith b (toZ x - toZ y) (x - y)⟩
open IntWord in
/-- `*` and `*=` -/
instance [Mul T] : Mul (Chk b T) := ⟨lift2 fun x y => arith b (toZ x * toZ y) (x * y)⟩
open IntWord in
/-- `/` and `/=`: the checks are there in both builds -/
instance [Div T] : Div (Chk b T) :=
  ⟨lift2 fun x y => if toZ y = 0 ∨ (toZ x = lo T ∧ toZ y = -1) then none else some (x / y)⟩
open IntWord in
/-- unary `-` of a signed integer type (scalar.rs:369-372) -/
instance [Neg T] : Neg (Chk b T) := ⟨fun x => ⟨x.run.bind fun a => arith b (-toZ a) (-a)⟩⟩

/-- scalar.rs:229-340: constants and comparisons do not panic; `square` is `self * self` -/
instance [Mul T] [Scalar T] : Scalar (Chk b T) where
  zero := of b Scalar.zero
  one := of b Scalar.one
  lowest := of b Scalar.lowest
  highest := of b Scalar.highest
  eq x y := match x.run, y.run with
    | some a, some c => Scalar.eq a c
    | _, _ => false
  pcmp x y := match x.run, y.run with
    | some a, some c => Scalar.pcmp a c
    | _, _ => none
  square x := x * x

end

/-- a vector of values already computed -/
def ofVec (b : Build) {n : Nat} {U : Marker} (a : GVec T n U) : GVec (Chk b T) n U := ⟨fun i => of b (a.vec i)⟩
/-- a matrix of values already computed -/
def ofMat (b : Build) (a : Mat4 T) : Mat4 (Chk b T) := ⟨fun i j => of b (a.data i j)⟩

/-- the evaluation of `v` returns `w`: no component panicked -/
def Returns {n : Nat} {U : Marker} (v : GVec (Chk b T) n U) (w : GVec T n U) : Prop :=
  ∀ i, (v.vec i).run = some (w.vec i)
/-- the evaluation of `m` returns `w` -/
def ReturnsM (m : Mat4 (Chk b T)) (w : Mat4 T) : Prop := ∀ i j, (m.data i j).run = some (w.data i j)

end Chk

open IntWord

instance : IntWord UInt8 := ⟨fun x => (x.toNat : ℤ), 0, 2 ^ 8 - 1⟩
instance : IntWord UInt16 := ⟨fun x => (x.toNat : ℤ), 0, 2 ^ 16 - 1⟩
instance : IntWord UInt32 := ⟨fun x => (x.toNat : ℤ), 0, 2 ^ 32 - 1⟩
instance : IntWord UInt64 := ⟨fun x => (x.toNat : ℤ), 0, 2 ^ 64 - 1⟩
instance : IntWord Int8 := ⟨Int8.toInt, -2 ^ 7, 2 ^ 7 - 1⟩
instance : IntWord Int16 := ⟨Int16.toInt, -2 ^ 15, 2 ^ 15 - 1⟩
instance : IntWord Int32 := ⟨Int32.toInt, -2 ^ 31, 2 ^ 31 - 1⟩
instance : IntWord Int64 := ⟨Int64.toInt, -2 ^ 63, 2 ^ 63 - 1⟩

end Scarlet
