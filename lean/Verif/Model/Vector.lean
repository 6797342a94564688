import Verif.Model.Interval
import Mathlib.Data.Fin.VecNotation
import Mathlib.Logic.Function.Basic

/-!
Model of `/repo/src/math/vector.rs`, `/repo/src/math/vector_traits.rs` and `/repo/src/math/vectori.rs`.

* `GenericVector<T, N, U>` is `GVec T n U`; the array `[T; N]` is a function `Fin n → T`, the phantom marker type `U`
  one of three constructors.
* A loop `for i in 0..N { res += f(i) }` is `sumLoop`, in the same order and starting from `T::zero()`.
* `+=`, `-=` return the new value.  The `*_mut` accessors, `Clone`, `Copy`, `InnerScalar`, `Dimension` and
  `VectorTraits` have no content in a pure model.
* The inherent methods of vector.rs:454-504 only forward to the trait methods and are not repeated.
-/

namespace Scarlet

/-- `VectorMarker`, `PointMarker`, `NormalMarker` (vector.rs:39-44) -/
inductive Marker where
  | vector | point | normal
deriving DecidableEq

/-- `struct GenericVector<T, N, U>` (vector.rs:49-53) -/
@[ext] structure GVec (T : Type) (n : Nat) (U : Marker) where
  vec : Fin n → T

/-- vector.rs:4 -/
abbrev Vec (T : Type) (n : Nat) := GVec T n .vector
/-- vector.rs:9 -/
abbrev Point (T : Type) (n : Nat) := GVec T n .point
/-- vector.rs:13 -/
abbrev Normal (T : Type) (n : Nat) := GVec T n .normal

/-- `let mut res = T::zero(); for i in 0..N { res += f(i); } res`, i.e. `((0 + f 0) + f 1) + ...` -/
def sumLoop {T : Type} [Add T] [Scalar T] : (n : Nat) → (Fin n → T) → T
  | 0, _ => Scalar.zero
  | n + 1, f => sumLoop n (fun i => f i.castSucc) + f (Fin.last n)

namespace GVec
variable {T : Type} {n : Nat} {U I : Marker}

/-- vector.rs:55-63 -/
def new4 (x y z w : T) : GVec T 4 U := ⟨![x, y, z, w]⟩
/-- vector.rs:65-68 -/
def new3 (x y z : T) : GVec T 3 U := ⟨![x, y, z]⟩
/-- vector.rs:78-83 -/
def new2 (x y : T) : GVec T 2 U := ⟨![x, y]⟩

/-- vector.rs:86-90 (indexing out of range is a compile-time error here, a panic in Rust) -/
def x (v : GVec T (n + 1) U) : T := v.vec 0
/-- vector.rs:92-96 -/
def y (v : GVec T (n + 2) U) : T := v.vec 1
/-- vector.rs:98-102 -/
def z (v : GVec T (n + 3) U) : T := v.vec 2
/-- vector.rs:104-108 -/
def w (v : GVec T (n + 4) U) : T := v.vec 3

/-- vector.rs:134-144 -/
def min [Scalar T] (a b : GVec T n U) : GVec T n U := ⟨fun i => Scalar.min (a.vec i) (b.vec i)⟩
/-- vector.rs:146-156 -/
def max [Scalar T] (a b : GVec T n U) : GVec T n U := ⟨fun i => Scalar.max (a.vec i) (b.vec i)⟩

/-- `Default` (vector.rs:159-165) -/
def default [Scalar T] : GVec T n U := ⟨fun _ => Scalar.zero⟩

/-- `PartialEq` (vector.rs:174-178): array equality -/
def eq [Scalar T] (a b : GVec T n U) : Bool := (List.finRange n).all fun i => Scalar.eq (a.vec i) (b.vec i)

/-- `AlmostEqual` (vector.rs:180-189) -/
def almostEq [AlmostEqual T T] (a b : GVec T n U) : Bool :=
  (List.finRange n).all fun i => AlmostEqual.almostEq (a.vec i) (b.vec i)

/-- vector.rs:191-200 -/
instance [Neg T] : Neg (GVec T n U) := ⟨fun a => ⟨fun i => -a.vec i⟩⟩
/-- vector.rs:202-218 (and `AddAssign`, 256-265) -/
instance [Add T] : Add (GVec T n U) := ⟨fun a b => ⟨fun i => a.vec i + b.vec i⟩⟩
/-- vector.rs:220-236 -/
instance [Mul T] : Mul (GVec T n U) := ⟨fun a b => ⟨fun i => a.vec i * b.vec i⟩⟩
/-- vector.rs:238-254 -/
instance [Div T] : Div (GVec T n U) := ⟨fun a b => ⟨fun i => a.vec i / b.vec i⟩⟩
/-- vector.rs:267-287 (and `SubAssign`, 289-298); `HasSub` holds for `VectorMarker` only (46-47) -/
instance [Sub T] : Sub (Vec T n) := ⟨fun a b => ⟨fun i => a.vec i - b.vec i⟩⟩
/-- vector.rs:324-340 -/
instance [Mul T] : HMul (GVec T n U) T (GVec T n U) := ⟨fun a t => ⟨fun i => a.vec i * t⟩⟩
/-- vector.rs:342-358 -/
instance [Div T] : HDiv (GVec T n U) T (GVec T n U) := ⟨fun a t => ⟨fun i => a.vec i / t⟩⟩

/-- vector.rs:70-76 -/
def cross [Mul T] [Sub T] (a b : GVec T 3 U) : GVec T 3 U :=
  new3 (a.y * b.z - a.z * b.y) (a.z * b.x - a.x * b.z) (a.x * b.y - a.y * b.x)

/-- vector.rs:360-371 -/
def dot [Add T] [Mul T] [Scalar T] (a : GVec T n U) (b : GVec T n I) : T :=
  sumLoop n fun i => a.vec i * b.vec i

/-- `From<Vector> for Normal`, `From<Vector> for Point`, `From<Point> for Vector`, `From<Normal> for Vector`
(vector.rs:382-409): only the marker changes. -/
def conv (V : Marker) (a : GVec T n U) : GVec T n V := ⟨a.vec⟩

/-- vector.rs:410-417 -/
instance [Sub T] : HSub (Point T n) (Point T n) (Vec T n) := ⟨fun a b => conv .vector a - conv .vector b⟩
/-- vector.rs:418-425 -/
instance [Add T] : HAdd (Vec T n) (Point T n) (Point T n) := ⟨fun a b => conv .point a + b⟩
/-- vector.rs:426-433 -/
instance [Add T] : HAdd (Point T n) (Vec T n) (Point T n) := ⟨fun a b => a + conv .point b⟩
/-- vector.rs:434-441: `Point::from(self - Point::from(rhs))`; the inner `-` is point minus point, a vector -/
instance [Sub T] : HSub (Point T n) (Vec T n) (Point T n) :=
  ⟨fun a b => conv .point ((a : Point T n) - (conv .point b : Point T n) : Vec T n)⟩

/-- vector.rs:443-452 (overrides vector_traits.rs:42-45) -/
def squareNorm [Add T] [Scalar T] (a : GVec T n U) : T := sumLoop n fun i => Scalar.square (a.vec i)
/-- vector_traits.rs:47-53 -/
def norm [Add T] [Scalar T] [GFloat T] (a : GVec T n U) : T := GFloat.sqrt (squareNorm a)
/-- vector_traits.rs:55-61 -/
def squareDistance [Add T] [Sub T] [Scalar T] (a b : Vec T n) : T := squareNorm (a - b)
/-- vector_traits.rs:63-70 -/
def distance [Add T] [Sub T] [Scalar T] [GFloat T] (a b : Vec T n) : T := GFloat.sqrt (squareDistance a b)
/-- vector_traits.rs:72-79 -/
def normalize [Add T] [Div T] [Scalar T] [GFloat T] (a : GVec T n U) : GVec T n U := a / norm a

section interval
variable [Add T] [Sub T] [Mul T] [Div T] [Neg T] [Scalar T] [SignedScalar T] [GFloat T]

/-- vectori.rs:11-17 -/
instance : HMul (GVec (Interval T) n U) T (GVec (Interval T) n U) := ⟨fun a t => ⟨fun i => a.vec i * t⟩⟩
/-- vectori.rs:19-25 -/
instance : HDiv (GVec (Interval T) n U) T (GVec (Interval T) n U) := ⟨fun a t => ⟨fun i => a.vec i / t⟩⟩
/-- vectori.rs:27-33 -/
def toInterval (a : GVec T n U) : GVec (Interval T) n U := ⟨fun i => Interval.from1 (a.vec i)⟩
/-- vectori.rs:34-40 -/
def fromInterval (a : GVec (Interval T) n U) : GVec T n U := ⟨fun i => Interval.approx (a.vec i)⟩
end interval

end GVec
end Scarlet
