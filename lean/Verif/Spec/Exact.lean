import Verif.Model.Ideal
import Mathlib.Algebra.Ring.Defs
import Mathlib.Tactic.Ring

/-!
"Exact arithmetic": scalar types whose operations satisfy the laws of a commutative ring, with `T::zero()` and
`T::one()` the neutral elements and `square x = x * x`.  All Rust integer types (wrapping arithmetic, release build)
and `ℝ` are instances; floats are not.
-/

namespace Scarlet

class ExactRing (T : Type) [Add T] [Sub T] [Mul T] [Neg T] [Scalar T] : Prop where
  add_assoc : ∀ a b c : T, a + b + c = a + (b + c)
  add_comm : ∀ a b : T, a + b = b + a
  zero_add : ∀ a : T, Scalar.zero + a = a
  neg_add_cancel : ∀ a : T, -a + a = Scalar.zero
  sub_eq : ∀ a b : T, a - b = a + -b
  mul_assoc : ∀ a b c : T, a * b * c = a * (b * c)
  mul_comm : ∀ a b : T, a * b = b * a
  one_mul : ∀ a : T, Scalar.one * a = a
  distrib : ∀ a b c : T, a * (b + c) = a * b + a * c
  square_eq : ∀ a : T, Scalar.square a = a * a

/-- The Mathlib ring of an exact scalar type. -/
abbrev ExactRing.ring (T : Type) [Add T] [Sub T] [Mul T] [Neg T] [Scalar T] [ExactRing T] : CommRing T :=
  letI : Zero T := ⟨Scalar.zero⟩
  letI : One T := ⟨Scalar.one⟩
  have hz : ∀ a : T, a + Scalar.zero = a := fun a => by rw [ExactRing.add_comm, ExactRing.zero_add]
  have hn : ∀ a : T, Scalar.zero * a = Scalar.zero := fun a => by
    have h : Scalar.zero * a + Scalar.zero * a = Scalar.zero * a := by
      rw [ExactRing.mul_comm, ← ExactRing.distrib, hz]
    calc Scalar.zero * a = -(Scalar.zero * a) + (Scalar.zero * a + Scalar.zero * a) := by
            rw [← ExactRing.add_assoc, ExactRing.neg_add_cancel, ExactRing.zero_add]
      _ = Scalar.zero := by rw [h, ExactRing.neg_add_cancel]
  { add_assoc := ExactRing.add_assoc
    add_comm := ExactRing.add_comm
    zero_add := ExactRing.zero_add
    add_zero := hz
    neg_add_cancel := ExactRing.neg_add_cancel
    sub_eq_add_neg := ExactRing.sub_eq
    mul_assoc := ExactRing.mul_assoc
    mul_comm := ExactRing.mul_comm
    one_mul := ExactRing.one_mul
    mul_one := fun a => by rw [ExactRing.mul_comm]; exact ExactRing.one_mul a
    left_distrib := ExactRing.distrib
    right_distrib := fun a b c => by
      rw [ExactRing.mul_comm, ExactRing.distrib, ExactRing.mul_comm c a, ExactRing.mul_comm c b]
    zero_mul := hn
    mul_zero := fun a => by rw [ExactRing.mul_comm]; exact hn a
    nsmul := nsmulRec
    zsmul := zsmulRec }

instance : ExactRing ℝ where
  add_assoc := add_assoc
  add_comm := add_comm
  zero_add := zero_add
  neg_add_cancel := neg_add_cancel
  sub_eq := sub_eq_add_neg
  mul_assoc := mul_assoc
  mul_comm := mul_comm
  one_mul := one_mul
  distrib := mul_add
  square_eq := fun _ => rfl

instance : ExactRing UInt8 where
  add_assoc := UInt8.add_assoc
  add_comm := UInt8.add_comm
  zero_add := UInt8.zero_add
  neg_add_cancel := fun _ => UInt8.add_left_neg _
  sub_eq := UInt8.sub_eq_add_neg
  mul_assoc := UInt8.mul_assoc
  mul_comm := UInt8.mul_comm
  one_mul := UInt8.one_mul
  distrib := fun _ _ _ => UInt8.mul_add
  square_eq := fun _ => rfl
instance : ExactRing UInt16 where
  add_assoc := UInt16.add_assoc
  add_comm := UInt16.add_comm
  zero_add := UInt16.zero_add
  neg_add_cancel := fun _ => UInt16.add_left_neg _
  sub_eq := UInt16.sub_eq_add_neg
  mul_assoc := UInt16.mul_assoc
  mul_comm := UInt16.mul_comm
  one_mul := UInt16.one_mul
  distrib := fun _ _ _ => UInt16.mul_add
  square_eq := fun _ => rfl
instance : ExactRing UInt32 where
  add_assoc := UInt32.add_assoc
  add_comm := UInt32.add_comm
  zero_add := UInt32.zero_add
  neg_add_cancel := fun _ => UInt32.add_left_neg _
  sub_eq := UInt32.sub_eq_add_neg
  mul_assoc := UInt32.mul_assoc
  mul_comm := UInt32.mul_comm
  one_mul := UInt32.one_mul
  distrib := fun _ _ _ => UInt32.mul_add
  square_eq := fun _ => rfl
instance : ExactRing UInt64 where
  add_assoc := UInt64.add_assoc
  add_comm := UInt64.add_comm
  zero_add := UInt64.zero_add
  neg_add_cancel := fun _ => UInt64.add_left_neg _
  sub_eq := UInt64.sub_eq_add_neg
  mul_assoc := UInt64.mul_assoc
  mul_comm := UInt64.mul_comm
  one_mul := UInt64.one_mul
  distrib := fun _ _ _ => UInt64.mul_add
  square_eq := fun _ => rfl
instance : ExactRing Int8 where
  add_assoc := Int8.add_assoc
  add_comm := Int8.add_comm
  zero_add := Int8.zero_add
  neg_add_cancel := fun _ => Int8.add_left_neg _
  sub_eq := Int8.sub_eq_add_neg
  mul_assoc := Int8.mul_assoc
  mul_comm := Int8.mul_comm
  one_mul := Int8.one_mul
  distrib := fun _ _ _ => Int8.mul_add
  square_eq := fun _ => rfl
instance : ExactRing Int16 where
  add_assoc := Int16.add_assoc
  add_comm := Int16.add_comm
  zero_add := Int16.zero_add
  neg_add_cancel := fun _ => Int16.add_left_neg _
  sub_eq := Int16.sub_eq_add_neg
  mul_assoc := Int16.mul_assoc
  mul_comm := Int16.mul_comm
  one_mul := Int16.one_mul
  distrib := fun _ _ _ => Int16.mul_add
  square_eq := fun _ => rfl
instance : ExactRing Int32 where
  add_assoc := Int32.add_assoc
  add_comm := Int32.add_comm
  zero_add := Int32.zero_add
  neg_add_cancel := fun _ => Int32.add_left_neg _
  sub_eq := Int32.sub_eq_add_neg
  mul_assoc := Int32.mul_assoc
  mul_comm := Int32.mul_comm
  one_mul := Int32.one_mul
  distrib := fun _ _ _ => Int32.mul_add
  square_eq := fun _ => rfl
instance : ExactRing Int64 where
  add_assoc := Int64.add_assoc
  add_comm := Int64.add_comm
  zero_add := Int64.zero_add
  neg_add_cancel := fun _ => Int64.add_left_neg _
  sub_eq := Int64.sub_eq_add_neg
  mul_assoc := Int64.mul_assoc
  mul_comm := Int64.mul_comm
  one_mul := Int64.one_mul
  distrib := fun _ _ _ => Int64.mul_add
  square_eq := fun _ => rfl

end Scarlet
