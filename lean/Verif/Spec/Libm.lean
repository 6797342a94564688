import Verif.Spec.Float
import Verif.Model.Scalar
import Mathlib.Analysis.SpecialFunctions.Trigonometric.Arctan

/-! The accuracy assumption on the platform's libm under which C24 and C25 are stated.

The Rust code calls `f32::sin` etc., whose results are platform dependent.  The assumption is that each function is
accurate to one float and has the correct sign; glibc and the LLVM intrinsics satisfy it. -/

namespace Scarlet
open Flt
variable {mw ew : Nat}

/-- At `x`, the float function `fl` is within one float of the real function `f` and has its sign. -/
structure AccurateAt [FltImpl mw ew] (fl : Flt mw ew → Flt mw ew) (f : ℝ → ℝ) (x : Flt mw ew) : Prop where
  lo : LowerOf (GFloat.nextDown (fl x)) (f x.toReal)
  hi : UpperOf (GFloat.nextUp (fl x)) (f x.toReal)
  pos : 0 < (fl x).val ↔ 0 < f x.toReal
  neg : (fl x).val < 0 ↔ f x.toReal < 0

class LawfulLibm (mw ew : Nat) [FltImpl mw ew] [Libm mw ew] : Prop where
  sin : ∀ x : Flt mw ew, x.isFin = true → AccurateAt Libm.sin Real.sin x
  cos : ∀ x : Flt mw ew, x.isFin = true → AccurateAt Libm.cos Real.cos x
  asin : ∀ x : Flt mw ew, x.isFin = true → -1 ≤ x.toReal → x.toReal ≤ 1 → AccurateAt Libm.asin Real.arcsin x
  acos : ∀ x : Flt mw ew, x.isFin = true → -1 ≤ x.toReal → x.toReal ≤ 1 → AccurateAt Libm.acos Real.arccos x
  atan : ∀ x : Flt mw ew, x.isFin = true → AccurateAt Libm.atan Real.arctan x
  /-- `atan(±inf)` is `±π/2` to within one float. -/
  atan_bot : ∀ x : Flt mw ew, x.isNaN = false → x.val = ⊥ → LowerOf (GFloat.nextDown (Libm.atan x)) (-(Real.pi / 2))
  atan_top : ∀ x : Flt mw ew, x.isNaN = false → x.val = ⊤ → UpperOf (GFloat.nextUp (Libm.atan x)) (Real.pi / 2)

end Scarlet
