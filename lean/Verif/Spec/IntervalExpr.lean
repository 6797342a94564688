import Verif.Spec.Interval

/-! Specification vocabulary for C23 (expressions), C27 and C28 (exact range of an operation). -/

namespace Scarlet

/-- Expressions over interval variables and float constants. -/
inductive IExpr (F : Type) where
  | var (i : Nat)
  | const (t : F)
  | add (a b : IExpr F)
  | sub (a b : IExpr F)
  | mul (a b : IExpr F)
  | div (a b : IExpr F)
  | neg (a : IExpr F)
  | square (a : IExpr F)
  | abs (a : IExpr F)
  | min (a b : IExpr F)
  | max (a b : IExpr F)
  | addC (a : IExpr F) (t : F)
  | subC (a : IExpr F) (t : F)
  | mulC (a : IExpr F) (t : F)
  | divC (a : IExpr F) (t : F)

namespace IExpr
variable {mw ew : Nat}

/-- The exact real value. -/
noncomputable def evalR (σ : Nat → ℝ) : IExpr (Flt mw ew) → ℝ
  | var i => σ i
  | const t => t.toReal
  | add a b => evalR σ a + evalR σ b
  | sub a b => evalR σ a - evalR σ b
  | mul a b => evalR σ a * evalR σ b
  | div a b => evalR σ a / evalR σ b
  | neg a => -evalR σ a
  | square a => evalR σ a ^ 2
  | abs a => |evalR σ a|
  | min a b => Min.min (evalR σ a) (evalR σ b)
  | max a b => Max.max (evalR σ a) (evalR σ b)
  | addC a t => evalR σ a + t.toReal
  | subC a t => evalR σ a - t.toReal
  | mulC a t => evalR σ a * t.toReal
  | divC a t => evalR σ a / t.toReal

/-- Every constant is finite and no division is by zero (in the exact evaluation). -/
def Defined (σ : Nat → ℝ) : IExpr (Flt mw ew) → Prop
  | var _ => True
  | const t => t.isFin = true
  | add a b | sub a b | mul a b | min a b | max a b => Defined σ a ∧ Defined σ b
  | div a b => Defined σ a ∧ Defined σ b ∧ evalR σ b ≠ 0
  | neg a | square a | abs a => Defined σ a
  | addC a t | subC a t | mulC a t => Defined σ a ∧ t.isFin = true
  | divC a t => Defined σ a ∧ t.isFin = true ∧ t.toReal ≠ 0

/-- No product of two intervals, and no product with the constant zero. -/
def MulFree : IExpr (Flt mw ew) → Prop
  | var _ | const _ => True
  | mul _ _ => False
  | add a b | sub a b | min a b | max a b | div a b => MulFree a ∧ MulFree b
  | neg a | square a | abs a | addC a _ | subC a _ | divC a _ => MulFree a
  | mulC a t => MulFree a ∧ t.toReal ≠ 0

end IExpr

namespace Interval
variable {mw ew : Nat}

/-- The exact range of a binary operation on the reals in `A` and `B`. -/
def Range2 (f : ℝ → ℝ → ℝ) (A B : Interval (Flt mw ew)) : Set ℝ := {z | ∃ x y, x ∈ A ∧ y ∈ B ∧ f x y = z}
/-- The exact range of a function on the reals in `A`. -/
def Range1 (f : ℝ → ℝ) (A : Interval (Flt mw ew)) : Set ℝ := {z | ∃ x, x ∈ A ∧ f x = z}

/-- `C` lies within `D` (by bounds, which may be infinite). -/
def Within (C D : Interval (Flt mw ew)) : Prop :=
  NoNaN C ∧ NoNaN D ∧ D.inf.val ≤ C.inf.val ∧ C.sup.val ≤ D.sup.val

end Interval
end Scarlet
