import Verif.Spec.Float
import Verif.Model.Interval

/-! Specification vocabulary for intervals of floats: the set of real numbers an interval stands for. -/

namespace Scarlet
namespace Interval
variable {mw ew : Nat}

/-- The real `x` lies in the interval `A`: `A.inf ≤ x ≤ A.sup` as extended reals, neither bound being NaN. -/
def Mem (A : Interval (Flt mw ew)) (x : ℝ) : Prop := A.inf.LowerOf x ∧ A.sup.UpperOf x

instance : Membership ℝ (Interval (Flt mw ew)) := ⟨Mem⟩

theorem mem_iff {A : Interval (Flt mw ew)} {x : ℝ} : x ∈ A ↔ A.inf.LowerOf x ∧ A.sup.UpperOf x := Iff.rfl

/-- Both bounds are finite floats. -/
def Finite (A : Interval (Flt mw ew)) : Prop := A.inf.isFin = true ∧ A.sup.isFin = true

/-- The bounds are not NaN and in order: what `Interval::new` asserts. -/
def Ordered (A : Interval (Flt mw ew)) : Prop :=
  A.inf.isNaN = false ∧ A.sup.isNaN = false ∧ A.inf.val ≤ A.sup.val

/-- The lower bound is negative and the upper bound positive. -/
def Straddles (A : Interval (Flt mw ew)) : Prop :=
  A.inf.isNaN = false ∧ A.sup.isNaN = false ∧ A.inf.val < 0 ∧ 0 < A.sup.val

/-- Neither bound is NaN. -/
def NoNaN (A : Interval (Flt mw ew)) : Prop := A.inf.isNaN = false ∧ A.sup.isNaN = false

/-- The whole real line. -/
def IsWhole (A : Interval (Flt mw ew)) : Prop := NoNaN A ∧ A.inf.val = ⊥ ∧ A.sup.val = ⊤

end Interval
end Scarlet
