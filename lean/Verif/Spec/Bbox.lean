import Verif.Model.Bbox
import Verif.Spec.Float

/-!
Specification vocabulary for boxes: the region a box of floats stands for, as a set of points of extended reals.
-/

namespace Scarlet
open Flt
variable {mw ew : Nat}

/-- A float point without NaN coordinates. -/
def GVec.NoNaN {n : Nat} {U : Marker} (p : GVec (Flt mw ew) n U) : Prop := ∀ i, (p.vec i).isNaN = false
/-- A float point with finite coordinates. -/
def GVec.Fin {n : Nat} {U : Marker} (p : GVec (Flt mw ew) n U) : Prop := ∀ i, (p.vec i).isFin = true

namespace Bbox
/-- No bound is NaN. -/
def NoNaN (b : Bbox (Flt mw ew)) : Prop := b.pmin.NoNaN ∧ b.pmax.NoNaN
/-- The bounds are in order on every axis. -/
def Ordered (b : Bbox (Flt mw ew)) : Prop := ∀ i, (b.pmin.vec i).val ≤ (b.pmax.vec i).val
/-- The bounds are strictly in order on every axis. -/
def Solid (b : Bbox (Flt mw ew)) : Prop := ∀ i, (b.pmin.vec i).val < (b.pmax.vec i).val
/-- The closed region of a box. -/
def region (b : Bbox (Flt mw ew)) : Set (Fin 3 → EReal) :=
  {x | b.NoNaN ∧ ∀ i, (b.pmin.vec i).val ≤ x i ∧ x i ≤ (b.pmax.vec i).val}
/-- The real points strictly inside a box. -/
def interior (b : Bbox (Flt mw ew)) : Set (Fin 3 → ℝ) :=
  {x | ∀ i, (b.pmin.vec i).val < (x i : EReal) ∧ (x i : EReal) < (b.pmax.vec i).val}
end Bbox
end Scarlet
