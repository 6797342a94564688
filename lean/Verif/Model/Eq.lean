import Verif.Model.Transform

/-! The remaining derived comparison of `/repo/src/math/transform.rs`. -/

namespace Scarlet
variable {T : Type}

/-- `PartialEq` of `Transform` (derived, transform.rs:169-173): the matrix and its inverse, field by field -/
def Transform.eq [Scalar T] (a b : Transform T) : Bool := a.m.eq b.m && a.minv.eq b.minv

end Scarlet
