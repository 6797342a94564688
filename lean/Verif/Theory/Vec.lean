import Verif.Model.Vector
import Verif.Spec.Exact
import Mathlib.Algebra.BigOperators.Fin
import Mathlib.LinearAlgebra.Matrix.Determinant.Basic
import Mathlib.LinearAlgebra.CrossProduct
import Mathlib.Algebra.BigOperators.Field

/-! Vectors: loops as sums, component lemmas. -/

namespace Scarlet
variable {T : Type} {n : Nat} {U I : Marker}

theorem sumLoop_three [Add T] [Scalar T] (f : Fin 3 → T) : sumLoop 3 f = Scalar.zero + f 0 + f 1 + f 2 := rfl
theorem sumLoop_four [Add T] [Scalar T] (f : Fin 4 → T) : sumLoop 4 f = Scalar.zero + f 0 + f 1 + f 2 + f 3 := rfl

theorem sumLoop_real (f : Fin n → ℝ) : sumLoop n f = ∑ i, f i := by
  induction n with
  | zero => simp [sumLoop]
  | succ n ih => rw [Fin.sum_univ_castSucc, sumLoop, ih]

section
variable [Add T] [Sub T] [Mul T] [Neg T] [Scalar T] [ExactRing T]
theorem sumLoop_exact (f : Fin n → T) :
    letI := ExactRing.ring T
    sumLoop n f = ∑ i, f i := by
  let _ := ExactRing.ring T
  induction n with
  | zero => simp only [sumLoop, Finset.univ_eq_empty, Finset.sum_empty]; rfl
  | succ n ih => rw [Fin.sum_univ_castSucc, sumLoop, ih]
end

namespace GVec

@[simp] theorem vec_neg [Neg T] (a : GVec T n U) (i) : (-a).vec i = -a.vec i := rfl
@[simp] theorem vec_add [Add T] (a b : GVec T n U) (i) : (a + b).vec i = a.vec i + b.vec i := rfl
@[simp] theorem vec_mul [Mul T] (a b : GVec T n U) (i) : (a * b).vec i = a.vec i * b.vec i := rfl
@[simp] theorem vec_div [Div T] (a b : GVec T n U) (i) : (a / b).vec i = a.vec i / b.vec i := rfl
@[simp] theorem vec_sub [Sub T] (a b : Vec T n) (i) : (a - b).vec i = a.vec i - b.vec i := rfl
@[simp] theorem vec_smul [Mul T] (a : GVec T n U) (t : T) (i) : (a * t).vec i = a.vec i * t := rfl
@[simp] theorem vec_sdiv [Div T] (a : GVec T n U) (t : T) (i) : (a / t).vec i = a.vec i / t := rfl
@[simp] theorem vec_psub [Sub T] (a b : Point T n) (i) : (a - b : Vec T n).vec i = a.vec i - b.vec i := rfl
@[simp] theorem vec_vadd [Add T] (a : Vec T n) (b : Point T n) (i) : (a + b : Point T n).vec i = a.vec i + b.vec i := rfl
@[simp] theorem vec_padd [Add T] (a : Point T n) (b : Vec T n) (i) : (a + b : Point T n).vec i = a.vec i + b.vec i := rfl
@[simp] theorem vec_pvsub [Sub T] (a : Point T n) (b : Vec T n) (i) : (a - b : Point T n).vec i = a.vec i - b.vec i := rfl
@[simp] theorem vec_conv (V : Marker) (a : GVec T n U) : (conv V a).vec = a.vec := rfl

@[simp] theorem x_add [Add T] (a b : GVec T (n + 1) U) : (a + b).x = a.x + b.x := rfl
@[simp] theorem x_neg [Neg T] (a : GVec T (n + 1) U) : (-a).x = -a.x := rfl
@[simp] theorem x_sub [Sub T] (a b : Vec T (n + 1)) : (a - b).x = a.x - b.x := rfl
@[simp] theorem x_smul [Mul T] (a : GVec T (n + 1) U) (t : T) : (a * t).x = a.x * t := rfl
@[simp] theorem x_sdiv [Div T] (a : GVec T (n + 1) U) (t : T) : (a / t).x = a.x / t := rfl
@[simp] theorem x_div [Div T] (a b : GVec T (n + 1) U) : (a / b).x = a.x / b.x := rfl
@[simp] theorem x_psub [Sub T] (a b : Point T (n + 1)) : (a - b : Vec T (n + 1)).x = a.x - b.x := rfl
@[simp] theorem x_padd [Add T] (a : Point T (n + 1)) (b : Vec T (n + 1)) : (a + b : Point T (n + 1)).x = a.x + b.x := rfl
@[simp] theorem x_conv (V : Marker) (a : GVec T (n + 1) U) : (conv V a).x = a.x := rfl
@[simp] theorem y_add [Add T] (a b : GVec T (n + 2) U) : (a + b).y = a.y + b.y := rfl
@[simp] theorem y_neg [Neg T] (a : GVec T (n + 2) U) : (-a).y = -a.y := rfl
@[simp] theorem y_sub [Sub T] (a b : Vec T (n + 2)) : (a - b).y = a.y - b.y := rfl
@[simp] theorem y_smul [Mul T] (a : GVec T (n + 2) U) (t : T) : (a * t).y = a.y * t := rfl
@[simp] theorem y_sdiv [Div T] (a : GVec T (n + 2) U) (t : T) : (a / t).y = a.y / t := rfl
@[simp] theorem y_div [Div T] (a b : GVec T (n + 2) U) : (a / b).y = a.y / b.y := rfl
@[simp] theorem y_psub [Sub T] (a b : Point T (n + 2)) : (a - b : Vec T (n + 2)).y = a.y - b.y := rfl
@[simp] theorem y_padd [Add T] (a : Point T (n + 2)) (b : Vec T (n + 2)) : (a + b : Point T (n + 2)).y = a.y + b.y := rfl
@[simp] theorem y_conv (V : Marker) (a : GVec T (n + 2) U) : (conv V a).y = a.y := rfl
@[simp] theorem z_add [Add T] (a b : GVec T (n + 3) U) : (a + b).z = a.z + b.z := rfl
@[simp] theorem z_neg [Neg T] (a : GVec T (n + 3) U) : (-a).z = -a.z := rfl
@[simp] theorem z_sub [Sub T] (a b : Vec T (n + 3)) : (a - b).z = a.z - b.z := rfl
@[simp] theorem z_smul [Mul T] (a : GVec T (n + 3) U) (t : T) : (a * t).z = a.z * t := rfl
@[simp] theorem z_sdiv [Div T] (a : GVec T (n + 3) U) (t : T) : (a / t).z = a.z / t := rfl
@[simp] theorem z_div [Div T] (a b : GVec T (n + 3) U) : (a / b).z = a.z / b.z := rfl
@[simp] theorem z_psub [Sub T] (a b : Point T (n + 3)) : (a - b : Vec T (n + 3)).z = a.z - b.z := rfl
@[simp] theorem z_padd [Add T] (a : Point T (n + 3)) (b : Vec T (n + 3)) : (a + b : Point T (n + 3)).z = a.z + b.z := rfl
@[simp] theorem z_conv (V : Marker) (a : GVec T (n + 3) U) : (conv V a).z = a.z := rfl
@[simp] theorem x_cross [Mul T] [Sub T] (a b : GVec T 3 U) : (a.cross b).x = a.y * b.z - a.z * b.y := rfl
@[simp] theorem y_cross [Mul T] [Sub T] (a b : GVec T 3 U) : (a.cross b).y = a.z * b.x - a.x * b.z := rfl
@[simp] theorem z_cross [Mul T] [Sub T] (a b : GVec T 3 U) : (a.cross b).z = a.x * b.y - a.y * b.x := rfl

@[simp] theorem x_new3 (a b c : T) : (new3 a b c : GVec T 3 U).x = a := rfl
@[simp] theorem y_new3 (a b c : T) : (new3 a b c : GVec T 3 U).y = b := rfl
@[simp] theorem z_new3 (a b c : T) : (new3 a b c : GVec T 3 U).z = c := rfl
@[simp] theorem x_new2 (a b : T) : (new2 a b : GVec T 2 U).x = a := rfl
@[simp] theorem y_new2 (a b : T) : (new2 a b : GVec T 2 U).y = b := rfl

@[simp] theorem vec_new3_0 (a b c : T) : (new3 a b c : GVec T 3 U).vec 0 = a := rfl
@[simp] theorem vec_new3_1 (a b c : T) : (new3 a b c : GVec T 3 U).vec 1 = b := rfl
@[simp] theorem vec_new3_2 (a b c : T) : (new3 a b c : GVec T 3 U).vec 2 = c := rfl

theorem ext3 {a b : GVec T 3 U} (hx : a.x = b.x) (hy : a.y = b.y) (hz : a.z = b.z) : a = b := by
  ext i; fin_cases i <;> assumption
theorem ext2 {a b : GVec T 2 U} (hx : a.x = b.x) (hy : a.y = b.y) : a = b := by
  ext i; fin_cases i <;> assumption

theorem new3_eta (a : GVec T 3 U) : new3 a.x a.y a.z = a := ext3 rfl rfl rfl

theorem dot_real (a : GVec ℝ n U) (b : GVec ℝ n I) : a.dot b = ∑ i, a.vec i * b.vec i := sumLoop_real _
theorem squareNorm_real (a : GVec ℝ n U) : a.squareNorm = ∑ i, a.vec i * a.vec i := sumLoop_real _

theorem dot3 (a : GVec ℝ 3 U) (b : GVec ℝ 3 I) : a.dot b = a.x * b.x + a.y * b.y + a.z * b.z := by
  rw [dot_real, Fin.sum_univ_three]; rfl
theorem squareNorm3 (a : GVec ℝ 3 U) : a.squareNorm = a.x * a.x + a.y * a.y + a.z * a.z := by
  rw [squareNorm_real, Fin.sum_univ_three]; rfl

theorem squareNorm_nonneg (a : GVec ℝ n U) : 0 ≤ a.squareNorm := by
  rw [squareNorm_real]; exact Finset.sum_nonneg fun i _ => mul_self_nonneg _

theorem squareNorm_eq_zero {a : GVec ℝ n U} : a.squareNorm = 0 ↔ ∀ i, a.vec i = 0 := by
  rw [squareNorm_real, Finset.sum_eq_zero_iff_of_nonneg fun i _ => mul_self_nonneg _]
  simp

theorem norm_real (a : GVec ℝ n U) : a.norm = Real.sqrt a.squareNorm := rfl

theorem norm_sq (a : GVec ℝ n U) : a.norm * a.norm = a.squareNorm := Real.mul_self_sqrt a.squareNorm_nonneg

theorem norm_pos {a : GVec ℝ n U} (h : ∃ i, a.vec i ≠ 0) : 0 < a.norm := by
  rw [norm_real, Real.sqrt_pos]
  refine lt_of_le_of_ne a.squareNorm_nonneg fun h0 => ?_
  obtain ⟨i, hi⟩ := h
  exact hi (squareNorm_eq_zero.1 h0.symm i)

theorem normalize_vec (a : GVec ℝ n U) (i) : a.normalize.vec i = a.vec i / a.norm := rfl

theorem squareNorm_normalize {a : GVec ℝ n U} (h : ∃ i, a.vec i ≠ 0) : a.normalize.squareNorm = 1 := by
  have hp := norm_pos h
  rw [squareNorm_real]
  simp only [normalize_vec, div_mul_div_comm]
  rw [← Finset.sum_div, ← squareNorm_real, ← norm_sq, div_self (mul_pos hp hp).ne']

end GVec

end Scarlet
