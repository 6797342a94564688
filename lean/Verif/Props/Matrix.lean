import Verif.Model.Transform
import Verif.Theory.Mat
import Mathlib.LinearAlgebra.Matrix.NonsingularInverse
import Mathlib.Tactic.FieldSimp

/-! C32 (matrix algebra), C33 (matrix inverse). -/

set_option linter.unusedSectionVars false

namespace Scarlet

/-! ### C32 -/
section
variable {T : Type} [Add T] [Sub T] [Mul T] [Neg T] [Scalar T] [ExactRing T]

/-- C32: the product is the mathematical matrix product (Mathlib's), for every exact arithmetic. -/
theorem C32_mul_spec (a b : Mat4 T) :
    letI := ExactRing.ring T
    (a * b).toMatrix = a.toMatrix * b.toMatrix ∧ (Mat4.identity : Mat4 T).toMatrix = 1 :=
  ⟨Mat4.mul_exact a b, Mat4.identity_exact⟩

/-- C32: multiplication is associative. -/
theorem C32_mul_assoc (a b c : Mat4 T) : a * b * c = a * (b * c) := by
  let _ := ExactRing.ring T
  rw [← Mat4.toMatrix_inj]
  simp only [Mat4.mul_exact, Matrix.mul_assoc]

/-- C32: `identity()` is a two-sided unit. -/
theorem C32_identity (a : Mat4 T) : Mat4.identity * a = a ∧ a * Mat4.identity = a := by
  let _ := ExactRing.ring T
  simp only [← Mat4.toMatrix_inj, Mat4.mul_exact, Mat4.identity_exact, Matrix.one_mul, Matrix.mul_one, and_self]

/-- C32: `(AB)ᵀ = BᵀAᵀ` and transposition is an involution. -/
theorem C32_transpose (a b : Mat4 T) : (a * b).transpose = b.transpose * a.transpose ∧ a.transpose.transpose = a := by
  let _ := ExactRing.ring T
  simp only [← Mat4.toMatrix_inj, Mat4.mul_exact, Mat4.transpose_eq, Matrix.transpose_mul, Matrix.transpose_transpose, and_self]

theorem Mat4.smul_exact (a : Mat4 T) (r : T) (i j : Fin 4) : (a * r).data i j = r * a.data i j := by
  fin_cases i <;> fin_cases j <;> rfl

/-- C32: multiplication by a scalar acts on every entry and commutes with the product. -/
theorem C32_scalar (a b : Mat4 T) (r : T) :
    (∀ i j, (a * r).idx i j = r * a.idx i j) ∧ (a * r) * b = (a * b) * r ∧ a * (b * r) = (a * b) * r := by
  let _ := ExactRing.ring T
  refine ⟨Mat4.smul_exact a r, ?_, ?_⟩ <;> ext i j <;> rw [Mat4.smul_exact]
  · rw [Mat4.mul_data, Mat4.mul_data]
    simp only [Mat4.smul_exact, sumLoop_exact]
    rw [Finset.mul_sum]
    exact Finset.sum_congr rfl fun k _ => by ring
  · rw [Mat4.mul_data, Mat4.mul_data]
    simp only [Mat4.smul_exact, sumLoop_exact]
    rw [Finset.mul_sum]
    exact Finset.sum_congr rfl fun k _ => by ring

end

/-- C32: rows, columns and their vector versions agree with indexing, and transposition swaps indices. -/
theorem C32_rows_cols {T : Type} (a : Mat4 T) (i j : Fin 4) :
    a.row i j = a.idx i j ∧ a.col j i = a.idx i j ∧ (a.rowVec i).vec j = a.idx i j ∧ (a.colVec j).vec i = a.idx i j ∧
      a.transpose.idx i j = a.idx j i := by
  fin_cases i <;> fin_cases j <;> exact ⟨rfl, rfl, rfl, rfl, rfl⟩

/-- C32 applies to wrapping 8-bit integers, where products do wrap around. -/
example : ((((Mat4.identity : Mat4 Int8) * (100 : Int8)) * ((Mat4.identity : Mat4 Int8) * (3 : Int8))) : Mat4 Int8).idx 0 0 = 44 := by decide

/-! ### C33 -/

theorem Mat4.det_eq (a : Mat4 ℝ) :
    a.toMatrix.det =
      a.data 0 0 * (a.data 1 1 * (a.data 2 2 * a.data 3 3 - a.data 2 3 * a.data 3 2)
        - a.data 1 2 * (a.data 2 1 * a.data 3 3 - a.data 2 3 * a.data 3 1)
        + a.data 1 3 * (a.data 2 1 * a.data 3 2 - a.data 2 2 * a.data 3 1)) -
      a.data 0 1 * (a.data 1 0 * (a.data 2 2 * a.data 3 3 - a.data 2 3 * a.data 3 2)
        - a.data 1 2 * (a.data 2 0 * a.data 3 3 - a.data 2 3 * a.data 3 0)
        + a.data 1 3 * (a.data 2 0 * a.data 3 2 - a.data 2 2 * a.data 3 0)) +
      a.data 0 2 * (a.data 1 0 * (a.data 2 1 * a.data 3 3 - a.data 2 3 * a.data 3 1)
        - a.data 1 1 * (a.data 2 0 * a.data 3 3 - a.data 2 3 * a.data 3 0)
        + a.data 1 3 * (a.data 2 0 * a.data 3 1 - a.data 2 1 * a.data 3 0)) -
      a.data 0 3 * (a.data 1 0 * (a.data 2 1 * a.data 3 2 - a.data 2 2 * a.data 3 1)
        - a.data 1 1 * (a.data 2 0 * a.data 3 2 - a.data 2 2 * a.data 3 0)
        + a.data 1 2 * (a.data 2 0 * a.data 3 1 - a.data 2 1 * a.data 3 0)) := by
  rw [Matrix.det_succ_row_zero, Fin.sum_univ_four]
  simp only [Matrix.det_fin_three, Matrix.submatrix_apply, Mat4.toMatrix, Matrix.of_apply]
  simp [Fin.succAbove, Fin.lt_def]
  ring

/-- C33: `inverse()` of a matrix with nonzero determinant is a two-sided inverse. -/
theorem C33_inverse (a : Mat4 ℝ) (h : a.toMatrix.det ≠ 0) : a * a.inverse = Mat4.identity ∧ a.inverse * a = Mat4.identity := by
  have key : a * a.inverse = Mat4.identity := by
    rw [Mat4.det_eq] at h
    have hk := mul_one_div_cancel h
    clear h
    unfold Mat4.inverse
    dsimp only [rone]
    generalize 1 / (_ : ℝ) = k at *
    ext i j
    rw [Mat4.mul_data, sumLoop_four, rzero]
    fin_cases i <;> fin_cases j
    · change (0 : ℝ) + a.data 0 0 * (_ * k) + a.data 0 1 * (_ * k) + a.data 0 2 * (_ * k) + a.data 0 3 * (_ * k) = 1; linear_combination hk
    · change (0 : ℝ) + a.data 0 0 * (_ * k) + a.data 0 1 * (_ * k) + a.data 0 2 * (_ * k) + a.data 0 3 * (_ * k) = 0; ring
    · change (0 : ℝ) + a.data 0 0 * (_ * k) + a.data 0 1 * (_ * k) + a.data 0 2 * (_ * k) + a.data 0 3 * (_ * k) = 0; ring
    · change (0 : ℝ) + a.data 0 0 * (_ * k) + a.data 0 1 * (_ * k) + a.data 0 2 * (_ * k) + a.data 0 3 * (_ * k) = 0; ring
    · change (0 : ℝ) + a.data 1 0 * (_ * k) + a.data 1 1 * (_ * k) + a.data 1 2 * (_ * k) + a.data 1 3 * (_ * k) = 0; ring
    · change (0 : ℝ) + a.data 1 0 * (_ * k) + a.data 1 1 * (_ * k) + a.data 1 2 * (_ * k) + a.data 1 3 * (_ * k) = 1; linear_combination hk
    · change (0 : ℝ) + a.data 1 0 * (_ * k) + a.data 1 1 * (_ * k) + a.data 1 2 * (_ * k) + a.data 1 3 * (_ * k) = 0; ring
    · change (0 : ℝ) + a.data 1 0 * (_ * k) + a.data 1 1 * (_ * k) + a.data 1 2 * (_ * k) + a.data 1 3 * (_ * k) = 0; ring
    · change (0 : ℝ) + a.data 2 0 * (_ * k) + a.data 2 1 * (_ * k) + a.data 2 2 * (_ * k) + a.data 2 3 * (_ * k) = 0; ring
    · change (0 : ℝ) + a.data 2 0 * (_ * k) + a.data 2 1 * (_ * k) + a.data 2 2 * (_ * k) + a.data 2 3 * (_ * k) = 0; ring
    · change (0 : ℝ) + a.data 2 0 * (_ * k) + a.data 2 1 * (_ * k) + a.data 2 2 * (_ * k) + a.data 2 3 * (_ * k) = 1; linear_combination hk
    · change (0 : ℝ) + a.data 2 0 * (_ * k) + a.data 2 1 * (_ * k) + a.data 2 2 * (_ * k) + a.data 2 3 * (_ * k) = 0; ring
    · change (0 : ℝ) + a.data 3 0 * (_ * k) + a.data 3 1 * (_ * k) + a.data 3 2 * (_ * k) + a.data 3 3 * (_ * k) = 0; ring
    · change (0 : ℝ) + a.data 3 0 * (_ * k) + a.data 3 1 * (_ * k) + a.data 3 2 * (_ * k) + a.data 3 3 * (_ * k) = 0; ring
    · change (0 : ℝ) + a.data 3 0 * (_ * k) + a.data 3 1 * (_ * k) + a.data 3 2 * (_ * k) + a.data 3 3 * (_ * k) = 0; ring
    · change (0 : ℝ) + a.data 3 0 * (_ * k) + a.data 3 1 * (_ * k) + a.data 3 2 * (_ * k) + a.data 3 3 * (_ * k) = 1; linear_combination hk
  refine ⟨key, ?_⟩
  rw [← Mat4.toMatrix_inj] at key ⊢
  rw [Mat4.mul_real, Mat4.identity_real] at key ⊢
  exact mul_eq_one_comm.1 key

/-- C33: hence it is the mathematical inverse (Mathlib's `⁻¹`). -/
theorem C33_inverse_spec (a : Mat4 ℝ) (h : a.toMatrix.det ≠ 0) : a.inverse.toMatrix = a.toMatrix⁻¹ := by
  have := (C33_inverse a h).1
  rw [← Mat4.toMatrix_inj, Mat4.mul_real, Mat4.identity_real] at this
  exact (Matrix.inv_eq_right_inv this).symm

/-- The hypothesis of C33 is met by a matrix that is not triangular. -/
example : (Mat4.mk4 0 1 0 2 1 0 0 0 0 0 3 1 1 1 0 1 : Mat4 ℝ).toMatrix.det ≠ 0 := by
  rw [Mat4.det_eq]; simp; norm_num

end Scarlet
