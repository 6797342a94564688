import Mathlib.Analysis.SpecialFunctions.Complex.Arg
import Mathlib.Analysis.SpecialFunctions.Trigonometric.Arctan

/-! The real two-argument arctangent: the angle in `(-π, π]` of the point `(x, y)`. -/

namespace Scarlet
open Real

/-- `atan2 y x` is the argument of `x + iy`. -/
noncomputable def atan2R (y x : ℝ) : ℝ := Complex.arg ⟨x, y⟩

theorem tan_atan2R (y x : ℝ) : tan (atan2R y x) = y / x := Complex.tan_arg _

theorem atan2R_of_pos {y x : ℝ} (hx : 0 < x) : atan2R y x = arctan (y / x) := by
  rw [← tan_atan2R]
  have := abs_lt.1 (Complex.abs_arg_lt_pi_div_two_iff.2 (Or.inl hx : 0 < (⟨x, y⟩ : ℂ).re ∨ _))
  exact (arctan_tan this.1 this.2).symm

theorem atan2R_of_neg_nonneg {y x : ℝ} (hx : x < 0) (hy : 0 ≤ y) : atan2R y x = arctan (y / x) + π := by
  have h1 : 0 ≤ atan2R y x := Complex.arg_nonneg_iff.2 hy
  have h2 : atan2R y x ≤ π := Complex.arg_le_pi _
  have h3 : π / 2 < atan2R y x := by
    by_contra h
    have h' : |Complex.arg ⟨x, y⟩| ≤ π / 2 := by
      change |atan2R y x| ≤ _
      rw [abs_of_nonneg h1]; exact not_lt.1 h
    have := Complex.abs_arg_le_pi_div_two_iff.1 h'
    simp at this; linarith
  have := tan_sub_pi (atan2R y x)
  rw [tan_atan2R] at this
  rw [← this, arctan_tan (by linarith) (by linarith [pi_pos])]; ring

theorem atan2R_of_neg_neg {y x : ℝ} (hx : x < 0) (hy : y < 0) : atan2R y x = arctan (y / x) - π := by
  have h1 : atan2R y x < 0 := Complex.arg_neg_iff.2 hy
  have h2 : -π < atan2R y x := Complex.neg_pi_lt_arg _
  have h3 : atan2R y x < -(π / 2) := by
    by_contra h
    have h' : |Complex.arg ⟨x, y⟩| ≤ π / 2 := by
      change |atan2R y x| ≤ _
      rw [abs_of_neg h1]; linarith [not_lt.1 h]
    have := Complex.abs_arg_le_pi_div_two_iff.1 h'
    simp at this; linarith
  have := tan_add_pi (atan2R y x)
  rw [tan_atan2R] at this
  rw [← this, arctan_tan (by linarith) (by linarith [pi_pos])]; ring

theorem atan2R_zero_pos {y : ℝ} (hy : 0 < y) : atan2R y 0 = π / 2 := Complex.arg_eq_pi_div_two_iff.2 ⟨rfl, hy⟩
theorem atan2R_zero_neg {y : ℝ} (hy : y < 0) : atan2R y 0 = -(π / 2) := Complex.arg_eq_neg_pi_div_two_iff.2 ⟨rfl, hy⟩
theorem atan2R_zero_left {x : ℝ} (hx : x < 0) : atan2R 0 x = π := Complex.arg_eq_pi_iff.2 ⟨hx, rfl⟩
theorem atan2R_le_pi (y x : ℝ) : atan2R y x ≤ π := Complex.arg_le_pi _
theorem neg_pi_lt_atan2R (y x : ℝ) : -π < atan2R y x := Complex.neg_pi_lt_arg _

/-- Polar form: the specification that determines `atan2`. -/
theorem atan2R_polar (y x : ℝ) :
    x = sqrt (x ^ 2 + y ^ 2) * cos (atan2R y x) ∧ y = sqrt (x ^ 2 + y ^ 2) * sin (atan2R y x) := by
  have hn : ‖(⟨x, y⟩ : ℂ)‖ = sqrt (x ^ 2 + y ^ 2) := by
    rw [Complex.norm_def, Complex.normSq_mk]; congr 1; ring
  have h := Complex.norm_mul_exp_arg_mul_I (⟨x, y⟩ : ℂ)
  rw [Complex.exp_mul_I, hn] at h
  have h1 := congrArg Complex.re h
  have h2 := congrArg Complex.im h
  rw [← Complex.ofReal_cos, ← Complex.ofReal_sin] at h1 h2
  simp only [Complex.mul_re, Complex.mul_im, Complex.add_re, Complex.add_im, Complex.ofReal_re, Complex.ofReal_im, Complex.I_re, Complex.I_im] at h1 h2
  exact ⟨by rw [atan2R]; linarith, by rw [atan2R]; linarith⟩

end Scarlet
