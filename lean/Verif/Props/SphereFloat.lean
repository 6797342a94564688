import Verif.Props.QuadFloat
import Mathlib.Algebra.Order.BigOperators.Ring.Finset

/-! C102: sphere hits on floats lie on the sphere, and missed rays do miss it, up to rounding. -/

set_option linter.unusedSectionVars false

namespace Scarlet
open Flt GVec

section core
variable {u η A O R X Y a x b c b' c' oo rr : ℝ}

theorem small3 (hu : 0 < u) (hu1 : u ≤ 1 / 1024) : (1 + u) ^ 3 - 1 ≤ 3.01 * u ∧ (1 + u) ^ 2 ≤ 1.01 := by
  have h : u * u ≤ (1 / 1024) * u := mul_le_mul_of_nonneg_right hu1 hu.le
  have h2 : u * (u * u) ≤ (1 / 1024) * (u * u) := mul_le_mul_of_nonneg_right hu1 (by positivity)
  have e : (1 + u) ^ 3 - 1 = 3 * u + 3 * (u * u) + u * (u * u) := by ring
  have e2 : (1 + u) ^ 2 = 1 + 2 * u + u * u := by ring
  rw [e, e2]
  constructor <;> linarith

theorem sum_err3 {s S Y : ℝ} (hu : 0 < u) (hu1 : u ≤ 1 / 1024) (hη : 0 < η) (Y0 : 0 ≤ Y)
    (h : |s - S| ≤ ((1 + u) ^ 3 - 1) * Y + 3 * η * (1 + u) ^ 2) : |s - S| ≤ 3.01 * (u * Y) + 3.03 * η := by
  obtain ⟨b1, b2⟩ := small3 hu hu1
  have h1 := mul_le_mul_of_nonneg_right b1 Y0
  have h2 := mul_le_mul_of_nonneg_left b2 hη.le
  linarith

/-- Rounding error of the linear coefficient. -/
theorem coeff_b (hu : 0 < u) (hu1 : u ≤ 1 / 1024) (hη : 0 < η) 
    (Y0 : 0 ≤ Y) (hXY : |X| ≤ Y)
    (hx1 : |x - X| ≤ 3.01 * (u * Y) + 3.03 * η)
    (hb : |b - x * 2| ≤ max η (u * |x * 2|)) (hb' : |b' - b| ≤ u * |b|) :
    |b' - 2 * X| ≤ 10.2 * u * Y + 7.2 * η ∧ |b'| ≤ 2.05 * Y + 9 * η := by
  have uη : u * η ≤ (1 / 1024) * η := mul_le_mul_of_nonneg_right hu1 hη.le
  have uY : 0 ≤ u * Y := mul_nonneg hu.le Y0
  have uuY : u * (u * Y) ≤ (1 / 1024) * (u * Y) := mul_le_mul_of_nonneg_right hu1 uY
  have uY1 : u * Y ≤ (1 / 1024) * Y := mul_le_mul_of_nonneg_right hu1 Y0
  have hx2 : |x| ≤ 1.01 * Y + 3.03 * η := by
    have := abs_sub_abs_le_abs_sub x X
    linarith
  have hx3 : u * |x| ≤ 1.01 * (u * Y) + 0.01 * η := by
    have := mul_le_mul_of_nonneg_left hx2 hu.le
    linarith
  have hb1 : |b - x * 2| ≤ η + 2 * (u * |x|) := by
    refine hb.trans (max_le ?_ ?_)
    · have := mul_nonneg hu.le (abs_nonneg x); linarith
    · rw [abs_mul, abs_two]; linarith
  have hx4 : |x * 2| = 2 * |x| := by rw [abs_mul, abs_two]; ring
  have hb2 : |b| ≤ 2.03 * Y + 7.1 * η := by
    have := abs_sub_abs_le_abs_sub b (x * 2)
    linarith
  have hb3 : u * |b| ≤ 2.03 * (u * Y) + 0.01 * η := by
    have := mul_le_mul_of_nonneg_left hb2 hu.le
    linarith
  refine ⟨?_, ?_⟩
  · have e : b' - 2 * X = (b' - b) + (b - x * 2) + 2 * (x - X) := by ring
    rw [e]
    have h1 := abs_add_le ((b' - b) + (b - x * 2)) (2 * (x - X))
    have h2 := abs_add_le (b' - b) (b - x * 2)
    rw [abs_mul, abs_two] at h1
    linarith
  · have := abs_sub_abs_le_abs_sub b' b
    linarith

/-- Rounding error of the constant coefficient. -/
theorem coeff_c (hu : 0 < u) (hu1 : u ≤ 1 / 1024) (hη : 0 < η) (hO : 3 * η ≤ u * (O + R)) (O0 : 0 ≤ O) (R0 : 0 ≤ R)
    (o1 : |oo - O| ≤ 3.01 * (u * O) + 3.03 * η)
    (hr : |rr - R| ≤ max η (u * |R|)) (hc : |c - (oo - rr)| ≤ u * |oo - rr|)
    (hc' : |c' - c| ≤ 3 * u * |c|) : |c' - (O - R)| ≤ 9.4 * u * (O + R) := by
  have uO : 0 ≤ u * O := mul_nonneg hu.le O0
  have uR : 0 ≤ u * R := mul_nonneg hu.le R0
  have uO1 : u * O ≤ (1 / 1024) * O := mul_le_mul_of_nonneg_right hu1 O0
  have uR1 : u * R ≤ (1 / 1024) * R := mul_le_mul_of_nonneg_right hu1 R0
  have r1 : |rr - R| ≤ η + u * R := by
    rw [abs_of_nonneg R0] at hr
    refine hr.trans (max_le ?_ ?_) <;> linarith
  have o2 : |oo| ≤ 1.004 * O + 0.001 * (O + R) := by
    have := abs_sub_abs_le_abs_sub oo O
    rw [abs_of_nonneg O0] at this
    linarith
  have r2 : |rr| ≤ 1.001 * R + 0.001 * (O + R) := by
    have := abs_sub_abs_le_abs_sub rr R
    rw [abs_of_nonneg R0] at this
    linarith
  have d1 : |oo - rr| ≤ 1.01 * (O + R) := by
    have := abs_sub oo rr; linarith
  have d2 : u * |oo - rr| ≤ 1.01 * (u * O + u * R) := by
    have := mul_le_mul_of_nonneg_left d1 hu.le; linarith
  have c1 : |c - (O - R)| ≤ 6 * (u * O + u * R) := by
    have e : c - (O - R) = (c - (oo - rr)) + (oo - O) - (rr - R) := by ring
    rw [e]
    have h1 := abs_sub ((c - (oo - rr)) + (oo - O)) (rr - R)
    have h2 := abs_add_le (c - (oo - rr)) (oo - O)
    linarith
  have c2 : |c| ≤ 1.01 * (O + R) := by
    have h1 := abs_sub_abs_le_abs_sub c (O - R)
    have h2 := abs_sub O R
    rw [abs_of_nonneg O0, abs_of_nonneg R0] at h2
    linarith
  have c3 : u * |c| ≤ 1.01 * (u * O + u * R) := by
    have := mul_le_mul_of_nonneg_left c2 hu.le; linarith
  have := abs_sub_le c' c (O - R)
  linarith

/-- Rounding errors of the three coefficients. -/
theorem coeff_core (hu : 0 < u) (hu1 : u ≤ 1 / 1024) (hη : 0 < η) (hA : 3 * η ≤ u * A) (hO : 3 * η ≤ u * (O + R)) (A0 : 0 ≤ A) (O0 : 0 ≤ O) (R0 : 0 ≤ R)
    (Y0 : 0 ≤ Y) (hXY : |X| ≤ Y)
    (ha : |a - A| ≤ ((1 + u) ^ 3 - 1) * A + 3 * η * (1 + u) ^ 2)
    (hx : |x - X| ≤ ((1 + u) ^ 3 - 1) * Y + 3 * η * (1 + u) ^ 2)
    (hb : |b - x * 2| ≤ max η (u * |x * 2|))
    (ho : |oo - O| ≤ ((1 + u) ^ 3 - 1) * O + 3 * η * (1 + u) ^ 2)
    (hr : |rr - R| ≤ max η (u * |R|)) (hc : |c - (oo - rr)| ≤ u * |oo - rr|)
    (hb' : |b' - b| ≤ u * |b|) (hc' : |c' - c| ≤ 3 * u * |c|) :
    |a - A| ≤ 4.1 * u * A ∧ |b' - 2 * X| ≤ 10.2 * u * Y + 7.2 * η ∧ |b'| ≤ 2.05 * Y + 9 * η ∧ |c' - (O - R)| ≤ 9.4 * u * (O + R) := by
  have hb2 := coeff_b hu hu1 hη Y0 hXY (sum_err3 hu hu1 hη Y0 hx) hb hb'
  refine ⟨?_, hb2.1, hb2.2, coeff_c hu hu1 hη hO O0 R0 (sum_err3 hu hu1 hη O0 ho) hr hc hc'⟩
  have := sum_err3 hu hu1 hη A0 ha
  have := mul_nonneg hu.le A0
  linarith

/-- The polynomial with the perturbed coefficients is close to the exact one. -/
theorem poly_core {t : ℝ} (hu : 0 < u) (hη : 0 < η) (hA : 3 * η ≤ u * A) (hO : 3 * η ≤ u * (O + R)) (O0 : 0 ≤ O) (R0 : 0 ≤ R)
    (hYAO : Y ^ 2 ≤ A * O) (Y0 : 0 ≤ Y)
    (ha : |a - A| ≤ 4.1 * u * A) (hb : |b' - 2 * X| ≤ 10.2 * u * Y + 7.2 * η) (hc : |c' - (O - R)| ≤ 9.4 * u * (O + R)) :
    2 * (Y * |t|) ≤ O + A * t ^ 2 ∧ 6 * (η * |t|) ≤ u * (O + R) + u * (A * t ^ 2) ∧
    |(a * t ^ 2 + b' * t + c') - (A * t ^ 2 + 2 * X * t + O - R)| ≤ 16 * u * (O + A * t ^ 2 + R) := by
  have A0 : 0 < A := by
    by_contra h
    nlinarith
  have t0 := abs_nonneg t
  have t2 : |t| ^ 2 = t ^ 2 := sq_abs t
  have f1 : 2 * (Y * |t|) ≤ O + A * t ^ 2 := by
    apply le_of_sq_le _ (by positivity)
    have : (2 * (Y * |t|)) ^ 2 = 4 * (Y ^ 2 * t ^ 2) := by rw [← t2]; ring
    rw [this]
    have := mul_le_mul_of_nonneg_right hYAO (sq_nonneg t)
    nlinarith [sq_nonneg (O - A * t ^ 2)]
  have f2 : 6 * (η * |t|) ≤ u * (O + R) + u * (A * t ^ 2) := by
    have h1 : 2 * |t| ≤ 1 + t ^ 2 := by nlinarith [sq_nonneg (|t| - 1)]
    have h2 := mul_le_mul_of_nonneg_left h1 hη.le
    have h3 := mul_le_mul_of_nonneg_right hA (sq_nonneg t)
    linarith
  refine ⟨f1, f2, ?_⟩
  have e : (a * t ^ 2 + b' * t + c') - (A * t ^ 2 + 2 * X * t + O - R) = (a - A) * t ^ 2 + (b' - 2 * X) * t + (c' - (O - R)) := by ring
  rw [e]
  have h1 := abs_add_le ((a - A) * t ^ 2 + (b' - 2 * X) * t) (c' - (O - R))
  have h2 := abs_add_le ((a - A) * t ^ 2) ((b' - 2 * X) * t)
  rw [abs_mul, abs_mul, abs_of_nonneg (sq_nonneg t)] at h2
  have h3 := mul_le_mul_of_nonneg_right ha (sq_nonneg t)
  have h4 := mul_le_mul_of_nonneg_right hb t0
  have h5 : u * (2 * (Y * |t|)) ≤ u * (O + A * t ^ 2) := mul_le_mul_of_nonneg_left f1 hu.le
  have uO : 0 ≤ u * O := mul_nonneg hu.le O0
  have uR : 0 ≤ u * R := mul_nonneg hu.le R0
  have uA : 0 ≤ u * (A * t ^ 2) := by positivity
  linarith

theorem root_core {t r : ℝ} (hu : 0 < u) (hu1 : u ≤ 1 / 1024) (hη : 0 < η) (O0 : 0 ≤ O) (R0 : 0 ≤ R) (A0 : 0 < A)
    (ha : |a - A| ≤ 4.1 * u * A) (hb : |b'| ≤ 2.05 * Y + 9 * η)
    (f1 : 2 * (Y * |t|) ≤ O + A * t ^ 2) (f2 : 6 * (η * |t|) ≤ u * (O + R) + u * (A * t ^ 2))
    (hroot : a * r ^ 2 + b' * r + c' = 0) (ht : |t - r| ≤ 11 * u * |r| + η) (hn : η ≤ u * |t|) :
    |a * t ^ 2 + b' * t + c'| ≤ 42 * u * (O + A * t ^ 2 + R) := by
  have t0 := abs_nonneg t
  have ut := mul_nonneg hu.le t0
  have g0 : |r| - |t| ≤ |t - r| := by rw [abs_sub_comm]; exact abs_sub_abs_le_abs_sub r t
  have ur : u * |r| ≤ |r| / 1024 := by nlinarith [abs_nonneg r]
  have ut1 : u * |t| ≤ |t| / 1024 := by nlinarith
  have g1 : |r| ≤ 1.02 * |t| := by linarith
  have g2 : |t - r| ≤ 13 * (u * |t|) := by
    have := mul_le_mul_of_nonneg_left g1 hu.le
    linarith
  have g3 : |a| ≤ 1.01 * A := by
    have := abs_sub_abs_le_abs_sub a A
    rw [abs_of_pos A0] at this
    nlinarith
  have g4 : |a * (t + r) + b'| ≤ 2.05 * (A * |t|) + (2.05 * Y + 9 * η) := by
    have h1 := abs_add_le (a * (t + r)) b'
    rw [abs_mul] at h1
    have h2 := abs_add_le t r
    have h3 : |a| * |t + r| ≤ (1.01 * A) * (2.02 * |t|) := mul_le_mul g3 (by linarith) (abs_nonneg _) (by positivity)
    have := mul_nonneg A0.le t0
    nlinarith
  have e : a * t ^ 2 + b' * t + c' = (t - r) * (a * (t + r) + b') := by linear_combination hroot
  rw [e, abs_mul]
  have g5 : |t - r| * |a * (t + r) + b'| ≤ (13 * (u * |t|)) * (2.05 * (A * |t|) + (2.05 * Y + 9 * η)) :=
    mul_le_mul g2 g4 (abs_nonneg _) (by positivity)
  refine g5.trans ?_
  have e2 : (13 * (u * |t|)) * (2.05 * (A * |t|) + (2.05 * Y + 9 * η)) =
      u * (26.65 * (A * t ^ 2) + 26.65 * (Y * |t|) + 117 * (η * |t|)) := by
    rw [← sq_abs t]; ring
  rw [e2, mul_comm 42 u, mul_assoc]
  apply mul_le_mul_of_nonneg_left _ hu.le
  have h6 : u * (O + R) + u * (A * t ^ 2) ≤ (O + R + A * t ^ 2) / 1024 := by
    have : 0 ≤ O + R + A * t ^ 2 := by positivity
    nlinarith
  have : 0 ≤ A * t ^ 2 := by positivity
  linarith

/-- one coordinate of the hit point -/
theorem pt_core {o d t x : ℝ} (hu : 0 < u) (hu1 : u ≤ 1 / 1024) (hη : 0 < η)
    (h : |x - (o + d * t)| ≤ u * |o + d * t| + (1 + u) * max η (u * |d * t|)) :
    |x ^ 2 - (o + d * t) ^ 2| ≤ 11 * u * (o ^ 2 + (d * t) ^ 2) + 2 * η ^ 2 / u := by
  generalize d * t = q at *
  set m := |o| + |q| with hm
  have m0 : 0 ≤ m := by positivity
  have hm2 : m ^ 2 ≤ 2 * (o ^ 2 + q ^ 2) := by
    rw [hm, ← sq_abs o, ← sq_abs q]
    nlinarith [sq_nonneg (|o| - |q|)]
  have hx : |o + q| ≤ m := abs_add_le o q
  have um := mul_nonneg hu.le m0
  have h1 : |x - (o + q)| ≤ 2.01 * (u * m) + 1.01 * η := by
    have g1 := mul_le_mul_of_nonneg_left hx hu.le
    have g2 : |q| ≤ m := by rw [hm]; linarith [abs_nonneg o]
    have g3 := mul_le_mul_of_nonneg_left g2 hu.le
    have g4 : max η (u * |q|) ≤ η + u * m := max_le (by linarith) (by linarith)
    have g5 : (1 + u) * max η (u * |q|) ≤ (1 + u) * (η + u * m) := mul_le_mul_of_nonneg_left g4 (by linarith)
    have g6 : u * (η + u * m) ≤ (1 / 1024) * (η + u * m) := mul_le_mul_of_nonneg_right hu1 (by positivity)
    linarith
  have h2 : |x + (o + q)| ≤ 2.01 * m + 1.01 * η := by
    have g1 : x + (o + q) = (x - (o + q)) + 2 * (o + q) := by ring
    have g2 := abs_add_le (x - (o + q)) (2 * (o + q))
    rw [abs_mul, abs_two] at g2
    rw [g1]
    have g3 : u * m ≤ (1 / 1024) * m := mul_le_mul_of_nonneg_right hu1 m0
    linarith
  have e : x ^ 2 - (o + q) ^ 2 = (x - (o + q)) * (x + (o + q)) := by ring
  rw [e, abs_mul]
  refine (mul_le_mul h1 h2 (abs_nonneg _) (by positivity)).trans ?_
  have e2 : (2.01 * (u * m) + 1.01 * η) * (2.01 * m + 1.01 * η) =
      4.0401 * (u * m ^ 2) + 2.0301 * (u * (η * m)) + 2.0301 * (η * m) + 1.0201 * η ^ 2 := by ring
  rw [e2]
  have k1 : 2 * (η * m) ≤ η ^ 2 / u + u * m ^ 2 := by
    have : η ^ 2 / u + u * m ^ 2 - 2 * (η * m) = (η - u * m) ^ 2 / u := by field_simp; ring
    have : 0 ≤ (η - u * m) ^ 2 / u := by positivity
    linarith
  have k2 : u * (η * m) ≤ (1 / 1024) * (η * m) := mul_le_mul_of_nonneg_right hu1 (by positivity)
  have k3 : η ^ 2 ≤ (1 / 1024) * (η ^ 2 / u) := by
    rw [← mul_div_assoc, le_div_iff₀ hu]
    nlinarith [sq_nonneg η]
  have k4 := mul_le_mul_of_nonneg_left hm2 hu.le
  have k5 : 0 ≤ η ^ 2 / u := by positivity
  have k6 : 0 ≤ u * (o ^ 2 + q ^ 2) := by positivity
  have k7 : 2 * η ^ 2 / u = 2 * (η ^ 2 / u) := by ring
  rw [k7]
  linarith
/-- if the perturbed polynomial has no root, the exact one is almost nonnegative everywhere -/
theorem miss_core (hu : 0 < u) (hη : 0 < η) (hA : 3 * η ≤ u * A) (hO : 3 * η ≤ u * (O + R)) (O0 : 0 ≤ O) (R0 : 0 ≤ R)
    (hu1 : u ≤ 1 / 1024) (hYAO : Y ^ 2 ≤ A * O) (Y0 : 0 ≤ Y) (hXY : |X| ≤ Y)
    (ha : |a - A| ≤ 4.1 * u * A) (hb : |b' - 2 * X| ≤ 10.2 * u * Y + 7.2 * η) (hc : |c' - (O - R)| ≤ 9.4 * u * (O + R))
    (hno : ∀ x, a * x ^ 2 + b' * x + c' ≠ 0) (t : ℝ) : -(32 * u * (O + R)) ≤ A * t ^ 2 + 2 * X * t + O - R := by
  have A0 : 0 < A := by
    by_contra h
    nlinarith
  have a0 : 0 < a := by
    have := (abs_le.1 ha).1
    have : u * A ≤ (1 / 1024) * A := mul_le_mul_of_nonneg_right hu1 A0.le
    linarith
  have D0 : b' ^ 2 - 4 * a * c' < 0 := by
    by_contra h
    have hs := Real.sq_sqrt (not_lt.1 h)
    apply hno ((-b' + Real.sqrt (b' ^ 2 - 4 * a * c')) / (2 * a))
    generalize Real.sqrt (b' ^ 2 - 4 * a * c') = S at *
    field_simp
    linear_combination hs
  have hp : ∀ x, 0 < a * x ^ 2 + b' * x + c' := by
    intro x
    have h1 : 4 * a * (a * x ^ 2 + b' * x + c') = (2 * a * x + b') ^ 2 - (b' ^ 2 - 4 * a * c') := by ring
    have h2 := sq_nonneg (2 * a * x + b')
    by_contra h
    have : 4 * a * (a * x ^ 2 + b' * x + c') ≤ 0 := mul_nonpos_of_nonneg_of_nonpos (by positivity) (not_lt.1 h)
    linarith
  obtain ⟨-, -, k⟩ := poly_core (t := -X / A) hu hη hA hO O0 R0 hYAO Y0 ha hb hc
  have e1 : A * (-X / A) ^ 2 + 2 * X * (-X / A) + O - R = O - R - X ^ 2 / A := by field_simp; ring
  have e2 : A * (-X / A) ^ 2 = X ^ 2 / A := by field_simp
  have e3 : X ^ 2 / A ≤ O := by
    rw [div_le_iff₀ A0]
    have : X ^ 2 ≤ Y ^ 2 := by rw [← sq_abs X]; exact pow_le_pow_left₀ (abs_nonneg _) hXY 2
    linarith
  rw [e1, e2] at k
  have k2 := (abs_le.1 k).2
  have := hp (-X / A)
  have h4 : A * t ^ 2 + 2 * X * t + O - R = (A * t + X) ^ 2 / A + (O - R - X ^ 2 / A) := by field_simp; ring
  have h5 : 0 ≤ (A * t + X) ^ 2 / A := by positivity
  have h6 := mul_le_mul_of_nonneg_left e3 hu.le
  have h7 := mul_nonneg hu.le R0
  rw [h4]
  linarith
end core

variable {mw ew : Nat} [FltImpl mw ew] [LawfulFlt mw ew] [Libm mw ew]

/-- Specification: the squared distance to the centre of the sphere (the origin), minus the square of the radius, at the
exact point `origin + t direction` of the ray. -/
noncomputable def sphereDefect (s : Sphere (Flt mw ew)) (ray : Ray (Flt mw ew)) (t : ℝ) : ℝ :=
  ∑ i, ((ray.origin.vec i).toReal + (ray.direction.vec i).toReal * t) ^ 2 - s.radius.toReal ^ 2

/-- Specification: the size of the data, against which rounding errors are measured. -/
noncomputable def sphereScale (s : Sphere (Flt mw ew)) (ray : Ray (Flt mw ew)) (t : ℝ) : ℝ :=
  ∑ i, (ray.origin.vec i).toReal ^ 2 + ∑ i, ((ray.direction.vec i).toReal * t) ^ 2 + s.radius.toReal ^ 2

/-- Hypothesis of C102: nothing overflows or underflows in the coefficients of the quadratic. -/
structure SphereRegular (s : Sphere (Flt mw ew)) (ray : Ray (Flt mw ew)) : Prop where
  /-- the direction is not shorter than about the square root of the smallest normal number -/
  dir : 3 * etaRnd mw ew ≤ uRnd mw * ∑ i, (ray.direction.vec i).toReal ^ 2
  /-- nor are the origin and the radius both -/
  org : 3 * etaRnd mw ew ≤ uRnd mw * (∑ i, (ray.origin.vec i).toReal ^ 2 + s.radius.toReal ^ 2)
  /-- the discriminant does not overflow -/
  disc : (Scalar.square ((GVec.conv .vector ray.origin).dot ray.direction * GFloat.fromI64 2) - ray.direction.squareNorm *
    ((GVec.conv .vector ray.origin).squareNorm - Scalar.square s.radius) * GFloat.fromI64 4).isFin = true
  /-- its two terms do not underflow -/
  hb : Normalised mw ew (((GVec.conv .vector ray.origin).dot ray.direction * GFloat.fromI64 2).toReal ^ 2)
  hc : Normalised mw ew (ray.direction.squareNorm.toReal *
    ((GVec.conv .vector ray.origin).squareNorm - Scalar.square s.radius).toReal)

theorem two_spec : (GFloat.fromI64 2 : Flt mw ew).isFin = true ∧ (GFloat.fromI64 2 : Flt mw ew).toReal = 2 := by
  have hF : Fmt mw ew := inferInstance
  have hmw := hF.hmw
  have hew := hF.hew
  have h1 : 2 ^ ew = 2 * 2 ^ (ew - 1) := by rw [← pow_succ']; congr 1; omega
  have h2 : 2 ^ 2 ≤ 2 ^ (ew - 1) := Nat.pow_le_pow_right (by decide) (by omega)
  refine exact_of_repr ?_ ?_
  · refine repr_of_mul_pow 1 (fK mw ew + 1) (Nat.one_le_two_pow) ?_ ?_
    · rw [magN_infIdx, ← pow_add, one_mul]
      apply Nat.pow_lt_pow_right (by decide)
      unfold fK; omega
    · rw [pow_add]; push_cast; ring
  · change (ofInt mw ew 2).key = _
    rw [(ofInt_key 2).2]; norm_num

theorem defect_eq (s : Sphere (Flt mw ew)) (ray : Ray (Flt mw ew)) (t : ℝ) :
    sphereDefect s ray t = (∑ i, (ray.direction.vec i).toReal ^ 2) * t ^ 2 +
      2 * (∑ i, (ray.origin.vec i).toReal * (ray.direction.vec i).toReal) * t +
      ∑ i, (ray.origin.vec i).toReal ^ 2 - s.radius.toReal ^ 2 := by
  unfold sphereDefect
  simp only [Fin.sum_univ_three]
  ring

theorem scale_eq (s : Sphere (Flt mw ew)) (ray : Ray (Flt mw ew)) (t : ℝ) :
    sphereScale s ray t = ∑ i, (ray.origin.vec i).toReal ^ 2 + (∑ i, (ray.direction.vec i).toReal ^ 2) * t ^ 2 +
      s.radius.toReal ^ 2 := by
  unfold sphereScale
  simp only [Fin.sum_univ_three]
  ring

/-- all the rounding errors in the coefficients -/
theorem sphere_coeff (hm : 9 ≤ mw) (s : Sphere (Flt mw ew)) (ray : Ray (Flt mw ew)) (hs : SphereRegular s ray) {b' c' : ℝ}
    (hb' : |b' - ((GVec.conv .vector ray.origin).dot ray.direction * GFloat.fromI64 2).toReal| ≤
      uRnd mw * |((GVec.conv .vector ray.origin).dot ray.direction * GFloat.fromI64 2).toReal|)
    (hc' : |c' - ((GVec.conv .vector ray.origin).squareNorm - Scalar.square s.radius).toReal| ≤
      3 * uRnd mw * |((GVec.conv .vector ray.origin).squareNorm - Scalar.square s.radius).toReal|) :
    |ray.direction.squareNorm.toReal - ∑ i, (ray.direction.vec i).toReal ^ 2| ≤ 4.1 * uRnd mw * ∑ i, (ray.direction.vec i).toReal ^ 2 ∧
    |b' - 2 * ∑ i, (ray.origin.vec i).toReal * (ray.direction.vec i).toReal| ≤
      10.2 * uRnd mw * (∑ i, |(ray.origin.vec i).toReal * (ray.direction.vec i).toReal|) + 7.2 * etaRnd mw ew ∧
    |b'| ≤ 2.05 * (∑ i, |(ray.origin.vec i).toReal * (ray.direction.vec i).toReal|) + 9 * etaRnd mw ew ∧
    |c' - (∑ i, (ray.origin.vec i).toReal ^ 2 - s.radius.toReal ^ 2)| ≤
      9.4 * uRnd mw * (∑ i, (ray.origin.vec i).toReal ^ 2 + s.radius.toReal ^ 2) := by
  have hu := uRnd_pos (mw := mw)
  have hη := etaRnd_pos (mw := mw) (ew := ew)
  have hu1 := uRnd_small hm
  obtain ⟨fa, fb, fc, -⟩ := disc_err hm hs.disc hs.hb hs.hc
  obtain ⟨fo, fr⟩ := isFin_of_sub fc
  obtain ⟨fx, f2⟩ := isFin_of_mul fb
  have frr : s.radius.isFin = true := (isFin_of_mul fr).1
  have e1 := C83_squareNorm ray.direction fa
  have e2 := (C83_dot _ _ fx).2
  have e3 := C83_squareNorm _ fo
  have e4 := mul_err fx f2 fb
  have e5 := mul_err frr frr fr
  have e6 := sub_err fo fr fc
  rw [two_spec.2] at e4
  rw [← sq] at e5
  refine coeff_core hu hu1 hη hs.dir hs.org (Finset.sum_nonneg fun i _ => sq_nonneg _) (Finset.sum_nonneg fun i _ => sq_nonneg _)
    (sq_nonneg _) (Finset.sum_nonneg fun i _ => abs_nonneg _) (Finset.abs_sum_le_sum_abs _ _) ?_ ?_ e4 ?_ e5 e6 hb' hc'
  · exact_mod_cast e1
  · exact_mod_cast e2
  · exact_mod_cast e3

theorem cauchy_abs (o d : _root_.Fin 3 → ℝ) : (∑ i, |o i * d i|) ^ 2 ≤ (∑ i, d i ^ 2) * ∑ i, o i ^ 2 := by
  have := Finset.sum_mul_sq_le_sq_mul_sq Finset.univ (fun i => |d i|) (fun i => |o i|)
  simp only [sq_abs] at this
  simp only [abs_mul, mul_comm |o _|]
  exact this

/-- either root of the quadratic gives a point of the sphere, up to rounding -/
theorem sphere_root (hm : 9 ≤ mw) (hw : mw + 3 ≤ 2 ^ (ew - 1)) (s : Sphere (Flt mw ew)) (ray : Ray (Flt mw ew)) (hs : SphereRegular s ray)
    {t0 t1 t : Flt mw ew} (hq : solveQuadratic ray.direction.squareNorm ((GVec.conv .vector ray.origin).dot ray.direction * GFloat.fromI64 2)
      ((GVec.conv .vector ray.origin).squareNorm - Scalar.square s.radius) = some (t0, t1)) (f0 : t0.isFin = true) (f1 : t1.isFin = true) (ht : t = t0 ∨ t = t1)
    (hn : etaRnd mw ew ≤ uRnd mw * |t.toReal|) :
    |sphereDefect s ray t.toReal| ≤ 64 * uRnd mw * sphereScale s ray t.toReal ∧
    ((∀ i, ((ray.eval t).vec i).isFin = true) →
      |∑ i, ((ray.eval t).vec i).toReal ^ 2 - s.radius.toReal ^ 2| ≤ 80 * uRnd mw * sphereScale s ray t.toReal) := by
  have hu := uRnd_pos (mw := mw)
  have hη := etaRnd_pos (mw := mw) (ew := ew)
  have hu1 := uRnd_small hm
  have hηu := eta_le_sq hw
  have A0 : 0 < ∑ i, (ray.direction.vec i).toReal ^ 2 := by
    by_contra hc
    have := hs.dir
    nlinarith
  have O0 : 0 ≤ ∑ i, (ray.origin.vec i).toReal ^ 2 := Finset.sum_nonneg fun i _ => sq_nonneg _
  have R0 := sq_nonneg s.radius.toReal
  have Y0 : 0 ≤ ∑ i, |(ray.origin.vec i).toReal * (ray.direction.vec i).toReal| := Finset.sum_nonneg fun i _ => abs_nonneg _
  have hC := cauchy_abs (fun i => (ray.origin.vec i).toReal) (fun i => (ray.direction.vec i).toReal)
  obtain ⟨-, b', c', r0, r1, kb, kc, kr, k0, k1⟩ := C101_backward_partial hm hw _ _ _ t0 t1 hq f0 f1 hs.hb hs.hc
  obtain ⟨ca, cb, cb', cc⟩ := sphere_coeff hm s ray hs kb kc
  have hr : ∃ r, ray.direction.squareNorm.toReal * r ^ 2 + b' * r + c' = 0 ∧
      |t.toReal - r| ≤ 11 * uRnd mw * |r| + etaRnd mw ew := by
    rcases ht with ht | ht
    · exact ⟨r0, (kr r0).2 (Or.inl rfl), by rw [ht]; exact k0⟩
    · exact ⟨r1, (kr r1).2 (Or.inr rfl), by rw [ht]; exact k1⟩
  obtain ⟨r, hr1, hr2⟩ := hr
  obtain ⟨q1, q2, q3⟩ := poly_core (t := t.toReal) hu hη hs.dir hs.org O0 R0 hC Y0 ca cb cc
  have q4 := root_core hu hu1 hη O0 R0 A0 ca cb' q1 q2 hr1 hr2 hn
  have main : |sphereDefect s ray t.toReal| ≤ 58 * uRnd mw * sphereScale s ray t.toReal := by
    rw [defect_eq, scale_eq]
    rw [abs_sub_comm] at q3
    have := abs_sub_abs_le_abs_sub ((∑ i, (ray.direction.vec i).toReal ^ 2) * t.toReal ^ 2 +
      2 * (∑ i, (ray.origin.vec i).toReal * (ray.direction.vec i).toReal) * t.toReal +
      ∑ i, (ray.origin.vec i).toReal ^ 2 - s.radius.toReal ^ 2) (ray.direction.squareNorm.toReal * t.toReal ^ 2 + b' * t.toReal + c')
    linarith
  have sc : 0 ≤ sphereScale s ray t.toReal := by
    unfold sphereScale
    have : 0 ≤ ∑ i, ((ray.direction.vec i).toReal * t.toReal) ^ 2 := Finset.sum_nonneg fun i _ => sq_nonneg _
    linarith
  have usc := mul_nonneg hu.le sc
  refine ⟨by linarith, fun hpf => ?_⟩
  have pe := fun i => pt_core hu hu1 hη (C86_eval ray t i (hpf i))
  have e : ∑ i, ((ray.eval t).vec i).toReal ^ 2 - s.radius.toReal ^ 2 =
      sphereDefect s ray t.toReal + ∑ i, (((ray.eval t).vec i).toReal ^ 2 -
        ((ray.origin.vec i).toReal + (ray.direction.vec i).toReal * t.toReal) ^ 2) := by
    unfold sphereDefect
    rw [Finset.sum_sub_distrib]; ring
  have pe2 : |∑ i, (((ray.eval t).vec i).toReal ^ 2 -
        ((ray.origin.vec i).toReal + (ray.direction.vec i).toReal * t.toReal) ^ 2)| ≤
      ∑ i, (11 * uRnd mw * ((ray.origin.vec i).toReal ^ 2 + ((ray.direction.vec i).toReal * t.toReal) ^ 2) + 2 * etaRnd mw ew ^ 2 / uRnd mw) :=
    (Finset.abs_sum_le_sum_abs _ _).trans (Finset.sum_le_sum fun i _ => pe i)
  have pe3 : ∑ i : _root_.Fin 3, (11 * uRnd mw * ((ray.origin.vec i).toReal ^ 2 + ((ray.direction.vec i).toReal * t.toReal) ^ 2) + 2 * etaRnd mw ew ^ 2 / uRnd mw) =
      11 * uRnd mw * (∑ i, (ray.origin.vec i).toReal ^ 2 + ∑ i, ((ray.direction.vec i).toReal * t.toReal) ^ 2) + 6 * (etaRnd mw ew ^ 2 / uRnd mw) := by
    simp only [Fin.sum_univ_three]; ring
  have pe4 : 3 * (etaRnd mw ew ^ 2 / uRnd mw) ≤ uRnd mw * (∑ i, (ray.origin.vec i).toReal ^ 2 + s.radius.toReal ^ 2) := by
    rw [← mul_div_assoc, div_le_iff₀ hu]
    have g1 : etaRnd mw ew ≤ uRnd mw * 1 := hηu.trans (by rw [sq]; exact mul_le_mul_of_nonneg_left (by linarith) hu.le)
    have g2 := hs.org
    calc 3 * etaRnd mw ew ^ 2 = (3 * etaRnd mw ew) * etaRnd mw ew := by ring
      _ ≤ (uRnd mw * (∑ i, (ray.origin.vec i).toReal ^ 2 + s.radius.toReal ^ 2)) * (uRnd mw * 1) := mul_le_mul g2 g1 hη.le (by positivity)
      _ = _ := by ring
  have d0 : 0 ≤ ∑ i, ((ray.direction.vec i).toReal * t.toReal) ^ 2 := Finset.sum_nonneg fun i _ => sq_nonneg _
  rw [e]
  refine (abs_add_le _ _).trans ?_
  rw [pe3] at pe2
  have s1 : uRnd mw * sphereScale s ray t.toReal = uRnd mw * ∑ i, (ray.origin.vec i).toReal ^ 2 +
      uRnd mw * ∑ i, ((ray.direction.vec i).toReal * t.toReal) ^ 2 + uRnd mw * s.radius.toReal ^ 2 := by
    unfold sphereScale; ring
  have s2 := mul_nonneg hu.le d0
  have s3 := mul_nonneg hu.le R0
  have s4 := mul_nonneg hu.le O0
  linarith

/-- C102: what the sphere reports as a hit is on the sphere, up to rounding.  Both the exact point of the ray at the reported
distance and the reported point satisfy the equation of the sphere to within `64u` and `80u` times the squares of the
distances involved, provided nothing overflows or underflows (the two roots are finite and the reported distance is a normal
number). -/
theorem C102_hit_partial (hm : 9 ≤ mw) (hw : mw + 3 ≤ 2 ^ (ew - 1)) (s : Sphere (Flt mw ew)) (ray : Ray (Flt mw ew)) (h : SphereHit (Flt mw ew))
    (hh : s.intersectRay ray = some h) (hs : SphereRegular s ray)
    (hf : ∀ t0 t1, solveQuadratic ray.direction.squareNorm ((GVec.conv .vector ray.origin).dot ray.direction * GFloat.fromI64 2)
      ((GVec.conv .vector ray.origin).squareNorm - Scalar.square s.radius) = some (t0, t1) → t0.isFin = true ∧ t1.isFin = true)
    (hn : etaRnd mw ew ≤ uRnd mw * |h.tRay.toReal|) :
    |sphereDefect s ray h.tRay.toReal| ≤ 64 * uRnd mw * sphereScale s ray h.tRay.toReal ∧
    ((∀ i, (h.p.vec i).isFin = true) →
      |∑ i, (h.p.vec i).toReal ^ 2 - s.radius.toReal ^ 2| ≤ 80 * uRnd mw * sphereScale s ray h.tRay.toReal) := by
  -- the reported distance is one of the two roots
  have key : h.p = ray.eval h.tRay ∧ ∃ t0 t1, solveQuadratic ray.direction.squareNorm ((GVec.conv .vector ray.origin).dot ray.direction * GFloat.fromI64 2)
      ((GVec.conv .vector ray.origin).squareNorm - Scalar.square s.radius) = some (t0, t1) ∧ (h.tRay = t0 ∨ h.tRay = t1) := by
    unfold Sphere.intersectRay at hh
    dsimp only at hh
    split at hh
    · cases hh
    · rename_i t0 t1 hq
      split at hh
      · obtain ⟨-, -, -, rfl⟩ := getIntersection_some hh
        exact ⟨rfl, t0, t1, hq, Or.inr rfl⟩
      · rename_i i hi
        cases hh
        obtain ⟨-, -, -, rfl⟩ := getIntersection_some hi
        exact ⟨rfl, t0, t1, hq, Or.inl rfl⟩
  obtain ⟨hp, t0, t1, hq, ht⟩ := key
  obtain ⟨f0, f1⟩ := hf t0 t1 hq
  rw [hp]
  exact sphere_root hm hw s ray hs hq f0 f1 ht hn

/-- C102: when the solver finds no root, no point of the line of the ray is inside the sphere by more than rounding. -/
theorem C102_miss_partial (hm : 9 ≤ mw) (s : Sphere (Flt mw ew)) (ray : Ray (Flt mw ew)) (hs : SphereRegular s ray)
    (hq : solveQuadratic ray.direction.squareNorm ((GVec.conv .vector ray.origin).dot ray.direction * GFloat.fromI64 2)
      ((GVec.conv .vector ray.origin).squareNorm - Scalar.square s.radius) = none) (t : ℝ) :
    -(32 * uRnd mw * (∑ i, (ray.origin.vec i).toReal ^ 2 + s.radius.toReal ^ 2)) ≤ sphereDefect s ray t := by
  have hu := uRnd_pos (mw := mw)
  have hη := etaRnd_pos (mw := mw) (ew := ew)
  have hu1 := uRnd_small hm
  obtain ⟨b', c', kb, kc, kr⟩ := C101_none_partial hm _ _ _ hq hs.disc hs.hb hs.hc
  obtain ⟨ca, cb, cb', cc⟩ := sphere_coeff hm s ray hs kb kc
  rw [defect_eq]
  exact miss_core hu hη hs.dir hs.org (Finset.sum_nonneg fun i _ => sq_nonneg _) (sq_nonneg _) hu1
    (cauchy_abs (fun i => (ray.origin.vec i).toReal) (fun i => (ray.direction.vec i).toReal))
    (Finset.sum_nonneg fun i _ => abs_nonneg _) (Finset.abs_sum_le_sum_abs _ _) ca cb cc kr t

/-- a ray from (0, 0, −3) along the z axis -/
def exRayF : Ray F32 := ⟨new3 (F32.lit 0) (F32.lit 0) (-F32.lit 3), new3 (F32.lit 0) (F32.lit 0) (F32.lit 1), F32.lit 10⟩
def exSphF : Sphere F32 := ⟨F32.lit 1, -F32.lit 1, F32.lit 1, F32.lit 0, F32.lit 0, F32.lit 1⟩

/-- Non-vacuity: the ray and the unit sphere meet the hypotheses of C102 on `f32`, and the hit is at distance 2. -/
example : SphereRegular exSphF exRayF ∧
    (∀ t0 t1, solveQuadratic exRayF.direction.squareNorm ((GVec.conv .vector exRayF.origin).dot exRayF.direction * GFloat.fromI64 2)
      ((GVec.conv .vector exRayF.origin).squareNorm - Scalar.square exSphF.radius) = some (t0, t1) → t0.isFin = true ∧ t1.isFin = true) ∧
    (letI : Libm 23 8 := ⟨id, id, id, id, id, id, fun y _ => y⟩
     (exSphF.intersectRay exRayF).map (·.tRay) = some (F32.lit 2)) ∧
    etaRnd 23 8 ≤ uRnd 23 * |(F32.lit 2).toReal| := by
  have h0 : (F32.lit 0).toReal = 0 := by rw [toReal_lit (by decide)]; norm_num
  have hu := uRnd_pos (mw := 23)
  have hη : 3 * etaRnd 23 8 ≤ uRnd 23 * 1 := by unfold etaRnd uRnd fK; norm_num
  have hη0 := etaRnd_pos (mw := 23) (ew := 8)
  refine ⟨⟨?_, ?_, by decide +kernel, ?_, ?_⟩, ?_, by decide +kernel, ?_⟩
  · rw [Fin.sum_univ_three]
    change _ ≤ uRnd 23 * ((F32.lit 0).toReal ^ 2 + (F32.lit 0).toReal ^ 2 + (F32.lit 1).toReal ^ 2)
    rw [h0, toReal_lit_small.1]
    linarith
  · rw [Fin.sum_univ_three]
    change _ ≤ uRnd 23 * ((F32.lit 0).toReal ^ 2 + (F32.lit 0).toReal ^ 2 + (-F32.lit 3).toReal ^ 2 + (F32.lit 1).toReal ^ 2)
    rw [h0, toReal_lit_small.1, toReal_negop, toReal_lit_small.2.2]
    linarith
  · have e : (GVec.conv .vector exRayF.origin).dot exRayF.direction * GFloat.fromI64 2 = -F32.lit 6 := by decide +kernel
    rw [e, toReal_negop, toReal_lit (by decide)]
    exact normal_f32 (by norm_num)
  · have e : exRayF.direction.squareNorm = F32.lit 1 := by decide +kernel
    have e2 : (GVec.conv .vector exRayF.origin).squareNorm - Scalar.square exSphF.radius = F32.lit 8 := by decide +kernel
    rw [e, e2, toReal_lit (by decide), toReal_lit (by decide)]
    exact normal_f32 (by norm_num)
  · have e : solveQuadratic exRayF.direction.squareNorm ((GVec.conv .vector exRayF.origin).dot exRayF.direction * GFloat.fromI64 2)
      ((GVec.conv .vector exRayF.origin).squareNorm - Scalar.square exSphF.radius) = some (F32.lit 2, F32.lit 4) := by decide +kernel
    intro t0 t1 h
    rw [e] at h
    cases h
    decide +kernel
  · rw [toReal_lit_small.2.1]
    norm_num
    linarith

/-- Non-vacuity of the second part: a ray missing the sphere. -/
example : let ray : Ray F32 := ⟨new3 (F32.lit 2) (F32.lit 0) (-F32.lit 3), new3 (F32.lit 0) (F32.lit 0) (F32.lit 1), F32.lit 10⟩
    SphereRegular exSphF ray ∧
    solveQuadratic ray.direction.squareNorm ((GVec.conv .vector ray.origin).dot ray.direction * GFloat.fromI64 2)
      ((GVec.conv .vector ray.origin).squareNorm - Scalar.square exSphF.radius) = none := by
  have h0 : (F32.lit 0).toReal = 0 := by rw [toReal_lit (by decide)]; norm_num
  have hη : 3 * etaRnd 23 8 ≤ uRnd 23 * 1 := by unfold etaRnd uRnd fK; norm_num
  have hu := uRnd_pos (mw := 23)
  intro ray
  refine ⟨⟨?_, ?_, by decide +kernel, ?_, ?_⟩, by decide +kernel⟩
  · rw [Fin.sum_univ_three]
    change _ ≤ uRnd 23 * ((F32.lit 0).toReal ^ 2 + (F32.lit 0).toReal ^ 2 + (F32.lit 1).toReal ^ 2)
    rw [h0, toReal_lit_small.1]
    linarith
  · rw [Fin.sum_univ_three]
    change _ ≤ uRnd 23 * ((F32.lit 2).toReal ^ 2 + (F32.lit 0).toReal ^ 2 + (-F32.lit 3).toReal ^ 2 + (F32.lit 1).toReal ^ 2)
    rw [h0, toReal_lit_small.1, toReal_negop, toReal_lit_small.2.2, toReal_lit_small.2.1]
    linarith
  · have e : (GVec.conv .vector ray.origin).dot ray.direction * GFloat.fromI64 2 = -F32.lit 6 := by decide +kernel
    rw [e, toReal_negop, toReal_lit (by decide)]
    exact normal_f32 (by norm_num)
  · have e : ray.direction.squareNorm = F32.lit 1 := by decide +kernel
    have e2 : (GVec.conv .vector ray.origin).squareNorm - Scalar.square exSphF.radius = F32.lit 12 := by decide +kernel
    rw [e, e2, toReal_lit (by decide), toReal_lit (by decide)]
    exact normal_f32 (by norm_num)
end Scarlet
