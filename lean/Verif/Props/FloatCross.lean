import Verif.Props.FloatNorm
import Verif.Props.QuadFloat

/-! C117: rounding error of the cross product, of `norm` and of `distance` on floats. -/

set_option linter.unusedSectionVars false

namespace Scarlet
open Flt GVec

section core
variable {u η : ℝ}

theorem det_core {p q x r s : ℝ} (hu : 0 < u) (hu1 : u ≤ 1 / 1024) (hη : 0 < η) (h1 : |p - r| ≤ max η (u * |r|))
    (h2 : |q - s| ≤ max η (u * |s|)) (h3 : |x - (p - q)| ≤ u * |p - q|) :
    |x - (r - s)| ≤ 2.01 * (u * (|r| + |s|)) + 2.01 * η := by
  have r0 := abs_nonneg r
  have s0 := abs_nonneg s
  have ur := mul_nonneg hu.le r0
  have us := mul_nonneg hu.le s0
  have h1 : |p - r| ≤ η + u * |r| := h1.trans (max_le (by linarith) (by linarith))
  have h2 : |q - s| ≤ η + u * |s| := h2.trans (max_le (by linarith) (by linarith))
  have h4 : |p - q| ≤ |r| + |s| + (η + u * |r|) + (η + u * |s|) := by
    have : p - q = (r - s) + ((p - r) - (q - s)) := by ring
    rw [this]
    have a1 := abs_add_le (r - s) ((p - r) - (q - s))
    have a2 := abs_sub r s
    have a3 := abs_sub (p - r) (q - s)
    linarith
  have h5 := mul_le_mul_of_nonneg_left h4 hu.le
  have e : x - (r - s) = (x - (p - q)) + ((p - r) - (q - s)) := by ring
  have a1 := abs_add_le (x - (p - q)) ((p - r) - (q - s))
  have a3 := abs_sub (p - r) (q - s)
  rw [e]
  have k1 : u * η ≤ (1 / 1024) * η := mul_le_mul_of_nonneg_right hu1 hη.le
  have k2 : u * (u * |r|) ≤ (1 / 1024) * (u * |r|) := mul_le_mul_of_nonneg_right hu1 ur
  have k3 : u * (u * |s|) ≤ (1 / 1024) * (u * |s|) := mul_le_mul_of_nonneg_right hu1 us
  linarith

/-- the weights of the rounding errors of the cross product against the lengths of the vectors -/
theorem perp_core {a b c x y z : ℝ} (A B : ℝ) (A0 : 0 ≤ A) (B0 : 0 ≤ B) (hA : A ^ 2 = a ^ 2 + b ^ 2 + c ^ 2) (hB : B ^ 2 = x ^ 2 + y ^ 2 + z ^ 2) :
    |a| * (|b * z| + |c * y|) + |b| * (|c * x| + |a * z|) + |c| * (|a * y| + |b * x|) ≤ 1.16 * (A ^ 2 * B) ∧
    |a| + |b| + |c| ≤ 2 * A := by
  simp only [abs_mul]
  rw [← sq_abs a, ← sq_abs b, ← sq_abs c] at hA
  rw [← sq_abs x, ← sq_abs y, ← sq_abs z] at hB
  generalize |a| = a at *
  generalize |b| = b at *
  generalize |c| = c at *
  generalize |x| = x at *
  generalize |y| = y at *
  generalize |z| = z at *
  constructor
  · have e : a * (b * z + c * y) + b * (c * x + a * z) + c * (a * y + b * x) = 2 * (b * c * x + c * a * y + a * b * z) := by ring
    rw [e]
    have h1 : (b * c * x + c * a * y + a * b * z) ^ 2 ≤ ((b * c) ^ 2 + (c * a) ^ 2 + (a * b) ^ 2) * (x ^ 2 + y ^ 2 + z ^ 2) := by
      nlinarith [sq_nonneg (b * c * y - c * a * x), sq_nonneg (b * c * z - a * b * x), sq_nonneg (c * a * z - a * b * y)]
    have h2 : 3 * ((b * c) ^ 2 + (c * a) ^ 2 + (a * b) ^ 2) ≤ (a ^ 2 + b ^ 2 + c ^ 2) ^ 2 := by
      nlinarith [sq_nonneg (a ^ 2 - b ^ 2), sq_nonneg (b ^ 2 - c ^ 2), sq_nonneg (c ^ 2 - a ^ 2)]
    rw [← hB] at h1
    rw [← hA] at h2
    have h3 : (b * c * x + c * a * y + a * b * z) ≤ 0.58 * (A ^ 2 * B) := by
      apply le_of_sq_le _ (by positivity)
      have := mul_le_mul_of_nonneg_right h2 (sq_nonneg B)
      have : 0 ≤ (A ^ 2 * B) ^ 2 := sq_nonneg _
      nlinarith
    linarith
  · apply le_of_sq_le _ (by positivity)
    nlinarith [sq_nonneg (a - b), sq_nonneg (b - c), sq_nonneg (c - a)]
end core

variable {mw ew : Nat} [FltImpl mw ew] [LawfulFlt mw ew] {U : Marker}

/-- one component of a cross product -/
theorem det_err (hm : 9 ≤ mw) {a b c d : Flt mw ew} (h : (a * b - c * d).isFin = true) :
    |(a * b - c * d).toReal - (a.toReal * b.toReal - c.toReal * d.toReal)| ≤
      2.01 * (uRnd mw * (|a.toReal * b.toReal| + |c.toReal * d.toReal|)) + 2.01 * etaRnd mw ew := by
  obtain ⟨f1, f2⟩ := isFin_of_sub h
  obtain ⟨fa, fb⟩ := isFin_of_mul f1
  obtain ⟨fc, fd⟩ := isFin_of_mul f2
  exact det_core uRnd_pos (uRnd_small hm) etaRnd_pos (mul_err fa fb f1) (mul_err fc fd f2) (sub_err f1 f2 h)

/-- C117: each finite component of the cross product on floats is the exact one up to `2.01u` of the sizes of the two products it
subtracts (not of their difference). -/
theorem C117_cross (hm : 9 ≤ mw) (a b : GVec (Flt mw ew) 3 U) :
    ((a.cross b).x.isFin = true → |(a.cross b).x.toReal - (a.y.toReal * b.z.toReal - a.z.toReal * b.y.toReal)| ≤
      2.01 * (uRnd mw * (|a.y.toReal * b.z.toReal| + |a.z.toReal * b.y.toReal|)) + 2.01 * etaRnd mw ew) ∧
    ((a.cross b).y.isFin = true → |(a.cross b).y.toReal - (a.z.toReal * b.x.toReal - a.x.toReal * b.z.toReal)| ≤
      2.01 * (uRnd mw * (|a.z.toReal * b.x.toReal| + |a.x.toReal * b.z.toReal|)) + 2.01 * etaRnd mw ew) ∧
    ((a.cross b).z.isFin = true → |(a.cross b).z.toReal - (a.x.toReal * b.y.toReal - a.y.toReal * b.x.toReal)| ≤
      2.01 * (uRnd mw * (|a.x.toReal * b.y.toReal| + |a.y.toReal * b.x.toReal|)) + 2.01 * etaRnd mw ew) :=
  ⟨det_err hm, det_err hm, det_err hm⟩

/-- C117: the computed cross product is perpendicular to its first factor up to `2.34u` of the size of the product `|a|² |b|`
(and to the second factor, since swapping the factors negates the result: C82). -/
theorem C117_perpendicular (hm : 9 ≤ mw) (a b : GVec (Flt mw ew) 3 U) (h : ∀ i, ((a.cross b).vec i).isFin = true) :
    |a.x.toReal * (a.cross b).x.toReal + a.y.toReal * (a.cross b).y.toReal + a.z.toReal * (a.cross b).z.toReal| ≤
      2.34 * uRnd mw * ((a.x.toReal ^ 2 + a.y.toReal ^ 2 + a.z.toReal ^ 2) * Real.sqrt (b.x.toReal ^ 2 + b.y.toReal ^ 2 + b.z.toReal ^ 2)) +
      4.02 * etaRnd mw ew * Real.sqrt (a.x.toReal ^ 2 + a.y.toReal ^ 2 + a.z.toReal ^ 2) := by
  obtain ⟨h1, h2, h3⟩ := C117_cross hm a b
  have h1 := h1 (h 0)
  have h2 := h2 (h 1)
  have h3 := h3 (h 2)
  have hu := uRnd_pos (mw := mw)
  have hη := etaRnd_pos (mw := mw) (ew := ew)
  have A2 := Real.sq_sqrt (show 0 ≤ a.x.toReal ^ 2 + a.y.toReal ^ 2 + a.z.toReal ^ 2 by positivity)
  have B2 := Real.sq_sqrt (show 0 ≤ b.x.toReal ^ 2 + b.y.toReal ^ 2 + b.z.toReal ^ 2 by positivity)
  obtain ⟨k1, k2⟩ := perp_core _ _ (Real.sqrt_nonneg _) (Real.sqrt_nonneg _) A2 B2
  rw [A2] at k1
  have k3 := mul_le_mul_of_nonneg_left k1 hu.le
  have k4 := mul_le_mul_of_nonneg_left k2 hη.le
  generalize (a.x.toReal ^ 2 + a.y.toReal ^ 2 + a.z.toReal ^ 2) * Real.sqrt (b.x.toReal ^ 2 + b.y.toReal ^ 2 + b.z.toReal ^ 2) = M at *
  have M0 : 0 ≤ uRnd mw * M := by
    have : 0 ≤ 1.16 * M := le_trans (by positivity) k1
    apply mul_nonneg hu.le
    linarith
  generalize Real.sqrt (a.x.toReal ^ 2 + a.y.toReal ^ 2 + a.z.toReal ^ 2) = N at *
  generalize (a.cross b).x.toReal = p at *
  generalize (a.cross b).y.toReal = q at *
  generalize (a.cross b).z.toReal = r at *
  generalize a.x.toReal = ax at *
  generalize a.y.toReal = ay at *
  generalize a.z.toReal = az at *
  generalize b.x.toReal = bx at *
  generalize b.y.toReal = b_y at *
  generalize b.z.toReal = bz at *
  have e : ax * p + ay * q + az * r = ax * (p - (ay * bz - az * b_y)) + ay * (q - (az * bx - ax * bz)) + az * (r - (ax * b_y - ay * bx)) := by ring
  have g1 := mul_le_mul_of_nonneg_left h1 (abs_nonneg ax)
  have g2 := mul_le_mul_of_nonneg_left h2 (abs_nonneg ay)
  have g3 := mul_le_mul_of_nonneg_left h3 (abs_nonneg az)
  rw [← abs_mul] at g1 g2 g3
  rw [e]
  refine (abs_add_three _ _ _).trans ?_
  linarith

/-- C117: the norm of a float vector is within `3.11u` (relatively) of the exact one, provided the sum of the squares neither
overflows nor underflows. -/
theorem C117_norm (hm : 9 ≤ mw) (v : GVec (Flt mw ew) 3 U) (h : v.squareNorm.isFin = true)
    (hS : 3 * etaRnd mw ew ≤ uRnd mw * ∑ i, (v.vec i).toReal ^ 2) :
    v.norm.isFin = true ∧ |v.norm.toReal - Real.sqrt (∑ i, (v.vec i).toReal ^ 2)| ≤ 3.11 * uRnd mw * Real.sqrt (∑ i, (v.vec i).toReal ^ 2) := by
  have hu := uRnd_pos (mw := mw)
  have hη := etaRnd_pos (mw := mw) (ew := ew)
  have hu1 := uRnd_small hm
  have hηu : etaRnd mw ew ≤ uRnd mw := by
    unfold uRnd etaRnd
    have hF : Fmt mw ew := inferInstance
    have h2 : 2 ^ 1 ≤ 2 ^ (ew - 1) := Nat.pow_le_pow_right (by decide) (by have := hF.hew; omega)
    refine one_div_le_one_div_of_le (by positivity) (pow_le_pow_right₀ (by norm_num) ?_)
    unfold fK; omega
  have e1 := C83_squareNorm v h
  push_cast at e1
  have hn0 : 0 ≤ v.squareNorm.toReal :=
    (norm_core (N' := Real.sqrt v.squareNorm.toReal) hu hu1 hη hηu hS e1 (by
      rw [sub_self, abs_zero]; exact hη.le.trans (le_max_left _ _))).2.1
  obtain ⟨f, e2⟩ := sqrt_err h hn0
  obtain ⟨S0, -, n1, n2⟩ := norm_core hu hu1 hη hηu hS e1 e2
  refine ⟨f, ?_⟩
  rw [_root_.abs_le]
  change _ ≤ (GFloat.sqrt v.squareNorm).toReal - _ ∧ (GFloat.sqrt v.squareNorm).toReal - _ ≤ _
  constructor <;> linarith

/-- the sum of squares of numbers with small relative errors -/
theorem sumsq_core {u : ℝ} (hu : 0 < u) (hu1 : u ≤ 1 / 1024) (x y : _root_.Fin 3 → ℝ) (h : ∀ i, |y i - x i| ≤ u * |x i|) :
    (1 - u) ^ 2 * ∑ i, x i ^ 2 ≤ ∑ i, y i ^ 2 ∧ ∑ i, y i ^ 2 ≤ (1 + u) ^ 2 * ∑ i, x i ^ 2 := by
  rw [Finset.mul_sum, Finset.mul_sum]
  have key : ∀ i, (1 - u) * |x i| ≤ |y i| ∧ |y i| ≤ (1 + u) * |x i| := by
    intro i
    have h1 := abs_sub_abs_le_abs_sub (y i) (x i)
    have h2 := abs_sub_abs_le_abs_sub (x i) (y i)
    rw [abs_sub_comm] at h2
    have := h i
    constructor <;> linarith
  refine ⟨Finset.sum_le_sum fun i _ => ?_, Finset.sum_le_sum fun i _ => ?_⟩
  · rw [← sq_abs (x i), ← sq_abs (y i), ← mul_pow]
    exact pow_le_pow_left₀ (mul_nonneg (by linarith) (abs_nonneg _)) (key i).1 2
  · rw [← sq_abs (x i), ← sq_abs (y i), ← mul_pow]
    exact pow_le_pow_left₀ (abs_nonneg _) (key i).2 2

/-- C117: the distance of two float vectors is within `4.13u` (relatively, however close they are) of the exact one, provided the
sum of the squares neither overflows nor underflows. -/
theorem C117_distance (hm : 9 ≤ mw) (a b : Vec (Flt mw ew) 3) (h : (squareDistance a b).isFin = true)
    (hS : 3.1 * etaRnd mw ew ≤ uRnd mw * ∑ i, ((a.vec i).toReal - (b.vec i).toReal) ^ 2) :
    (distance a b).isFin = true ∧ |(distance a b).toReal - Real.sqrt (∑ i, ((a.vec i).toReal - (b.vec i).toReal) ^ 2)| ≤
      4.13 * uRnd mw * Real.sqrt (∑ i, ((a.vec i).toReal - (b.vec i).toReal) ^ 2) := by
  have hu := uRnd_pos (mw := mw)
  have hη := etaRnd_pos (mw := mw) (ew := ew)
  have hu1 := uRnd_small hm
  have hf : ∀ i, (a.vec i - b.vec i).isFin = true := fun i => (isFin_of_mul (sumLoop_fin h i)).1
  have he : ∀ i, |(a.vec i - b.vec i).toReal - ((a.vec i).toReal - (b.vec i).toReal)| ≤ uRnd mw * |(a.vec i).toReal - (b.vec i).toReal| :=
    fun i => sub_err (isFin_of_sub (hf i)).1 (isFin_of_sub (hf i)).2 (hf i)
  obtain ⟨s1, s2⟩ := sumsq_core hu hu1 _ _ he
  have S0 : 0 ≤ ∑ i, ((a.vec i).toReal - (b.vec i).toReal) ^ 2 := Finset.sum_nonneg fun i _ => sq_nonneg _
  have hn := C117_norm hm (a - b) h (by
    change _ ≤ uRnd mw * ∑ i, (a.vec i - b.vec i).toReal ^ 2
    have h1 := mul_le_mul_of_nonneg_left s1 hu.le
    have h2 : 0.99 ≤ (1 - uRnd mw) ^ 2 := by nlinarith
    have h3 := mul_le_mul_of_nonneg_right h2 (mul_nonneg hu.le S0)
    nlinarith)
  refine ⟨hn.1, ?_⟩
  have hn := hn.2
  change |(distance a b).toReal - Real.sqrt (∑ i, (a.vec i - b.vec i).toReal ^ 2)| ≤ 3.11 * uRnd mw * Real.sqrt (∑ i, (a.vec i - b.vec i).toReal ^ 2) at hn
  have r1 : Real.sqrt (∑ i, (a.vec i - b.vec i).toReal ^ 2) ≤ (1 + uRnd mw) * Real.sqrt (∑ i, ((a.vec i).toReal - (b.vec i).toReal) ^ 2) := by
    rw [← Real.sqrt_sq (show 0 ≤ 1 + uRnd mw by linarith), ← Real.sqrt_mul (sq_nonneg _)]
    exact Real.sqrt_le_sqrt s2
  have r2 : (1 - uRnd mw) * Real.sqrt (∑ i, ((a.vec i).toReal - (b.vec i).toReal) ^ 2) ≤ Real.sqrt (∑ i, (a.vec i - b.vec i).toReal ^ 2) := by
    rw [← Real.sqrt_sq (show 0 ≤ 1 - uRnd mw by linarith), ← Real.sqrt_mul (sq_nonneg _)]
    exact Real.sqrt_le_sqrt s1
  have D0 := Real.sqrt_nonneg (∑ i, ((a.vec i).toReal - (b.vec i).toReal) ^ 2)
  generalize Real.sqrt (∑ i, ((a.vec i).toReal - (b.vec i).toReal) ^ 2) = D at *
  generalize Real.sqrt (∑ i, (a.vec i - b.vec i).toReal ^ 2) = E at *
  have h1 := mul_le_mul_of_nonneg_left r1 hu.le
  have h2 := mul_nonneg hu.le D0
  have h3 : uRnd mw * (uRnd mw * D) ≤ (1 / 1024) * (uRnd mw * D) := mul_le_mul_of_nonneg_right hu1 h2
  obtain ⟨g1, g2⟩ := _root_.abs_le.1 hn
  rw [_root_.abs_le]
  constructor <;> linarith

/-- Non-vacuity: the vectors (3, 0, 4) and (0, 0, 0) on `f32`. -/
example : let a : Vec F32 3 := new3 (F32.lit 3) (F32.lit 0) (F32.lit 4)
    let b : Vec F32 3 := new3 (F32.lit 0) (F32.lit 0) (F32.lit 0)
    (squareDistance a b).isFin = true ∧ distance a b = F32.lit 5 ∧ a.norm = F32.lit 5 ∧
    (a.cross (new3 (F32.lit 0) (F32.lit 1) (F32.lit 0))).z = F32.lit 3 ∧
    3.1 * etaRnd 23 8 ≤ uRnd 23 * ∑ i, ((a.vec i).toReal - (b.vec i).toReal) ^ 2 := by
  refine ⟨by decide +kernel, by decide +kernel, by decide +kernel, by decide +kernel, ?_⟩
  rw [Fin.sum_univ_three]
  change _ ≤ uRnd 23 * (((F32.lit 3).toReal - (F32.lit 0).toReal) ^ 2 + ((F32.lit 0).toReal - (F32.lit 0).toReal) ^ 2 +
    ((F32.lit 4).toReal - (F32.lit 0).toReal) ^ 2)
  rw [toReal_lit (by decide), toReal_lit (by decide), toReal_lit (by decide)]
  unfold etaRnd uRnd fK
  norm_num
end Scarlet
