import Verif.Theory.Near
import Verif.Props.FloatNorm
import Mathlib.LinearAlgebra.CrossProduct

/-! C106: rotation about an arbitrary axis on floats. -/

set_option linter.unusedSectionVars false

namespace Scarlet
open Flt GVec

section core
variable {C S a b k : ℝ}

theorem rot_diag_le (hC : |C| ≤ 1) (ha : a ^ 2 ≤ 1) : |C + a * (1 - C) * a| ≤ 1 := by
  obtain ⟨h1, h2⟩ := abs_le.1 hC
  have h3 := mul_nonneg (sq_nonneg a) (sub_nonneg.2 h2)
  have h4 := mul_nonneg (sub_nonneg.2 ha) (sub_nonneg.2 h2)
  rw [abs_le]; constructor <;> nlinarith

theorem rot_off_le (hCS : C ^ 2 + S ^ 2 = 1) (h : a ^ 2 + b ^ 2 + k ^ 2 = 1) : |a * (1 - C) * b| ≤ 1 ∧ |a * (1 - C) * b + k * S| ≤ 1 := by
  have c1 : C ≤ 1 := by nlinarith [sq_nonneg S]
  have c2 : -1 ≤ C := by nlinarith [sq_nonneg S]
  have hab : |a * b| ≤ (1 - k ^ 2) / 2 := by
    rw [abs_le]; constructor <;> nlinarith [sq_nonneg (a - b), sq_nonneg (a + b)]
  have k1 : k ^ 2 ≤ 1 := by nlinarith [sq_nonneg a, sq_nonneg b]
  have e1 : |a * (1 - C) * b| ≤ (1 - k ^ 2) / 2 * (1 - C) := by
    rw [show a * (1 - C) * b = a * b * (1 - C) by ring, abs_mul, abs_of_nonneg (sub_nonneg.2 c1)]
    exact mul_le_mul_of_nonneg_right hab (sub_nonneg.2 c1)
  have e2 : |k * S| ≤ 1 - (1 - k ^ 2) / 2 * (1 - C) := by
    have r0 : 0 ≤ 1 - (1 - k ^ 2) / 2 * (1 - C) := by nlinarith [mul_nonneg (sub_nonneg.2 k1) (sub_nonneg.2 c1), sq_nonneg k]
    refine abs_le_of_sq_le_sq ?_ r0
    rw [mul_pow, show S ^ 2 = (1 - C) * (1 + C) by linarith]
    nlinarith [sq_nonneg ((1 + C) / 2 - k ^ 2 * ((1 - C) / 2))]
  constructor
  · nlinarith [mul_nonneg (sub_nonneg.2 k1) (sub_nonneg.2 c1), sq_nonneg k]
  · have := abs_add_le (a * (1 - C) * b) (k * S); linarith

end core

variable {mw ew : Nat} [FltImpl mw ew] [LawfulFlt mw ew] [Libm mw ew] [LawfulLibm mw ew]

/-- one entry of the rotation matrix -/
theorem rot_entry (hm : 9 ≤ mw) (hw : mw + 3 ≤ 2 ^ (ew - 1)) {e c s n d κ : Flt mw ew} {E C S N D K : ℝ}
    (he : Near e E (21 / 10)) (hc : Near c C (21 / 10)) (hs : Near s S (21 / 10)) (hn : Near n N 5) (hd : Near d D 5) (hκ : Near κ K 5)
    (hC : |C| ≤ 1) (hS : |S| ≤ 1) (hN : |N| ≤ 1) (hD : |D| ≤ 1) (hK : |K| ≤ 1)
    (b1 : |E + N * (1 - C) * D| ≤ 1) (b2 : |E + N * (1 - C) * D + K * S| ≤ 1) :
    Near (e + n * (Scalar.one - c) * d + κ * s) (E + N * (1 - C) * D + K * S) 41 := by
  have hC' : |1 - C| ≤ 2 := by obtain ⟨h1, h2⟩ := abs_le.1 hC; rw [abs_le]; constructor <;> linarith
  have hNC : |N * (1 - C)| ≤ 2 := by
    rw [abs_mul]; have := mul_le_mul hN hC' (abs_nonneg _) zero_le_one; linarith
  have hNCD : |N * (1 - C) * D| ≤ 2 := by
    rw [abs_mul]; have := mul_le_mul hNC hD (abs_nonneg _) zero_le_two; linarith
  have hKS : |K * S| ≤ 1 := by
    rw [abs_mul]; have := mul_le_mul hK hS (abs_nonneg _) zero_le_one; linarith
  have h1 : Near (Scalar.one - c) (1 - C) (411 / 100) := near_sub hm near_one hc hC' le_rfl (by norm_num) (by norm_num) (by norm_num)
  have h2 : Near (n * (Scalar.one - c)) (N * (1 - C)) (1615 / 100) :=
    near_mul hm hw hn h1 hN hC' hNC (by norm_num) (by norm_num) (by norm_num) (by norm_num)
  have h3 : Near (n * (Scalar.one - c) * d) (N * (1 - C) * D) (283 / 10) :=
    near_mul hm hw h2 hd hNC hD hNCD (by norm_num) (by norm_num) (by norm_num) (by norm_num)
  have h4 := near_add hm (m := 315 / 10) he h3 b1 (by norm_num) (by norm_num) (by norm_num) (by norm_num)
  have h5 : Near (κ * s) (K * S) (813 / 100) :=
    near_mul hm hw hκ hs hK hS hKS (by norm_num) (by norm_num) (by norm_num) (by norm_num)
  exact near_add hm h4 h5 b2 (by norm_num) (by norm_num) (by norm_num) (by norm_num)

/-- the matrix of the rotation by `θ` about the unit vector `N`, as a linear map -/
noncomputable def rodrigues (N : _root_.Fin 3 → ℝ) (θ : ℝ) (p : _root_.Fin 3 → ℝ) : _root_.Fin 3 → ℝ :=
  Real.cos θ • p + ((1 - Real.cos θ) * (N ⬝ᵥ p)) • N + Real.sin θ • crossProduct N p

theorem rod_entry (N : _root_.Fin 3 → ℝ) (θ : ℝ) :
    (rodrigues N θ (Pi.single 0 1) 0 = Real.cos θ + (1 - Real.cos θ) * N 0 * N 0) ∧
    (rodrigues N θ (Pi.single 1 1) 0 = (1 - Real.cos θ) * N 1 * N 0 + Real.sin θ * (-N 2)) ∧
    (rodrigues N θ (Pi.single 2 1) 0 = (1 - Real.cos θ) * N 2 * N 0 + Real.sin θ * (N 1)) ∧
    (rodrigues N θ (Pi.single 0 1) 1 = (1 - Real.cos θ) * N 0 * N 1 + Real.sin θ * (N 2)) ∧
    (rodrigues N θ (Pi.single 1 1) 1 = Real.cos θ + (1 - Real.cos θ) * N 1 * N 1) ∧
    (rodrigues N θ (Pi.single 2 1) 1 = (1 - Real.cos θ) * N 2 * N 1 + Real.sin θ * (-N 0)) ∧
    (rodrigues N θ (Pi.single 0 1) 2 = (1 - Real.cos θ) * N 0 * N 2 + Real.sin θ * (-N 1)) ∧
    (rodrigues N θ (Pi.single 1 1) 2 = (1 - Real.cos θ) * N 1 * N 2 + Real.sin θ * (N 0)) ∧
    (rodrigues N θ (Pi.single 2 1) 2 = Real.cos θ + (1 - Real.cos θ) * N 2 * N 2) := by
  refine ⟨?_, ?_, ?_, ?_, ?_, ?_, ?_, ?_, ?_⟩ <;>
    simp [rodrigues, crossProduct, dotProduct, Fin.sum_univ_three, Pi.single_apply]

/-- the real unit vector along a float vector -/
noncomputable def unitR {U : Marker} (v : GVec (Flt mw ew) 3 U) : _root_.Fin 3 → ℝ :=
  fun i => (v.vec i).toReal / Real.sqrt (∑ j, (v.vec j).toReal ^ 2)

theorem near_dot0 {n : Vec (Flt mw ew) 3} {N : _root_.Fin 3 → ℝ} (hn : ∀ i, Near (n.vec i) (N i) 5) :
    Near (n.dot (new3 Scalar.one Scalar.zero Scalar.zero : Vec (Flt mw ew) 3)) (N 0) 5 ∧
    Near (n.dot (new3 Scalar.zero Scalar.one Scalar.zero : Vec (Flt mw ew) 3)) (N 1) 5 ∧
    Near (n.dot (new3 Scalar.zero Scalar.zero Scalar.one : Vec (Flt mw ew) 3)) (N 2) 5 := by
  have z := fun i => near_mul_zero (hn i).1
  have o := fun i => near_mul_one (hn i)
  exact ⟨near_add_zero (near_add_zero (near_zero_add near_zero (o 0)) (z 1)) (z 2),
    near_add_zero (near_zero_add (near_add_zero near_zero (z 0)) (o 1)) (z 2),
    near_zero_add (near_add_zero (near_add_zero near_zero (z 0)) (z 1)) (o 2)⟩

theorem rot_entries (hm : 9 ≤ mw) (hw : mw + 3 ≤ 2 ^ (ew - 1)) (v : Vec (Flt mw ew) 3) (θ : Flt mw ew) (hθ : θ.isFin = true)
    (h : v.squareNorm.isFin = true) (hS : 3 * etaRnd mw ew ≤ uRnd mw * ∑ i, (v.vec i).toReal ^ 2) (i j : _root_.Fin 3) :
    Near ((Transform.rotate v θ).m.data i.castSucc j.castSucc) (rodrigues (unitR v) θ.toReal (Pi.single j 1) i) 41 ∧
    |rodrigues (unitR v) θ.toReal (Pi.single j 1) i| ≤ 1 := by
  have hn : ∀ i, Near (v.normalize.vec i) (unitR v i) 5 := fun i => C84_normalize_partial hm v h hS i
  have S0 : 0 < ∑ i, (v.vec i).toReal ^ 2 := by
    by_contra hc
    have := etaRnd_pos (mw := mw) (ew := ew)
    have := uRnd_pos (mw := mw)
    nlinarith
  have hN : unitR v 0 ^ 2 + unitR v 1 ^ 2 + unitR v 2 ^ 2 = 1 := by
    unfold unitR
    simp only [div_pow, Real.sq_sqrt S0.le]
    rw [← add_div, ← add_div, div_eq_one_iff_eq S0.ne', Fin.sum_univ_three]
  obtain ⟨ns, nc⟩ := near_trig hm hw hθ
  have cs := Real.cos_sq_add_sin_sq θ.toReal
  have hC := Real.abs_cos_le_one θ.toReal
  have hSn := Real.abs_sin_le_one θ.toReal
  obtain ⟨d0, d1, d2⟩ := near_dot0 hn
  have z := fun i => near_mul_zero (hn i).1
  have o := fun i => near_mul_one (hn i)
  have zc := near_zero_mul nc.1
  have oc := near_one_mul nc
  generalize hNN : unitR v = N at *
  have sq1 : N 0 ^ 2 ≤ 1 ∧ N 1 ^ 2 ≤ 1 ∧ N 2 ^ 2 ≤ 1 := by
    have := sq_nonneg (N 0); have := sq_nonneg (N 1); have := sq_nonneg (N 2)
    refine ⟨?_, ?_, ?_⟩ <;> linarith
  have a0 : |N 0| ≤ 1 := (sq_le_one_iff_abs_le_one _).1 sq1.1
  have a1 : |N 1| ≤ 1 := (sq_le_one_iff_abs_le_one _).1 sq1.2.1
  have a2 : |N 2| ≤ 1 := (sq_le_one_iff_abs_le_one _).1 sq1.2.2
  have m0 : |-N 0| ≤ 1 := by rwa [abs_neg]
  have m1 : |-N 1| ≤ 1 := by rwa [abs_neg]
  have m2 : |-N 2| ≤ 1 := by rwa [abs_neg]
  have diag : ∀ {e κ d n : Flt mw ew} {A : ℝ}, Near e (Real.cos θ.toReal) (21 / 10) → Near n A 5 → Near d A 5 → Near κ 0 0 → A ^ 2 ≤ 1 →
      Near (e + n * (Scalar.one - Libm.cos θ) * d + κ * Libm.sin θ) (Real.cos θ.toReal + (1 - Real.cos θ.toReal) * A * A) 41 ∧
      |Real.cos θ.toReal + (1 - Real.cos θ.toReal) * A * A| ≤ 1 := by
    intro e κ d n A he hn hd hκ hA
    have b := rot_diag_le hC hA
    have hA' := (sq_le_one_iff_abs_le_one _).1 hA
    rw [show Real.cos θ.toReal + (1 - Real.cos θ.toReal) * A * A = Real.cos θ.toReal + A * (1 - Real.cos θ.toReal) * A by ring]
    refine ⟨?_, b⟩
    have := rot_entry hm hw he nc ns hn hd (hκ.mono (by norm_num : (0 : ℝ) ≤ 5)) hC hSn hA' hA' (by norm_num) b
      (by rw [zero_mul, add_zero]; exact b)
    exact this.eq (by rw [zero_mul, add_zero])
  have off : ∀ {e κ d n : Flt mw ew} {A B K : ℝ}, Near e 0 0 → Near n A 5 → Near d B 5 → Near κ K 5 → |A| ≤ 1 → |B| ≤ 1 → |K| ≤ 1 →
      A ^ 2 + B ^ 2 + K ^ 2 = 1 →
      Near (e + n * (Scalar.one - Libm.cos θ) * d + κ * Libm.sin θ) ((1 - Real.cos θ.toReal) * B * A + Real.sin θ.toReal * K) 41 ∧
      |(1 - Real.cos θ.toReal) * B * A + Real.sin θ.toReal * K| ≤ 1 := by
    intro e κ d n A B K he hn hd hκ hA hB hK hsum
    obtain ⟨b1, b2⟩ := rot_off_le cs hsum
    rw [show (1 - Real.cos θ.toReal) * B * A + Real.sin θ.toReal * K = A * (1 - Real.cos θ.toReal) * B + K * Real.sin θ.toReal by ring]
    refine ⟨?_, b2⟩
    have := rot_entry hm hw (he.mono (by norm_num : (0 : ℝ) ≤ 21 / 10)) nc ns hn hd hκ hC hSn hA hB hK
      (by rw [zero_add]; exact b1) (by rw [zero_add]; exact b2)
    exact this.eq (by rw [zero_add])
  obtain ⟨e00, e01, e02, e10, e11, e12, e20, e21, e22⟩ := rod_entry N θ.toReal
  fin_cases i <;> fin_cases j <;> dsimp only [Fin.zero_eta, Fin.mk_one, Fin.reduceFinMk]
  · rw [e00]; exact diag oc (hn 0) d0 (near_sub_zero (z 1) (z 2)) sq1.1
  · rw [e01]; exact off zc (hn 0) d1 (near_zero_sub (z 1) (o 2)) a0 a1 m2 (by linarith [hN, neg_sq (N 2)])
  · rw [e02]; exact off zc (hn 0) d2 (near_sub_zero (o 1) (z 2)) a0 a2 a1 (by linarith [hN, neg_sq (N 1)])
  · rw [e10]; exact off zc (hn 1) d0 (near_sub_zero (o 2) (z 0)) a1 a0 a2 (by linarith [hN, neg_sq (N 2)])
  · rw [e11]; exact diag oc (hn 1) d1 (near_sub_zero (z 2) (z 0)) sq1.2.1
  · rw [e12]; exact off zc (hn 1) d2 (near_zero_sub (z 2) (o 0)) a1 a2 m0 (by linarith [hN, neg_sq (N 0)])
  · rw [e20]; exact off zc (hn 2) d0 (near_zero_sub (z 0) (o 1)) a2 a0 m1 (by linarith [hN, neg_sq (N 1)])
  · rw [e21]; exact off zc (hn 2) d1 (near_sub_zero (o 0) (z 1)) a2 a1 a0 (by linarith [hN, neg_sq (N 0)])
  · rw [e22]; exact diag oc (hn 2) d2 (near_sub_zero (z 0) (z 1)) sq1.2.2

theorem rod_linear (N : _root_.Fin 3 → ℝ) (θ : ℝ) (p : _root_.Fin 3 → ℝ) (i : _root_.Fin 3) :
    rodrigues N θ p i = ∑ j, rodrigues N θ (Pi.single j 1) i * p j := by
  obtain ⟨e00, e01, e02, e10, e11, e12, e20, e21, e22⟩ := rod_entry N θ
  rw [Fin.sum_univ_three]
  fin_cases i <;> dsimp only [Fin.zero_eta, Fin.mk_one, Fin.reduceFinMk]
  · rw [e00, e01, e02]; simp [rodrigues, crossProduct, dotProduct, Fin.sum_univ_three]; ring
  · rw [e10, e11, e12]; simp [rodrigues, crossProduct, dotProduct, Fin.sum_univ_three]; ring
  · rw [e20, e21, e22]; simp [rodrigues, crossProduct, dotProduct, Fin.sum_univ_three]; ring

theorem rod_transpose (N : _root_.Fin 3 → ℝ) (θ : ℝ) (i j : _root_.Fin 3) :
    rodrigues N (-θ) (Pi.single j 1) i = rodrigues N θ (Pi.single i 1) j := by
  obtain ⟨e00, e01, e02, e10, e11, e12, e20, e21, e22⟩ := rod_entry N θ
  obtain ⟨f00, f01, f02, f10, f11, f12, f20, f21, f22⟩ := rod_entry N (-θ)
  fin_cases i <;> fin_cases j <;> dsimp only [Fin.zero_eta, Fin.mk_one, Fin.reduceFinMk]
  · rw [e00, f00, Real.cos_neg]
  · rw [e10, f01, Real.cos_neg, Real.sin_neg]; ring
  · rw [e20, f02, Real.cos_neg, Real.sin_neg]; ring
  · rw [e01, f10, Real.cos_neg, Real.sin_neg]; ring
  · rw [e11, f11, Real.cos_neg]
  · rw [e21, f12, Real.cos_neg, Real.sin_neg]; ring
  · rw [e02, f20, Real.cos_neg, Real.sin_neg]; ring
  · rw [e12, f21, Real.cos_neg, Real.sin_neg]; ring
  · rw [e22, f22, Real.cos_neg]

/-- applying a matrix whose entries are within `41u` of a matrix with entries of magnitude at most one, over the reals -/
theorem near_row_core {u η z : ℝ} (hu : 0 < u) (hu1 : u ≤ 1 / 1024) (he : 0 < η) {m r p : _root_.Fin 3 → ℝ}
    (hm : ∀ j, |m j - r j| ≤ 41 * u) (hr : ∀ j, |r j| ≤ 1)
    (hz : |z - ∑ j, m j * p j| ≤ ((1 + u) ^ 4 - 1) * ∑ j, |m j| * |p j| + 4 * η * (1 + u) ^ 3) :
    |z - ∑ j, r j * p j| ≤ 46 * u * ∑ j, |p j| + 5 * η := by
  have husq : u ^ 2 ≤ 1 / 1024 * u := by rw [sq]; exact mul_le_mul_of_nonneg_right hu1 hu.le
  have p3 : (1 + u) ^ 3 ≤ 1.01 := by
    have := pow_le_pow_left₀ (show 0 ≤ 1 + u by linarith) (show 1 + u ≤ 1 + 1 / 1024 by linarith) 3
    exact this.trans (by norm_num)
  have p4 : (1 + u) ^ 4 - 1 ≤ 4.1 * u := by
    have h3 : u ^ 3 ≤ 1 / 1024 * (1 / 1024 * u) := by
      rw [show u ^ 3 = u * u ^ 2 by ring]
      exact mul_le_mul hu1 husq (by positivity) (by norm_num)
    have h4 : u ^ 4 ≤ 1 / 1024 * (1 / 1024 * (1 / 1024 * u)) := by
      rw [show u ^ 4 = u * u ^ 3 by ring]
      exact mul_le_mul hu1 h3 (by positivity) (by norm_num)
    have : (1 + u) ^ 4 - 1 = 4 * u + 6 * u ^ 2 + 4 * u ^ 3 + u ^ 4 := by ring
    linarith
  have P0 : 0 ≤ ∑ j, |p j| := Finset.sum_nonneg fun j _ => abs_nonneg _
  have s1 : ∑ j, |m j| * |p j| ≤ 1.05 * ∑ j, |p j| := by
    rw [Finset.mul_sum]
    refine Finset.sum_le_sum fun j _ => mul_le_mul_of_nonneg_right ?_ (abs_nonneg _)
    have := abs_add_le (m j - r j) (r j); rw [sub_add_cancel] at this
    linarith [hm j, hr j]
  have s2 : |∑ j, m j * p j - ∑ j, r j * p j| ≤ 41 * u * ∑ j, |p j| := by
    rw [← Finset.sum_sub_distrib, Finset.mul_sum]
    refine (Finset.abs_sum_le_sum_abs _ _).trans (Finset.sum_le_sum fun j _ => ?_)
    rw [← sub_mul, abs_mul]
    exact mul_le_mul_of_nonneg_right (hm j) (abs_nonneg _)
  have s3 := mul_le_mul p4 s1 (Finset.sum_nonneg fun j _ => by positivity) (by positivity)
  have s4 := mul_le_mul_of_nonneg_left p3 (by linarith : 0 ≤ 4 * η)
  have s5 := abs_sub_le z (∑ j, m j * p j) (∑ j, r j * p j)
  have s6 : 0 ≤ u * ∑ j, |p j| := by positivity
  have s7 : 4.1 * u * (1.05 * ∑ j, |p j|) = 4.305 * (u * ∑ j, |p j|) := by ring
  rw [s7] at s3
  rw [mul_assoc] at s2 ⊢
  linarith

theorem near_row {U : Marker} (hm : 9 ≤ mw) {m : Mat4 (Flt mw ew)} {w : ℝ} {p q : GVec (Flt mw ew) 3 U} {i : _root_.Fin 3}
    {R : _root_.Fin 3 → ℝ} (h3 : (m.data i.castSucc 3).toReal = 0)
    (hr : ∀ j : _root_.Fin 3, Near (m.data i.castSucc j.castSucc) (R j) 41 ∧ |R j| ≤ 1)
    (h : |homR w q i.castSucc - ∑ j, matR m i.castSucc j * homR w p j| ≤
      ((1 + uRnd mw) ^ 4 - 1) * ∑ j, |matR m i.castSucc j| * |homR w p j| + 4 * etaRnd mw ew * (1 + uRnd mw) ^ 3) :
    |(q.vec i).toReal - ∑ j, R j * (p.vec j).toReal| ≤ 46 * uRnd mw * ∑ j, |(p.vec j).toReal| + 5 * etaRnd mw ew := by
  refine near_row_core (m := fun j => (m.data i.castSucc j.castSucc).toReal) uRnd_pos (uRnd_small hm) etaRnd_pos
    (fun j => (hr j).1.2) (fun j => (hr j).2) ?_
  rw [Fin.sum_univ_castSucc (n := 3) (f := fun j => matR m i.castSucc j * homR w p j),
    Fin.sum_univ_castSucc (n := 3) (f := fun j => |matR m i.castSucc j| * |homR w p j|)] at h
  simp only [homR_cs] at h
  unfold matR at h
  rw [show (Fin.last 3 : _root_.Fin 4) = 3 from rfl, h3] at h
  simpa only [abs_zero, zero_mul, add_zero] using h

/-- a matrix of the shape all linear constructors produce: no translation, bottom row `0 0 0 1` -/
def LinShape (m : Mat4 (Flt mw ew)) : Prop := (∀ i : _root_.Fin 3, m.data i.castSucc 3 = Scalar.zero) ∧ m.AffineF

theorem linShape_mk (a b c d e f g h i : Flt mw ew) :
    LinShape (Mat4.mk4 a b c Scalar.zero d e f Scalar.zero g h i Scalar.zero Scalar.zero Scalar.zero Scalar.zero Scalar.one) ∧
    LinShape (Mat4.mk4 a b c Scalar.zero d e f Scalar.zero g h i Scalar.zero Scalar.zero Scalar.zero Scalar.zero
      Scalar.one).transpose := by
  refine ⟨⟨fun i => ?_, affineF_of rfl rfl rfl rfl⟩, ⟨fun i => ?_, affineF_of rfl rfl rfl rfl⟩⟩ <;> fin_cases i <;> rfl

theorem rotate_form (v : Vec (Flt mw ew) 3) (θ : Flt mw ew) : ∃ a b c d e f g h i : Flt mw ew,
    Transform.rotate v θ = ⟨Mat4.mk4 a b c Scalar.zero d e f Scalar.zero g h i Scalar.zero Scalar.zero Scalar.zero Scalar.zero Scalar.one,
      (Mat4.mk4 a b c Scalar.zero d e f Scalar.zero g h i Scalar.zero Scalar.zero Scalar.zero Scalar.zero Scalar.one).transpose⟩ :=
  ⟨_, _, _, _, _, _, _, _, _, rfl⟩

theorem rotate_shape (v : Vec (Flt mw ew) 3) (θ : Flt mw ew) :
    LinShape (Transform.rotate v θ).m ∧ LinShape (Transform.rotate v θ).minv := by
  obtain ⟨a, b, c, d, e, f, g, h, i, E⟩ := rotate_form v θ
  rw [E]
  exact linShape_mk _ _ _ _ _ _ _ _ _

theorem rotate_transpose (v : Vec (Flt mw ew) 3) (θ : Flt mw ew) (i j : _root_.Fin 4) :
    (Transform.rotate v θ).minv.data i j = (Transform.rotate v θ).m.data j i := by
  obtain ⟨a, b, c, d, e, f, g, h, k, E⟩ := rotate_form v θ
  rw [E]
  fin_cases i <;> fin_cases j <;> rfl

/-- what the four maps of a rotation about the unit vector `N` do, on finite points and vectors whose images are finite -/
def RotatesAbout (t : Transform (Flt mw ew)) (N : _root_.Fin 3 → ℝ) (θ : ℝ) : Prop :=
  (∀ p q : Point (Flt mw ew) 3, (∀ i, (p.vec i).isFin = true) → (∀ i, (q.vec i).isFin = true) →
    (t.mapPoint p = some q → ∀ i, |(q.vec i).toReal - rodrigues N θ (fun j => (p.vec j).toReal) i| ≤
      46 * uRnd mw * ∑ j, |(p.vec j).toReal| + 5 * etaRnd mw ew) ∧
    (t.mapPointInv p = some q → ∀ i, |(q.vec i).toReal - rodrigues N (-θ) (fun j => (p.vec j).toReal) i| ≤
      46 * uRnd mw * ∑ j, |(p.vec j).toReal| + 5 * etaRnd mw ew)) ∧
  (∀ p q : Vec (Flt mw ew) 3, (∀ i, (p.vec i).isFin = true) → (∀ i, (q.vec i).isFin = true) →
    (t.mapVec p = some q → ∀ i, |(q.vec i).toReal - rodrigues N θ (fun j => (p.vec j).toReal) i| ≤
      46 * uRnd mw * ∑ j, |(p.vec j).toReal| + 5 * etaRnd mw ew) ∧
    (t.mapVecInv p = some q → ∀ i, |(q.vec i).toReal - rodrigues N (-θ) (fun j => (p.vec j).toReal) i| ≤
      46 * uRnd mw * ∑ j, |(p.vec j).toReal| + 5 * etaRnd mw ew))

/-- C106: on floats `rotate(axis, θ)` turns finite points and vectors about the exactly normalized axis by the angle `θ`:
every coordinate is within `46u(|x|+|y|+|z|) + 5η` of Rodrigues' formula; `map_inverse` turns by `-θ` equally accurately.
Assumes that the platform's `sin` and `cos` are accurate to one float, and that the squared length of the axis neither
overflows nor underflows (as in C84). -/
theorem C106_rotate (hm : 9 ≤ mw) (hw : mw + 3 ≤ 2 ^ (ew - 1)) (v : Vec (Flt mw ew) 3) (θ : Flt mw ew) (hθ : θ.isFin = true)
    (h : v.squareNorm.isFin = true) (hS : 3 * etaRnd mw ew ≤ uRnd mw * ∑ i, (v.vec i).toReal ^ 2) :
    RotatesAbout (Transform.rotate v θ) (unitR v) θ.toReal := by
  have E := rot_entries hm hw v θ hθ h hS
  obtain ⟨⟨z, A⟩, ⟨z', A'⟩⟩ := rotate_shape v θ
  have z0 := toReal_szero (mw := mw) (ew := ew)
  have E' : ∀ i j : _root_.Fin 3, Near ((Transform.rotate v θ).minv.data i.castSucc j.castSucc)
      (rodrigues (unitR v) (-θ.toReal) (Pi.single j 1) i) 41 ∧ |rodrigues (unitR v) (-θ.toReal) (Pi.single j 1) i| ≤ 1 :=
    fun i j => by rw [rod_transpose, rotate_transpose]; exact E j i
  generalize Transform.rotate v θ = t at *
  refine ⟨fun p q hp fq => ⟨fun h i => ?_, fun h i => ?_⟩, fun p q hp fq => ⟨fun h i => ?_, fun h i => ?_⟩⟩
  all_goals rw [rod_linear]
  · exact near_row hm (by rw [z i]; exact z0) (E i) (hom_point A hp h fq _)
  · exact near_row hm (by rw [z' i]; exact z0) (E' i) (hom_point A' hp h fq _)
  · exact near_row hm (by rw [z i]; exact z0) (E i) (hom_vector A hp h fq _)
  · exact near_row hm (by rw [z' i]; exact z0) (E' i) (hom_vector A' hp h fq _)

/-- C106: for points and vectors of the cube `[-1,1]^3` the rotation neither panics nor overflows. -/
theorem C106_total (hm : 9 ≤ mw) (hw : mw + 3 ≤ 2 ^ (ew - 1)) (v : Vec (Flt mw ew) 3) (θ : Flt mw ew) (hθ : θ.isFin = true)
    (h : v.squareNorm.isFin = true) (hS : 3 * etaRnd mw ew ≤ uRnd mw * ∑ i, (v.vec i).toReal ^ 2)
    (p : Point (Flt mw ew) 3) (d : Vec (Flt mw ew) 3) (hp : ∀ i, (p.vec i).isFin = true ∧ |(p.vec i).toReal| ≤ 1)
    (hd : ∀ i, (d.vec i).isFin = true ∧ |(d.vec i).toReal| ≤ 1) :
    (∃ q, (Transform.rotate v θ).mapPoint p = some q ∧ ∀ i, (q.vec i).isFin = true) ∧
    (∃ q, (Transform.rotate v θ).mapPointInv p = some q ∧ ∀ i, (q.vec i).isFin = true) ∧
    (∃ q, (Transform.rotate v θ).mapVec d = some q ∧ ∀ i, (q.vec i).isFin = true) ∧
    (∃ q, (Transform.rotate v θ).mapVecInv d = some q ∧ ∀ i, (q.vec i).isFin = true) := by
  have E : ∀ i j : _root_.Fin 3, ((Transform.rotate v θ).m.data i.castSucc j.castSucc).isFin = true ∧
      |((Transform.rotate v θ).m.data i.castSucc j.castSucc).toReal| ≤ 2 := fun i j => by
    obtain ⟨n, b⟩ := rot_entries hm hw v θ hθ h hS i j
    refine ⟨n.1, (n.abs_le b).trans ?_⟩
    have := uRnd_small hm; linarith
  have pt : ∀ m : Mat4 (Flt mw ew), m.AffineF → (∀ i : _root_.Fin 3, ∀ j : _root_.Fin 3,
      (m.data i.castSucc j.castSucc).isFin = true ∧ |(m.data i.castSucc j.castSucc).toReal| ≤ 2) →
      (∀ i : _root_.Fin 3, m.data i.castSucc 3 = Scalar.zero) →
      (∃ q, mapPt m p = some q ∧ ∀ i, (q.vec i).isFin = true) ∧
      (∃ q, mapVector m d = some q ∧ ∀ i, (q.vec i).isFin = true) := fun m A hb h3 => by
    constructor
    · obtain ⟨q, hq, h0, h1, h2⟩ := mapPt_lastRow A (fun i => (hp i).1)
      have row : ∀ i : _root_.Fin 3, (rowPt m p i.castSucc).isFin = true := fun i => by
        unfold rowPt Mat4.idx
        rw [h3]
        have f := row_fin hm hw (hp 0) (hp 1) (hp 2) (hb i 0) (hb i 1) (hb i 2)
        exact (add_zero_same (Same.refl (notNaN_of_isFin f)) szero_same).isFin f
      refine ⟨q, hq, fun i => ?_⟩
      fin_cases i
      · exact (h0 (notNaN_of_isFin (row 0))).isFin (row 0)
      · exact (h1 (notNaN_of_isFin (row 1))).isFin (row 1)
      · exact (h2 (notNaN_of_isFin (row 2))).isFin (row 2)
    · refine ⟨_, if_pos (eq_zero_true (affine_w_vec A fun i => (hd i).1)), fun i => ?_⟩
      fin_cases i
      · exact row_fin hm hw (hd 0) (hd 1) (hd 2) (hb 0 0) (hb 0 1) (hb 0 2)
      · exact row_fin hm hw (hd 0) (hd 1) (hd 2) (hb 1 0) (hb 1 1) (hb 1 2)
      · exact row_fin hm hw (hd 0) (hd 1) (hd 2) (hb 2 0) (hb 2 1) (hb 2 2)
  obtain ⟨⟨z, A⟩, ⟨z', A'⟩⟩ := rotate_shape v θ
  have E' : ∀ i j : _root_.Fin 3, ((Transform.rotate v θ).minv.data i.castSucc j.castSucc).isFin = true ∧
      |((Transform.rotate v θ).minv.data i.castSucc j.castSucc).toReal| ≤ 2 := fun i j => by
    rw [rotate_transpose]; exact E j i
  generalize Transform.rotate v θ = t at *
  have P := pt _ A E z
  have P' := pt _ A' E' z'
  exact ⟨P.1, P'.1, P.2, P'.2⟩

/-- The hypotheses of C106 are met on `f32` by the axis `(1,2,3)`, a finite angle and some accurate libm. -/
example : (∃ L : Libm 23 8, @LawfulLibm 23 8 _ L) ∧ 9 ≤ 23 ∧ 23 + 3 ≤ 2 ^ (8 - 1) ∧ (F32.lit 1).isFin = true ∧
    (new3 (F32.lit 1) (F32.lit 2) (F32.lit 3) : Vec F32 3).squareNorm.isFin = true ∧
    3 * etaRnd 23 8 ≤ uRnd 23 * ∑ i, ((new3 (F32.lit 1) (F32.lit 2) (F32.lit 3) : Vec F32 3).vec i).toReal ^ 2 := by
  refine ⟨lawfulLibm_exists 23 8, by norm_num, by norm_num, by decide +kernel, by decide +kernel, ?_⟩
  rw [Fin.sum_univ_three]
  change _ ≤ uRnd 23 * ((F32.lit 1).toReal ^ 2 + (F32.lit 2).toReal ^ 2 + (F32.lit 3).toReal ^ 2)
  rw [toReal_lit_small.1, toReal_lit_small.2.1, toReal_lit_small.2.2]
  unfold etaRnd uRnd fK
  norm_num

end Scarlet
