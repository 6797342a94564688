import Verif.Props.FloatXform
import Verif.Props.SphereFloat
import Verif.Spec.Libm
import Verif.Props.Interval6

/-! C103 (round trips on floats), C104 (composition on floats), C105 (rotations on floats). -/

set_option linter.unusedSectionVars false

namespace Scarlet
open Flt GVec

/-! ### Two rounded linear maps, over the reals -/

section core
variable {γ e : ℝ}

/-- two perturbed matrix-vector products, one after the other -/
theorem two_maps_core (hγ : 0 ≤ γ) (he : 0 ≤ e) {N M : Fin 4 → Fin 4 → ℝ} {p q r : Fin 4 → ℝ}
    (hq : ∀ j, |q j - ∑ k, M j k * p k| ≤ γ * ∑ k, |M j k| * |p k| + e) {i : Fin 4}
    (hr : |r i - ∑ j, N i j * q j| ≤ γ * ∑ j, |N i j| * |q j| + e) :
    |r i - ∑ j, N i j * ∑ k, M j k * p k| ≤
      ((1 + γ) ^ 2 - 1) * ∑ j, |N i j| * ∑ k, |M j k| * |p k| + e * (1 + (1 + γ) * ∑ j, |N i j|) := by
  have hS : ∀ j, |∑ k, M j k * p k| ≤ ∑ k, |M j k| * |p k| := fun j =>
    (Finset.abs_sum_le_sum_abs _ _).trans (le_of_eq (Finset.sum_congr rfl fun k _ => abs_mul _ _))
  have hq' : ∀ j, |q j| ≤ (1 + γ) * (∑ k, |M j k| * |p k|) + e := fun j => by
    have h1 := hq j
    have h2 := hS j
    have h3 : |q j| ≤ |q j - ∑ k, M j k * p k| + |∑ k, M j k * p k| := by
      have := abs_add_le (q j - ∑ k, M j k * p k) (∑ k, M j k * p k)
      rwa [sub_add_cancel] at this
    linarith
  set S : Fin 4 → ℝ := fun j => ∑ k, |M j k| * |p k| with hSd
  have e1 : ∑ j, |N i j| * |q j| ≤ (1 + γ) * (∑ j, |N i j| * S j) + e * ∑ j, |N i j| := by
    rw [Finset.mul_sum, Finset.mul_sum, ← Finset.sum_add_distrib]
    refine Finset.sum_le_sum fun j _ => ?_
    have := mul_le_mul_of_nonneg_left (hq' j) (abs_nonneg (N i j))
    refine this.trans (le_of_eq ?_)
    simp only [hSd]; ring
  have e2 : |∑ j, N i j * q j - ∑ j, N i j * ∑ k, M j k * p k| ≤ γ * (∑ j, |N i j| * S j) + e * ∑ j, |N i j| := by
    rw [← Finset.sum_sub_distrib, Finset.mul_sum, Finset.mul_sum, ← Finset.sum_add_distrib]
    refine (Finset.abs_sum_le_sum_abs _ _).trans (Finset.sum_le_sum fun j _ => ?_)
    rw [← mul_sub, abs_mul]
    refine (mul_le_mul_of_nonneg_left (hq j) (abs_nonneg (N i j))).trans (le_of_eq ?_)
    simp only [hSd]; ring
  have e3 : |r i - ∑ j, N i j * ∑ k, M j k * p k| ≤
      |r i - ∑ j, N i j * q j| + |∑ j, N i j * q j - ∑ j, N i j * ∑ k, M j k * p k| := abs_sub_le _ _ _
  have e4 := mul_le_mul_of_nonneg_left e1 hγ
  have : ((1 + γ) ^ 2 - 1) * (∑ j, |N i j| * S j) + e * (1 + (1 + γ) * ∑ j, |N i j|) =
      γ * ((1 + γ) * (∑ j, |N i j| * S j) + e * ∑ j, |N i j|) + e +
        (γ * (∑ j, |N i j| * S j) + e * ∑ j, |N i j|) := by ring
  rw [this]
  linarith

/-- a perturbed matrix product applied with rounding -/
theorem prod_map_core (hγ : 0 ≤ γ) (he : 0 ≤ e) {A B P : Fin 4 → Fin 4 → ℝ} {p r : Fin 4 → ℝ} {i : Fin 4}
    (hP : ∀ k, |P i k - ∑ j, A i j * B j k| ≤ γ * ∑ j, |A i j| * |B j k| + e)
    (hr : |r i - ∑ k, P i k * p k| ≤ γ * ∑ k, |P i k| * |p k| + e) :
    |r i - ∑ j, A i j * ∑ k, B j k * p k| ≤
      ((1 + γ) ^ 2 - 1) * ∑ j, |A i j| * ∑ k, |B j k| * |p k| + e * (1 + (1 + γ) * ∑ k, |p k|) := by
  have hT : ∀ k, |∑ j, A i j * B j k| ≤ ∑ j, |A i j| * |B j k| := fun k =>
    (Finset.abs_sum_le_sum_abs _ _).trans (le_of_eq (Finset.sum_congr rfl fun k _ => abs_mul _ _))
  have hP' : ∀ k, |P i k| ≤ (1 + γ) * (∑ j, |A i j| * |B j k|) + e := fun k => by
    have h1 := hP k
    have h2 := hT k
    have h3 : |P i k| ≤ |P i k - ∑ j, A i j * B j k| + |∑ j, A i j * B j k| := by
      have := abs_add_le (P i k - ∑ j, A i j * B j k) (∑ j, A i j * B j k)
      rwa [sub_add_cancel] at this
    linarith
  have sw : ∑ j, A i j * ∑ k, B j k * p k = ∑ k, (∑ j, A i j * B j k) * p k := by
    simp only [Finset.mul_sum, Finset.sum_mul]
    rw [Finset.sum_comm]
    exact Finset.sum_congr rfl fun k _ => Finset.sum_congr rfl fun j _ => by ring
  have sw' : ∑ j, |A i j| * ∑ k, |B j k| * |p k| = ∑ k, (∑ j, |A i j| * |B j k|) * |p k| := by
    simp only [Finset.mul_sum, Finset.sum_mul]
    rw [Finset.sum_comm]
    exact Finset.sum_congr rfl fun k _ => Finset.sum_congr rfl fun j _ => by ring
  rw [sw, sw']
  set T : Fin 4 → ℝ := fun k => ∑ j, |A i j| * |B j k| with hTd
  have e1 : ∑ k, |P i k| * |p k| ≤ (1 + γ) * (∑ k, T k * |p k|) + e * ∑ k, |p k| := by
    rw [Finset.mul_sum, Finset.mul_sum, ← Finset.sum_add_distrib]
    refine Finset.sum_le_sum fun k _ => ?_
    refine (mul_le_mul_of_nonneg_right (hP' k) (abs_nonneg (p k))).trans (le_of_eq ?_)
    simp only [hTd]; ring
  have e2 : |∑ k, P i k * p k - ∑ k, (∑ j, A i j * B j k) * p k| ≤ γ * (∑ k, T k * |p k|) + e * ∑ k, |p k| := by
    rw [← Finset.sum_sub_distrib, Finset.mul_sum, Finset.mul_sum, ← Finset.sum_add_distrib]
    refine (Finset.abs_sum_le_sum_abs _ _).trans (Finset.sum_le_sum fun k _ => ?_)
    rw [← sub_mul, abs_mul]
    refine (mul_le_mul_of_nonneg_right (hP k) (abs_nonneg (p k))).trans (le_of_eq ?_)
    simp only [hTd]; ring
  have e3 : |r i - ∑ k, (∑ j, A i j * B j k) * p k| ≤
      |r i - ∑ k, P i k * p k| + |∑ k, P i k * p k - ∑ k, (∑ j, A i j * B j k) * p k| := abs_sub_le _ _ _
  have e4 := mul_le_mul_of_nonneg_left e1 hγ
  have : ((1 + γ) ^ 2 - 1) * (∑ k, T k * |p k|) + e * (1 + (1 + γ) * ∑ k, |p k|) =
      γ * ((1 + γ) * (∑ k, T k * |p k|) + e * ∑ k, |p k|) + e +
        (γ * (∑ k, T k * |p k|) + e * ∑ k, |p k|) := by ring
  rw [this]
  linarith

end core

variable {mw ew : Nat} [FltImpl mw ew] [LawfulFlt mw ew]

/-! ### Homogeneous coordinates -/

/-- the real matrix stored in a float matrix -/
noncomputable def matR (m : Mat4 (Flt mw ew)) : Matrix (_root_.Fin 4) (_root_.Fin 4) ℝ := fun i j => (m.data i j).toReal

/-- the real homogeneous coordinates of a float point (`w = 1`) or vector (`w = 0`) -/
noncomputable def homR {U : Marker} (w : ℝ) (p : GVec (Flt mw ew) 3 U) : _root_.Fin 4 → ℝ :=
  ![(p.vec 0).toReal, (p.vec 1).toReal, (p.vec 2).toReal, w]

/-- C85 in homogeneous coordinates, points -/
theorem hom_point {m : Mat4 (Flt mw ew)} (hm : m.AffineF) {p q : Point (Flt mw ew) 3}
    (hp : ∀ i, (p.vec i).isFin = true) (h : mapPt m p = some q) (hq : ∀ i, (q.vec i).isFin = true) (i : _root_.Fin 4) :
    |homR 1 q i - ∑ j, matR m i j * homR 1 p j| ≤
      ((1 + uRnd mw) ^ 4 - 1) * ∑ j, |matR m i j| * |homR 1 p j| + 4 * etaRnd mw ew * (1 + uRnd mw) ^ 3 := by
  have u0 := uRnd_pos (mw := mw)
  have e0 := etaRnd_pos (mw := mw) (ew := ew)
  have g0 : 0 ≤ (1 + uRnd mw) ^ 4 - 1 := by have := one_le_pow₀ (n := 4) (show 1 ≤ 1 + uRnd mw by linarith); linarith
  have key := fun k => C85_point m hm p q hp h k (hq k)
  simp only [affR, affAbs, abs_mul, one_mul, abs_one] at key
  fin_cases i
  · have := key 0
    simp only [Fin.sum_univ_four, homR, matR]
    simpa [mul_comm] using this
  · have := key 1
    simp only [Fin.sum_univ_four, homR, matR]
    simpa [mul_comm] using this
  · have := key 2
    simp only [Fin.sum_univ_four, homR, matR]
    simpa [mul_comm] using this
  · have h0 := hm.1 0
    have h1 := hm.1 1
    have h2 := hm.1 2
    have h3 := hm.2
    simp only [Fin.castSucc_zero, Fin.castSucc_one, show (2 : _root_.Fin 3).castSucc = (2 : _root_.Fin 4) from rfl] at h0 h1 h2
    simp only [Fin.sum_univ_four, homR, matR]
    simp [h0, h1, h2, h3]
    have : 0 ≤ 4 * etaRnd mw ew * (1 + uRnd mw) ^ 3 := by positivity
    linarith

/-- C85 in homogeneous coordinates, vectors -/
theorem hom_vector {m : Mat4 (Flt mw ew)} (hm : m.AffineF) {p q : Vec (Flt mw ew) 3}
    (hp : ∀ i, (p.vec i).isFin = true) (h : mapVector m p = some q) (hq : ∀ i, (q.vec i).isFin = true) (i : _root_.Fin 4) :
    |homR 0 q i - ∑ j, matR m i j * homR 0 p j| ≤
      ((1 + uRnd mw) ^ 4 - 1) * ∑ j, |matR m i j| * |homR 0 p j| + 4 * etaRnd mw ew * (1 + uRnd mw) ^ 3 := by
  have u0 := uRnd_pos (mw := mw)
  have e0 := etaRnd_pos (mw := mw) (ew := ew)
  have o1 : 1 ≤ 1 + uRnd mw := by linarith
  have g0 : 0 ≤ (1 + uRnd mw) ^ 4 - 1 := by have := one_le_pow₀ (n := 4) o1; linarith
  have up : ∀ S : ℝ, 0 ≤ S → ((1 + uRnd mw) ^ 3 - 1) * S + 3 * etaRnd mw ew * (1 + uRnd mw) ^ 2 ≤
      ((1 + uRnd mw) ^ 4 - 1) * S + 4 * etaRnd mw ew * (1 + uRnd mw) ^ 3 := fun S hS => by
    have a := pow_le_pow_right₀ o1 (show 3 ≤ 4 by norm_num)
    have b := pow_le_pow_right₀ o1 (show 2 ≤ 3 by norm_num)
    have c := mul_le_mul_of_nonneg_right (show (1 + uRnd mw) ^ 3 - 1 ≤ (1 + uRnd mw) ^ 4 - 1 by linarith) hS
    have d := mul_le_mul (show 3 * etaRnd mw ew ≤ 4 * etaRnd mw ew by linarith) b (by positivity) (by positivity)
    linarith
  have key := fun k => (C85_vector m hm p q hp h k (hq k)).trans (up _ (by unfold affAbs; positivity))
  simp only [affR, affAbs, abs_mul, zero_mul, abs_zero, add_zero] at key
  fin_cases i
  · have := key 0
    simp only [Fin.sum_univ_four, homR, matR]
    simpa [mul_comm] using this
  · have := key 1
    simp only [Fin.sum_univ_four, homR, matR]
    simpa [mul_comm] using this
  · have := key 2
    simp only [Fin.sum_univ_four, homR, matR]
    simpa [mul_comm] using this
  · have h0 := hm.1 0
    have h1 := hm.1 1
    have h2 := hm.1 2
    simp only [Fin.castSucc_zero, Fin.castSucc_one, show (2 : _root_.Fin 3).castSucc = (2 : _root_.Fin 4) from rfl] at h0 h1 h2
    simp only [Fin.sum_univ_four, homR, matR]
    simp [h0, h1, h2]
    positivity

/-- the product of affine float matrices is affine, exactly -/
theorem affineF_mul {a b : Mat4 (Flt mw ew)} (ha : a.AffineF) (hb : b.AffineF)
    (hf : ∀ k j, (b.data k j).isFin = true) : (a * b).AffineF := by
  obtain ⟨a0, a1, a2, a3⟩ := affineF_same ha
  have row : ∀ j, Same ((a * b).data 3 j) (b.data 3 j) := fun j => by
    have hs : (a * b).data 3 j = Scalar.zero + a.data 3 0 * b.data 0 j + a.data 3 1 * b.data 1 j +
      a.data 3 2 * b.data 2 j + a.data 3 3 * b.data 3 j := rfl
    have z : ∀ k, Same (a.data 3 k) Scalar.zero → Same (a.data 3 k * b.data k j) (Scalar.zero : Flt mw ew) := fun k hk => by
      rw [Flt.mul_comm']; exact mul_zero_same' (hf k j) hk
    have o : Same (a.data 3 3 * b.data 3 j) (b.data 3 j) := by
      have h := mul_fin (a3.isFin sone_spec.1) (hf 3 j)
      rw [← mul_def, a3.toReal, sone_spec.2, one_mul, rndK_toReal (notNaN_of_isFin (hf 3 j))] at h
      exact ⟨h.1, notNaN_of_isFin (hf 3 j), h.2⟩
    rw [hs]
    exact zero_add_same (add_zero_same (add_zero_same (add_zero_same szero_same (z 0 a0)) (z 1 a1)) (z 2 a2)) o
  exact ⟨fun j => (row _).toReal.trans (hb.1 j), (row 3).toReal.trans hb.2⟩

/-- rounding error of the entries of a product of float matrices -/
theorem mul_entry_err {a b : Mat4 (Flt mw ew)} {i j : _root_.Fin 4} (hf : ((a * b).data i j).isFin = true) :
    |matR (a * b) i j - ∑ k, matR a i k * matR b k j| ≤
      ((1 + uRnd mw) ^ 4 - 1) * ∑ k, |matR a i k| * |matR b k j| + 4 * etaRnd mw ew * (1 + uRnd mw) ^ 3 := by
  have hs : (a * b).data i j = sumLoop 4 fun k => a.data i k * b.data k j := rfl
  have := sumLoop_err (f := fun k => a.data i k * b.data k j) (fun k => matR a i k * matR b k j) (hs ▸ hf)
    (fun k => mul_err' (sumLoop_fin (hs ▸ hf) k))
  simp only [abs_mul] at this
  simpa [matR, hs] using this

theorem homR_cs {U : Marker} (w : ℝ) (p : GVec (Flt mw ew) 3 U) (i : _root_.Fin 3) :
    homR w p i.castSucc = (p.vec i).toReal := by
  fin_cases i <;> rfl

private theorem gam : (1 + ((1 + uRnd mw) ^ 4 - 1)) ^ 2 - 1 = (1 + uRnd mw) ^ 8 - 1 ∧
    1 + ((1 + uRnd mw) ^ 4 - 1) = (1 + uRnd mw) ^ 4 ∧ 0 ≤ (1 + uRnd mw) ^ 4 - 1 ∧
    0 ≤ 4 * etaRnd mw ew * (1 + uRnd mw) ^ 3 := by
  have u0 := uRnd_pos (mw := mw)
  have e0 := etaRnd_pos (mw := mw) (ew := ew)
  have := one_le_pow₀ (n := 4) (show 1 ≤ 1 + uRnd mw by linarith)
  exact ⟨by ring, by ring, by linarith, by positivity⟩

/-! ## C103 -/

/-- how far the products `N M` of the stored inverse and the stored matrix is from the identity, applied to `x`, row `i` -/
noncomputable def defect (t : Transform (Flt mw ew)) (x : _root_.Fin 4 → ℝ) (i : _root_.Fin 4) : ℝ :=
  ((matR t.minv * matR t.m - 1).mulVec x) i

/-- the condition of applying `m` and then `n`: `Σ_j |N_ij| Σ_k |M_jk| |x_k|` -/
noncomputable def cond2 (n m : Mat4 (Flt mw ew)) (x : _root_.Fin 4 → ℝ) (i : _root_.Fin 4) : ℝ :=
  ∑ j, |matR n i j| * ∑ k, |matR m j k| * |x k|

theorem defect_eq' (n m : Matrix (_root_.Fin 4) (_root_.Fin 4) ℝ) (x : _root_.Fin 4 → ℝ) (i : _root_.Fin 4) :
    ((n * m - 1).mulVec x) i = (∑ j, n i j * ∑ k, m j k * x k) - x i := by
  rw [Matrix.sub_mulVec, Matrix.one_mulVec, ← Matrix.mulVec_mulVec]
  rfl

/-- C103: for every affine float transform, mapping a finite point and mapping back gives the point up to the defect of
the stored inverse and rounding: per coordinate the difference is at most
`|((N M − 1) p)_i| + ((1+u)^8 − 1) Σ_jk |N_ij| |M_jk| |p_k| + 4η(1+u)^3 (1 + (1+u)^4 Σ_j |N_ij|)`. -/
theorem C103_affine (t : Transform (Flt mw ew)) (hm : t.m.AffineF) (hn : t.minv.AffineF) (p q r : Point (Flt mw ew) 3)
    (hp : ∀ i, (p.vec i).isFin = true) (hq : t.mapPoint p = some q) (hr : t.mapPointInv q = some r)
    (fq : ∀ i, (q.vec i).isFin = true) (fr : ∀ i, (r.vec i).isFin = true) (i : _root_.Fin 3) :
    |(r.vec i).toReal - (p.vec i).toReal| ≤ |defect t (homR 1 p) i.castSucc| +
      ((1 + uRnd mw) ^ 8 - 1) * cond2 t.minv t.m (homR 1 p) i.castSucc +
      4 * etaRnd mw ew * (1 + uRnd mw) ^ 3 * (1 + (1 + uRnd mw) ^ 4 * ∑ j, |matR t.minv i.castSucc j|) := by
  obtain ⟨g1, g2, g3, g4⟩ := gam (mw := mw) (ew := ew)
  have := two_maps_core g3 g4 (hom_point hm hp hq fq) (hom_point hn fq hr fr i.castSucc)
  rw [g1, g2] at this
  rw [← homR_cs 1 r, ← homR_cs 1 p]
  unfold defect cond2
  rw [defect_eq']
  have tri := abs_add_le (homR 1 r i.castSucc - ∑ j, matR t.minv i.castSucc j * ∑ k, matR t.m j k * homR 1 p k)
    ((∑ j, matR t.minv i.castSucc j * ∑ k, matR t.m j k * homR 1 p k) - homR 1 p i.castSucc)
  rw [sub_add_sub_cancel] at tri
  linarith

/-- C103 for vectors: the same with the homogeneous coordinate 0, so the translation plays no part. -/
theorem C103_affine_vector (t : Transform (Flt mw ew)) (hm : t.m.AffineF) (hn : t.minv.AffineF)
    (p q r : Vec (Flt mw ew) 3) (hp : ∀ i, (p.vec i).isFin = true) (hq : t.mapVec p = some q)
    (hr : t.mapVecInv q = some r) (fq : ∀ i, (q.vec i).isFin = true) (fr : ∀ i, (r.vec i).isFin = true)
    (i : _root_.Fin 3) :
    |(r.vec i).toReal - (p.vec i).toReal| ≤ |defect t (homR 0 p) i.castSucc| +
      ((1 + uRnd mw) ^ 8 - 1) * cond2 t.minv t.m (homR 0 p) i.castSucc +
      4 * etaRnd mw ew * (1 + uRnd mw) ^ 3 * (1 + (1 + uRnd mw) ^ 4 * ∑ j, |matR t.minv i.castSucc j|) := by
  obtain ⟨g1, g2, g3, g4⟩ := gam (mw := mw) (ew := ew)
  have := two_maps_core g3 g4 (hom_vector hm hp hq fq) (hom_vector hn fq hr fr i.castSucc)
  rw [g1, g2] at this
  rw [← homR_cs 0 r, ← homR_cs 0 p]
  unfold defect cond2
  rw [defect_eq']
  have tri := abs_add_le (homR 0 r i.castSucc - ∑ j, matR t.minv i.castSucc j * ∑ k, matR t.m j k * homR 0 p k)
    ((∑ j, matR t.minv i.castSucc j * ∑ k, matR t.m j k * homR 0 p k) - homR 0 p i.castSucc)
  rw [sub_add_sub_cancel] at tri
  linarith

/-- C103, translations: mapping and mapping back does not panic, and returns each coordinate up to two roundings:
`|r_i − p_i| ≤ u(1+u)|p_i + v_i| + u|p_i|`. -/
theorem C103_translate (v : Vec (Flt mw ew) 3) (p : Point (Flt mw ew) 3) (hv : ∀ i, (v.vec i).isFin = true)
    (hp : ∀ i, (p.vec i).isFin = true) (hs : ∀ i, (p.vec i + v.vec i).isFin = true) :
    ∃ q r, (Transform.translate v).mapPoint p = some q ∧ (Transform.translate v).mapPointInv q = some r ∧
      ∀ i, (r.vec i).isFin = true →
        |(r.vec i).toReal - (p.vec i).toReal| ≤
          uRnd mw * |(p.vec i).toReal + (v.vec i).toReal| +
            uRnd mw * (|(p.vec i).toReal| + uRnd mw * |(p.vec i).toReal + (v.vec i).toReal|) := by
  have hx0 := uRnd_pos (mw := mw)
  obtain ⟨⟨q, hq, eq⟩, -, -⟩ := C81_translate v p v hv hp hv
  have sq : ∀ i, Same (q.vec i) (p.vec i + v.vec i) := fun i =>
    ⟨(eq i).1, notNaN_of_isFin (hs i), (val_eq_iff (eq i).1 (notNaN_of_isFin (hs i))).1 (eq i).2⟩
  have fq : ∀ i, (q.vec i).isFin = true := fun i => (sq i).isFin (hs i)
  obtain ⟨-, ⟨r, hr, er⟩, -⟩ := C81_translate v q v hv fq hv
  refine ⟨q, r, hq, hr, fun i fr => ?_⟩
  have nn : (q.vec i - v.vec i).isNaN = false := by
    have := add_fin (fq i) (show (-v.vec i).isFin = true by rw [isFin_negop]; exact hv i)
    exact this.1
  have sr : Same (r.vec i) (q.vec i - v.vec i) := ⟨(er i).1, nn, (val_eq_iff (er i).1 nn).1 (er i).2⟩
  have e1 := add_err (hp i) (hv i) (hs i)
  have e2 := sub_err (fq i) (hv i) (sr.symm.isFin fr)
  rw [← sr.toReal, (sq i).toReal] at e2
  rw [← sub_add_cancel ((p.vec i + v.vec i).toReal) ((p.vec i).toReal + (v.vec i).toReal)] at e2
  generalize (p.vec i + v.vec i).toReal - ((p.vec i).toReal + (v.vec i).toReal) = d at *
  generalize (p.vec i).toReal = x at *
  generalize (v.vec i).toReal = y at *
  generalize (r.vec i).toReal = z at *
  have h1 : |d + (x + y) - y| ≤ |x| + |d| := by
    rw [show d + (x + y) - y = x + d by ring]; exact abs_add_le _ _
  have h2 := mul_le_mul_of_nonneg_left (h1.trans (add_le_add_right e1 _)) hx0.le
  have h3 : |z - x| ≤ |z - (d + (x + y) - y)| + |d| := by
    have := abs_add_le (z - (d + (x + y) - y)) d
    rwa [show z - (d + (x + y) - y) + d = z - x by ring] at this
  linarith

/-- a coordinate scaled and scaled back, three roundings, over the reals -/
theorem scale_core {u η p v q w r : ℝ} (hu : 0 < u) (he : 0 < η) (hv : v ≠ 0) (h1 : |q - p * v| ≤ u * |p * v| + η)
    (h2 : |w - 1 / v| ≤ u * |1 / v| + η) (h3 : |r - q * w| ≤ u * |q * w| + η) :
    |r - p| ≤ ((1 + u) ^ 3 - 1) * |p| + η * (1 + (1 + u) ^ 2 * (|p * v| + |1 / v|) + (1 + u) * η) := by
  have hp : p * v * (1 / v) = p := by field_simp
  have hpa : |p * v| * |1 / v| = |p| := by rw [← abs_mul, hp]
  have hw : |w| ≤ (1 + u) * |1 / v| + η := by
    have := abs_add_le (w - 1 / v) (1 / v); rw [sub_add_cancel] at this; linarith
  have e : |q * w - p| ≤ |p * v| * (u * |1 / v| + η) + (u * |p * v| + η) * ((1 + u) * |1 / v| + η) := by
    have : q * w - p = p * v * (w - 1 / v) + (q - p * v) * w := by rw [mul_sub, hp]; ring
    rw [this]
    refine (abs_add_le _ _).trans (add_le_add ?_ ?_)
    · rw [abs_mul]; exact mul_le_mul_of_nonneg_left h2 (abs_nonneg _)
    · rw [abs_mul]; exact mul_le_mul h1 hw (abs_nonneg _) (by positivity)
  have hqw : |q * w| ≤ |p| + |q * w - p| := by
    have := abs_add_le (q * w - p) p; rw [sub_add_cancel] at this; linarith
  have hr : |r - p| ≤ |r - q * w| + |q * w - p| := abs_sub_le _ _ _
  have h4 := mul_le_mul_of_nonneg_left hqw hu.le
  have h5 := mul_le_mul_of_nonneg_left e (show 0 ≤ 1 + u by linarith)
  have h6 : (1 + u) * (|p * v| * (u * |1 / v| + η) + (u * |p * v| + η) * ((1 + u) * |1 / v| + η)) + u * |p| + η =
      ((1 + u) ^ 3 - 1) * |p| + η * (1 + (1 + u) ^ 2 * (|p * v| + |1 / v|) + (1 + u) * η) := by
    rw [← hpa]; ring
  linarith

/-- C103, scalings by non-zero factors: mapping and mapping back does not panic, and returns each coordinate up to
three roundings: `|r_i − p_i| ≤ ((1+u)^3 − 1)|p_i| + η(1 + (1+u)^2(|p_i v_i| + |1/v_i|) + (1+u)η)`. -/
theorem C103_scale (v : Vec (Flt mw ew) 3) (p : Point (Flt mw ew) 3) (hv : ∀ i, (v.vec i).isFin = true)
    (h0 : ∀ i, (v.vec i).toReal ≠ 0) (hi : ∀ i, (Scalar.one / v.vec i).isFin = true)
    (hp : ∀ i, (p.vec i).isFin = true) (hs : ∀ i, (p.vec i * v.vec i).isFin = true) :
    ∃ q r, (Transform.scale v).mapPoint p = some q ∧ (Transform.scale v).mapPointInv q = some r ∧
      ∀ i, (r.vec i).isFin = true →
        |(r.vec i).toReal - (p.vec i).toReal| ≤ ((1 + uRnd mw) ^ 3 - 1) * |(p.vec i).toReal| +
          etaRnd mw ew * (1 + (1 + uRnd mw) ^ 2 * (|(p.vec i).toReal * (v.vec i).toReal| + |1 / (v.vec i).toReal|) +
            (1 + uRnd mw) * etaRnd mw ew) := by
  obtain ⟨⟨q, hq, eq⟩, -⟩ := C81_scale v p v hv hp hv
  have sq : ∀ i, Same (q.vec i) (p.vec i * v.vec i) := fun i =>
    ⟨(eq i).1, notNaN_of_isFin (hs i), (val_eq_iff (eq i).1 (notNaN_of_isFin (hs i))).1 (eq i).2⟩
  have fq : ∀ i, (q.vec i).isFin = true := fun i => (sq i).isFin (hs i)
  let w : Vec (Flt mw ew) 3 := new3 (Scalar.one / v.vec 0) (Scalar.one / v.vec 1) (Scalar.one / v.vec 2)
  have hwv : ∀ i, w.vec i = Scalar.one / v.vec i := fun i => by fin_cases i <;> rfl
  have hw : ∀ i, (w.vec i).isFin = true := fun i => by rw [hwv]; exact hi i
  obtain ⟨⟨r, hr, er⟩, -⟩ := C81_scale w q w hw fq hw
  refine ⟨q, r, hq, hr, fun i fr => ?_⟩
  have nn : (q.vec i * w.vec i).isNaN = false := (mul_fin (fq i) (hw i)).1
  have sr : Same (r.vec i) (q.vec i * w.vec i) := ⟨(er i).1, nn, (val_eq_iff (er i).1 nn).1 (er i).2⟩
  have e1 := mul_err' (hs i)
  have e2 : |(Scalar.one / v.vec i).toReal - 1 / (v.vec i).toReal| ≤
      uRnd mw * |1 / (v.vec i).toReal| + etaRnd mw ew := by
    have := div_err sone_spec.1 (hv i) (h0 i) (hi i)
    rw [sone_spec.2] at this
    refine this.trans (max_le ?_ ?_)
    · have := mul_nonneg (uRnd_pos (mw := mw)).le (abs_nonneg (1 / (v.vec i).toReal)); linarith
    · have := etaRnd_pos (mw := mw) (ew := ew); linarith
  have e3 := mul_err' (sr.symm.isFin fr)
  rw [← sr.toReal] at e3
  rw [← (sq i).toReal] at e1
  rw [← hwv] at e2
  exact scale_core uRnd_pos etaRnd_pos (h0 i) e1 e2 e3

/-- a float point translated by 1/3 and back: the hypotheses hold and the round trip is not exact -/
example : let v : Vec F32 3 := new3 (ofRat 23 8 false 1 3) (F32.lit 0) (F32.lit 0)
    let p : Point F32 3 := new3 (ofRat 23 8 false 1 10) (F32.lit 2) (F32.lit 3)
    (∀ i, (v.vec i).isFin = true) ∧ (∀ i, (p.vec i).isFin = true) ∧ (∀ i, (p.vec i + v.vec i).isFin = true) ∧
    (((Transform.translate v).mapPoint p).bind fun q => (Transform.translate v).mapPointInv q).map
      (fun r => decide (r.vec 0 = p.vec 0)) = some false := by decide +kernel
/-- a float point scaled by 10 and back: the hypotheses hold and the result is not exact -/
example : let v : Vec F32 3 := new3 (F32.lit 41) (F32.lit 1) (F32.lit 2)
    let p : Point F32 3 := new3 (F32.lit 1) (F32.lit 2) (F32.lit 3)
    (∀ i, (v.vec i).isFin = true) ∧ (∀ i, (Scalar.one / v.vec i).isFin = true) ∧ (∀ i, (p.vec i).isFin = true) ∧
    (∀ i, (p.vec i * v.vec i).isFin = true) ∧
    (((Transform.scale v).mapPoint p).bind fun q => (Transform.scale v).mapPointInv q).map
      (fun r => decide (r.vec 0 = p.vec 0)) = some false := by decide +kernel

/-! ## C104 -/

/-- C104: on floats, mapping a point with the product of two affine matrices agrees with mapping twice up to rounding:
per coordinate the two results differ by at most
`2((1+u)^8 − 1) Σ_jk |A_ij||B_jk||p_k| + 4η(1+u)^3 (2 + (1+u)^4 (Σ_j|A_ij| + Σ_k|p_k|))`, with `p = (x, y, z, 1)`. -/
theorem C104_point (a b : Mat4 (Flt mw ew)) (ha : a.AffineF) (hb : b.AffineF)
    (hab : ∀ i j, ((a * b).data i j).isFin = true) (p q r r' : Point (Flt mw ew) 3) (hp : ∀ i, (p.vec i).isFin = true)
    (hq : mapPt b p = some q) (hr : mapPt a q = some r) (hr' : mapPt (a * b) p = some r')
    (fq : ∀ i, (q.vec i).isFin = true) (fr : ∀ i, (r.vec i).isFin = true) (fr' : ∀ i, (r'.vec i).isFin = true)
    (i : _root_.Fin 3) :
    |(r'.vec i).toReal - (r.vec i).toReal| ≤
      2 * ((1 + uRnd mw) ^ 8 - 1) * cond2 a b (homR 1 p) i.castSucc +
      4 * etaRnd mw ew * (1 + uRnd mw) ^ 3 *
        (2 + (1 + uRnd mw) ^ 4 * (∑ j, |matR a i.castSucc j| + ∑ k, |homR 1 p k|)) := by
  obtain ⟨g1, g2, g3, g4⟩ := gam (mw := mw) (ew := ew)
  have fb : ∀ k j, (b.data k j).isFin = true := fun k j =>
    (isFin_of_mul (sumLoop_fin (f := fun k => a.data 0 k * b.data k j) (hab 0 j) k)).2
  have h1 := two_maps_core g3 g4 (hom_point hb hp hq fq) (hom_point ha fq hr fr i.castSucc)
  have h2 := prod_map_core g3 g4 (fun k => mul_entry_err (hab i.castSucc k))
    (hom_point (affineF_mul ha hb fb) hp hr' fr' i.castSucc)
  rw [g1, g2] at h1 h2
  rw [← homR_cs 1 r, ← homR_cs 1 r']
  unfold cond2
  have tri := abs_sub_le (homR 1 r' i.castSucc) (∑ j, matR a i.castSucc j * ∑ k, matR b j k * homR 1 p k)
    (homR 1 r i.castSucc)
  rw [abs_sub_comm (∑ j, _) (homR 1 r i.castSucc)] at tri
  linarith

/-- C104 for vectors. -/
theorem C104_vector (a b : Mat4 (Flt mw ew)) (ha : a.AffineF) (hb : b.AffineF)
    (hab : ∀ i j, ((a * b).data i j).isFin = true) (p q r r' : Vec (Flt mw ew) 3) (hp : ∀ i, (p.vec i).isFin = true)
    (hq : mapVector b p = some q) (hr : mapVector a q = some r) (hr' : mapVector (a * b) p = some r')
    (fq : ∀ i, (q.vec i).isFin = true) (fr : ∀ i, (r.vec i).isFin = true) (fr' : ∀ i, (r'.vec i).isFin = true)
    (i : _root_.Fin 3) :
    |(r'.vec i).toReal - (r.vec i).toReal| ≤
      2 * ((1 + uRnd mw) ^ 8 - 1) * cond2 a b (homR 0 p) i.castSucc +
      4 * etaRnd mw ew * (1 + uRnd mw) ^ 3 *
        (2 + (1 + uRnd mw) ^ 4 * (∑ j, |matR a i.castSucc j| + ∑ k, |homR 0 p k|)) := by
  obtain ⟨g1, g2, g3, g4⟩ := gam (mw := mw) (ew := ew)
  have fb : ∀ k j, (b.data k j).isFin = true := fun k j =>
    (isFin_of_mul (sumLoop_fin (f := fun k => a.data 0 k * b.data k j) (hab 0 j) k)).2
  have h1 := two_maps_core g3 g4 (hom_vector hb hp hq fq) (hom_vector ha fq hr fr i.castSucc)
  have h2 := prod_map_core g3 g4 (fun k => mul_entry_err (hab i.castSucc k))
    (hom_vector (affineF_mul ha hb fb) hp hr' fr' i.castSucc)
  rw [g1, g2] at h1 h2
  rw [← homR_cs 0 r, ← homR_cs 0 r']
  unfold cond2
  have tri := abs_sub_le (homR 0 r' i.castSucc) (∑ j, matR a i.castSucc j * ∑ k, matR b j k * homR 0 p k)
    (homR 0 r i.castSucc)
  rw [abs_sub_comm (∑ j, _) (homR 0 r i.castSucc)] at tri
  linarith

/-- C104: products of affine float matrices are affine, so mapping finite points and vectors with them never panics. -/
theorem C104_affine (a b : Mat4 (Flt mw ew)) (ha : a.AffineF) (hb : b.AffineF)
    (fb : ∀ k j, (b.data k j).isFin = true) (p : Point (Flt mw ew) 3) (v : Vec (Flt mw ew) 3)
    (hp : ∀ i, (p.vec i).isFin = true) (hv : ∀ i, (v.vec i).isFin = true) :
    (a * b).AffineF ∧ mapPt (a * b) p ≠ none ∧ mapVector (a * b) v ≠ none :=
  ⟨affineF_mul ha hb fb, C43_float _ (affineF_mul ha hb fb) p v hp hv⟩

/-- C104 on transforms: `(a * b).map(p)` against `a.map(b.map(p))`, and `(a * b).map_inverse(p)` against
`b.map_inverse(a.map_inverse(p))`. -/
theorem C104_transform (a b : Transform (Flt mw ew)) (ha : a.m.AffineF) (hb : b.m.AffineF) (ha' : a.minv.AffineF)
    (hb' : b.minv.AffineF) (p : Point (Flt mw ew) 3) (hp : ∀ i, (p.vec i).isFin = true) :
    (∀ q r r', b.mapPoint p = some q → a.mapPoint q = some r → (a * b).mapPoint p = some r' →
      (∀ i j, ((a * b).m.data i j).isFin = true) → (∀ i, (q.vec i).isFin = true) → (∀ i, (r.vec i).isFin = true) →
      (∀ i, (r'.vec i).isFin = true) → ∀ i : _root_.Fin 3,
      |(r'.vec i).toReal - (r.vec i).toReal| ≤
        2 * ((1 + uRnd mw) ^ 8 - 1) * cond2 a.m b.m (homR 1 p) i.castSucc +
        4 * etaRnd mw ew * (1 + uRnd mw) ^ 3 *
          (2 + (1 + uRnd mw) ^ 4 * (∑ j, |matR a.m i.castSucc j| + ∑ k, |homR 1 p k|))) ∧
    (∀ q r r', a.mapPointInv p = some q → b.mapPointInv q = some r → (a * b).mapPointInv p = some r' →
      (∀ i j, ((a * b).minv.data i j).isFin = true) → (∀ i, (q.vec i).isFin = true) → (∀ i, (r.vec i).isFin = true) →
      (∀ i, (r'.vec i).isFin = true) → ∀ i : _root_.Fin 3,
      |(r'.vec i).toReal - (r.vec i).toReal| ≤
        2 * ((1 + uRnd mw) ^ 8 - 1) * cond2 b.minv a.minv (homR 1 p) i.castSucc +
        4 * etaRnd mw ew * (1 + uRnd mw) ^ 3 *
          (2 + (1 + uRnd mw) ^ 4 * (∑ j, |matR b.minv i.castSucc j| + ∑ k, |homR 1 p k|))) :=
  ⟨fun q r r' hq hr hr' hab fq fr fr' => C104_point a.m b.m ha hb hab p q r r' hp hq hr hr' fq fr fr',
   fun q r r' hq hr hr' hab fq fr fr' => C104_point b.minv a.minv hb' ha' hab p q r r' hp hq hr hr' fq fr fr'⟩

/-- the hypotheses are met by a scaling after a translation, where the two results differ -/
example : let a : Transform F32 := Transform.scale (new3 (ofRat 23 8 false 1 3) (F32.lit 1) (F32.lit 2))
    let b : Transform F32 := Transform.translate (new3 (ofRat 23 8 false 1 7) (F32.lit 0) (F32.lit 0))
    let p : Point F32 3 := new3 (ofRat 23 8 false 3 10) (F32.lit 2) (F32.lit 3)
    (∀ i j, ((a * b).m.data i j).isFin = true) ∧
    ((b.mapPoint p).bind fun q => (a.mapPoint q).bind fun r => ((a * b).mapPoint p).map fun r' =>
      ((List.finRange 3).all fun i => (q.vec i).isFin && (r.vec i).isFin && (r'.vec i).isFin,
        decide (r.vec 0 = r'.vec 0))) = some (true, false) := by decide +kernel

/-! ## C105 -/

/-- neighbouring floats are at most `max(2η, 2u|x|)` apart -/
theorem valZ_gap (k : ℤ) : valZ mw (k + 1) - valZ mw k ≤ Max.max 1 (2 * uRnd mw * |valZ mw k|) := by
  have hp : (0 : ℝ) < 2 ^ mw := by positivity
  have g : ∀ i : ℕ, (magN mw (i + 1) : ℝ) - magN mw i ≤ Max.max 1 (2 * uRnd mw * magN mw i) := fun i => by
    rcases Flt.magN_gap mw i with h | h
    · refine le_max_of_le_left ?_
      rw [h]; push_cast; linarith
    · refine le_max_of_le_right ?_
      unfold uRnd
      rw [pow_succ, show 2 * (1 / (2 ^ mw * 2)) * (magN mw i : ℝ) = magN mw i / 2 ^ mw by field_simp, le_div_iff₀ hp]
      linarith
  rcases le_or_gt 0 k with h | h
  · obtain ⟨n, rfl⟩ := Int.eq_ofNat_of_zero_le h
    have : ((n : ℤ) + 1) = ((n + 1 : ℕ) : ℤ) := by push_cast; rfl
    rw [this, valZ_nat, valZ_nat, abs_of_nonneg (by positivity)]
    exact g n
  · obtain ⟨n, hn⟩ := Int.eq_ofNat_of_zero_le (show 0 ≤ -k - 1 by omega)
    have e1 : k + 1 = -(n : ℤ) := by omega
    have e2 : k = -((n + 1 : ℕ) : ℤ) := by push_cast; omega
    rw [e1, e2, valZ_neg, valZ_neg, valZ_nat, valZ_nat, abs_neg, abs_of_nonneg (by positivity)]
    have hm : (magN mw n : ℝ) ≤ magN mw (n + 1) := by exact_mod_cast (magN_strictMono mw).monotone (Nat.le_succ n)
    have := g n
    refine (le_of_eq (by ring)).trans (this.trans (max_le_max le_rfl ?_))
    exact mul_le_mul_of_nonneg_left hm (by have := uRnd_pos (mw := mw); linarith)

theorem toReal_gap {x y : Flt mw ew} (h : y.key = x.key + 1) :
    y.toReal - x.toReal ≤ Max.max (2 * etaRnd mw ew) (2 * uRnd mw * |x.toReal|) := by
  have hp : (0 : ℝ) < 2 ^ fK mw ew := by positivity
  rw [toReal_eq_key, toReal_eq_key, h, ← sub_div, div_le_iff₀ hp, max_mul_of_nonneg _ _ hp.le, abs_div, abs_of_pos hp]
  refine (valZ_gap x.key).trans (max_le_max (le_of_eq ?_) (le_of_eq ?_))
  · unfold etaRnd; rw [pow_succ]; field_simp
  · field_simp

/-- A float function accurate to one float at `x`, whose exact value has magnitude at most one: the result is finite and
its error is at most `max(2η, 2u|result|)`. -/
theorem accurate_err [Libm mw ew] {fl : Flt mw ew → Flt mw ew} {f : ℝ → ℝ} {x : Flt mw ew} (h : AccurateAt fl f x)
    (hb : |f x.toReal| ≤ 1) :
    (fl x).isFin = true ∧ |(fl x).toReal - f x.toReal| ≤ Max.max (2 * etaRnd mw ew) (2 * uRnd mw * |(fl x).toReal|) := by
  obtain ⟨b1, b2⟩ := abs_le.1 hb
  have hn : (fl x).isNaN = false := by have := h.lo.1; rwa [isNaN_nextDown] at this
  obtain ⟨nd, kd⟩ := nextDown_key hn
  obtain ⟨nu, ku⟩ := nextUp_key hn
  obtain ⟨f2, v2⟩ := two_spec (mw := mw) (ew := ew)
  obtain ⟨f4, v4⟩ := four_spec (mw := mw) (ew := ew)
  set c := fl x
  set two : Flt mw ew := GFloat.fromI64 2
  set four : Flt mw ew := GFloat.fromI64 4
  have k24 : two.key < four.key := toReal_lt_iff.1 (by rw [v2, v4]; norm_num)
  have k02 : 0 < two.key := toReal_pos_iff.1 (by rw [v2]; norm_num)
  have k4 := isFin_iff_key.1 f4
  have kb := key_bounds hn
  have up : c.key ≤ two.key := by
    by_contra hc
    have h1 : two.key ≤ (GFloat.nextDown c).key := by omega
    have h2 := (val_le_iff (notNaN_of_isFin f2) nd).2 h1
    have h3 := h2.trans h.lo.2
    rw [val_of_isFin f2, EReal.coe_le_coe_iff, v2] at h3
    linarith
  have dn : -two.key ≤ c.key := by
    by_contra hc
    have h1 : (GFloat.nextUp c).key ≤ (-two).key := by rw [key_negop]; omega
    have n2 : (-two).isFin = true := by rw [isFin_negop]; exact f2
    have h2 := (val_le_iff nu (notNaN_of_isFin n2)).2 h1
    have h3 := h.hi.2.trans h2
    rw [val_of_isFin n2, EReal.coe_le_coe_iff, toReal_negop, v2] at h3
    linarith
  have fc : c.isFin = true := isFin_iff_key.2 ⟨by omega, by omega⟩
  have fd : (GFloat.nextDown c).isFin = true := isFin_iff_key.2 ⟨by omega, by omega⟩
  have fu : (GFloat.nextUp c).isFin = true := isFin_iff_key.2 ⟨by omega, by omega⟩
  have lo := h.lo.2
  have hi := h.hi.2
  rw [val_of_isFin fd, EReal.coe_le_coe_iff] at lo
  rw [val_of_isFin fu, EReal.coe_le_coe_iff] at hi
  refine ⟨fc, ?_⟩
  have g1 := toReal_gap (x := c) (y := GFloat.nextUp c) (by omega)
  have g2 := toReal_gap (x := -c) (y := -(GFloat.nextDown c)) (by rw [key_negop, key_negop]; omega)
  rw [toReal_negop, toReal_negop, abs_neg] at g2
  rw [abs_le]
  constructor <;> linarith

/-- one rotated coordinate, over the reals -/
theorem rot_core {u η a b A B x y z : ℝ} (hu : 0 < u) (hu1 : u ≤ 1 / 1024) (he : 0 < η) (he1 : η ≤ u ^ 2)
    (ha : |a - A| ≤ Max.max (2 * η) (2 * u * |a|)) (hb : |b - B| ≤ Max.max (2 * η) (2 * u * |b|)) (hA : |A| ≤ 1) (hB : |B| ≤ 1)
    (hz : |z - (x * a + y * b)| ≤ ((1 + u) ^ 4 - 1) * (|x| * |a| + |y| * |b|) + 4 * η * (1 + u) ^ 3) :
    |z - (A * x + B * y)| ≤ 7 * u * (|x| + |y|) + 5 * η := by
  have husq : u ^ 2 ≤ 1 / 1024 * u := by rw [sq]; exact mul_le_mul_of_nonneg_right hu1 hu.le
  have main : ∀ {a A : ℝ}, |a - A| ≤ Max.max (2 * η) (2 * u * |a|) → |A| ≤ 1 → |a| ≤ 1.01 ∧ |a - A| ≤ 2.1 * u := by
    intro a A ha hA
    have h0 : 0 ≤ 2 * u * |a| := by positivity
    have h1 : |a - A| ≤ 2 * η + 2 * u * |a| := ha.trans (max_le (by linarith) (by linarith))
    have h2 : |a| ≤ |a - A| + |A| := by have := abs_add_le (a - A) A; rwa [sub_add_cancel] at this
    have h3 := mul_le_mul_of_nonneg_right hu1 (abs_nonneg a)
    have h4 : |a| ≤ 1.01 := by linarith
    have h5 := mul_le_mul_of_nonneg_left h4 hu.le
    have h6 : |a - A| ≤ 2 * (1 / 1024 * u) + 2 * (u * 1.01) := by linarith
    exact ⟨h4, by linarith⟩
  obtain ⟨a1, a2⟩ := main ha hA
  obtain ⟨b1, b2⟩ := main hb hB
  have p3 : (1 + u) ^ 3 ≤ 1.01 := by
    have := pow_le_pow_left₀ (show 0 ≤ 1 + u by linarith) (show 1 + u ≤ 1 + 1 / 1024 by linarith) 3
    exact this.trans (by norm_num)
  have p4 : (1 + u) ^ 4 - 1 ≤ 4.1 * u := by
    have h3 : u ^ 3 ≤ 1 / 1024 * (1 / 1024 * u) := by
      rw [show u ^ 3 = u * u ^ 2 by ring]
      exact mul_le_mul hu1 husq (by positivity) (by norm_num)
    have h4 : u ^ 4 ≤ 1 / 1024 * (1 / 1024 * (1 / 1024 * u)) := by
      rw [show u ^ 4 = u * u ^ 3 by ring]
      exact mul_le_mul hu1 h3 (by positivity) (by norm_num)
    have : (1 + u) ^ 4 - 1 = 4 * u + 6 * u ^ 2 + 4 * u ^ 3 + u ^ 4 := by ring
    linarith
  have s1 : |x| * |a| + |y| * |b| ≤ 1.01 * (|x| + |y|) := by
    have := mul_le_mul_of_nonneg_left a1 (abs_nonneg x)
    have := mul_le_mul_of_nonneg_left b1 (abs_nonneg y)
    linarith
  have s2 : |x * a + y * b - (A * x + B * y)| ≤ 2.1 * u * (|x| + |y|) := by
    rw [show x * a + y * b - (A * x + B * y) = (a - A) * x + (b - B) * y by ring]
    refine (abs_add_le _ _).trans ?_
    rw [abs_mul, abs_mul]
    have := mul_le_mul_of_nonneg_right a2 (abs_nonneg x)
    have := mul_le_mul_of_nonneg_right b2 (abs_nonneg y)
    linarith
  have s3 := mul_le_mul p4 s1 (by positivity) (by linarith : 0 ≤ 4.1 * u)
  have s4 := mul_le_mul_of_nonneg_left p3 (by linarith : 0 ≤ 4 * η)
  have s5 := abs_sub_le z (x * a + y * b) (A * x + B * y)
  have s6 : 0 ≤ u * (|x| + |y|) := by positivity
  have s7 : 4.1 * u * (1.01 * (|x| + |y|)) = 4.141 * (u * (|x| + |y|)) := by ring
  have s8 : 2.1 * u * (|x| + |y|) = 2.1 * (u * (|x| + |y|)) := by ring
  have s9 : 7 * u * (|x| + |y|) = 7 * (u * (|x| + |y|)) := by ring
  rw [s7] at s3; rw [s8] at s2; rw [s9]
  linarith

/-- `q` is `p` turned by the angle `θ` about axis `a`, from axis `k` towards axis `l`: the coordinate on the axis is kept
exactly, the others are right up to a few roundings. -/
def PlaneRot {U : Marker} (p q : GVec (Flt mw ew) 3 U) (a k l : _root_.Fin 3) (θ : ℝ) : Prop :=
  (q.vec a).toReal = (p.vec a).toReal ∧
  |(q.vec k).toReal - (Real.cos θ * (p.vec k).toReal - Real.sin θ * (p.vec l).toReal)| ≤
    7 * uRnd mw * (|(p.vec k).toReal| + |(p.vec l).toReal|) + 5 * etaRnd mw ew ∧
  |(q.vec l).toReal - (Real.sin θ * (p.vec k).toReal + Real.cos θ * (p.vec l).toReal)| ≤
    7 * uRnd mw * (|(p.vec k).toReal| + |(p.vec l).toReal|) + 5 * etaRnd mw ew

/-- the two coordinates in the plane of the rotation, from the error bound of the affine map -/
theorem row2 {U : Marker} (hm : 9 ≤ mw) (hw : mw + 3 ≤ 2 ^ (ew - 1)) {m : Mat4 (Flt mw ew)} {w : ℝ}
    {p q : GVec (Flt mw ew) 3 U} {i a k l : _root_.Fin 3}
    (hsum : ∀ f : _root_.Fin 4 → ℝ, ∑ j, f j = f a.castSucc + f k.castSucc + f l.castSucc + f 3)
    (h : |homR w q i.castSucc - ∑ j, matR m i.castSucc j * homR w p j| ≤
      ((1 + uRnd mw) ^ 4 - 1) * ∑ j, |matR m i.castSucc j| * |homR w p j| + 4 * etaRnd mw ew * (1 + uRnd mw) ^ 3)
    (h0 : (m.data i.castSucc a.castSucc).toReal = 0) (h3 : (m.data i.castSucc 3).toReal = 0) {A B : ℝ}
    (hA : |A| ≤ 1) (hB : |B| ≤ 1)
    (ha : |(m.data i.castSucc k.castSucc).toReal - A| ≤
      Max.max (2 * etaRnd mw ew) (2 * uRnd mw * |(m.data i.castSucc k.castSucc).toReal|))
    (hb : |(m.data i.castSucc l.castSucc).toReal - B| ≤
      Max.max (2 * etaRnd mw ew) (2 * uRnd mw * |(m.data i.castSucc l.castSucc).toReal|)) :
    |(q.vec i).toReal - (A * (p.vec k).toReal + B * (p.vec l).toReal)| ≤
      7 * uRnd mw * (|(p.vec k).toReal| + |(p.vec l).toReal|) + 5 * etaRnd mw ew := by
  refine rot_core uRnd_pos (uRnd_small hm) etaRnd_pos (eta_le_sq hw) ha hb hA hB ?_
  rw [hsum, hsum] at h
  simp only [homR_cs] at h
  unfold matR at h
  rw [h0, h3] at h
  simp only [abs_zero, zero_mul, zero_add, add_zero] at h
  simpa only [mul_comm] using h

theorem axis_pt {m : Mat4 (Flt mw ew)} (hm : m.AffineF) {p q : Point (Flt mw ew) 3} (hp : ∀ i, (p.vec i).isFin = true)
    (hq : mapPt m p = some q) :
    (m.data 0 = ![Scalar.one, Scalar.zero, Scalar.zero, Scalar.zero] → (q.vec 0).toReal = (p.vec 0).toReal) ∧
    (m.data 1 = ![Scalar.zero, Scalar.one, Scalar.zero, Scalar.zero] → (q.vec 1).toReal = (p.vec 1).toReal) ∧
    (m.data 2 = ![Scalar.zero, Scalar.zero, Scalar.one, Scalar.zero] → (q.vec 2).toReal = (p.vec 2).toReal) := by
  obtain ⟨q', hq', h0, h1, h2⟩ := mapPt_lastRow hm hp
  obtain rfl : q' = q := Option.some.inj (hq'.symm.trans hq)
  refine ⟨fun h => ?_, fun h => ?_, fun h => ?_⟩
  · have e : Same (rowPt m p 0) (p.vec 0) := by
      unfold rowPt Mat4.idx; rw [h]
      exact add_zero_same (row_s0 (hp 0) (hp 1) (hp 2) (mul_one_same (hp 0)) rfl rfl) szero_same
    exact ((h0 e.1).trans e).toReal
  · have e : Same (rowPt m p 1) (p.vec 1) := by
      unfold rowPt Mat4.idx; rw [h]
      exact add_zero_same (row_s1 (hp 0) (hp 1) (hp 2) rfl (mul_one_same (hp 1)) rfl) szero_same
    exact ((h1 e.1).trans e).toReal
  · have e : Same (rowPt m p 2) (p.vec 2) := by
      unfold rowPt Mat4.idx; rw [h]
      exact add_zero_same (row_s2 (hp 0) (hp 1) (hp 2) rfl rfl (mul_one_same (hp 2))) szero_same
    exact ((h2 e.1).trans e).toReal

theorem axis_vec {m : Mat4 (Flt mw ew)} (hm : m.AffineF) {p q : Vec (Flt mw ew) 3} (hp : ∀ i, (p.vec i).isFin = true)
    (hq : mapVector m p = some q) :
    (m.data 0 = ![Scalar.one, Scalar.zero, Scalar.zero, Scalar.zero] → (q.vec 0).toReal = (p.vec 0).toReal) ∧
    (m.data 1 = ![Scalar.zero, Scalar.one, Scalar.zero, Scalar.zero] → (q.vec 1).toReal = (p.vec 1).toReal) ∧
    (m.data 2 = ![Scalar.zero, Scalar.zero, Scalar.one, Scalar.zero] → (q.vec 2).toReal = (p.vec 2).toReal) := by
  have hw := affine_w_vec hm hp
  unfold mapVector at hq
  rw [if_pos (eq_zero_true hw), Option.some.injEq] at hq
  subst hq
  refine ⟨fun h => ?_, fun h => ?_, fun h => ?_⟩
  · have e : Same (p.x * m.idx 0 0 + p.y * m.idx 0 1 + p.z * m.idx 0 2) (p.vec 0) := by
      unfold Mat4.idx; rw [h]
      exact row_s0 (hp 0) (hp 1) (hp 2) (mul_one_same (hp 0)) rfl rfl
    exact e.toReal
  · have e : Same (p.x * m.idx 1 0 + p.y * m.idx 1 1 + p.z * m.idx 1 2) (p.vec 1) := by
      unfold Mat4.idx; rw [h]
      exact row_s1 (hp 0) (hp 1) (hp 2) rfl (mul_one_same (hp 1)) rfl
    exact e.toReal
  · have e : Same (p.x * m.idx 2 0 + p.y * m.idx 2 1 + p.z * m.idx 2 2) (p.vec 2) := by
      unfold Mat4.idx; rw [h]
      exact row_s2 (hp 0) (hp 1) (hp 2) rfl rfl (mul_one_same (hp 2))
    exact e.toReal

section rot
variable [Libm mw ew] [LawfulLibm mw ew]

private theorem cs {θ : Flt mw ew} (hθ : θ.isFin = true) :
    |(Libm.cos θ).toReal - Real.cos θ.toReal| ≤ Max.max (2 * etaRnd mw ew) (2 * uRnd mw * |(Libm.cos θ).toReal|) ∧
    |(Libm.sin θ).toReal - Real.sin θ.toReal| ≤ Max.max (2 * etaRnd mw ew) (2 * uRnd mw * |(Libm.sin θ).toReal|) ∧
    |(-Libm.sin θ).toReal - -Real.sin θ.toReal| ≤ Max.max (2 * etaRnd mw ew) (2 * uRnd mw * |(-Libm.sin θ).toReal|) := by
  have h1 := (accurate_err (LawfulLibm.cos θ hθ) (Real.abs_cos_le_one _)).2
  have h2 := (accurate_err (LawfulLibm.sin θ hθ) (Real.abs_sin_le_one _)).2
  refine ⟨h1, h2, ?_⟩
  rw [toReal_negop, abs_neg, neg_sub_neg, abs_sub_comm]; exact h2

/-- what the four maps of a rotation do -/
def RotatesBy (t : Transform (Flt mw ew)) (a k l : _root_.Fin 3) (θ : ℝ) : Prop :=
  (∀ p q : Point (Flt mw ew) 3, (∀ i, (p.vec i).isFin = true) → (∀ i, (q.vec i).isFin = true) →
    (t.mapPoint p = some q → PlaneRot p q a k l θ) ∧ (t.mapPointInv p = some q → PlaneRot p q a k l (-θ))) ∧
  (∀ p q : Vec (Flt mw ew) 3, (∀ i, (p.vec i).isFin = true) → (∀ i, (q.vec i).isFin = true) →
    (t.mapVec p = some q → PlaneRot p q a k l θ) ∧ (t.mapVecInv p = some q → PlaneRot p q a k l (-θ)))

private theorem assemble {U : Marker} {p q : GVec (Flt mw ew) 3 U} {a k l : _root_.Fin 3} {θ s : ℝ}
    (hs : s = Real.sin θ) (h0 : (q.vec a).toReal = (p.vec a).toReal)
    (h1 : |(q.vec k).toReal - (Real.cos θ * (p.vec k).toReal + -s * (p.vec l).toReal)| ≤
      7 * uRnd mw * (|(p.vec k).toReal| + |(p.vec l).toReal|) + 5 * etaRnd mw ew)
    (h2 : |(q.vec l).toReal - (s * (p.vec k).toReal + Real.cos θ * (p.vec l).toReal)| ≤
      7 * uRnd mw * (|(p.vec k).toReal| + |(p.vec l).toReal|) + 5 * etaRnd mw ew) : PlaneRot p q a k l θ := by
  subst hs
  refine ⟨h0, ?_, h2⟩
  convert h1 using 3; ring

/-- C105: on floats `rotate_x(θ)` turns finite points and vectors by the angle `θ`: the x coordinate is kept exactly and
y and z are within `7u(|y|+|z|) + 5η` of the exact rotation; `map_inverse` turns by `-θ` equally accurately.  Assumes
that the platform's `sin` and `cos` are accurate to one float. -/
theorem C105_rotateX (hm : 9 ≤ mw) (hw : mw + 3 ≤ 2 ^ (ew - 1)) (θ : Flt mw ew) (hθ : θ.isFin = true) :
    RotatesBy (Transform.rotateX θ) 0 1 2 θ.toReal := by
  obtain ⟨hc, hs, hs'⟩ := cs hθ
  have c1 := Real.abs_cos_le_one θ.toReal
  have s1 := Real.abs_sin_le_one θ.toReal
  have s1' : |-Real.sin θ.toReal| ≤ 1 := by rw [abs_neg]; exact s1
  have A : (Transform.rotateX θ).m.AffineF := affineF_of rfl rfl rfl rfl
  have A' : (Transform.rotateX θ).minv.AffineF := affineF_of rfl rfl rfl rfl
  have hsum : ∀ f : _root_.Fin 4 → ℝ, ∑ j, f j = f (0 : _root_.Fin 3).castSucc + f (1 : _root_.Fin 3).castSucc +
      f (2 : _root_.Fin 3).castSucc + f 3 := fun f => by rw [Fin.sum_univ_four]; rfl
  have z := toReal_szero (mw := mw) (ew := ew)
  refine ⟨fun p q hp fq => ⟨fun h => ?_, fun h => ?_⟩, fun p q hp fq => ⟨fun h => ?_, fun h => ?_⟩⟩
  · have e := hom_point A hp h fq
    exact assemble rfl ((axis_pt A hp h).1 rfl) (row2 hm hw (i := 1) hsum (e _) z z c1 s1' hc hs')
      (row2 hm hw (i := 2) hsum (e _) z z s1 c1 hs hc)
  · have e := hom_point A' hp h fq
    refine assemble (Real.sin_neg _).symm ((axis_pt A' hp h).1 rfl) ?_ ?_
    all_goals rw [Real.cos_neg]
    · rw [_root_.neg_neg]; exact row2 hm hw (i := 1) hsum (e _) z z c1 s1 hc hs
    · exact row2 hm hw (i := 2) hsum (e _) z z s1' c1 hs' hc
  · have e := hom_vector A hp h fq
    exact assemble rfl ((axis_vec A hp h).1 rfl) (row2 hm hw (i := 1) hsum (e _) z z c1 s1' hc hs')
      (row2 hm hw (i := 2) hsum (e _) z z s1 c1 hs hc)
  · have e := hom_vector A' hp h fq
    refine assemble (Real.sin_neg _).symm ((axis_vec A' hp h).1 rfl) ?_ ?_
    all_goals rw [Real.cos_neg]
    · rw [_root_.neg_neg]; exact row2 hm hw (i := 1) hsum (e _) z z c1 s1 hc hs
    · exact row2 hm hw (i := 2) hsum (e _) z z s1' c1 hs' hc

/-- C105, about the y axis: z turns towards x. -/
theorem C105_rotateY (hm : 9 ≤ mw) (hw : mw + 3 ≤ 2 ^ (ew - 1)) (θ : Flt mw ew) (hθ : θ.isFin = true) :
    RotatesBy (Transform.rotateY θ) 1 2 0 θ.toReal := by
  obtain ⟨hc, hs, hs'⟩ := cs hθ
  have c1 := Real.abs_cos_le_one θ.toReal
  have s1 := Real.abs_sin_le_one θ.toReal
  have s1' : |-Real.sin θ.toReal| ≤ 1 := by rw [abs_neg]; exact s1
  have A : (Transform.rotateY θ).m.AffineF := affineF_of rfl rfl rfl rfl
  have A' : (Transform.rotateY θ).minv.AffineF := affineF_of rfl rfl rfl rfl
  have hsum : ∀ f : _root_.Fin 4 → ℝ, ∑ j, f j = f (1 : _root_.Fin 3).castSucc + f (2 : _root_.Fin 3).castSucc +
      f (0 : _root_.Fin 3).castSucc + f 3 := fun f => by rw [Fin.sum_univ_four]; change _ = f 1 + f 2 + f 0 + f 3; ring
  have z := toReal_szero (mw := mw) (ew := ew)
  refine ⟨fun p q hp fq => ⟨fun h => ?_, fun h => ?_⟩, fun p q hp fq => ⟨fun h => ?_, fun h => ?_⟩⟩
  · have e := hom_point A hp h fq
    exact assemble rfl ((axis_pt A hp h).2.1 rfl) (row2 hm hw (i := 2) hsum (e _) z z c1 s1' hc hs')
      (row2 hm hw (i := 0) hsum (e _) z z s1 c1 hs hc)
  · have e := hom_point A' hp h fq
    refine assemble (Real.sin_neg _).symm ((axis_pt A' hp h).2.1 rfl) ?_ ?_
    all_goals rw [Real.cos_neg]
    · rw [_root_.neg_neg]; exact row2 hm hw (i := 2) hsum (e _) z z c1 s1 hc hs
    · exact row2 hm hw (i := 0) hsum (e _) z z s1' c1 hs' hc
  · have e := hom_vector A hp h fq
    exact assemble rfl ((axis_vec A hp h).2.1 rfl) (row2 hm hw (i := 2) hsum (e _) z z c1 s1' hc hs')
      (row2 hm hw (i := 0) hsum (e _) z z s1 c1 hs hc)
  · have e := hom_vector A' hp h fq
    refine assemble (Real.sin_neg _).symm ((axis_vec A' hp h).2.1 rfl) ?_ ?_
    all_goals rw [Real.cos_neg]
    · rw [_root_.neg_neg]; exact row2 hm hw (i := 2) hsum (e _) z z c1 s1 hc hs
    · exact row2 hm hw (i := 0) hsum (e _) z z s1' c1 hs' hc

/-- C105, about the z axis: x turns towards y. -/
theorem C105_rotateZ (hm : 9 ≤ mw) (hw : mw + 3 ≤ 2 ^ (ew - 1)) (θ : Flt mw ew) (hθ : θ.isFin = true) :
    RotatesBy (Transform.rotateZ θ) 2 0 1 θ.toReal := by
  obtain ⟨hc, hs, hs'⟩ := cs hθ
  have c1 := Real.abs_cos_le_one θ.toReal
  have s1 := Real.abs_sin_le_one θ.toReal
  have s1' : |-Real.sin θ.toReal| ≤ 1 := by rw [abs_neg]; exact s1
  have A : (Transform.rotateZ θ).m.AffineF := affineF_of rfl rfl rfl rfl
  have A' : (Transform.rotateZ θ).minv.AffineF := affineF_of rfl rfl rfl rfl
  have hsum : ∀ f : _root_.Fin 4 → ℝ, ∑ j, f j = f (2 : _root_.Fin 3).castSucc + f (0 : _root_.Fin 3).castSucc +
      f (1 : _root_.Fin 3).castSucc + f 3 := fun f => by rw [Fin.sum_univ_four]; change _ = f 2 + f 0 + f 1 + f 3; ring
  have z := toReal_szero (mw := mw) (ew := ew)
  refine ⟨fun p q hp fq => ⟨fun h => ?_, fun h => ?_⟩, fun p q hp fq => ⟨fun h => ?_, fun h => ?_⟩⟩
  · have e := hom_point A hp h fq
    exact assemble rfl ((axis_pt A hp h).2.2 rfl) (row2 hm hw (i := 0) hsum (e _) z z c1 s1' hc hs')
      (row2 hm hw (i := 1) hsum (e _) z z s1 c1 hs hc)
  · have e := hom_point A' hp h fq
    refine assemble (Real.sin_neg _).symm ((axis_pt A' hp h).2.2 rfl) ?_ ?_
    all_goals rw [Real.cos_neg]
    · rw [_root_.neg_neg]; exact row2 hm hw (i := 0) hsum (e _) z z c1 s1 hc hs
    · exact row2 hm hw (i := 1) hsum (e _) z z s1' c1 hs' hc
  · have e := hom_vector A hp h fq
    exact assemble rfl ((axis_vec A hp h).2.2 rfl) (row2 hm hw (i := 0) hsum (e _) z z c1 s1' hc hs')
      (row2 hm hw (i := 1) hsum (e _) z z s1 c1 hs hc)
  · have e := hom_vector A' hp h fq
    refine assemble (Real.sin_neg _).symm ((axis_vec A' hp h).2.2 rfl) ?_ ?_
    all_goals rw [Real.cos_neg]
    · rw [_root_.neg_neg]; exact row2 hm hw (i := 0) hsum (e _) z z c1 s1 hc hs
    · exact row2 hm hw (i := 1) hsum (e _) z z s1' c1 hs' hc

/-- there and back by the same angle, over the reals -/
theorem trip_core {u η C S x y qk ql rk : ℝ} (hu : 0 < u) (hu1 : u ≤ 1 / 1024) (he : 0 < η) (hcs : C ^ 2 + S ^ 2 = 1)
    (hC : |C| ≤ 1) (hS : |S| ≤ 1) (h1 : |qk - (C * x - S * y)| ≤ 7 * u * (|x| + |y|) + 5 * η)
    (h2 : |ql - (S * x + C * y)| ≤ 7 * u * (|x| + |y|) + 5 * η)
    (h3 : |rk - (C * qk + S * ql)| ≤ 7 * u * (|qk| + |ql|) + 5 * η) :
    |rk - x| ≤ 29 * u * (|x| + |y|) + 16 * η := by
  set P := |x| + |y| with hP
  have p0 : 0 ≤ P := by positivity
  have m1 : ∀ {A z : ℝ}, |A| ≤ 1 → |A * z| ≤ |z| := fun {A z} h => by
    rw [abs_mul]; have := mul_le_mul_of_nonneg_right h (abs_nonneg z); linarith
  have a1 : |C * x - S * y| ≤ P := (abs_sub _ _).trans (add_le_add (m1 hC) (m1 hS))
  have a2 : |S * x + C * y| ≤ P := (abs_add_le _ _).trans (add_le_add (m1 hS) (m1 hC))
  have q1 : |qk| ≤ P + (7 * u * P + 5 * η) := by
    have := abs_add_le (qk - (C * x - S * y)) (C * x - S * y); rw [sub_add_cancel] at this; linarith
  have q2 : |ql| ≤ P + (7 * u * P + 5 * η) := by
    have := abs_add_le (ql - (S * x + C * y)) (S * x + C * y); rw [sub_add_cancel] at this; linarith
  have e : C * qk + S * ql - x = C * (qk - (C * x - S * y)) + S * (ql - (S * x + C * y)) := by
    have : x = (C ^ 2 + S ^ 2) * x := by rw [hcs, one_mul]
    linear_combination -this
  have e1 : |C * qk + S * ql - x| ≤ (7 * u * P + 5 * η) + (7 * u * P + 5 * η) := by
    rw [e]
    exact (abs_add_le _ _).trans (add_le_add ((m1 hC).trans h1) ((m1 hS).trans h2))
  have e2 := abs_sub_le rk (C * qk + S * ql) x
  have e3 := mul_le_mul_of_nonneg_left (add_le_add q1 q2) (show 0 ≤ 7 * u by linarith)
  have w0 : 0 ≤ u * P := by positivity
  have w1 : u * (u * P) ≤ 1 / 1024 * (u * P) := mul_le_mul_of_nonneg_right hu1 w0
  have w2 : u * η ≤ 1 / 1024 * η := mul_le_mul_of_nonneg_right hu1 he.le
  have e4 : 7 * u * (P + (7 * u * P + 5 * η) + (P + (7 * u * P + 5 * η))) =
    14 * (u * P) + 98 * (u * (u * P)) + 70 * (u * η) := by ring
  rw [e4] at e3
  have e5 : 7 * u * P = 7 * (u * P) := by ring
  have e6 : 29 * u * P = 29 * (u * P) := by ring
  rw [e5] at e1; rw [e6]
  linarith

/-- C103, rotations about the axes: a finite point mapped and mapped back has the same coordinate on the axis, and the
other two are off by at most `29u(|p_k| + |p_l|) + 16η`. -/
theorem C103_rotate (hm : 9 ≤ mw) (θ : Flt mw ew) {t : Transform (Flt mw ew)} {a k l : _root_.Fin 3}
    (ht : (t, a, k, l) = (Transform.rotateX θ, 0, 1, 2) ∨ (t, a, k, l) = (Transform.rotateY θ, 1, 2, 0) ∨
      (t, a, k, l) = (Transform.rotateZ θ, 2, 0, 1)) (hw : mw + 3 ≤ 2 ^ (ew - 1)) (hθ : θ.isFin = true)
    (p q r : Point (Flt mw ew) 3) (hp : ∀ i, (p.vec i).isFin = true) (fq : ∀ i, (q.vec i).isFin = true)
    (fr : ∀ i, (r.vec i).isFin = true) (hq : t.mapPoint p = some q) (hr : t.mapPointInv q = some r) :
    (r.vec a).toReal = (p.vec a).toReal ∧
    |(r.vec k).toReal - (p.vec k).toReal| ≤
      29 * uRnd mw * (|(p.vec k).toReal| + |(p.vec l).toReal|) + 16 * etaRnd mw ew ∧
    |(r.vec l).toReal - (p.vec l).toReal| ≤
      29 * uRnd mw * (|(p.vec k).toReal| + |(p.vec l).toReal|) + 16 * etaRnd mw ew := by
  have R : RotatesBy t a k l θ.toReal := by
    rcases ht with h | h | h <;> obtain ⟨rfl, rfl, rfl, rfl⟩ := by simpa only [Prod.mk.injEq] using h
    · exact C105_rotateX hm hw θ hθ
    · exact C105_rotateY hm hw θ hθ
    · exact C105_rotateZ hm hw θ hθ
  obtain ⟨a0, a1, a2⟩ := (R.1 p q hp fq).1 hq
  obtain ⟨b0, b1, b2⟩ := (R.1 q r fq fr).2 hr
  rw [Real.cos_neg, Real.sin_neg] at b1 b2
  have hcs := Real.cos_sq_add_sin_sq θ.toReal
  have c1 := Real.abs_cos_le_one θ.toReal
  have s1 := Real.abs_sin_le_one θ.toReal
  refine ⟨b0.trans a0, ?_, ?_⟩
  · refine trip_core uRnd_pos (uRnd_small hm) etaRnd_pos hcs c1 s1 a1 a2 ?_
    convert b1 using 3; ring
  · rw [add_comm |(p.vec k).toReal|]
    refine trip_core (S := -Real.sin θ.toReal) (qk := (q.vec l).toReal) (ql := (q.vec k).toReal) uRnd_pos (uRnd_small hm) etaRnd_pos
      (by rw [neg_sq]; exact hcs) c1 (by rw [abs_neg]; exact s1) ?_ ?_ ?_
    · rw [add_comm |(p.vec l).toReal|]; convert a2 using 3; ring
    · rw [add_comm |(p.vec l).toReal|]; convert a1 using 3; ring
    · rw [add_comm |(q.vec l).toReal|]; convert b2 using 3; ring

theorem eight_spec (hw : mw + 3 ≤ 2 ^ (ew - 1)) (hm : 9 ≤ mw) :
    (ofInt mw ew 8).isFin = true ∧ (ofInt mw ew 8).toReal = 8 := by
  have hF : Fmt mw ew := inferInstance
  have hew := hF.hew
  have h1 : 2 ^ ew = 2 * 2 ^ (ew - 1) := by rw [← pow_succ']; congr 1; omega
  refine exact_of_repr ?_ ?_
  · refine repr_of_mul_pow 1 (fK mw ew + 3) (Nat.one_le_two_pow) ?_ ?_
    · rw [magN_infIdx, ← pow_add, one_mul]
      apply Nat.pow_lt_pow_right (by decide)
      unfold fK; omega
    · rw [pow_add]; push_cast; ring
  · rw [(ofInt_key 8).2]; norm_num

/-- no overflow below a finite bound -/
theorem fin_of_bound {z B : Flt mw ew} {r : ℝ} (hB : B.isFin = true) (hn : z.isNaN = false) (hk : z.key = rndK mw ew r)
    (h : |r| ≤ B.toReal) : z.isFin = true ∧ |z.toReal| ≤ B.toReal := by
  obtain ⟨h1, h2⟩ := abs_le.1 h
  have u1 := rndK_mono mw ew h2
  have u2 := rndK_mono mw ew h1
  rw [rndK_neg, rndK_toReal (notNaN_of_isFin hB), ← hk] at u2
  rw [rndK_toReal (notNaN_of_isFin hB), ← hk] at u1
  have kb := isFin_iff_key.1 hB
  refine ⟨isFin_iff_key.2 ⟨by omega, by omega⟩, abs_le.2 ⟨?_, toReal_le_iff.2 u1⟩⟩
  rw [← toReal_negop]
  exact toReal_le_iff.2 (by rw [key_negop]; exact u2)

theorem mul_bound {x y B : Flt mw ew} (hx : x.isFin = true) (hy : y.isFin = true) (hB : B.isFin = true)
    (h : |x.toReal| * |y.toReal| ≤ B.toReal) : (x * y).isFin = true ∧ |(x * y).toReal| ≤ B.toReal :=
  fin_of_bound hB (mul_fin hx hy).1 (mul_fin hx hy).2 (by rw [abs_mul]; exact h)

theorem add_bound {x y B : Flt mw ew} (hx : x.isFin = true) (hy : y.isFin = true) (hB : B.isFin = true)
    (h : |x.toReal| + |y.toReal| ≤ B.toReal) : (x + y).isFin = true ∧ |(x + y).toReal| ≤ B.toReal :=
  fin_of_bound hB (add_fin hx hy).1 (add_fin hx hy).2 ((abs_add_le _ _).trans h)

/-- a row with entries of magnitude at most two, and no translation, applied to coordinates of magnitude at most one -/
theorem row_fin (hm : 9 ≤ mw) (hw : mw + 3 ≤ 2 ^ (ew - 1)) {x y z a b c : Flt mw ew}
    (hx : x.isFin = true ∧ |x.toReal| ≤ 1) (hy : y.isFin = true ∧ |y.toReal| ≤ 1) (hz : z.isFin = true ∧ |z.toReal| ≤ 1)
    (ha : a.isFin = true ∧ |a.toReal| ≤ 2) (hb : b.isFin = true ∧ |b.toReal| ≤ 2) (hc : c.isFin = true ∧ |c.toReal| ≤ 2) :
    (x * a + y * b + z * c).isFin = true := by
  obtain ⟨f2, v2⟩ := two_spec (mw := mw) (ew := ew)
  obtain ⟨f4, v4⟩ := four_spec (mw := mw) (ew := ew)
  obtain ⟨f8, v8⟩ := eight_spec (mw := mw) (ew := ew) hw hm
  have pr : ∀ {x a : Flt mw ew}, x.isFin = true ∧ |x.toReal| ≤ 1 → a.isFin = true ∧ |a.toReal| ≤ 2 →
      (x * a).isFin = true ∧ |(x * a).toReal| ≤ 2 := fun {x a} hx ha => by
    have := mul_bound hx.1 ha.1 f2 (by
      rw [v2]; have := mul_le_mul hx.2 ha.2 (abs_nonneg _) zero_le_one; linarith)
    rwa [v2] at this
  have h1 := pr hx ha
  have h2 := pr hy hb
  have h3 := pr hz hc
  have h4 := add_bound h1.1 h2.1 f4 (by rw [v4]; linarith)
  rw [v4] at h4
  exact (add_bound h4.1 h3.1 f8 (by rw [v8]; linarith)).1

theorem nine {m : Mat4 (Flt mw ew)} {P : Flt mw ew → Prop} (h0 : P (m.data 0 0)) (h1 : P (m.data 0 1)) (h2 : P (m.data 0 2))
    (h3 : P (m.data 1 0)) (h4 : P (m.data 1 1)) (h5 : P (m.data 1 2)) (h6 : P (m.data 2 0)) (h7 : P (m.data 2 1))
    (h8 : P (m.data 2 2)) : ∀ i j : _root_.Fin 3, P (m.data i.castSucc j.castSucc) := by
  intro i j
  fin_cases i <;> fin_cases j <;> assumption

/-- C105: for points and vectors of the cube `[-1,1]^3`, such as unit vectors, the rotations neither panic nor overflow,
so the accuracy statement always applies. -/
theorem C105_total (hm : 9 ≤ mw) (hw : mw + 3 ≤ 2 ^ (ew - 1)) (θ : Flt mw ew) (hθ : θ.isFin = true)
    {t : Transform (Flt mw ew)}
    (ht : t = Transform.rotateX θ ∨ t = Transform.rotateY θ ∨ t = Transform.rotateZ θ)
    (p : Point (Flt mw ew) 3) (v : Vec (Flt mw ew) 3) (hp : ∀ i, (p.vec i).isFin = true ∧ |(p.vec i).toReal| ≤ 1)
    (hv : ∀ i, (v.vec i).isFin = true ∧ |(v.vec i).toReal| ≤ 1) :
    (∃ q, t.mapPoint p = some q ∧ ∀ i, (q.vec i).isFin = true) ∧
    (∃ q, t.mapPointInv p = some q ∧ ∀ i, (q.vec i).isFin = true) ∧
    (∃ q, t.mapVec v = some q ∧ ∀ i, (q.vec i).isFin = true) ∧
    (∃ q, t.mapVecInv v = some q ∧ ∀ i, (q.vec i).isFin = true) := by
  have z := isFin_szero (mw := mw) (ew := ew)
  have z0 := toReal_szero (mw := mw) (ew := ew)
  have o := sone_spec (mw := mw) (ew := ew)
  have acc : ∀ {fl : Flt mw ew → Flt mw ew} {f : ℝ → ℝ}, AccurateAt fl f θ → |f θ.toReal| ≤ 1 →
      (fl θ).isFin = true ∧ |(fl θ).toReal| ≤ 2 := fun {fl f} h hb => by
    obtain ⟨e1, e2⟩ := accurate_err h hb
    refine ⟨e1, ?_⟩
    have hu := uRnd_small hm
    have he := eta_le_sq hw
    have u0 := uRnd_pos (mw := mw)
    have e0 := etaRnd_pos (mw := mw) (ew := ew)
    have husq : uRnd mw ^ 2 ≤ 1 / 1024 := by
      rw [sq]; have := mul_le_mul hu hu u0.le (by norm_num); linarith
    have h1 := mul_le_mul_of_nonneg_right hu (abs_nonneg (fl θ).toReal)
    have h2 : |(fl θ).toReal| ≤ |(fl θ).toReal - f θ.toReal| + |f θ.toReal| := by
      have := abs_add_le ((fl θ).toReal - f θ.toReal) (f θ.toReal); rwa [sub_add_cancel] at this
    have h3 := mul_nonneg u0.le (abs_nonneg (fl θ).toReal)
    have h4 : Max.max (2 * etaRnd mw ew) (2 * uRnd mw * |(fl θ).toReal|) ≤
        2 * etaRnd mw ew + 2 * uRnd mw * |(fl θ).toReal| := max_le (by linarith) (by linarith)
    linarith
  have hC := acc (LawfulLibm.cos θ hθ) (Real.abs_cos_le_one _)
  have hS := acc (LawfulLibm.sin θ hθ) (Real.abs_sin_le_one _)
  have hS' : (-Libm.sin θ).isFin = true ∧ |(-Libm.sin θ).toReal| ≤ 2 := by
    rw [isFin_negop, toReal_negop, abs_neg]; exact hS
  have hZ : (Scalar.zero : Flt mw ew).isFin = true ∧ |(Scalar.zero : Flt mw ew).toReal| ≤ 2 :=
    ⟨z, by rw [z0]; norm_num⟩
  have hO : (Scalar.one : Flt mw ew).isFin = true ∧ |(Scalar.one : Flt mw ew).toReal| ≤ 2 :=
    ⟨o.1, by rw [o.2]; norm_num⟩
  have pt : ∀ m : Mat4 (Flt mw ew), m.AffineF → (∀ i : _root_.Fin 3, ∀ j : _root_.Fin 3,
      (m.data i.castSucc j.castSucc).isFin = true ∧ |(m.data i.castSucc j.castSucc).toReal| ≤ 2) →
      (∀ i : _root_.Fin 3, m.data i.castSucc 3 = Scalar.zero) →
      (∃ q, mapPt m p = some q ∧ ∀ i, (q.vec i).isFin = true) ∧
      (∃ q, mapVector m v = some q ∧ ∀ i, (q.vec i).isFin = true) := fun m A hb h3 => by
    constructor
    · obtain ⟨q, hq, h0, h1, h2⟩ := mapPt_lastRow A (fun i => (hp i).1)
      have row : ∀ i : _root_.Fin 3, (rowPt m p i.castSucc).isFin = true := fun i => by
        unfold rowPt Mat4.idx
        rw [h3]
        have f := row_fin hm hw (hp 0) (hp 1) (hp 2) (hb i 0) (hb i 1) (hb i 2)
        exact (add_zero_same (Same.refl (notNaN_of_isFin f)) szero_same).isFin f
      refine ⟨q, hq, fun i => ?_⟩
      fin_cases i
      · exact (h0 (notNaN_of_isFin (row 0))).isFin (row 0)
      · exact (h1 (notNaN_of_isFin (row 1))).isFin (row 1)
      · exact (h2 (notNaN_of_isFin (row 2))).isFin (row 2)
    · refine ⟨_, if_pos (eq_zero_true (affine_w_vec A fun i => (hv i).1)), fun i => ?_⟩
      fin_cases i
      · exact row_fin hm hw (hv 0) (hv 1) (hv 2) (hb 0 0) (hb 0 1) (hb 0 2)
      · exact row_fin hm hw (hv 0) (hv 1) (hv 2) (hb 1 0) (hb 1 1) (hb 1 2)
      · exact row_fin hm hw (hv 0) (hv 1) (hv 2) (hb 2 0) (hb 2 1) (hb 2 2)
  have both : t.m.AffineF ∧ t.minv.AffineF ∧ (∀ i : _root_.Fin 3, ∀ j : _root_.Fin 3,
      (t.m.data i.castSucc j.castSucc).isFin = true ∧ |(t.m.data i.castSucc j.castSucc).toReal| ≤ 2) ∧
      (∀ i : _root_.Fin 3, ∀ j : _root_.Fin 3,
      (t.minv.data i.castSucc j.castSucc).isFin = true ∧ |(t.minv.data i.castSucc j.castSucc).toReal| ≤ 2) ∧
      (∀ i : _root_.Fin 3, t.m.data i.castSucc 3 = Scalar.zero) ∧ (∀ i : _root_.Fin 3, t.minv.data i.castSucc 3 = Scalar.zero) := by
    let Q : Flt mw ew → Prop := fun x => x.isFin = true ∧ |x.toReal| ≤ 2
    have z3 : ∀ {m : Mat4 (Flt mw ew)}, m.data 0 3 = Scalar.zero → m.data 1 3 = Scalar.zero → m.data 2 3 = Scalar.zero →
        ∀ i : _root_.Fin 3, m.data i.castSucc 3 = Scalar.zero := fun h0 h1 h2 i => by
      fin_cases i
      · exact h0
      · exact h1
      · exact h2
    rcases ht with rfl | rfl | rfl
    · exact ⟨affineF_of rfl rfl rfl rfl, affineF_of rfl rfl rfl rfl, nine (P := Q) hO hZ hZ hZ hC hS' hZ hS hC,
        nine (P := Q) hO hZ hZ hZ hC hS hZ hS' hC, z3 rfl rfl rfl, z3 rfl rfl rfl⟩
    · exact ⟨affineF_of rfl rfl rfl rfl, affineF_of rfl rfl rfl rfl, nine (P := Q) hC hZ hS hZ hO hZ hS' hZ hC,
        nine (P := Q) hC hZ hS' hZ hO hZ hS hZ hC, z3 rfl rfl rfl, z3 rfl rfl rfl⟩
    · exact ⟨affineF_of rfl rfl rfl rfl, affineF_of rfl rfl rfl rfl, nine (P := Q) hC hS' hZ hS hC hZ hZ hZ hO,
        nine (P := Q) hC hS hZ hS' hC hZ hZ hZ hO, z3 rfl rfl rfl, z3 rfl rfl rfl⟩
  obtain ⟨A, A', b, b', z, z'⟩ := both
  exact ⟨(pt _ A b z).1, (pt _ A' b' z').1, (pt _ A b z).2, (pt _ A' b' z').2⟩

end rot

/-- the hypotheses of C103_rotate and C105 are met for `f32` and `f64`: a lawful libm exists, the formats are wide enough,
and one radian is a finite angle -/
example : (∃ L : Libm 23 8, @LawfulLibm 23 8 _ L) ∧ (∃ L : Libm 52 11, @LawfulLibm 52 11 _ L) ∧
    9 ≤ 23 ∧ 23 + 3 ≤ 2 ^ (8 - 1) ∧ 9 ≤ 52 ∧ 52 + 3 ≤ 2 ^ (11 - 1) ∧ (F32.lit 1).isFin = true :=
  ⟨lawfulLibm_exists 23 8, lawfulLibm_exists 52 11, by norm_num, by norm_num, by norm_num, by norm_num, by decide +kernel⟩

end Scarlet
