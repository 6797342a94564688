import Verif.Spec.Transform
import Verif.Props.Matrix

/-! Transforms over `ℝ`: the maps as matrix products, the constructors. -/

namespace Scarlet
open Matrix GVec

theorem mulVec_four (M : Matrix (Fin 4) (Fin 4) ℝ) (h : Fin 4 → ℝ) (i : Fin 4) :
    (M *ᵥ h) i = M i 0 * h 0 + M i 1 * h 1 + M i 2 * h 2 + M i 3 * h 3 := by
  rw [mulVec, dotProduct, Fin.sum_univ_four]

theorem mulVec_three (M : Matrix (Fin 3) (Fin 3) ℝ) (h : Fin 3 → ℝ) (i : Fin 3) :
    (M *ᵥ h) i = M i 0 * h 0 + M i 1 * h 1 + M i 2 * h 2 := by
  rw [mulVec, dotProduct, Fin.sum_univ_three]

theorem hom_apply (m : Mat4 ℝ) (p : Point ℝ 3) (i : Fin 4) :
    (m.toMatrix *ᵥ homP p) i = p.x * m.data i 0 + p.y * m.data i 1 + p.z * m.data i 2 + m.data i 3 := by
  rw [mulVec_four]
  change m.data i 0 * p.x + m.data i 1 * p.y + m.data i 2 * p.z + m.data i 3 * 1 = _
  ring
theorem homV_apply (m : Mat4 ℝ) (v : Vec ℝ 3) (i : Fin 4) :
    (m.toMatrix *ᵥ homV v) i = v.x * m.data i 0 + v.y * m.data i 1 + v.z * m.data i 2 := by
  rw [mulVec_four]
  change m.data i 0 * v.x + m.data i 1 * v.y + m.data i 2 * v.z + m.data i 3 * 0 = _
  ring

/-- `map_point`: divide the transformed homogeneous coordinates by `w`. -/
theorem mapPt_some_iff {m : Mat4 ℝ} {p q : Point ℝ 3} :
    mapPt m p = some q ↔
      (m.toMatrix *ᵥ homP p) 3 ≠ 0 ∧ m.toMatrix *ᵥ homP p = (m.toMatrix *ᵥ homP p) 3 • homP q := by
  have e : ∀ i, (m.toMatrix *ᵥ homP p) i = p.x * m.idx i 0 + p.y * m.idx i 1 + p.z * m.idx i 2 + m.idx i 3 :=
    hom_apply m p
  unfold mapPt
  simp only [← e]
  constructor
  · intro h
    split at h
    · exact absurd h (by simp)
    · next hw =>
      rw [req_iff, rzero] at hw
      rw [Option.some.injEq] at h
      refine ⟨hw, ?_⟩
      rw [← h]
      funext i
      fin_cases i
      · exact (mul_div_cancel₀ _ hw).symm
      · exact (mul_div_cancel₀ _ hw).symm
      · exact (mul_div_cancel₀ _ hw).symm
      · exact (mul_one _).symm
  · rintro ⟨hw, h⟩
    rw [if_neg (by rw [req_iff]; exact hw), Option.some.injEq]
    refine ext3 ?_ ?_ ?_
    · have := congrFun h 0
      change (m.toMatrix *ᵥ homP p) 0 / _ = _
      rw [this]; exact mul_div_cancel_left₀ _ hw
    · have := congrFun h 1
      change (m.toMatrix *ᵥ homP p) 1 / _ = _
      rw [this]; exact mul_div_cancel_left₀ _ hw
    · have := congrFun h 2
      change (m.toMatrix *ᵥ homP p) 2 / _ = _
      rw [this]; exact mul_div_cancel_left₀ _ hw

theorem mapPt_none_iff {m : Mat4 ℝ} {p : Point ℝ 3} : mapPt m p = none ↔ (m.toMatrix *ᵥ homP p) 3 = 0 := by
  rw [hom_apply]
  unfold mapPt
  dsimp only
  split
  · next h => rw [req_iff] at h; simpa [Mat4.idx] using h
  · next h => rw [req_iff] at h; simpa [Mat4.idx] using h

theorem mapVector_some_iff {m : Mat4 ℝ} {v u : Vec ℝ 3} :
    mapVector m v = some u ↔ m.toMatrix *ᵥ homV v = homV u := by
  have e : ∀ i, (m.toMatrix *ᵥ homV v) i = v.x * m.idx i 0 + v.y * m.idx i 1 + v.z * m.idx i 2 := homV_apply m v
  unfold mapVector
  simp only [← e]
  constructor
  · intro h
    split at h
    · next hw =>
      rw [req_iff] at hw
      rw [Option.some.injEq] at h
      rw [← h]
      funext i
      fin_cases i
      · rfl
      · rfl
      · rfl
      · exact hw
    · exact absurd h (by simp)
  · intro h
    rw [if_pos (by rw [req_iff, h]; rfl), h]
    exact congrArg some (ext3 rfl rfl rfl)

theorem mapVector_none_iff {m : Mat4 ℝ} {v : Vec ℝ 3} : mapVector m v = none ↔ (m.toMatrix *ᵥ homV v) 3 ≠ 0 := by
  rw [homV_apply]
  unfold mapVector
  split
  · next h => rw [req_iff] at h; simpa [Mat4.idx] using h
  · next h => rw [req_iff] at h; simpa [Mat4.idx] using h

theorem homP_inj {p q : Point ℝ 3} (h : homP p = homP q) : p = q :=
  ext3 (congrFun h 0) (congrFun h 1) (congrFun h 2)
theorem homV_inj {p q : Vec ℝ 3} (h : homV p = homV q) : p = q :=
  ext3 (congrFun h 0) (congrFun h 1) (congrFun h 2)

theorem lin_apply (m : Mat4 ℝ) (v : Fin 3 → ℝ) (i : Fin 3) :
    (m.lin *ᵥ v) i = m.data i.castSucc 0 * v 0 + m.data i.castSucc 1 * v 1 + m.data i.castSucc 2 * v 2 := mulVec_three _ _ _

/-- An affine transform maps vectors by its linear part. -/
theorem mapVector_affine {m : Mat4 ℝ} (hm : m.Affine) (v : Vec ℝ 3) : mapVector m v = some ⟨m.lin *ᵥ v.vec⟩ := by
  rw [mapVector_some_iff]
  obtain ⟨h0, h1, h2, -⟩ := hm
  funext i
  rw [homV_apply]
  fin_cases i
  · refine Eq.trans ?_ (lin_apply m v.vec 0).symm
    change v.vec 0 * m.data 0 0 + v.vec 1 * m.data 0 1 + v.vec 2 * m.data 0 2 =
      m.data 0 0 * v.vec 0 + m.data 0 1 * v.vec 1 + m.data 0 2 * v.vec 2
    ring
  · refine Eq.trans ?_ (lin_apply m v.vec 1).symm
    change v.vec 0 * m.data 1 0 + v.vec 1 * m.data 1 1 + v.vec 2 * m.data 1 2 =
      m.data 1 0 * v.vec 0 + m.data 1 1 * v.vec 1 + m.data 1 2 * v.vec 2
    ring
  · refine Eq.trans ?_ (lin_apply m v.vec 2).symm
    change v.vec 0 * m.data 2 0 + v.vec 1 * m.data 2 1 + v.vec 2 * m.data 2 2 =
      m.data 2 0 * v.vec 0 + m.data 2 1 * v.vec 1 + m.data 2 2 * v.vec 2
    ring
  · change v.x * m.data 3 0 + v.y * m.data 3 1 + v.z * m.data 3 2 = 0
    rw [h0, h1, h2]; ring

/-- An affine transform maps points by its linear part followed by its translation. -/
theorem mapPt_affine {m : Mat4 ℝ} (hm : m.Affine) (p : Point ℝ 3) :
    mapPt m p = some ⟨fun i => (m.lin *ᵥ p.vec) i + m.trans i⟩ := by
  obtain ⟨h0, h1, h2, h3⟩ := hm
  have hw : (m.toMatrix *ᵥ homP p) 3 = 1 := by rw [hom_apply, h0, h1, h2, h3]; ring
  rw [mapPt_some_iff, hw]
  refine ⟨one_ne_zero, ?_⟩
  rw [one_smul]
  funext i
  rw [hom_apply]
  fin_cases i
  · change _ = (m.lin *ᵥ p.vec) 0 + m.trans 0
    rw [lin_apply]
    change p.vec 0 * m.data 0 0 + p.vec 1 * m.data 0 1 + p.vec 2 * m.data 0 2 + m.data 0 3 =
      m.data 0 0 * p.vec 0 + m.data 0 1 * p.vec 1 + m.data 0 2 * p.vec 2 + m.data 0 3
    ring
  · change _ = (m.lin *ᵥ p.vec) 1 + m.trans 1
    rw [lin_apply]
    change p.vec 0 * m.data 1 0 + p.vec 1 * m.data 1 1 + p.vec 2 * m.data 1 2 + m.data 1 3 =
      m.data 1 0 * p.vec 0 + m.data 1 1 * p.vec 1 + m.data 1 2 * p.vec 2 + m.data 1 3
    ring
  · change _ = (m.lin *ᵥ p.vec) 2 + m.trans 2
    rw [lin_apply]
    change p.vec 0 * m.data 2 0 + p.vec 1 * m.data 2 1 + p.vec 2 * m.data 2 2 + m.data 2 3 =
      m.data 2 0 * p.vec 0 + m.data 2 1 * p.vec 1 + m.data 2 2 * p.vec 2 + m.data 2 3
    ring
  · change p.x * m.data 3 0 + p.y * m.data 3 1 + p.z * m.data 3 2 + m.data 3 3 = 1
    rw [h0, h1, h2, h3]; ring

/-! ### carrying the inverse -/

theorem Carries.of_mul {t : Transform ℝ} (h : t.m * t.minv = Mat4.identity) : t.Carries := by
  rw [← Mat4.toMatrix_inj, Mat4.mul_real, Mat4.identity_real] at h
  exact ⟨h, mul_eq_one_comm.1 h⟩

theorem Transform.Carries.mul {a b : Transform ℝ} (ha : a.Carries) (hb : b.Carries) : (a * b).Carries := by
  constructor
  · change (a.m * b.m).toMatrix * (b.minv * a.minv).toMatrix = 1
    rw [Mat4.mul_real, Mat4.mul_real, Matrix.mul_assoc, ← Matrix.mul_assoc b.m.toMatrix, hb.1, Matrix.one_mul, ha.1]
  · change (b.minv * a.minv).toMatrix * (a.m * b.m).toMatrix = 1
    rw [Mat4.mul_real, Mat4.mul_real, Matrix.mul_assoc, ← Matrix.mul_assoc a.minv.toMatrix, ha.2, Matrix.one_mul, hb.2]

theorem Transform.Carries.inverse {a : Transform ℝ} (ha : a.Carries) : a.inverse.Carries := ⟨ha.2, ha.1⟩

theorem sin_sq_cos_sq' (a : ℝ) : Real.sin a * Real.sin a + Real.cos a * Real.cos a = 1 := by
  have := Real.sin_sq_add_cos_sq a; nlinarith

/-- An orthonormal triple of vectors. -/
structure Orthonormal3 (x y z : Vec ℝ 3) : Prop where
  xx : x.x * x.x + x.y * x.y + x.z * x.z = 1
  yy : y.x * y.x + y.y * y.y + y.z * y.z = 1
  zz : z.x * z.x + z.y * z.y + z.z * z.z = 1
  xy : x.x * y.x + x.y * y.y + x.z * y.z = 0
  xz : x.x * z.x + x.y * z.y + x.z * z.z = 0
  yz : y.x * z.x + y.y * z.y + y.z * z.z = 0

theorem initFromOrthogonalBasis_carries {pos : Point ℝ 3} {x y z : Vec ℝ 3} (h : Orthonormal3 x y z) :
    (Transform.initFromOrthogonalBasis pos x y z).Carries := by
  obtain ⟨xx, yy, zz, xy, xz, yz⟩ := h
  refine Carries.of_mul ?_
  unfold Transform.initFromOrthogonalBasis
  simp only [dot3]
  ext i j
  rw [Mat4.mul_data, sumLoop_four, rzero]
  fin_cases i <;> fin_cases j
  · change 0 + x.x * x.x + x.y * x.y + x.z * x.z + _ * (0 : ℝ) = 1; linear_combination xx
  · change 0 + x.x * y.x + x.y * y.y + x.z * y.z + _ * (0 : ℝ) = 0; linear_combination xy
  · change 0 + x.x * z.x + x.y * z.y + x.z * z.z + _ * (0 : ℝ) = 0; linear_combination xz
  · change 0 + x.x * pos.x + x.y * pos.y + x.z * pos.z + -(_ : ℝ) * 1 = 0; ring
  · change 0 + y.x * x.x + y.y * x.y + y.z * x.z + _ * (0 : ℝ) = 0; linear_combination xy
  · change 0 + y.x * y.x + y.y * y.y + y.z * y.z + _ * (0 : ℝ) = 1; linear_combination yy
  · change 0 + y.x * z.x + y.y * z.y + y.z * z.z + _ * (0 : ℝ) = 0; linear_combination yz
  · change 0 + y.x * pos.x + y.y * pos.y + y.z * pos.z + -(_ : ℝ) * 1 = 0; ring
  · change 0 + z.x * x.x + z.y * x.y + z.z * x.z + _ * (0 : ℝ) = 0; linear_combination xz
  · change 0 + z.x * y.x + z.y * y.y + z.z * y.z + _ * (0 : ℝ) = 0; linear_combination yz
  · change 0 + z.x * z.x + z.y * z.y + z.z * z.z + _ * (0 : ℝ) = 1; linear_combination zz
  · change 0 + z.x * pos.x + z.y * pos.y + z.z * pos.z + -(_ : ℝ) * 1 = 0; ring
  · change 0 + 0 * _ + 0 * _ + 0 * _ + 1 * (0 : ℝ) = 0; ring
  · change 0 + 0 * _ + 0 * _ + 0 * _ + 1 * (0 : ℝ) = 0; ring
  · change 0 + 0 * _ + 0 * _ + 0 * _ + 1 * (0 : ℝ) = 0; ring
  · change 0 + 0 * _ + 0 * _ + 0 * _ + 1 * (1 : ℝ) = 1; ring

theorem translate_carries (v : Vec ℝ 3) : (Transform.translate v).Carries := by
  refine Carries.of_mul ?_
  unfold Transform.translate
  ext i j
  rw [Mat4.mul_data, sumLoop_four]
  fin_cases i <;> fin_cases j <;> simp [Mat4.identity]

theorem scale_carries (v : Vec ℝ 3) (h : ∀ i, v.vec i ≠ 0) : (Transform.scale v).Carries := by
  refine Carries.of_mul ?_
  have hx : v.x ≠ 0 := h 0
  have hy : v.y ≠ 0 := h 1
  have hz : v.z ≠ 0 := h 2
  unfold Transform.scale
  ext i j
  rw [Mat4.mul_data, sumLoop_four]
  fin_cases i <;> fin_cases j <;> simp [Mat4.identity, hx, hy, hz]

theorem rotateX_carries (a : ℝ) : (Transform.rotateX a).Carries := by
  refine Carries.of_mul ?_
  have h := sin_sq_cos_sq' a
  unfold Transform.rotateX
  ext i j
  rw [Mat4.mul_data, sumLoop_four]
  fin_cases i <;> fin_cases j <;> simp [Mat4.identity] <;> linarith

theorem rotateY_carries (a : ℝ) : (Transform.rotateY a).Carries := by
  refine Carries.of_mul ?_
  have h := sin_sq_cos_sq' a
  unfold Transform.rotateY
  ext i j
  rw [Mat4.mul_data, sumLoop_four]
  fin_cases i <;> fin_cases j <;> simp [Mat4.identity] <;> linarith

theorem rotateZ_carries (a : ℝ) : (Transform.rotateZ a).Carries := by
  refine Carries.of_mul ?_
  have h := sin_sq_cos_sq' a
  unfold Transform.rotateZ
  ext i j
  rw [Mat4.mul_data, sumLoop_four]
  fin_cases i <;> fin_cases j <;> simp [Mat4.identity] <;> linarith

/-- The entries of Rodrigues' rotation matrix. -/
theorem rotate_m (v : Vec ℝ 3) (a : ℝ) :
    (Transform.rotate v a).m =
      (let u := v.normalize; let s := Real.sin a; let c := Real.cos a
       Mat4.mk4 (c + (1 - c) * u.x * u.x) ((1 - c) * u.x * u.y - s * u.z) ((1 - c) * u.x * u.z + s * u.y) 0
        ((1 - c) * u.x * u.y + s * u.z) (c + (1 - c) * u.y * u.y) ((1 - c) * u.y * u.z - s * u.x) 0
        ((1 - c) * u.x * u.z - s * u.y) ((1 - c) * u.y * u.z + s * u.x) (c + (1 - c) * u.z * u.z) 0
        0 0 0 1) := by
  unfold Transform.rotate
  dsimp only [rsinCos, rzero, rone]
  generalize v.normalize = u
  simp only [dot3, x_add, y_add, z_add, x_smul, y_smul, z_smul, x_cross, y_cross, z_cross, x_new3, y_new3, z_new3]
  apply Mat4.mk4_congr <;> ring

theorem rotate_minv (v : Vec ℝ 3) (a : ℝ) : (Transform.rotate v a).minv = (Transform.rotate v a).m.transpose := rfl

theorem unit_normalize {v : Vec ℝ 3} (h : ∃ i, v.vec i ≠ 0) :
    v.normalize.x * v.normalize.x + v.normalize.y * v.normalize.y + v.normalize.z * v.normalize.z = 1 := by
  rw [← squareNorm3, squareNorm_normalize h]

theorem rotate_carries (v : Vec ℝ 3) (a : ℝ) (h : ∃ i, v.vec i ≠ 0) : (Transform.rotate v a).Carries := by
  refine Carries.of_mul ?_
  rw [rotate_minv, rotate_m]
  have hu := unit_normalize h
  have hs := sin_sq_cos_sq' a
  generalize v.normalize = u at *
  generalize Real.sin a = s at *
  generalize Real.cos a = c at *
  ext i j
  rw [Mat4.mul_data, sumLoop_four, rzero]
  fin_cases i <;> fin_cases j
  · change 0 + (c + (1 - c) * u.x * u.x) * (c + (1 - c) * u.x * u.x) + ((1 - c) * u.x * u.y - s * u.z) * ((1 - c) * u.x * u.y - s * u.z) + ((1 - c) * u.x * u.z + s * u.y) * ((1 - c) * u.x * u.z + s * u.y) + 0 * 0 = 1
    linear_combination ((1 - c) ^ 2 * u.x * u.x + s ^ 2) * hu + (1 - u.x * u.x) * hs
  · change 0 + (c + (1 - c) * u.x * u.x) * ((1 - c) * u.x * u.y + s * u.z) + ((1 - c) * u.x * u.y - s * u.z) * (c + (1 - c) * u.y * u.y) + ((1 - c) * u.x * u.z + s * u.y) * ((1 - c) * u.y * u.z - s * u.x) + 0 * 0 = 0
    linear_combination ((1 - c) ^ 2 * u.x * u.y) * hu + (- u.x * u.y) * hs
  · change 0 + (c + (1 - c) * u.x * u.x) * ((1 - c) * u.x * u.z - s * u.y) + ((1 - c) * u.x * u.y - s * u.z) * ((1 - c) * u.y * u.z + s * u.x) + ((1 - c) * u.x * u.z + s * u.y) * (c + (1 - c) * u.z * u.z) + 0 * 0 = 0
    linear_combination ((1 - c) ^ 2 * u.x * u.z) * hu + (- u.x * u.z) * hs
  · change 0 + _ * (0:ℝ) + _ * (0:ℝ) + _ * (0:ℝ) + 0 * 1 = 0; ring
  · change 0 + ((1 - c) * u.x * u.y + s * u.z) * (c + (1 - c) * u.x * u.x) + (c + (1 - c) * u.y * u.y) * ((1 - c) * u.x * u.y - s * u.z) + ((1 - c) * u.y * u.z - s * u.x) * ((1 - c) * u.x * u.z + s * u.y) + 0 * 0 = 0
    linear_combination ((1 - c) ^ 2 * u.x * u.y) * hu + (- u.x * u.y) * hs
  · change 0 + ((1 - c) * u.x * u.y + s * u.z) * ((1 - c) * u.x * u.y + s * u.z) + (c + (1 - c) * u.y * u.y) * (c + (1 - c) * u.y * u.y) + ((1 - c) * u.y * u.z - s * u.x) * ((1 - c) * u.y * u.z - s * u.x) + 0 * 0 = 1
    linear_combination ((1 - c) ^ 2 * u.y * u.y + s ^ 2) * hu + (1 - u.y * u.y) * hs
  · change 0 + ((1 - c) * u.x * u.y + s * u.z) * ((1 - c) * u.x * u.z - s * u.y) + (c + (1 - c) * u.y * u.y) * ((1 - c) * u.y * u.z + s * u.x) + ((1 - c) * u.y * u.z - s * u.x) * (c + (1 - c) * u.z * u.z) + 0 * 0 = 0
    linear_combination ((1 - c) ^ 2 * u.y * u.z) * hu + (- u.y * u.z) * hs
  · change 0 + _ * (0:ℝ) + _ * (0:ℝ) + _ * (0:ℝ) + 0 * 1 = 0; ring
  · change 0 + ((1 - c) * u.x * u.z - s * u.y) * (c + (1 - c) * u.x * u.x) + ((1 - c) * u.y * u.z + s * u.x) * ((1 - c) * u.x * u.y - s * u.z) + (c + (1 - c) * u.z * u.z) * ((1 - c) * u.x * u.z + s * u.y) + 0 * 0 = 0
    linear_combination ((1 - c) ^ 2 * u.x * u.z) * hu + (- u.x * u.z) * hs
  · change 0 + ((1 - c) * u.x * u.z - s * u.y) * ((1 - c) * u.x * u.y + s * u.z) + ((1 - c) * u.y * u.z + s * u.x) * (c + (1 - c) * u.y * u.y) + (c + (1 - c) * u.z * u.z) * ((1 - c) * u.y * u.z - s * u.x) + 0 * 0 = 0
    linear_combination ((1 - c) ^ 2 * u.y * u.z) * hu + (- u.y * u.z) * hs
  · change 0 + ((1 - c) * u.x * u.z - s * u.y) * ((1 - c) * u.x * u.z - s * u.y) + ((1 - c) * u.y * u.z + s * u.x) * ((1 - c) * u.y * u.z + s * u.x) + (c + (1 - c) * u.z * u.z) * (c + (1 - c) * u.z * u.z) + 0 * 0 = 1
    linear_combination ((1 - c) ^ 2 * u.z * u.z + s ^ 2) * hu + (1 - u.z * u.z) * hs
  · change 0 + _ * (0:ℝ) + _ * (0:ℝ) + _ * (0:ℝ) + 0 * 1 = 0; ring
  · change 0 + 0 * _ + 0 * _ + 0 * _ + 1 * (0:ℝ) = 0; ring
  · change 0 + 0 * _ + 0 * _ + 0 * _ + 1 * (0:ℝ) = 0; ring
  · change 0 + 0 * _ + 0 * _ + 0 * _ + 1 * (0:ℝ) = 0; ring
  · change 0 + 0 * _ + 0 * _ + 0 * _ + 1 * (1:ℝ) = 1; ring

/-! ### look_at and perspective -/

theorem cross_ne_zero_iff {a b : Vec ℝ 3} : crossProduct a.vec b.vec ≠ 0 ↔ ∃ i, (a.cross b).vec i ≠ 0 := by
  have e : (a.cross b).vec = crossProduct a.vec b.vec := by rw [cross_apply]; rfl
  rw [← e]
  exact Function.ne_iff

theorem ne_zero_of_cross {a b : Vec ℝ 3} (h : ∃ i, (a.cross b).vec i ≠ 0) : (∃ i, a.vec i ≠ 0) ∧ ∃ i, b.vec i ≠ 0 := by
  constructor
  · by_contra hn
    push Not at hn
    obtain ⟨i, hi⟩ := h
    refine hi ?_
    have h0 : a.x = 0 := hn 0
    have h1 : a.y = 0 := hn 1
    have h2 : a.z = 0 := hn 2
    fin_cases i
    · change (a.cross b).x = 0; simp [h1, h2]
    · change (a.cross b).y = 0; simp [h0, h2]
    · change (a.cross b).z = 0; simp [h0, h1]
  · by_contra hn
    push Not at hn
    obtain ⟨i, hi⟩ := h
    refine hi ?_
    have h0 : b.x = 0 := hn 0
    have h1 : b.y = 0 := hn 1
    have h2 : b.z = 0 := hn 2
    fin_cases i
    · change (a.cross b).x = 0; simp [h1, h2]
    · change (a.cross b).y = 0; simp [h0, h2]
    · change (a.cross b).z = 0; simp [h0, h1]

theorem normalize_comp (a : Vec ℝ 3) :
    a.normalize.x = a.x / a.norm ∧ a.normalize.y = a.y / a.norm ∧ a.normalize.z = a.z / a.norm := ⟨rfl, rfl, rfl⟩

theorem cross_normalize_ne_zero {a b : Vec ℝ 3} (h : ∃ i, (a.cross b).vec i ≠ 0) :
    ∃ i, (a.normalize.cross b.normalize).vec i ≠ 0 := by
  obtain ⟨ha, hb⟩ := ne_zero_of_cross h
  have pa := norm_pos ha
  have pb := norm_pos hb
  obtain ⟨a0, a1, a2⟩ := normalize_comp a
  obtain ⟨b0, b1, b2⟩ := normalize_comp b
  have key : ∀ i, (a.normalize.cross b.normalize).vec i = (a.cross b).vec i / (a.norm * b.norm) := by
    intro i
    fin_cases i
    · change (a.normalize.cross b.normalize).x = (a.cross b).x / _
      rw [x_cross, x_cross, a1, a2, b1, b2]; field_simp
    · change (a.normalize.cross b.normalize).y = (a.cross b).y / _
      rw [y_cross, y_cross, a0, a2, b0, b2]; field_simp
    · change (a.normalize.cross b.normalize).z = (a.cross b).z / _
      rw [z_cross, z_cross, a0, a1, b0, b1]; field_simp
  obtain ⟨i, hi⟩ := h
  exact ⟨i, by rw [key]; exact div_ne_zero hi (mul_pos pa pb).ne'⟩

/-- The three axes computed by `look_at`. -/
theorem lookAt_basis {d up : Vec ℝ 3} (h : ∃ i, (up.cross d).vec i ≠ 0) :
    Orthonormal3 (up.normalize.cross d.normalize).normalize
      (d.normalize.cross (up.normalize.cross d.normalize).normalize) d.normalize := by
  obtain ⟨hu, hd⟩ := ne_zero_of_cross h
  have hc := cross_normalize_ne_zero h
  have uz := unit_normalize hd
  have ux := unit_normalize hc
  have px := norm_pos hc
  obtain ⟨x0, x1, x2⟩ := normalize_comp (up.normalize.cross d.normalize)
  have ox : (up.normalize.cross d.normalize).normalize.x * d.normalize.x +
      (up.normalize.cross d.normalize).normalize.y * d.normalize.y +
      (up.normalize.cross d.normalize).normalize.z * d.normalize.z = 0 := by
    rw [x0, x1, x2]
    simp only [x_cross, y_cross, z_cross]
    field_simp
    ring
  generalize (up.normalize.cross d.normalize).normalize = x at *
  generalize d.normalize = z at *
  constructor
  · exact ux
  · simp only [x_cross, y_cross, z_cross]
    linear_combination uz * (x.x * x.x + x.y * x.y + x.z * x.z) + ux -
      (x.x * z.x + x.y * z.y + x.z * z.z) * ox
  · exact uz
  · simp only [x_cross, y_cross, z_cross]; ring
  · exact ox
  · simp only [x_cross, y_cross, z_cross]; ring

theorem lookAtOk_iff {pos target : Point ℝ 3} {up : Vec ℝ 3} :
    LookAtOk pos target up ↔ ∃ i, (up.cross (pos - target : Vec ℝ 3)).vec i ≠ 0 := cross_ne_zero_iff (b := pos - target)

theorem lookAt_carries {pos target : Point ℝ 3} {up : Vec ℝ 3} (h : LookAtOk pos target up) :
    (Transform.lookAt pos target up).Carries :=
  initFromOrthogonalBasis_carries (lookAt_basis (lookAtOk_iff.1 h))

theorem tan_half_pos {fov : ℝ} (h1 : 0 < fov) (h2 : fov < Real.pi) : 0 < Real.tan (fov * (1 / 2)) :=
  Real.tan_pos_of_pos_of_lt_pi_div_two (by linarith) (by linarith)

theorem perspective_m (fov near far : ℝ) : (Transform.perspective fov near far).m =
    Mat4.mk4 (-(1 / Real.tan (fov * (1 / 2)))) 0 0 0 0 (-(1 / Real.tan (fov * (1 / 2)))) 0 0
      0 0 (far / (far - near)) (far * near / (far - near)) 0 0 1 0 := rfl

theorem perspective_carries {fov near far : ℝ} (h1 : 0 < fov) (h2 : fov < Real.pi) (h3 : 0 < near) (h4 : near < far) :
    (Transform.perspective fov near far).Carries := by
  have ht := tan_half_pos h1 h2
  refine Carries.of_mul (C33_inverse _ ?_).1
  have hn : far - near ≠ 0 := by linarith
  have hf : far ≠ 0 := by linarith
  change (Transform.perspective fov near far).m.toMatrix.det ≠ 0
  rw [perspective_m, Mat4.det_eq]
  generalize Real.tan (fov * (1 / 2)) = t at *
  simp [hn, ht.ne', h3.ne', hf]

end Scarlet
