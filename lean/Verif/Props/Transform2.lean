import Verif.Props.Transform1

/-! C37 (rotations), C38 (look_at), C39 (perspective). -/

namespace Scarlet
open Matrix GVec

/-! ### linear parts -/

theorem Mat4.lin_mul {a b : Mat4 ℝ} (hb : b.Affine) : (a * b).lin = a.lin * b.lin := by
  obtain ⟨h0, h1, h2, -⟩ := hb
  ext i j
  rw [Matrix.mul_apply, Fin.sum_univ_three]
  change sumLoop 4 (fun k => a.data i.castSucc k * b.data k j.castSucc) =
    a.data i.castSucc 0 * b.data 0 j.castSucc + a.data i.castSucc 1 * b.data 1 j.castSucc +
      a.data i.castSucc 2 * b.data 2 j.castSucc
  have : b.data 3 j.castSucc = 0 := by fin_cases j <;> assumption
  rw [sumLoop_four, rzero, this]; ring

theorem Mat4.lin_identity : (Mat4.identity : Mat4 ℝ).lin = 1 := by
  ext i j; fin_cases i <;> fin_cases j <;> rfl

/-- A rigid transform: affine, and its inverse matrix has the transposed linear part. -/
structure Rigid (t : Transform ℝ) : Prop where
  carries : t.Carries
  affine : t.m.Affine
  tr : t.minv.lin = t.m.linᵀ

theorem Rigid.orth {t : Transform ℝ} (h : Rigid t) : t.m.linᵀ * t.m.lin = 1 := by
  have e : t.minv * t.m = Mat4.identity := by
    rw [← Mat4.toMatrix_inj, Mat4.mul_real, Mat4.identity_real]; exact h.carries.2
  rw [← h.tr, ← Mat4.lin_mul h.affine, e, Mat4.lin_identity]

theorem Rigid.dot {t : Transform ℝ} (h : Rigid t) {v w v' w' : Vec ℝ 3} (hv : t.mapVec v = some v') (hw : t.mapVec w = some w') :
    v'.vec ⬝ᵥ w'.vec = v.vec ⬝ᵥ w.vec := by
  unfold Transform.mapVec at hv hw
  rw [mapVector_affine h.affine, Option.some.injEq] at hv hw
  rw [← hv, ← hw]
  change (t.m.lin *ᵥ v.vec) ⬝ᵥ (t.m.lin *ᵥ w.vec) = _
  rw [Matrix.dotProduct_mulVec, Matrix.vecMul_mulVec, h.orth, Matrix.vecMul_one]

theorem Rigid.norm {t : Transform ℝ} (h : Rigid t) {v v' : Vec ℝ 3} (hv : t.mapVec v = some v') : v'.norm = v.norm := by
  rw [norm_real, norm_real, squareNorm_real, squareNorm_real]
  exact congrArg Real.sqrt (h.dot hv hv)

theorem Mat4.mk4_transpose {T : Type} (a b c d e f g h i j k l m n o p : T) :
    (Mat4.mk4 a b c d e f g h i j k l m n o p).transpose = Mat4.mk4 a e i m b f j n c g k o d h l p := rfl
theorem Mat4.lin_transpose (a : Mat4 ℝ) : a.transpose.lin = a.linᵀ := by
  ext i j; fin_cases i <;> fin_cases j <;> rfl

theorem rotateX_minv (a : ℝ) : (Transform.rotateX a).minv = (Transform.rotateX a).m.transpose := by
  unfold Transform.rotateX; dsimp only; rw [Mat4.mk4_transpose]
theorem rotateY_minv (a : ℝ) : (Transform.rotateY a).minv = (Transform.rotateY a).m.transpose := by
  unfold Transform.rotateY; dsimp only; rw [Mat4.mk4_transpose]
theorem rotateZ_minv (a : ℝ) : (Transform.rotateZ a).minv = (Transform.rotateZ a).m.transpose := by
  unfold Transform.rotateZ; dsimp only; rw [Mat4.mk4_transpose]

theorem rotateX_rigid (a : ℝ) : Rigid (.rotateX a) :=
  ⟨rotateX_carries a, ⟨rfl, rfl, rfl, rfl⟩, by rw [rotateX_minv, Mat4.lin_transpose]⟩
theorem rotateY_rigid (a : ℝ) : Rigid (.rotateY a) :=
  ⟨rotateY_carries a, ⟨rfl, rfl, rfl, rfl⟩, by rw [rotateY_minv, Mat4.lin_transpose]⟩
theorem rotateZ_rigid (a : ℝ) : Rigid (.rotateZ a) :=
  ⟨rotateZ_carries a, ⟨rfl, rfl, rfl, rfl⟩, by rw [rotateZ_minv, Mat4.lin_transpose]⟩
theorem rotate_affine (v : Vec ℝ 3) (a : ℝ) : (Transform.rotate v a).m.Affine := by
  rw [rotate_m]; exact ⟨rfl, rfl, rfl, rfl⟩
theorem rotate_rigid (v : Vec ℝ 3) (a : ℝ) (h : ∃ i, v.vec i ≠ 0) : Rigid (.rotate v a) :=
  ⟨rotate_carries v a h, rotate_affine v a, by rw [rotate_minv, Mat4.lin_transpose]⟩

/-! ### C37 -/

/-- The rotations of the API: about a coordinate axis or about a nonzero vector. -/
inductive IsRotation : Transform ℝ → (axis : Vec ℝ 3) → (angle : ℝ) → Prop
  | x (a : ℝ) : IsRotation (.rotateX a) (new3 1 0 0) a
  | y (a : ℝ) : IsRotation (.rotateY a) (new3 0 1 0) a
  | z (a : ℝ) : IsRotation (.rotateZ a) (new3 0 0 1) a
  | axis (v : Vec ℝ 3) (a : ℝ) (h : ∃ i, v.vec i ≠ 0) : IsRotation (.rotate v a) v a

theorem IsRotation.rigid {t : Transform ℝ} {u : Vec ℝ 3} {a : ℝ} (h : IsRotation t u a) : Rigid t := by
  cases h with
  | x => exact rotateX_rigid _
  | y => exact rotateY_rigid _
  | z => exact rotateZ_rigid _
  | axis _ _ h => exact rotate_rigid _ _ h

/-- C37: rotations never panic on vectors, and preserve dot products and lengths. -/
theorem C37_rigid (t : Transform ℝ) (axis : Vec ℝ 3) (a : ℝ) (h : IsRotation t axis a) (v w : Vec ℝ 3) :
    ∃ v' w', t.mapVec v = some v' ∧ t.mapVec w = some w' ∧
      v'.vec ⬝ᵥ w'.vec = v.vec ⬝ᵥ w.vec ∧ Real.sqrt (v'.vec ⬝ᵥ v'.vec) = Real.sqrt (v.vec ⬝ᵥ v.vec) :=
  ⟨_, _, mapVector_affine h.rigid.affine v, mapVector_affine h.rigid.affine w,
   h.rigid.dot (mapVector_affine h.rigid.affine v) (mapVector_affine h.rigid.affine w),
   congrArg _ (h.rigid.dot (mapVector_affine h.rigid.affine v) (mapVector_affine h.rigid.affine v))⟩

theorem rodrigues_aux {t : Transform ℝ} {u : Vec ℝ 3} {a : ℝ} (haff : t.m.Affine)
    (hm : t.m = (let s := Real.sin a; let c := Real.cos a
       Mat4.mk4 (c + (1 - c) * u.x * u.x) ((1 - c) * u.x * u.y - s * u.z) ((1 - c) * u.x * u.z + s * u.y) 0
        ((1 - c) * u.x * u.y + s * u.z) (c + (1 - c) * u.y * u.y) ((1 - c) * u.y * u.z - s * u.x) 0
        ((1 - c) * u.x * u.z - s * u.y) ((1 - c) * u.y * u.z + s * u.x) (c + (1 - c) * u.z * u.z) 0
        0 0 0 1)) (v : Vec ℝ 3) :
    t.mapVec v = some ⟨Real.cos a • v.vec + ((1 - Real.cos a) * (u.vec ⬝ᵥ v.vec)) • u.vec +
      Real.sin a • crossProduct u.vec v.vec⟩ := by
  unfold Transform.mapVec
  rw [mapVector_affine haff, hm]
  have hd : u.vec ⬝ᵥ v.vec = u.vec 0 * v.vec 0 + u.vec 1 * v.vec 1 + u.vec 2 * v.vec 2 := by
    rw [dotProduct, Fin.sum_univ_three]
  congr 1
  ext i
  change (Mat4.lin _ *ᵥ v.vec) i = Real.cos a * v.vec i + (1 - Real.cos a) * (u.vec ⬝ᵥ v.vec) * u.vec i +
    Real.sin a * (crossProduct u.vec v.vec) i
  rw [lin_apply, hd, cross_apply]
  generalize Real.sin a = s
  generalize Real.cos a = c
  fin_cases i
  · change (c + (1 - c) * u.vec 0 * u.vec 0) * v.vec 0 + ((1 - c) * u.vec 0 * u.vec 1 - s * u.vec 2) * v.vec 1 +
        ((1 - c) * u.vec 0 * u.vec 2 + s * u.vec 1) * v.vec 2 =
      c * v.vec 0 + (1 - c) * (u.vec 0 * v.vec 0 + u.vec 1 * v.vec 1 + u.vec 2 * v.vec 2) * u.vec 0 +
        s * (u.vec 1 * v.vec 2 - u.vec 2 * v.vec 1)
    ring
  · change ((1 - c) * u.vec 0 * u.vec 1 + s * u.vec 2) * v.vec 0 + (c + (1 - c) * u.vec 1 * u.vec 1) * v.vec 1 +
        ((1 - c) * u.vec 1 * u.vec 2 - s * u.vec 0) * v.vec 2 =
      c * v.vec 1 + (1 - c) * (u.vec 0 * v.vec 0 + u.vec 1 * v.vec 1 + u.vec 2 * v.vec 2) * u.vec 1 +
        s * (u.vec 2 * v.vec 0 - u.vec 0 * v.vec 2)
    ring
  · change ((1 - c) * u.vec 0 * u.vec 2 - s * u.vec 1) * v.vec 0 + ((1 - c) * u.vec 1 * u.vec 2 + s * u.vec 0) * v.vec 1 +
        (c + (1 - c) * u.vec 2 * u.vec 2) * v.vec 2 =
      c * v.vec 2 + (1 - c) * (u.vec 0 * v.vec 0 + u.vec 1 * v.vec 1 + u.vec 2 * v.vec 2) * u.vec 2 +
        s * (u.vec 0 * v.vec 1 - u.vec 1 * v.vec 0)
    ring

/-- C37: a rotation turns a vector `v` by the given angle about the unit axis `u`, in the right-handed sense:
`cos a · v + (1 - cos a)(u·v) u + sin a · (u × v)` (Rodrigues' formula); for `v ⊥ u` this is
`cos a · v + sin a · (u × v)`. -/
theorem C37_angle (t : Transform ℝ) (axis : Vec ℝ 3) (a : ℝ) (h : IsRotation t axis a) (v : Vec ℝ 3) :
    ∃ u : Fin 3 → ℝ, u ⬝ᵥ u = 1 ∧ (∃ k : ℝ, 0 < k ∧ u = k • axis.vec) ∧
      t.mapVec v = some ⟨Real.cos a • v.vec + ((1 - Real.cos a) * (u ⬝ᵥ v.vec)) • u + Real.sin a • crossProduct u v.vec⟩ := by
  have unit : ∀ x y z : ℝ, (new3 x y z : Vec ℝ 3).vec ⬝ᵥ (new3 x y z : Vec ℝ 3).vec = x * x + y * y + z * z := by
    intro x y z; rw [dotProduct, Fin.sum_univ_three]; rfl
  cases h with
  | x =>
    refine ⟨(new3 1 0 0 : Vec ℝ 3).vec, by rw [unit]; norm_num, ⟨1, one_pos, (one_smul _ _).symm⟩,
      rodrigues_aux (rotateX_rigid a).affine ?_ v⟩
    unfold Transform.rotateX
    simp only [x_new3, y_new3, z_new3, rsinCos, rzero, rone]
    apply Mat4.mk4_congr <;> ring
  | y =>
    refine ⟨(new3 0 1 0 : Vec ℝ 3).vec, by rw [unit]; norm_num, ⟨1, one_pos, (one_smul _ _).symm⟩,
      rodrigues_aux (rotateY_rigid a).affine ?_ v⟩
    unfold Transform.rotateY
    simp only [x_new3, y_new3, z_new3, rsinCos, rzero, rone]
    apply Mat4.mk4_congr <;> ring
  | z =>
    refine ⟨(new3 0 0 1 : Vec ℝ 3).vec, by rw [unit]; norm_num, ⟨1, one_pos, (one_smul _ _).symm⟩,
      rodrigues_aux (rotateZ_rigid a).affine ?_ v⟩
    unfold Transform.rotateZ
    simp only [x_new3, y_new3, z_new3, rsinCos, rzero, rone]
    apply Mat4.mk4_congr <;> ring
  | axis _ _ h =>
    refine ⟨axis.normalize.vec, ?_, ⟨1 / axis.norm, one_div_pos.2 (norm_pos h), ?_⟩,
      rodrigues_aux (rotate_affine _ _) (rotate_m _ _) v⟩
    · have := unit_normalize h
      rw [dotProduct, Fin.sum_univ_three]; exact this
    · funext i; rw [normalize_vec]; change _ = 1 / axis.norm * axis.vec i; ring

/-- C37: the axis is fixed. -/
theorem C37_axis (t : Transform ℝ) (axis : Vec ℝ 3) (a : ℝ) (h : IsRotation t axis a) : t.mapVec axis = some axis := by
  obtain ⟨u, hu, ⟨k, hk, e⟩, hm⟩ := C37_angle t axis a h axis
  rw [hm]
  congr 1
  have ea : axis.vec = k⁻¹ • u := by rw [e, smul_smul, inv_mul_cancel₀ hk.ne', one_smul]
  refine GVec.ext ?_
  rw [ea, dotProduct_smul, hu, map_smul, cross_self, smul_zero, smul_zero, add_zero, smul_smul, ← add_smul]
  dsimp only
  congr 1
  simp only [smul_eq_mul]
  ring

theorem rotate_mul_m (v : Vec ℝ 3) (a b : ℝ) (h : ∃ i, v.vec i ≠ 0) :
    (Transform.rotate v a).m * (Transform.rotate v b).m = (Transform.rotate v (a + b)).m := by
  rw [rotate_m, rotate_m, rotate_m]
  have hu := unit_normalize h
  rw [Real.cos_add, Real.sin_add]
  generalize v.normalize = u at *
  generalize Real.sin a = s at *
  generalize Real.cos a = c at *
  generalize Real.sin b = t at *
  generalize Real.cos b = d at *
  ext i j
  rw [Mat4.mul_data, sumLoop_four, rzero]
  fin_cases i <;> fin_cases j
  · change (0 : ℝ) + (c + (1 - c) * u.x * u.x) * (d + (1 - d) * u.x * u.x) + ((1 - c) * u.x * u.y - s * u.z) * ((1 - d) * u.x * u.y + t * u.z) + ((1 - c) * u.x * u.z + s * u.y) * ((1 - d) * u.x * u.z - t * u.y) + 0 * 0 = ((c * d - s * t) + (1 - (c * d - s * t)) * u.x * u.x)
    linear_combination ((1 - c) * (1 - d) * u.x * u.x - s * t) * hu
  · change (0 : ℝ) + (c + (1 - c) * u.x * u.x) * ((1 - d) * u.x * u.y - t * u.z) + ((1 - c) * u.x * u.y - s * u.z) * (d + (1 - d) * u.y * u.y) + ((1 - c) * u.x * u.z + s * u.y) * ((1 - d) * u.y * u.z + t * u.x) + 0 * 0 = ((1 - (c * d - s * t)) * u.x * u.y - (s * d + c * t) * u.z)
    linear_combination ((1 - c) * (1 - d) * u.x * u.y) * hu
  · change (0 : ℝ) + (c + (1 - c) * u.x * u.x) * ((1 - d) * u.x * u.z + t * u.y) + ((1 - c) * u.x * u.y - s * u.z) * ((1 - d) * u.y * u.z - t * u.x) + ((1 - c) * u.x * u.z + s * u.y) * (d + (1 - d) * u.z * u.z) + 0 * 0 = ((1 - (c * d - s * t)) * u.x * u.z + (s * d + c * t) * u.y)
    linear_combination ((1 - c) * (1 - d) * u.x * u.z) * hu
  · change (0 : ℝ) + (c + (1 - c) * u.x * u.x) * 0 + ((1 - c) * u.x * u.y - s * u.z) * 0 + ((1 - c) * u.x * u.z + s * u.y) * 0 + 0 * 1 = 0
    ring
  · change (0 : ℝ) + ((1 - c) * u.x * u.y + s * u.z) * (d + (1 - d) * u.x * u.x) + (c + (1 - c) * u.y * u.y) * ((1 - d) * u.x * u.y + t * u.z) + ((1 - c) * u.y * u.z - s * u.x) * ((1 - d) * u.x * u.z - t * u.y) + 0 * 0 = ((1 - (c * d - s * t)) * u.x * u.y + (s * d + c * t) * u.z)
    linear_combination ((1 - c) * (1 - d) * u.y * u.x) * hu
  · change (0 : ℝ) + ((1 - c) * u.x * u.y + s * u.z) * ((1 - d) * u.x * u.y - t * u.z) + (c + (1 - c) * u.y * u.y) * (d + (1 - d) * u.y * u.y) + ((1 - c) * u.y * u.z - s * u.x) * ((1 - d) * u.y * u.z + t * u.x) + 0 * 0 = ((c * d - s * t) + (1 - (c * d - s * t)) * u.y * u.y)
    linear_combination ((1 - c) * (1 - d) * u.y * u.y - s * t) * hu
  · change (0 : ℝ) + ((1 - c) * u.x * u.y + s * u.z) * ((1 - d) * u.x * u.z + t * u.y) + (c + (1 - c) * u.y * u.y) * ((1 - d) * u.y * u.z - t * u.x) + ((1 - c) * u.y * u.z - s * u.x) * (d + (1 - d) * u.z * u.z) + 0 * 0 = ((1 - (c * d - s * t)) * u.y * u.z - (s * d + c * t) * u.x)
    linear_combination ((1 - c) * (1 - d) * u.y * u.z) * hu
  · change (0 : ℝ) + ((1 - c) * u.x * u.y + s * u.z) * 0 + (c + (1 - c) * u.y * u.y) * 0 + ((1 - c) * u.y * u.z - s * u.x) * 0 + 0 * 1 = 0
    ring
  · change (0 : ℝ) + ((1 - c) * u.x * u.z - s * u.y) * (d + (1 - d) * u.x * u.x) + ((1 - c) * u.y * u.z + s * u.x) * ((1 - d) * u.x * u.y + t * u.z) + (c + (1 - c) * u.z * u.z) * ((1 - d) * u.x * u.z - t * u.y) + 0 * 0 = ((1 - (c * d - s * t)) * u.x * u.z - (s * d + c * t) * u.y)
    linear_combination ((1 - c) * (1 - d) * u.z * u.x) * hu
  · change (0 : ℝ) + ((1 - c) * u.x * u.z - s * u.y) * ((1 - d) * u.x * u.y - t * u.z) + ((1 - c) * u.y * u.z + s * u.x) * (d + (1 - d) * u.y * u.y) + (c + (1 - c) * u.z * u.z) * ((1 - d) * u.y * u.z + t * u.x) + 0 * 0 = ((1 - (c * d - s * t)) * u.y * u.z + (s * d + c * t) * u.x)
    linear_combination ((1 - c) * (1 - d) * u.z * u.y) * hu
  · change (0 : ℝ) + ((1 - c) * u.x * u.z - s * u.y) * ((1 - d) * u.x * u.z + t * u.y) + ((1 - c) * u.y * u.z + s * u.x) * ((1 - d) * u.y * u.z - t * u.x) + (c + (1 - c) * u.z * u.z) * (d + (1 - d) * u.z * u.z) + 0 * 0 = ((c * d - s * t) + (1 - (c * d - s * t)) * u.z * u.z)
    linear_combination ((1 - c) * (1 - d) * u.z * u.z - s * t) * hu
  · change (0 : ℝ) + ((1 - c) * u.x * u.z - s * u.y) * 0 + ((1 - c) * u.y * u.z + s * u.x) * 0 + (c + (1 - c) * u.z * u.z) * 0 + 0 * 1 = 0
    ring
  · change (0 : ℝ) + 0 * (d + (1 - d) * u.x * u.x) + 0 * ((1 - d) * u.x * u.y + t * u.z) + 0 * ((1 - d) * u.x * u.z - t * u.y) + 1 * 0 = 0
    ring
  · change (0 : ℝ) + 0 * ((1 - d) * u.x * u.y - t * u.z) + 0 * (d + (1 - d) * u.y * u.y) + 0 * ((1 - d) * u.y * u.z + t * u.x) + 1 * 0 = 0
    ring
  · change (0 : ℝ) + 0 * ((1 - d) * u.x * u.z + t * u.y) + 0 * ((1 - d) * u.y * u.z - t * u.x) + 0 * (d + (1 - d) * u.z * u.z) + 1 * 0 = 0
    ring
  · change (0 : ℝ) + 0 * 0 + 0 * 0 + 0 * 0 + 1 * 1 = 1
    ring

/-- C37: rotations about the same axis compose by adding the angles. -/
theorem C37_add (a b : ℝ) (v : Vec ℝ 3) (h : ∃ i, v.vec i ≠ 0) :
    (Transform.rotateX a * Transform.rotateX b : Transform ℝ) = .rotateX (a + b) ∧
    (Transform.rotateY a * Transform.rotateY b : Transform ℝ) = .rotateY (a + b) ∧
    (Transform.rotateZ a * Transform.rotateZ b : Transform ℝ) = .rotateZ (a + b) ∧
    (Transform.rotate v a * Transform.rotate v b : Transform ℝ) = .rotate v (a + b) := by
  have ext : ∀ t₁ t₂ : Transform ℝ, t₁.m = t₂.m → t₁.minv = t₁.m.transpose → t₂.minv = t₂.m.transpose → t₁ = t₂ := by
    intro t₁ t₂ e e1 e2; refine Transform.ext e ?_; rw [e1, e2, e]
  have mulT : ∀ t₁ t₂ : Transform ℝ, t₁.minv = t₁.m.transpose → t₂.minv = t₂.m.transpose →
      (t₁ * t₂).minv = (t₁ * t₂).m.transpose := by
    intro t₁ t₂ e1 e2
    change t₂.minv * t₁.minv = (t₁.m * t₂.m).transpose
    rw [e1, e2, (C32_transpose t₁.m t₂.m).1]
  refine ⟨ext _ _ ?_ (mulT _ _ (rotateX_minv a) (rotateX_minv b)) (rotateX_minv _),
    ext _ _ ?_ (mulT _ _ (rotateY_minv a) (rotateY_minv b)) (rotateY_minv _),
    ext _ _ ?_ (mulT _ _ (rotateZ_minv a) (rotateZ_minv b)) (rotateZ_minv _),
    ext _ _ ?_ (mulT _ _ (rotate_minv v a) (rotate_minv v b)) (rotate_minv _ _)⟩
  · change (Transform.rotateX a).m * (Transform.rotateX b).m = _
    unfold Transform.rotateX
    simp only [rsinCos, rzero, rone, Real.cos_add, Real.sin_add]
    ext i j
    rw [Mat4.mul_data, sumLoop_four, rzero]
    fin_cases i <;> fin_cases j <;> simp <;> ring
  · change (Transform.rotateY a).m * (Transform.rotateY b).m = _
    unfold Transform.rotateY
    simp only [rsinCos, rzero, rone, Real.cos_add, Real.sin_add]
    ext i j
    rw [Mat4.mul_data, sumLoop_four, rzero]
    fin_cases i <;> fin_cases j <;> simp <;> ring
  · change (Transform.rotateZ a).m * (Transform.rotateZ b).m = _
    unfold Transform.rotateZ
    simp only [rsinCos, rzero, rone, Real.cos_add, Real.sin_add]
    ext i j
    rw [Mat4.mul_data, sumLoop_four, rzero]
    fin_cases i <;> fin_cases j <;> simp <;> ring
  · exact rotate_mul_m v a b h

/-- C37: the determinant of a rotation is 1. -/
theorem C37_det (t : Transform ℝ) (axis : Vec ℝ 3) (a : ℝ) (h : IsRotation t axis a) : t.matrix.toMatrix.det = 1 := by
  have aux : ∀ (f : ℝ → Transform ℝ) (_ : ∀ a, (f a).Carries) (_ : ∀ a, (f a).minv = (f a).m.transpose)
      (_ : ∀ a b, f a * f b = f (a + b)) (a : ℝ), (f a).m.toMatrix.det = 1 := by
    intro f hc ht hm a
    have h1 : (f a).m.toMatrix.det = (f (a / 2)).m.toMatrix.det * (f (a / 2)).m.toMatrix.det := by
      rw [← Matrix.det_mul, ← Mat4.mul_real]
      change _ = ((f (a / 2) * f (a / 2)).m).toMatrix.det
      rw [hm, add_halves]
    have h2 : (f a).m.toMatrix.det * (f a).m.toMatrix.det = 1 := by
      have := congrArg Matrix.det (hc a).1
      rwa [ht, Mat4.transpose_eq, Matrix.det_mul, Matrix.det_transpose, Matrix.det_one] at this
    have h3 : 0 ≤ (f a).m.toMatrix.det := by rw [h1]; exact mul_self_nonneg _
    nlinarith
  have ne : ∃ i, (new3 1 0 0 : Vec ℝ 3).vec i ≠ 0 := ⟨0, by simp⟩
  cases h with
  | x => exact aux Transform.rotateX rotateX_carries rotateX_minv (fun a b => (C37_add a b _ ne).1) a
  | y => exact aux Transform.rotateY rotateY_carries rotateY_minv (fun a b => (C37_add a b _ ne).2.1) a
  | z => exact aux Transform.rotateZ rotateZ_carries rotateZ_minv (fun a b => (C37_add a b _ ne).2.2.1) a
  | axis _ _ h =>
    exact aux (Transform.rotate axis) (fun a => rotate_carries _ a h) (rotate_minv _)
      (fun a b => (C37_add a b _ h).2.2.2) a

theorem norm_axis {k x y z : ℝ} (hk : 0 < k) (h : x * x + y * y + z * z = 1) :
    (new3 (k * x) (k * y) (k * z) : Vec ℝ 3).normalize = new3 x y z := by
  have hn : (new3 (k * x) (k * y) (k * z) : Vec ℝ 3).norm = k := by
    rw [norm_real, squareNorm3]
    simp only [x_new3, y_new3, z_new3]
    rw [show k * x * (k * x) + k * y * (k * y) + k * z * (k * z) = k * k by linear_combination k * k * h]
    exact Real.sqrt_mul_self hk.le
  obtain ⟨a0, a1, a2⟩ := normalize_comp (new3 (k * x) (k * y) (k * z) : Vec ℝ 3)
  rw [hn] at a0 a1 a2
  refine ext3 ?_ ?_ ?_
  · rw [a0]; simp only [x_new3]; field_simp
  · rw [a1]; simp only [y_new3]; field_simp
  · rw [a2]; simp only [z_new3]; field_simp

/-- C37: `rotate` about a (positive multiple of a) coordinate axis is the dedicated constructor. -/
theorem C37_agree (k a : ℝ) (hk : 0 < k) :
    (Transform.rotate (new3 k 0 0) a : Transform ℝ) = .rotateX a ∧
    (Transform.rotate (new3 0 k 0) a : Transform ℝ) = .rotateY a ∧
    (Transform.rotate (new3 0 0 k) a : Transform ℝ) = .rotateZ a := by
  have ext : ∀ t₁ t₂ : Transform ℝ, t₁.m = t₂.m → t₁.minv = t₁.m.transpose → t₂.minv = t₂.m.transpose → t₁ = t₂ := by
    intro t₁ t₂ e e1 e2; refine Transform.ext e ?_; rw [e1, e2, e]
  have n0 : (new3 k 0 0 : Vec ℝ 3).normalize = new3 1 0 0 := by
    have := norm_axis (x := 1) (y := 0) (z := 0) hk (by norm_num); simpa using this
  have n1 : (new3 0 k 0 : Vec ℝ 3).normalize = new3 0 1 0 := by
    have := norm_axis (x := 0) (y := 1) (z := 0) hk (by norm_num); simpa using this
  have n2 : (new3 0 0 k : Vec ℝ 3).normalize = new3 0 0 1 := by
    have := norm_axis (x := 0) (y := 0) (z := 1) hk (by norm_num); simpa using this
  refine ⟨ext _ _ ?_ (rotate_minv _ _) (rotateX_minv _), ext _ _ ?_ (rotate_minv _ _) (rotateY_minv _),
    ext _ _ ?_ (rotate_minv _ _) (rotateZ_minv _)⟩
  · rw [rotate_m, n0]; unfold Transform.rotateX; simp only [x_new3, y_new3, z_new3, rsinCos, rzero, rone]
    apply Mat4.mk4_congr <;> ring
  · rw [rotate_m, n1]; unfold Transform.rotateY; simp only [x_new3, y_new3, z_new3, rsinCos, rzero, rone]
    apply Mat4.mk4_congr <;> ring
  · rw [rotate_m, n2]; unfold Transform.rotateZ; simp only [x_new3, y_new3, z_new3, rsinCos, rzero, rone]
    apply Mat4.mk4_congr <;> ring

/-- The hypotheses are met by an oblique axis; the quarter turn about z takes x to y. -/
example : IsRotation (.rotate (new3 1 2 3) 1) (new3 1 2 3) 1 ∧
    (Transform.rotateZ (Real.pi / 2)).mapVec (new3 1 0 0 : Vec ℝ 3) = some (new3 0 1 0) := by
  refine ⟨.axis _ _ ⟨0, by simp⟩, ?_⟩
  rw [Transform.mapVec, mapVector_some_iff]
  funext i
  rw [homV_apply]
  unfold Transform.rotateZ
  fin_cases i <;> simp [homV]

/-! ### C38 -/

theorem initFromOrthogonalBasis_lin (pos : Point ℝ 3) (x y z : Vec ℝ 3) :
    (Transform.initFromOrthogonalBasis pos x y z).minv.lin = (Transform.initFromOrthogonalBasis pos x y z).m.linᵀ := by
  unfold Transform.initFromOrthogonalBasis
  ext i j; fin_cases i <;> fin_cases j <;> rfl

theorem lookAt_rigid {pos target : Point ℝ 3} {up : Vec ℝ 3} (h : LookAtOk pos target up) :
    Rigid (.lookAt pos target up) :=
  ⟨lookAt_carries h, ⟨rfl, rfl, rfl, rfl⟩, by
    unfold Transform.lookAt; dsimp only; rw [initFromOrthogonalBasis_lin]⟩

/-- C38: `look_at` maps the camera position to the origin. -/
theorem C38_pos (pos target : Point ℝ 3) (up : Vec ℝ 3) :
    (Transform.lookAt pos target up).mapPoint pos = some (new3 0 0 0) := by
  unfold Transform.lookAt
  dsimp only
  generalize ((up.normalize).cross (pos - target : Vec ℝ 3).normalize).normalize = x
  generalize (pos - target : Vec ℝ 3).normalize = z
  generalize z.cross x = y
  rw [Transform.mapPoint, mapPt_some_iff]
  unfold Transform.initFromOrthogonalBasis
  simp only [dot3]
  have e : ((Mat4.mk4 x.x x.y x.z (-(x.x * pos.x + x.y * pos.y + x.z * pos.z))
      y.x y.y y.z (-(y.x * pos.x + y.y * pos.y + y.z * pos.z))
      z.x z.y z.z (-(z.x * pos.x + z.y * pos.y + z.z * pos.z)) (Scalar.zero : ℝ) Scalar.zero Scalar.zero
      Scalar.one).toMatrix *ᵥ homP pos) = ![0, 0, 0, 1] := by
    funext i; rw [hom_apply]
    fin_cases i <;> simp <;> ring
  rw [e]
  refine ⟨one_ne_zero, ?_⟩
  change ![0, 0, 0, 1] = (1 : ℝ) • homP _
  rw [one_smul]; rfl

/-- C38: `look_at` maps the target to the point at distance `|target - pos|` on the negative z axis. -/
theorem C38_target (pos target : Point ℝ 3) (up : Vec ℝ 3) (h : LookAtOk pos target up) :
    (Transform.lookAt pos target up).mapPoint target =
      some (new3 0 0 (-Real.sqrt (∑ i, (target.vec i - pos.vec i) ^ 2))) := by
  have hd := (ne_zero_of_cross (lookAtOk_iff.1 h)).2
  have pd := norm_pos hd
  have hdist : Real.sqrt (∑ i, (target.vec i - pos.vec i) ^ 2) = (pos - target : Vec ℝ 3).norm := by
    rw [norm_real, squareNorm_real]
    congr 1
    exact Finset.sum_congr rfl fun i _ => by rw [vec_psub]; ring
  rw [hdist]
  have ho := lookAt_basis (lookAtOk_iff.1 h)
  unfold Transform.lookAt
  have ez : ∀ i, (pos.vec i - target.vec i) = (pos - target : Vec ℝ 3).normalize.vec i * (pos - target : Vec ℝ 3).norm := by
    intro i; rw [normalize_vec, div_mul_cancel₀ _ pd.ne']; rfl
  dsimp only
  have e0 : target.x = pos.x - (pos - target : Vec ℝ 3).normalize.x * (pos - target : Vec ℝ 3).norm :=
    (eq_sub_of_add_eq' (eq_sub_iff_add_eq.1 (ez 0).symm))
  have e1 : target.y = pos.y - (pos - target : Vec ℝ 3).normalize.y * (pos - target : Vec ℝ 3).norm :=
    (eq_sub_of_add_eq' (eq_sub_iff_add_eq.1 (ez 1).symm))
  have e2 : target.z = pos.z - (pos - target : Vec ℝ 3).normalize.z * (pos - target : Vec ℝ 3).norm :=
    (eq_sub_of_add_eq' (eq_sub_iff_add_eq.1 (ez 2).symm))
  clear ez hdist
  generalize ((up.normalize).cross (pos - target : Vec ℝ 3).normalize).normalize = x at *
  generalize (pos - target : Vec ℝ 3).normalize = z at *
  generalize (pos - target : Vec ℝ 3).norm = d at *
  generalize z.cross x = y at *
  obtain ⟨xx, yy, zz, xy, xz, yz⟩ := ho
  rw [Transform.mapPoint, mapPt_some_iff]
  unfold Transform.initFromOrthogonalBasis
  simp only [dot3]
  have e : ((Mat4.mk4 x.x x.y x.z (-(x.x * pos.x + x.y * pos.y + x.z * pos.z))
      y.x y.y y.z (-(y.x * pos.x + y.y * pos.y + y.z * pos.z))
      z.x z.y z.z (-(z.x * pos.x + z.y * pos.y + z.z * pos.z)) (Scalar.zero : ℝ) Scalar.zero Scalar.zero
      Scalar.one).toMatrix *ᵥ homP target) = ![0, 0, -d, 1] := by
    funext i; rw [hom_apply, e0, e1, e2]
    fin_cases i <;> simp
    · linear_combination -d * xz
    · linear_combination -d * yz
    · linear_combination -d * zz
  rw [e]
  refine ⟨one_ne_zero, ?_⟩
  change ![0, 0, -d, 1] = (1 : ℝ) • homP _
  rw [one_smul]; rfl

/-- C38: lengths and dot products of vectors are preserved. -/
theorem C38_lengths (pos target : Point ℝ 3) (up : Vec ℝ 3) (h : LookAtOk pos target up) (v w : Vec ℝ 3) :
    ∃ v' w', (Transform.lookAt pos target up).mapVec v = some v' ∧ (Transform.lookAt pos target up).mapVec w = some w' ∧
      v'.vec ⬝ᵥ w'.vec = v.vec ⬝ᵥ w.vec ∧ Real.sqrt (v'.vec ⬝ᵥ v'.vec) = Real.sqrt (v.vec ⬝ᵥ v.vec) := by
  have hr := lookAt_rigid h
  exact ⟨_, _, mapVector_affine hr.affine v, mapVector_affine hr.affine w,
   hr.dot (mapVector_affine hr.affine v) (mapVector_affine hr.affine w),
   congrArg _ (hr.dot (mapVector_affine hr.affine v) (mapVector_affine hr.affine v))⟩

/-- C38: `map_inverse` of the y axis is a unit vector, a positive multiple of the component of `up` orthogonal to the
viewing direction `target - pos`. -/
theorem C38_up (pos target : Point ℝ 3) (up : Vec ℝ 3) (h : LookAtOk pos target up) :
    ∃ (r : Vec ℝ 3) (k l : ℝ), (Transform.lookAt pos target up).mapVecInv (new3 0 1 0) = some r ∧
      r.vec ⬝ᵥ r.vec = 1 ∧ r.vec ⬝ᵥ (fun i => target.vec i - pos.vec i) = 0 ∧
      0 < k ∧ ∀ i, r.vec i = k * (up.vec i - l * (target.vec i - pos.vec i)) := by
  have hc := lookAtOk_iff.1 h
  have ho := lookAt_basis hc
  obtain ⟨hu, hd⟩ := ne_zero_of_cross hc
  have pu := norm_pos hu
  have pd := norm_pos hd
  have pc := norm_pos (cross_normalize_ne_zero hc)
  have zz := unit_normalize hd
  have haff : (Transform.lookAt pos target up).minv.Affine := ⟨rfl, rfl, rfl, rfl⟩
  obtain ⟨d0, d1, d2⟩ := normalize_comp (pos - target : Vec ℝ 3)
  obtain ⟨u0, u1, u2⟩ := normalize_comp up
  obtain ⟨c0, c1, c2⟩ := normalize_comp (up.normalize.cross (pos - target : Vec ℝ 3).normalize)
  set z := (pos - target : Vec ℝ 3).normalize with hz
  set x := (up.normalize.cross z).normalize with hx
  set N := (up.normalize.cross z).norm with hN
  set q := up.normalize.x * z.x + up.normalize.y * z.y + up.normalize.z * z.z with hq
  refine ⟨z.cross x, 1 / (N * up.norm), -q * up.norm / (pos - target : Vec ℝ 3).norm, ?_, ?_, ?_, by positivity, ?_⟩
  · refine (mapVector_affine haff (new3 0 1 0)).trans (congrArg some ?_)
    refine ext3 ?_ ?_ ?_
    · refine (lin_apply _ _ 0).trans ?_
      change x.x * 0 + (z.cross x).x * 1 + z.x * (0 : ℝ) = _; ring
    · refine (lin_apply _ _ 1).trans ?_
      change x.y * 0 + (z.cross x).y * 1 + z.y * (0 : ℝ) = _; ring
    · refine (lin_apply _ _ 2).trans ?_
      change x.z * 0 + (z.cross x).z * 1 + z.z * (0 : ℝ) = _; ring
  · rw [dotProduct, Fin.sum_univ_three]; exact ho.yy
  · rw [dotProduct, Fin.sum_univ_three]
    have := ho.yz
    rw [d0, d1, d2] at this
    simp only [x_psub, y_psub, z_psub] at this
    change (z.cross x).x * (target.x - pos.x) + (z.cross x).y * (target.y - pos.y) + (z.cross x).z * (target.z - pos.z) = 0
    have e := congrArg (· * -(pos - target : Vec ℝ 3).norm) this
    simp only [zero_mul] at e
    rw [← e]
    field_simp
    ring
  · have k0 : ∀ i, z.vec i * (pos - target : Vec ℝ 3).norm = pos.vec i - target.vec i := by
      intro i; rw [hz, normalize_vec, div_mul_cancel₀ _ pd.ne']; rfl
    have ku : ∀ i, up.normalize.vec i * up.norm = up.vec i := by
      intro i; rw [normalize_vec, div_mul_cancel₀ _ pu.ne']
    have key : ∀ i, (z.cross x).vec i = (up.normalize.vec i - q * z.vec i) / N := by
      intro i
      fin_cases i
      · change (z.cross x).x = (up.normalize.x - q * z.x) / N
        rw [x_cross, c1, c2, hq]; simp only [y_cross, z_cross]
        field_simp
        linear_combination up.normalize.x * zz
      · change (z.cross x).y = (up.normalize.y - q * z.y) / N
        rw [y_cross, c0, c2, hq]; simp only [x_cross, z_cross]
        field_simp
        linear_combination up.normalize.y * zz
      · change (z.cross x).z = (up.normalize.z - q * z.z) / N
        rw [z_cross, c0, c1, hq]; simp only [x_cross, y_cross]
        field_simp
        linear_combination up.normalize.z * zz
    intro i
    rw [key, ← ku i, show target.vec i - pos.vec i = -(z.vec i * (pos - target : Vec ℝ 3).norm) by rw [k0]; ring]
    have pd' := pd.ne'
    have pu' := pu.ne'
    have pc' : N ≠ 0 := pc.ne'
    field_simp

/-- The hypothesis of C38 is met by a camera at (1,2,3) looking at the origin, and not met when `up` points along the
viewing direction. -/
example : LookAtOk (new3 1 2 3) (new3 0 0 0) (new3 0 1 0) ∧ ¬ LookAtOk (new3 0 5 0) (new3 0 0 0) (new3 0 1 0) := by
  constructor
  · rw [lookAtOk_iff]
    refine ⟨0, ?_⟩
    change ((new3 0 1 0 : Vec ℝ 3).cross _).x ≠ 0
    simp
  · rw [lookAtOk_iff]
    rintro ⟨i, hi⟩
    refine hi ?_
    fin_cases i
    · change ((new3 0 1 0 : Vec ℝ 3).cross _).x = 0; simp
    · change ((new3 0 1 0 : Vec ℝ 3).cross _).y = 0; simp
    · change ((new3 0 1 0 : Vec ℝ 3).cross _).z = 0; simp

/-! ### C39 -/

/-- C39: a point in front of the camera (`z < 0`) is mapped without panic to
`(x / (-z tan), y / (-z tan), far (z + near) / ((far - near) z))`. -/
theorem C39_formula (fov near far : ℝ) (h1 : 0 < fov) (h2 : fov < Real.pi) (h4 : near < far)
    (p : Point ℝ 3) (hz : p.z < 0) :
    (Transform.perspective fov near far).mapPoint p = some (new3 (p.x / (-p.z * Real.tan (fov / 2)))
      (p.y / (-p.z * Real.tan (fov / 2))) (far * (p.z + near) / ((far - near) * p.z))) := by
  have ht := tan_half_pos h1 h2
  have hn : far - near ≠ 0 := by linarith
  rw [show fov / 2 = fov * (1 / 2) by ring]
  rw [Transform.mapPoint, mapPt_some_iff, perspective_m]
  generalize Real.tan (fov * (1 / 2)) = t at *
  have hz' := hz.ne
  have ht' := ht.ne'
  have e3 : ((Mat4.mk4 (-(1 / t)) 0 0 0 0 (-(1 / t)) 0 0 0 0 (far / (far - near)) (far * near / (far - near)) 0 0 1 0).toMatrix
      *ᵥ homP p) 3 = p.z := by rw [hom_apply]; simp
  refine ⟨by rw [e3]; exact hz', ?_⟩
  rw [e3]
  funext i
  rw [hom_apply]
  fin_cases i
  · change p.x * -(1 / t) + p.y * 0 + p.z * 0 + 0 = p.z * (p.x / (-p.z * t)); field_simp; ring
  · change p.x * 0 + p.y * -(1 / t) + p.z * 0 + 0 = p.z * (p.y / (-p.z * t)); field_simp; ring
  · change p.x * 0 + p.y * 0 + p.z * (far / (far - near)) + far * near / (far - near) =
      p.z * (far * (p.z + near) / ((far - near) * p.z))
    field_simp; ring
  · change p.x * 0 + p.y * 0 + p.z * 1 + 0 = p.z * 1; ring

/-- C39: among the points in front of the camera exactly those of the viewing frustum are mapped into the box
`[-1,1] × [-1,1] × [0,1]`; exactly the near plane is mapped to `z = 0` and exactly the far plane to `z = 1`. -/
theorem C39_frustum (fov near far : ℝ) (h1 : 0 < fov) (h2 : fov < Real.pi) (h3 : 0 < near) (h4 : near < far)
    (p : Point ℝ 3) (hz : p.z < 0) :
    ∃ q, (Transform.perspective fov near far).mapPoint p = some q ∧
      (((|q.x| ≤ 1 ∧ |q.y| ≤ 1) ∧ 0 ≤ q.z ∧ q.z ≤ 1) ↔
        ((|p.x| ≤ -p.z * Real.tan (fov / 2) ∧ |p.y| ≤ -p.z * Real.tan (fov / 2)) ∧ -far ≤ p.z ∧ p.z ≤ -near)) ∧
      (q.z = 0 ↔ p.z = -near) ∧ (q.z = 1 ↔ p.z = -far) := by
  refine ⟨_, C39_formula fov near far h1 h2 h4 p hz, ?_⟩
  have ht := tan_half_pos h1 h2
  rw [show fov * (1 / 2) = fov / 2 by ring] at ht
  simp only [x_new3, y_new3, z_new3]
  have hn : 0 < far - near := by linarith
  have hf : 0 < far := by linarith
  have hD : (far - near) * p.z < 0 := mul_neg_of_pos_of_neg hn hz
  have hB : 0 < -p.z * Real.tan (fov / 2) := mul_pos (by linarith) ht
  generalize Real.tan (fov / 2) = t at *
  have a1 : ∀ x : ℝ, |x / (-p.z * t)| ≤ 1 ↔ |x| ≤ -p.z * t := by
    intro x; rw [abs_div, abs_of_pos hB, div_le_one hB]
  have a2 : 0 ≤ far * (p.z + near) / ((far - near) * p.z) ↔ p.z ≤ -near := by
    rw [div_nonneg_iff]
    constructor
    · rintro (⟨_, h⟩ | ⟨h, _⟩)
      · linarith
      · have := nonpos_of_mul_nonpos_right h hf; linarith
    · intro h
      exact Or.inr ⟨mul_nonpos_of_nonneg_of_nonpos hf.le (by linarith), hD.le⟩
  have a3 : far * (p.z + near) / ((far - near) * p.z) ≤ 1 ↔ -far ≤ p.z := by
    rw [div_le_one_of_neg hD]
    constructor
    · intro h; nlinarith
    · intro h; nlinarith
  refine ⟨by rw [a1, a1, a2, a3, and_comm (a := p.z ≤ -near)], ?_, ?_⟩
  · rw [div_eq_zero_iff, or_iff_left hD.ne, mul_eq_zero, or_iff_right hf.ne']
    constructor <;> intro h <;> linarith
  · rw [div_eq_one_iff_eq hD.ne]
    constructor
    · intro h; nlinarith
    · intro h; rw [h]; ring

/-- The hypotheses of C39 are met, with a point inside the frustum. -/
example : (0 : ℝ) < Real.pi / 2 ∧ Real.pi / 2 < Real.pi ∧ (new3 1 0 (-2) : Point ℝ 3).z < 0 ∧
    |(new3 1 0 (-2) : Point ℝ 3).x| ≤ -(new3 1 0 (-2) : Point ℝ 3).z * Real.tan (Real.pi / 2 / 2) := by
  have := Real.pi_pos
  refine ⟨by linarith, by linarith, by simp, ?_⟩
  rw [show Real.pi / 2 / 2 = Real.pi / 4 by ring, Real.tan_pi_div_four]
  simp

end Scarlet
