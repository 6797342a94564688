import Verif.Props.Transform2
import Mathlib.LinearAlgebra.Matrix.Determinant.Basic
import Mathlib.LinearAlgebra.Matrix.Adjugate

/-! Affine and rigid transforms over `ℝ`: extensionality, closure, the rows of a rotation matrix. -/

namespace Scarlet
open Matrix GVec

/-- Two transforms that carry their inverses agree when their matrices do. -/
theorem Carries.ext {s t : Transform ℝ} (hs : s.Carries) (ht : t.Carries) (h : s.m = t.m) : s = t := by
  refine Transform.ext h ((Mat4.toMatrix_inj).1 ?_)
  have := hs.2
  rw [h] at this
  exact left_inv_eq_right_inv this ht.1

theorem Mat4.affine_ext {a b : Mat4 ℝ} (ha : a.Affine) (hb : b.Affine) (hl : a.lin = b.lin) (ht : a.trans = b.trans) :
    a = b := by
  obtain ⟨a0, a1, a2, a3⟩ := ha
  obtain ⟨b0, b1, b2, b3⟩ := hb
  have l : ∀ i j : Fin 3, a.data i.castSucc j.castSucc = b.data i.castSucc j.castSucc := fun i j => congrFun (congrFun hl i) j
  have t : ∀ i : Fin 3, a.data i.castSucc 3 = b.data i.castSucc 3 := fun i => congrFun ht i
  ext i j
  fin_cases i <;> fin_cases j
  · exact l 0 0
  · exact l 0 1
  · exact l 0 2
  · exact t 0
  · exact l 1 0
  · exact l 1 1
  · exact l 1 2
  · exact t 1
  · exact l 2 0
  · exact l 2 1
  · exact l 2 2
  · exact t 2
  · exact a0.trans b0.symm
  · exact a1.trans b1.symm
  · exact a2.trans b2.symm
  · exact a3.trans b3.symm

theorem Mat4.Affine.mul {a b : Mat4 ℝ} (ha : a.Affine) (hb : b.Affine) : (a * b).Affine := by
  obtain ⟨a0, a1, a2, a3⟩ := ha
  obtain ⟨b0, b1, b2, b3⟩ := hb
  refine ⟨?_, ?_, ?_, ?_⟩ <;> rw [Mat4.mul_data, sumLoop_four, rzero, a0, a1, a2, a3]
  · rw [b0]; ring
  · rw [b1]; ring
  · rw [b2]; ring
  · rw [b3]; ring

theorem Mat4.trans_mul {a b : Mat4 ℝ} (hb : b.Affine) : (a * b).trans = a.lin *ᵥ b.trans + a.trans := by
  obtain ⟨-, -, -, b3⟩ := hb
  funext i
  rw [Pi.add_apply, mulVec_three]
  change sumLoop 4 (fun k => a.data i.castSucc k * b.data k 3) =
    a.data i.castSucc 0 * b.data 0 3 + a.data i.castSucc 1 * b.data 1 3 + a.data i.castSucc 2 * b.data 2 3 + a.data i.castSucc 3
  rw [sumLoop_four, rzero, b3]; ring

theorem Mat4.det_affine {a : Mat4 ℝ} (ha : a.Affine) : a.toMatrix.det = a.lin.det := by
  obtain ⟨a0, a1, a2, a3⟩ := ha
  rw [Matrix.det_succ_row _ 3, Fin.sum_univ_four]
  have e0 : a.toMatrix 3 0 = 0 := a0
  have e1 : a.toMatrix 3 1 = 0 := a1
  have e2 : a.toMatrix 3 2 = 0 := a2
  have e3 : a.toMatrix 3 3 = 1 := a3
  rw [e0, e1, e2, e3]
  have : a.toMatrix.submatrix (Fin.succAbove 3) (Fin.succAbove 3) = a.lin := by
    ext i j; fin_cases i <;> fin_cases j <;> rfl
  rw [this, show ((3 : Fin 4) : ℕ) + ((3 : Fin 4) : ℕ) = 6 from rfl]
  ring

theorem Transform.Carries.affine_inv {t : Transform ℝ} (h : t.Carries) (ha : t.m.Affine) : t.minv.Affine := by
  obtain ⟨a0, a1, a2, a3⟩ := ha
  have e : ∀ j, (t.minv.toMatrix * t.m.toMatrix) 3 j = (1 : Matrix (Fin 4) (Fin 4) ℝ) 3 j := fun j => by rw [h.2]
  have f : ∀ j, (t.m.toMatrix * t.minv.toMatrix) 3 j = (1 : Matrix (Fin 4) (Fin 4) ℝ) 3 j := fun j => by rw [h.1]
  have g : ∀ j, t.minv.data 3 j = (1 : Matrix (Fin 4) (Fin 4) ℝ) 3 j := by
    intro j
    have := f j
    rw [Matrix.mul_apply, Fin.sum_univ_four] at this
    change t.m.data 3 0 * t.minv.data 0 j + t.m.data 3 1 * t.minv.data 1 j + t.m.data 3 2 * t.minv.data 2 j +
      t.m.data 3 3 * t.minv.data 3 j = _ at this
    rw [a0, a1, a2, a3] at this
    linarith
  exact ⟨g 0, g 1, g 2, g 3⟩

theorem Transform.Carries.lin_inv {t : Transform ℝ} (h : t.Carries) (ha : t.m.Affine) :
    t.m.lin * t.minv.lin = 1 ∧ t.minv.lin * t.m.lin = 1 := by
  have e : t.minv * t.m = Mat4.identity := by
    rw [← Mat4.toMatrix_inj, Mat4.mul_real, Mat4.identity_real]; exact h.2
  have : t.minv.lin * t.m.lin = 1 := by rw [← Mat4.lin_mul ha, e, Mat4.lin_identity]
  exact ⟨mul_eq_one_comm.1 this, this⟩

theorem Transform.Carries.back {t : Transform ℝ} (h : t.Carries) {p q : Point ℝ 3} (hq : t.mapPoint p = some q) :
    t.inverse.mapPoint q = some p := by
  obtain ⟨hw, e⟩ := mapPt_some_iff.1 hq
  generalize (t.m.toMatrix *ᵥ homP p) 3 = w at *
  have e2 : t.minv.toMatrix *ᵥ homP q = w⁻¹ • homP p := by
    have : homP q = w⁻¹ • (t.m.toMatrix *ᵥ homP p) := by rw [e, smul_smul, inv_mul_cancel₀ hw, one_smul]
    rw [this, Matrix.mulVec_smul, Matrix.mulVec_mulVec, h.2, Matrix.one_mulVec]
  have e3 : (t.minv.toMatrix *ᵥ homP q) 3 = w⁻¹ := by rw [e2]; exact mul_one _
  exact mapPt_some_iff.2 ⟨by change (t.minv.toMatrix *ᵥ homP q) 3 ≠ 0; rw [e3]; exact inv_ne_zero hw,
    by change t.minv.toMatrix *ᵥ homP q = (t.minv.toMatrix *ᵥ homP q) 3 • homP p; rw [e3]; exact e2⟩

theorem Transform.Carries.back_vec {t : Transform ℝ} (h : t.Carries) {v u : Vec ℝ 3} (hu : t.mapVec v = some u) :
    t.inverse.mapVec u = some v := by
  refine mapVector_some_iff.2 ?_
  change t.minv.toMatrix *ᵥ homV u = homV v
  rw [← mapVector_some_iff.1 hu, Matrix.mulVec_mulVec, h.2, Matrix.one_mulVec]

theorem Transform.Carries.cancel {t : Transform ℝ} (h : t.Carries) (s : Transform ℝ) : s * t.inverse * t = s := by
  refine Transform.ext (Mat4.toMatrix_inj.1 ?_) (Mat4.toMatrix_inj.1 ?_)
  · change (s.m * t.minv * t.m).toMatrix = _
    rw [Mat4.mul_real, Mat4.mul_real, Matrix.mul_assoc, h.2, Matrix.mul_one]
  · change (t.minv * (t.m * s.minv)).toMatrix = _
    rw [Mat4.mul_real, Mat4.mul_real, ← Matrix.mul_assoc, h.2, Matrix.one_mul]

/-- An orientation-preserving rigid motion: an affine transform carrying its inverse that keeps dot products of vectors
(so lengths and angles) and has a positive determinant. -/
structure RigidMotion (t : Transform ℝ) : Prop where
  carries : t.Carries
  affine : t.m.Affine
  dot : ∀ v w v' w' : Vec ℝ 3, t.mapVec v = some v' → t.mapVec w = some w' → v'.vec ⬝ᵥ w'.vec = v.vec ⬝ᵥ w.vec
  orient : 0 < t.matrix.toMatrix.det

theorem orth_of_dot {A : Matrix (Fin 3) (Fin 3) ℝ} (h : ∀ v w, (A *ᵥ v) ⬝ᵥ (A *ᵥ w) = v ⬝ᵥ w) : Aᵀ * A = 1 := by
  ext i j
  have := h (Pi.single i 1) (Pi.single j 1)
  rw [Matrix.mulVec_single_one, Matrix.mulVec_single_one, single_dotProduct, one_mul] at this
  rw [Matrix.mul_apply]
  rw [Pi.single_apply] at this
  rw [Matrix.one_apply]
  exact this

theorem RigidMotion.orth {t : Transform ℝ} (h : RigidMotion t) : t.m.linᵀ * t.m.lin = 1 :=
  orth_of_dot fun v w => h.dot ⟨v⟩ ⟨w⟩ _ _ (mapVector_affine h.affine ⟨v⟩) (mapVector_affine h.affine ⟨w⟩)

theorem RigidMotion.det {t : Transform ℝ} (h : RigidMotion t) : t.m.lin.det = 1 := by
  have h1 := congrArg Matrix.det h.orth
  rw [Matrix.det_mul, Matrix.det_transpose, Matrix.det_one] at h1
  have h2 : 0 < t.m.lin.det := by rw [← Mat4.det_affine h.affine]; exact h.orient
  nlinarith

theorem RigidMotion.of {t : Transform ℝ} (hc : t.Carries) (ha : t.m.Affine) (ho : t.m.linᵀ * t.m.lin = 1) (hd : t.m.lin.det = 1) :
    RigidMotion t where
  carries := hc
  affine := ha
  orient := by change 0 < t.m.toMatrix.det; rw [Mat4.det_affine ha, hd]; exact one_pos
  dot := by
    intro v w v' w' hv hw
    unfold Transform.mapVec at hv hw
    rw [mapVector_affine ha, Option.some.injEq] at hv hw
    rw [← hv, ← hw]
    change (t.m.lin *ᵥ v.vec) ⬝ᵥ (t.m.lin *ᵥ w.vec) = _
    rw [Matrix.dotProduct_mulVec, Matrix.vecMul_mulVec, ho, Matrix.vecMul_one]

theorem RigidMotion.mul {a b : Transform ℝ} (ha : RigidMotion a) (hb : RigidMotion b) : RigidMotion (a * b) := by
  refine .of (ha.carries.mul hb.carries) (ha.affine.mul hb.affine) ?_ ?_
  · change (a.m * b.m).linᵀ * (a.m * b.m).lin = 1
    rw [Mat4.lin_mul hb.affine, Matrix.transpose_mul, Matrix.mul_assoc, ← Matrix.mul_assoc a.m.linᵀ, ha.orth,
      Matrix.one_mul, hb.orth]
  · change (a.m * b.m).lin.det = 1
    rw [Mat4.lin_mul hb.affine, Matrix.det_mul, ha.det, hb.det, one_mul]

theorem RigidMotion.lin_minv {a : Transform ℝ} (h : RigidMotion a) : a.minv.lin = a.m.linᵀ :=
  (left_inv_eq_right_inv h.orth (h.carries.lin_inv h.affine).1).symm

theorem RigidMotion.inverse {a : Transform ℝ} (h : RigidMotion a) : RigidMotion a.inverse := by
  refine .of h.carries.inverse (h.carries.affine_inv h.affine) ?_ ?_
  · change a.minv.linᵀ * a.minv.lin = 1
    rw [h.lin_minv, Matrix.transpose_transpose]; exact mul_eq_one_comm.1 h.orth
  · change a.minv.lin.det = 1
    rw [h.lin_minv, Matrix.det_transpose, h.det]

/-- In a rotation matrix each row is the cross product of the next two. -/
theorem rotation_rows {A : Matrix (Fin 3) (Fin 3) ℝ} (ho : Aᵀ * A = 1) (hd : A.det = 1) :
    crossProduct (A 1) (A 2) = A 0 ∧ crossProduct (A 2) (A 0) = A 1 ∧ crossProduct (A 0) (A 1) = A 2 := by
  have e : A.adjugate = Aᵀ := by
    have h1 : A.adjugate * A = 1 := by rw [Matrix.adjugate_mul, hd, one_smul]
    exact left_inv_eq_right_inv h1 (mul_eq_one_comm.1 ho)
  rw [Matrix.adjugate_fin_three] at e
  have q : ∀ i j, _ = Aᵀ i j := fun i j => congrFun (congrFun e i) j
  have q00 := q 0 0; have q01 := q 0 1; have q02 := q 0 2
  have q10 := q 1 0; have q11 := q 1 1; have q12 := q 1 2
  have q20 := q 2 0; have q21 := q 2 1; have q22 := q 2 2
  simp only [Matrix.of_apply, Matrix.cons_val', Matrix.cons_val, Matrix.transpose_apply] at q00 q01 q02 q10 q11 q12 q20 q21 q22
  refine ⟨?_, ?_, ?_⟩ <;> rw [cross_apply] <;> funext i <;> fin_cases i
  · change A 1 1 * A 2 2 - A 1 2 * A 2 1 = A 0 0; linarith
  · change A 1 2 * A 2 0 - A 1 0 * A 2 2 = A 0 1; linarith
  · change A 1 0 * A 2 1 - A 1 1 * A 2 0 = A 0 2; linarith
  · change A 2 1 * A 0 2 - A 2 2 * A 0 1 = A 1 0; linarith
  · change A 2 2 * A 0 0 - A 2 0 * A 0 2 = A 1 1; linarith
  · change A 2 0 * A 0 1 - A 2 1 * A 0 0 = A 1 2; linarith
  · change A 0 1 * A 1 2 - A 0 2 * A 1 1 = A 2 0; linarith
  · change A 0 2 * A 1 0 - A 0 0 * A 1 2 = A 2 1; linarith
  · change A 0 0 * A 1 1 - A 0 1 * A 1 0 = A 2 2; linarith

end Scarlet
