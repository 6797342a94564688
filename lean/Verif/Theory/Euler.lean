import Verif.Theory.Rigid
import Mathlib.Analysis.Matrix.Spectrum
import Mathlib.Analysis.Matrix.PosDef
import Mathlib.Algebra.Order.Star.Real

/-! Rotation matrices as products of coordinate rotations and as rotations about an axis; singular values. -/

namespace Scarlet
open Matrix GVec

/-- A rotation matrix. -/
structure IsRot (A : Matrix (Fin 3) (Fin 3) ℝ) : Prop where
  orth : Aᵀ * A = 1
  det : A.det = 1

theorem IsRot.mul {A B : Matrix (Fin 3) (Fin 3) ℝ} (ha : IsRot A) (hb : IsRot B) : IsRot (A * B) where
  orth := by rw [Matrix.transpose_mul, Matrix.mul_assoc, ← Matrix.mul_assoc Aᵀ, ha.orth, Matrix.one_mul, hb.orth]
  det := by rw [Matrix.det_mul, ha.det, hb.det, one_mul]

theorem IsRot.orth' {A : Matrix (Fin 3) (Fin 3) ℝ} (ha : IsRot A) : A * Aᵀ = 1 := mul_eq_one_comm.1 ha.orth

theorem IsRot.transpose {A : Matrix (Fin 3) (Fin 3) ℝ} (ha : IsRot A) : IsRot Aᵀ where
  orth := by rw [Matrix.transpose_transpose]; exact ha.orth'
  det := by rw [Matrix.det_transpose, ha.det]

theorem RigidMotion.isRot {t : Transform ℝ} (h : RigidMotion t) : IsRot t.m.lin := ⟨h.orth, h.det⟩

theorem IsRotation.isRot {t : Transform ℝ} {axis : Vec ℝ 3} {a : ℝ} (h : IsRotation t axis a) : IsRot t.m.lin :=
  ⟨h.rigid.orth, by rw [← Mat4.det_affine h.rigid.affine]; exact C37_det t axis a h⟩

/-- A point of the plane in polar coordinates. -/
theorem polar (x y : ℝ) : ∃ a, x = Real.sqrt (x * x + y * y) * Real.cos a ∧ y = Real.sqrt (x * x + y * y) * Real.sin a := by
  refine ⟨Complex.arg ⟨x, y⟩, ?_, ?_⟩
  · have := Complex.norm_mul_cos_arg ⟨x, y⟩
    rw [Complex.norm_def, Complex.normSq_mk] at this
    exact this.symm
  · have := Complex.norm_mul_sin_arg ⟨x, y⟩
    rw [Complex.norm_def, Complex.normSq_mk] at this
    exact this.symm

theorem circle_angle {x y : ℝ} (h : x * x + y * y = 1) : ∃ a, x = Real.cos a ∧ y = Real.sin a := by
  obtain ⟨a, h1, h2⟩ := polar x y
  rw [h, Real.sqrt_one, one_mul] at h1 h2
  exact ⟨a, h1, h2⟩

theorem rotateX_lin (a : ℝ) : (Transform.rotateX a).m.lin = !![1, 0, 0; 0, Real.cos a, -Real.sin a; 0, Real.sin a, Real.cos a] := by
  ext i j; fin_cases i <;> fin_cases j <;> rfl
theorem rotateY_lin (a : ℝ) : (Transform.rotateY a).m.lin = !![Real.cos a, 0, Real.sin a; 0, 1, 0; -Real.sin a, 0, Real.cos a] := by
  ext i j; fin_cases i <;> fin_cases j <;> rfl
theorem rotateZ_lin (a : ℝ) : (Transform.rotateZ a).m.lin = !![Real.cos a, -Real.sin a, 0; Real.sin a, Real.cos a, 0; 0, 0, 1] := by
  ext i j; fin_cases i <;> fin_cases j <;> rfl

/-- A rotation matrix that fixes the x axis is a rotation about the x axis. -/
theorem IsRot.fix_x {Q : Matrix (Fin 3) (Fin 3) ℝ} (h : IsRot Q) (h0 : Q 0 0 = 1) (h1 : Q 1 0 = 0) (h2 : Q 2 0 = 0) :
    ∃ c, Q = (Transform.rotateX c).m.lin := by
  have g : ∀ i j, Q 0 i * Q 0 j + Q 1 i * Q 1 j + Q 2 i * Q 2 j = (1 : Matrix (Fin 3) (Fin 3) ℝ) i j := by
    intro i j
    rw [← h.orth, Matrix.mul_apply, Fin.sum_univ_three]; rfl
  have g01 := g 0 1; have g02 := g 0 2; have g11 := g 1 1
  rw [h0, h1, h2] at g01 g02
  rw [Matrix.one_apply_ne (by decide)] at g01 g02
  rw [Matrix.one_apply_eq] at g11
  have q01 : Q 0 1 = 0 := by linarith
  have q02 : Q 0 2 = 0 := by linarith
  rw [q01] at g11
  obtain ⟨c, hc, hs⟩ := circle_angle (x := Q 1 1) (y := Q 2 1) (by linarith)
  obtain ⟨-, -, r⟩ := rotation_rows h.transpose.orth h.transpose.det
  rw [cross_apply] at r
  have r1 : Q 2 0 * Q 0 1 - Q 0 0 * Q 2 1 = Q 1 2 := congrFun r 1
  have r2 : Q 0 0 * Q 1 1 - Q 1 0 * Q 0 1 = Q 2 2 := congrFun r 2
  rw [h0, h2, q01] at r1
  rw [h0, h1] at r2
  refine ⟨c, ?_⟩
  rw [rotateX_lin, ← hc, ← hs]
  ext i j
  fin_cases i <;> fin_cases j
  · exact h0
  · exact q01
  · exact q02
  · exact h1
  · rfl
  · change Q 1 2 = -Q 2 1; linarith
  · exact h2
  · rfl
  · change Q 2 2 = Q 1 1; linarith

/-- Every unit vector is where `rotate_z(a) * rotate_y(b)` takes the x axis. -/
theorem unit_angles {x y z : ℝ} (h : x * x + y * y + z * z = 1) :
    ∃ a b, ((Transform.rotateZ a).m.lin * (Transform.rotateY b).m.lin) 0 0 = x ∧
      ((Transform.rotateZ a).m.lin * (Transform.rotateY b).m.lin) 1 0 = y ∧
      ((Transform.rotateZ a).m.lin * (Transform.rotateY b).m.lin) 2 0 = z := by
  obtain ⟨a, h1, h2⟩ := polar x y
  have hn : 0 ≤ x * x + y * y := add_nonneg (mul_self_nonneg x) (mul_self_nonneg y)
  obtain ⟨b, h3, h4⟩ := circle_angle (x := Real.sqrt (x * x + y * y)) (y := -z) (by rw [Real.mul_self_sqrt hn]; linarith)
  rw [h3] at h1 h2
  refine ⟨a, b, ?_, ?_, ?_⟩ <;> rw [rotateZ_lin, rotateY_lin, Matrix.mul_apply, Fin.sum_univ_three]
  · change Real.cos a * Real.cos b + -Real.sin a * 0 + 0 * -Real.sin b = x; linarith
  · change Real.sin a * Real.cos b + Real.cos a * 0 + 0 * -Real.sin b = y; linarith
  · change 0 * Real.cos b + 0 * 0 + 1 * -Real.sin b = z; linarith

theorem rotZ_isRot (a : ℝ) : IsRot (Transform.rotateZ a).m.lin := (IsRotation.z a).isRot
theorem rotY_isRot (a : ℝ) : IsRot (Transform.rotateY a).m.lin := (IsRotation.y a).isRot
theorem rotX_isRot (a : ℝ) : IsRot (Transform.rotateX a).m.lin := (IsRotation.x a).isRot

/-- If `S` takes the x axis to `u` then `Sᵀ` takes `u` back. -/
theorem IsRot.col {S : Matrix (Fin 3) (Fin 3) ℝ} (h : IsRot S) {u : Fin 3 → ℝ} (hu : ∀ i, S i 0 = u i) :
    Sᵀ *ᵥ u = Pi.single 0 1 := by
  have : u = S *ᵥ Pi.single 0 1 := by
    rw [Matrix.mulVec_single_one]; funext i; exact (hu i).symm
  rw [this, Matrix.mulVec_mulVec, h.orth, Matrix.one_mulVec]

/-- Euler angles. -/
theorem IsRot.euler {A : Matrix (Fin 3) (Fin 3) ℝ} (h : IsRot A) :
    ∃ a b c, A = (Transform.rotateZ a).m.lin * (Transform.rotateY b).m.lin * (Transform.rotateX c).m.lin := by
  have u : A 0 0 * A 0 0 + A 1 0 * A 1 0 + A 2 0 * A 2 0 = 1 := by
    have := congrFun (congrFun h.orth 0) 0
    rw [Matrix.mul_apply, Fin.sum_univ_three, Matrix.one_apply_eq] at this
    exact this
  obtain ⟨a, b, h0, h1, h2⟩ := unit_angles u
  have hS := (rotZ_isRot a).mul (rotY_isRot b)
  set S := (Transform.rotateZ a).m.lin * (Transform.rotateY b).m.lin with hSdef
  have hcol := hS.col (u := fun i => A i 0) (by intro i; fin_cases i <;> assumption)
  have hq : ∀ i, (Sᵀ * A) i 0 = (Pi.single 0 1 : Fin 3 → ℝ) i := fun i => congrFun hcol i
  obtain ⟨c, hc⟩ := (hS.transpose.mul h).fix_x (hq 0) (hq 1) (hq 2)
  refine ⟨a, b, c, ?_⟩
  rw [← hc, ← Matrix.mul_assoc, hS.orth', Matrix.one_mul]

/-- Rotations respect the cross product. -/
theorem IsRot.cross {A : Matrix (Fin 3) (Fin 3) ℝ} (h : IsRot A) (v w : Fin 3 → ℝ) :
    crossProduct (A *ᵥ v) (A *ᵥ w) = A *ᵥ crossProduct v w := by
  obtain ⟨c0, c1, c2⟩ := rotation_rows h.orth h.det
  rw [cross_apply] at c0 c1 c2
  have x0 : A 1 1 * A 2 2 - A 1 2 * A 2 1 = A 0 0 := congrFun c0 0
  have x1 : A 1 2 * A 2 0 - A 1 0 * A 2 2 = A 0 1 := congrFun c0 1
  have x2 : A 1 0 * A 2 1 - A 1 1 * A 2 0 = A 0 2 := congrFun c0 2
  have y0 : A 2 1 * A 0 2 - A 2 2 * A 0 1 = A 1 0 := congrFun c1 0
  have y1 : A 2 2 * A 0 0 - A 2 0 * A 0 2 = A 1 1 := congrFun c1 1
  have y2 : A 2 0 * A 0 1 - A 2 1 * A 0 0 = A 1 2 := congrFun c1 2
  have z0 : A 0 1 * A 1 2 - A 0 2 * A 1 1 = A 2 0 := congrFun c2 0
  have z1 : A 0 2 * A 1 0 - A 0 0 * A 1 2 = A 2 1 := congrFun c2 1
  have z2 : A 0 0 * A 1 1 - A 0 1 * A 1 0 = A 2 2 := congrFun c2 2
  funext i
  rw [mulVec_three, cross_apply, cross_apply]
  fin_cases i
  · change (A *ᵥ v) 1 * (A *ᵥ w) 2 - (A *ᵥ v) 2 * (A *ᵥ w) 1 = A 0 0 * (v 1 * w 2 - v 2 * w 1) +
      A 0 1 * (v 2 * w 0 - v 0 * w 2) + A 0 2 * (v 0 * w 1 - v 1 * w 0)
    simp only [mulVec_three]
    rw [← x0, ← x1, ← x2]; ring
  · change (A *ᵥ v) 2 * (A *ᵥ w) 0 - (A *ᵥ v) 0 * (A *ᵥ w) 2 = A 1 0 * (v 1 * w 2 - v 2 * w 1) +
      A 1 1 * (v 2 * w 0 - v 0 * w 2) + A 1 2 * (v 0 * w 1 - v 1 * w 0)
    simp only [mulVec_three]
    rw [← y0, ← y1, ← y2]; ring
  · change (A *ᵥ v) 0 * (A *ᵥ w) 1 - (A *ᵥ v) 1 * (A *ᵥ w) 0 = A 2 0 * (v 1 * w 2 - v 2 * w 1) +
      A 2 1 * (v 2 * w 0 - v 0 * w 2) + A 2 2 * (v 0 * w 1 - v 1 * w 0)
    simp only [mulVec_three]
    rw [← z0, ← z1, ← z2]; ring

/-- A rotation has an axis. -/
theorem IsRot.axis {A : Matrix (Fin 3) (Fin 3) ℝ} (h : IsRot A) : ∃ u : Fin 3 → ℝ, u ≠ 0 ∧ A *ᵥ u = u := by
  have hd : (A - 1).det = 0 := by
    have e : (A - 1).det = (1 - A).det := by
      have h1 : A - 1 = A * (1 - A)ᵀ := by
        rw [Matrix.transpose_sub, Matrix.transpose_one, Matrix.mul_sub, Matrix.mul_one, h.orth']
      rw [h1, Matrix.det_mul, h.det, one_mul, Matrix.det_transpose]
    have e2 : (1 - A).det = -(A - 1).det := by
      rw [← neg_sub A 1, Matrix.det_neg, Fintype.card_fin]; ring
    linarith
  obtain ⟨u, hu, e⟩ := Matrix.exists_mulVec_eq_zero_iff.2 hd
  refine ⟨u, hu, ?_⟩
  rw [Matrix.sub_mulVec, Matrix.one_mulVec] at e
  exact sub_eq_zero.1 e

theorem rodrigues_lin (v : Vec ℝ 3) (a : ℝ) (w : Fin 3 → ℝ) :
    (Transform.rotate v a).m.lin *ᵥ w = Real.cos a • w + ((1 - Real.cos a) * (v.normalize.vec ⬝ᵥ w)) • v.normalize.vec +
      Real.sin a • crossProduct v.normalize.vec w := by
  have h1 := rodrigues_aux (rotate_affine v a) (rotate_m v a) (⟨w⟩ : Vec ℝ 3)
  have h2 := mapVector_affine (rotate_affine v a) (⟨w⟩ : Vec ℝ 3)
  exact congrArg GVec.vec (Option.some.inj (h2.symm.trans h1))

theorem rotateX_rodrigues (a : ℝ) (w : Fin 3 → ℝ) :
    (Transform.rotateX a).m.lin *ᵥ w = Real.cos a • w + ((1 - Real.cos a) * ((Pi.single 0 1 : Fin 3 → ℝ) ⬝ᵥ w)) • Pi.single 0 1 +
      Real.sin a • crossProduct (Pi.single 0 1) w := by
  rw [single_dotProduct, one_mul, rotateX_lin, cross_apply]
  funext i
  rw [mulVec_three]
  fin_cases i
  · change 1 * w 0 + 0 * w 1 + 0 * w 2 = Real.cos a * w 0 + (1 - Real.cos a) * w 0 * 1 + Real.sin a * (0 * w 2 - 0 * w 1); ring
  · change 0 * w 0 + Real.cos a * w 1 + -Real.sin a * w 2 = Real.cos a * w 1 + (1 - Real.cos a) * w 0 * 0 + Real.sin a * (0 * w 0 - 1 * w 2); ring
  · change 0 * w 0 + Real.sin a * w 1 + Real.cos a * w 2 = Real.cos a * w 2 + (1 - Real.cos a) * w 0 * 0 + Real.sin a * (1 * w 1 - 0 * w 0); ring

/-- Euler's rotation theorem: every rotation matrix is the matrix of `rotate` for some axis and angle. -/
theorem IsRot.axis_angle {A : Matrix (Fin 3) (Fin 3) ℝ} (h : IsRot A) :
    ∃ (v : Vec ℝ 3) (a : ℝ), (∃ i, v.vec i ≠ 0) ∧ A = (Transform.rotate v a).m.lin := by
  obtain ⟨u, hu, e⟩ := h.axis
  let v : Vec ℝ 3 := ⟨u⟩
  have hv : ∃ i, v.vec i ≠ 0 := by
    by_contra hn
    push Not at hn
    exact hu (funext hn)
  have hun := unit_normalize hv
  set n := v.normalize with hn
  have hAn : A *ᵥ n.vec = n.vec := by
    have : n.vec = (1 / v.norm) • u := by
      funext i; rw [hn, normalize_vec]; change u i / v.norm = 1 / v.norm * u i; ring
    rw [this, Matrix.mulVec_smul, e]
  obtain ⟨a, b, h0, h1, h2⟩ := unit_angles hun
  have hS := (rotZ_isRot a).mul (rotY_isRot b)
  set S := (Transform.rotateZ a).m.lin * (Transform.rotateY b).m.lin with hSdef
  clear_value S
  have hSn : S *ᵥ Pi.single 0 1 = n.vec := by
    rw [Matrix.mulVec_single_one]; funext i; fin_cases i <;> assumption
  have hq : ∀ i, (Sᵀ * A * S) i 0 = (Pi.single 0 1 : Fin 3 → ℝ) i := by
    intro i
    have : (Sᵀ * A * S) *ᵥ Pi.single 0 1 = Pi.single 0 1 := by
      rw [← Matrix.mulVec_mulVec, hSn, ← Matrix.mulVec_mulVec, hAn, ← hSn, Matrix.mulVec_mulVec, hS.orth, Matrix.one_mulVec]
    rw [Matrix.mulVec_single_one] at this
    exact congrFun this i
  obtain ⟨c, hc⟩ := ((hS.transpose.mul h).mul hS).fix_x (hq 0) (hq 1) (hq 2)
  refine ⟨v, c, hv, ?_⟩
  have hA : A = S * (Transform.rotateX c).m.lin * Sᵀ := by
    rw [← hc, ← Matrix.mul_assoc, ← Matrix.mul_assoc, hS.orth', Matrix.one_mul, Matrix.mul_assoc, hS.orth', Matrix.mul_one]
  have key : ∀ w, A *ᵥ w = (Transform.rotate v c).m.lin *ᵥ w := by
    intro w
    rw [rodrigues_lin, hA, ← Matrix.mulVec_mulVec, ← Matrix.mulVec_mulVec, rotateX_rodrigues, Matrix.mulVec_add, Matrix.mulVec_add,
      Matrix.mulVec_smul, Matrix.mulVec_smul, Matrix.mulVec_smul, Matrix.mulVec_mulVec, hS.orth', Matrix.one_mulVec, ← hS.cross,
      hSn, Matrix.mulVec_mulVec, hS.orth', Matrix.one_mulVec, Matrix.dotProduct_mulVec, Matrix.vecMul_transpose, hSn]
  ext i j
  have := congrFun (key (Pi.single j 1)) i
  rw [Matrix.mulVec_single_one, Matrix.mulVec_single_one] at this
  exact this

/-- An orthogonal matrix becomes a rotation when its first column is multiplied by its determinant. -/
theorem orth_flip {W : Matrix (Fin 3) (Fin 3) ℝ} (h : Wᵀ * W = 1) :
    W.det * W.det = 1 ∧ IsRot (W * diagonal ![W.det, 1, 1]) := by
  have hd : W.det * W.det = 1 := by
    have := congrArg Matrix.det h
    rwa [Matrix.det_mul, Matrix.det_transpose, Matrix.det_one] at this
  refine ⟨hd, ?_, ?_⟩
  · rw [Matrix.transpose_mul, Matrix.diagonal_transpose, Matrix.mul_assoc, ← Matrix.mul_assoc Wᵀ, h, Matrix.one_mul,
      Matrix.diagonal_mul_diagonal, ← Matrix.diagonal_one]
    congr 1
    funext i; fin_cases i
    · exact hd
    · exact one_mul _
    · exact one_mul _
  · rw [Matrix.det_mul, Matrix.det_diagonal, Fin.prod_univ_three]
    change W.det * (W.det * 1 * 1) = 1
    rw [mul_one, mul_one, hd]

/-- Singular values: an invertible matrix is a rotation, a diagonal scaling and a rotation. -/
theorem svd {M : Matrix (Fin 3) (Fin 3) ℝ} (h : M.det ≠ 0) :
    ∃ (U V : Matrix (Fin 3) (Fin 3) ℝ) (s : Fin 3 → ℝ), IsRot U ∧ IsRot V ∧ (∀ i, s i ≠ 0) ∧ M = U * diagonal s * V := by
  have hH : (Mᴴ * M).IsHermitian := isHermitian_conjTranspose_mul_self M
  have hP : (Mᴴ * M).PosDef :=
    Matrix.PosDef.conjTranspose_mul_self M
      (Matrix.mulVec_injective_of_isUnit ((Matrix.isUnit_iff_isUnit_det M).2 (isUnit_iff_ne_zero.2 h)))
  have hl : ∀ i, 0 < hH.eigenvalues i := hP.eigenvalues_pos
  have sp := hH.spectral_theorem
  rw [Unitary.conjStarAlgAut_apply] at sp
  have hWo : (hH.eigenvectorUnitary : Matrix (Fin 3) (Fin 3) ℝ)ᵀ * (hH.eigenvectorUnitary : Matrix (Fin 3) (Fin 3) ℝ) = 1 := by
    have := (Matrix.mem_unitaryGroup_iff'.1 hH.eigenvectorUnitary.2)
    rw [Matrix.star_eq_conjTranspose, Matrix.conjTranspose_eq_transpose_of_trivial] at this
    exact this
  rw [Matrix.star_eq_conjTranspose, Matrix.conjTranspose_eq_transpose_of_trivial
    (hH.eigenvectorUnitary : Matrix (Fin 3) (Fin 3) ℝ)] at sp
  generalize (hH.eigenvectorUnitary : Matrix (Fin 3) (Fin 3) ℝ) = W at sp hWo
  have sp' : Mᴴ * M = W * diagonal hH.eigenvalues * Wᵀ := sp
  generalize hH.eigenvalues = l at hl sp'
  clear sp hP hH
  rw [Matrix.conjTranspose_eq_transpose_of_trivial] at sp'
  obtain ⟨hw, hV⟩ := orth_flip hWo
  have hD : (W * diagonal ![W.det, 1, 1])ᵀ * (Mᵀ * M) * (W * diagonal ![W.det, 1, 1]) = diagonal l := by
    rw [sp', Matrix.transpose_mul, Matrix.diagonal_transpose]
    have : diagonal ![W.det, 1, 1] * Wᵀ * (W * diagonal l * Wᵀ) * (W * diagonal ![W.det, 1, 1]) =
        diagonal ![W.det, 1, 1] * (Wᵀ * W) * diagonal l * (Wᵀ * W) * diagonal ![W.det, 1, 1] := by
      simp only [Matrix.mul_assoc]
    rw [this, hWo, Matrix.mul_one, Matrix.mul_one, Matrix.diagonal_mul_diagonal, Matrix.diagonal_mul_diagonal]
    congr 1
    funext i; fin_cases i
    · change W.det * l 0 * W.det = l 0; linear_combination l 0 * hw
    · change 1 * l 1 * 1 = l 1; ring
    · change 1 * l 2 * 1 = l 2; ring
  generalize W * diagonal ![W.det, 1, 1] = V at hV hD
  have hs : ∀ i, 0 < Real.sqrt (l i) := fun i => Real.sqrt_pos.2 (hl i)
  have hss : ∀ i, Real.sqrt (l i) * Real.sqrt (l i) = l i := fun i => Real.mul_self_sqrt (hl i).le
  generalize hsd : (fun i => Real.sqrt (l i)) = s at *
  have hs' : ∀ i, 0 < s i := by rw [← hsd]; exact hs
  have hss' : ∀ i, s i * s i = l i := by rw [← hsd]; exact hss
  have hU0 : (M * V * diagonal fun i => (s i)⁻¹)ᵀ * (M * V * diagonal fun i => (s i)⁻¹) = 1 := by
    have : (M * V * diagonal fun i => (s i)⁻¹)ᵀ * (M * V * diagonal fun i => (s i)⁻¹) =
        (diagonal fun i => (s i)⁻¹) * (Vᵀ * (Mᵀ * M) * V) * diagonal fun i => (s i)⁻¹ := by
      simp only [Matrix.transpose_mul, Matrix.diagonal_transpose, Matrix.mul_assoc]
    rw [this, hD, Matrix.diagonal_mul_diagonal, Matrix.diagonal_mul_diagonal, ← Matrix.diagonal_one]
    congr 1
    funext i
    have := (hs' i).ne'
    rw [← hss' i]
    field_simp
  obtain ⟨hu, hU⟩ := orth_flip hU0
  generalize (M * V * diagonal fun i => (s i)⁻¹).det = e at hu hU
  refine ⟨_, Vᵀ, ![e * s 0, s 1, s 2], hU, hV.transpose, ?_, ?_⟩
  · have he : e ≠ 0 := by rintro rfl; norm_num at hu
    intro i; fin_cases i
    · exact mul_ne_zero he (hs' 0).ne'
    · exact (hs' 1).ne'
    · exact (hs' 2).ne'
  · have d : (diagonal fun i => (s i)⁻¹) * diagonal ![e, 1, 1] * diagonal ![e * s 0, s 1, s 2] = 1 := by
      rw [Matrix.diagonal_mul_diagonal, Matrix.diagonal_mul_diagonal, ← Matrix.diagonal_one]
      congr 1
      funext i
      have := (hs' i).ne'
      fin_cases i
      · change (s 0)⁻¹ * e * (e * s 0) = 1
        have : (s 0)⁻¹ * e * (e * s 0) = (s 0)⁻¹ * s 0 * (e * e) := by ring
        rw [this, hu, inv_mul_cancel₀ (hs' 0).ne', one_mul]
      · change (s 1)⁻¹ * 1 * s 1 = 1; rw [mul_one, inv_mul_cancel₀ (hs' 1).ne']
      · change (s 2)⁻¹ * 1 * s 2 = 1; rw [mul_one, inv_mul_cancel₀ (hs' 2).ne']
    have : M * V * (diagonal fun i => (s i)⁻¹) * diagonal ![e, 1, 1] * diagonal ![e * s 0, s 1, s 2] * Vᵀ =
        M * V * ((diagonal fun i => (s i)⁻¹) * diagonal ![e, 1, 1] * diagonal ![e * s 0, s 1, s 2]) * Vᵀ := by
      simp only [Matrix.mul_assoc]
    rw [this, d, Matrix.mul_one, Matrix.mul_assoc, hV.orth', Matrix.mul_one]

end Scarlet
