import Verif.Theory.Euler

/-!
C137: the constructors are complete.  Every rigid motion, every invertible affine map and every pair of mutually inverse
matrices can be built from the public constructors, so nothing that `Transform::new(m, m⁻¹)` can express is missing, and
the theorems about `Reachable` transforms cover all of those.
-/

namespace Scarlet
open Matrix GVec

theorem translate_lin (v : Vec ℝ 3) : (Transform.translate v).m.lin = 1 := by
  ext i j; fin_cases i <;> fin_cases j <;> rfl
theorem translate_trans (v : Vec ℝ 3) : (Transform.translate v).m.trans = v.vec := by
  funext i; fin_cases i <;> rfl
theorem scale_lin (v : Vec ℝ 3) : (Transform.scale v).m.lin = diagonal v.vec := by
  ext i j; fin_cases i <;> fin_cases j <;> rfl
theorem translate_affine (v : Vec ℝ 3) : (Transform.translate v).m.Affine := ⟨rfl, rfl, rfl, rfl⟩
theorem scale_affine (v : Vec ℝ 3) : (Transform.scale v).m.Affine := ⟨rfl, rfl, rfl, rfl⟩
theorem scale_trans (v : Vec ℝ 3) : (Transform.scale v).m.trans = 0 := by
  funext i; fin_cases i <;> rfl
theorem rotate_trans (v : Vec ℝ 3) (a : ℝ) : (Transform.rotate v a).m.trans = 0 := by
  rw [rotate_m]; funext i; fin_cases i <;> rfl

/-- An affine transform is its linear part followed by a translation. -/
theorem translate_mul_eq {s t : Transform ℝ} (hs : s.Carries) (ht : t.Carries) (sa : s.m.Affine) (ta : t.m.Affine)
    (hl : t.m.lin = s.m.lin) (h0 : s.m.trans = 0) : t = .translate ⟨t.m.trans⟩ * s := by
  refine Carries.ext ht ((translate_carries _).mul hs) (Mat4.affine_ext ta ((translate_affine _).mul sa) ?_ ?_)
  · change _ = ((Transform.translate ⟨t.m.trans⟩).m * s.m).lin
    rw [Mat4.lin_mul sa, translate_lin, Matrix.one_mul, hl]
  · change _ = ((Transform.translate ⟨t.m.trans⟩).m * s.m).trans
    rw [Mat4.trans_mul sa, translate_lin, Matrix.one_mulVec, h0, zero_add, translate_trans]

/-- C137: every rigid motion without mirroring is a rotation about x, one about y and one about z, then a translation. -/
theorem C137_euler (t : Transform ℝ) (h : RigidMotion t) :
    ∃ (v : Vec ℝ 3) (a b c : ℝ), t = .translate v * (.rotateZ a * .rotateY b * .rotateX c) := by
  obtain ⟨a, b, c, e⟩ := h.isRot.euler
  have ha := rotateZ_rigid a
  have hb := rotateY_rigid b
  have hc := rotateX_rigid c
  refine ⟨_, a, b, c, translate_mul_eq ((ha.carries.mul hb.carries).mul hc.carries) h.carries
    ((ha.affine.mul hb.affine).mul hc.affine) h.affine ?_ ?_⟩
  · change _ = ((Transform.rotateZ a).m * (Transform.rotateY b).m * (Transform.rotateX c).m).lin
    rw [Mat4.lin_mul hc.affine, Mat4.lin_mul hb.affine, e]
  · have z : ∀ i : Fin 3, (Transform.rotateZ a).m.trans i = 0 ∧ (Transform.rotateY b).m.trans i = 0 ∧
        (Transform.rotateX c).m.trans i = 0 := by
      intro i; fin_cases i <;> exact ⟨rfl, rfl, rfl⟩
    change ((Transform.rotateZ a).m * (Transform.rotateY b).m * (Transform.rotateX c).m).trans = 0
    rw [Mat4.trans_mul hc.affine, Mat4.trans_mul hb.affine, show (Transform.rotateX c).m.trans = 0 from funext fun i => (z i).2.2,
      show (Transform.rotateY b).m.trans = 0 from funext fun i => (z i).2.1,
      show (Transform.rotateZ a).m.trans = 0 from funext fun i => (z i).1, Matrix.mulVec_zero, Matrix.mulVec_zero, zero_add, zero_add]

/-- C137: every rigid motion without mirroring is one rotation about one axis, then a translation. -/
theorem C137_axis (t : Transform ℝ) (h : RigidMotion t) :
    ∃ (v axis : Vec ℝ 3) (a : ℝ), (∃ i, axis.vec i ≠ 0) ∧ t = .translate v * .rotate axis a := by
  obtain ⟨u, a, hu, e⟩ := h.isRot.axis_angle
  exact ⟨_, u, a, hu, translate_mul_eq (rotate_carries u a hu) h.carries (rotate_affine u a) h.affine e (rotate_trans u a)⟩

/-- C137: every invertible affine transform is a rotation, a scaling (along the axes, factors nonzero), a rotation and a
translation. -/
theorem C137_affine (t : Transform ℝ) (hc : t.Carries) (ha : t.m.Affine) :
    ∃ (v s u w : Vec ℝ 3) (a b : ℝ), (∃ i, u.vec i ≠ 0) ∧ (∃ i, w.vec i ≠ 0) ∧ (∀ i, s.vec i ≠ 0) ∧
      t = .translate v * (.rotate u a * .scale s * .rotate w b) := by
  have hd : t.m.lin.det ≠ 0 := by
    have := congrArg Matrix.det (hc.lin_inv ha).1
    rw [Matrix.det_mul, Matrix.det_one] at this
    exact left_ne_zero_of_mul_eq_one this
  obtain ⟨U, V, s, hU, hV, hs, e⟩ := svd hd
  obtain ⟨u, a, hu, eU⟩ := hU.axis_angle
  obtain ⟨w, b, hw, eV⟩ := hV.axis_angle
  have cs := scale_carries ⟨s⟩ hs
  refine ⟨_, ⟨s⟩, u, w, a, b, hu, hw, hs, translate_mul_eq (((rotate_carries u a hu).mul cs).mul (rotate_carries w b hw)) hc
    (((rotate_affine u a).mul (scale_affine _)).mul (rotate_affine w b)) ha ?_ ?_⟩
  · change _ = ((Transform.rotate u a).m * (Transform.scale ⟨s⟩).m * (Transform.rotate w b).m).lin
    rw [Mat4.lin_mul (rotate_affine w b), Mat4.lin_mul (scale_affine _), scale_lin, ← eU, ← eV, e]
  · change ((Transform.rotate u a).m * (Transform.scale ⟨s⟩).m * (Transform.rotate w b).m).trans = 0
    rw [Mat4.trans_mul (rotate_affine w b), Mat4.trans_mul (scale_affine _), scale_trans, rotate_trans, rotate_trans,
      Matrix.mulVec_zero, Matrix.mulVec_zero, zero_add, zero_add]

theorem affine_reachable {t : Transform ℝ} (hc : t.Carries) (ha : t.m.Affine) : t.Reachable := by
  obtain ⟨v, s, u, w, a, b, hu, hw, hs, rfl⟩ := C137_affine t hc ha
  exact .mul _ _ (.translate v) (.mul _ _ (.mul _ _ (.rotate u a hu) (.scale s hs)) (.rotate w b hw))

/-- The bottom row of a matrix. -/
def Mat4.bottom (m : Mat4 ℝ) : Fin 4 → ℝ := m.data 3

theorem Mat4.bottom_mul (a b : Mat4 ℝ) : (a * b).bottom = a.bottom ᵥ* b.toMatrix := by
  funext j
  change (a * b).data 3 j = _
  rw [Mat4.mul_data, sumLoop_four, rzero, Matrix.vecMul, dotProduct, Fin.sum_univ_four, zero_add]
  rfl

/-- An invertible affine transform with a given, nonzero, third row. -/
theorem third_row (r : Fin 4 → ℝ) (h : ¬ (r 0 = 0 ∧ r 1 = 0 ∧ r 2 = 0)) :
    ∃ t : Transform ℝ, t.Carries ∧ t.m.Affine ∧ t.m.data 2 = r := by
  have mk : ∀ (m : Mat4 ℝ), m.toMatrix.det ≠ 0 → (⟨m, m.inverse⟩ : Transform ℝ).Carries := by
    intro m hm
    obtain ⟨h1, -⟩ := C33_inverse m hm
    exact Carries.of_mul h1
  have aux : ∀ (m : Mat4 ℝ), m.Affine → m.lin.det ≠ 0 → m.data 2 = r →
      ∃ t : Transform ℝ, t.Carries ∧ t.m.Affine ∧ t.m.data 2 = r := by
    intro m ha hd e
    exact ⟨⟨m, m.inverse⟩, mk m (by rw [Mat4.det_affine ha]; exact hd), ha, e⟩
  have row : ![r 0, r 1, r 2, r 3] = r := by funext i; fin_cases i <;> rfl
  by_cases h2 : r 2 = 0
  · by_cases h1 : r 1 = 0
    · have h0 : r 0 ≠ 0 := fun h0 => h ⟨h0, h1, h2⟩
      refine aux (Mat4.mk4 0 1 0 0 0 0 1 0 (r 0) (r 1) (r 2) (r 3) 0 0 0 1) ⟨rfl, rfl, rfl, rfl⟩ ?_ ?_
      · rw [Matrix.det_fin_three]
        change (0 : ℝ) * 0 * r 2 - 0 * 1 * r 1 - 1 * 0 * r 2 + 1 * 1 * r 0 + 0 * 0 * r 1 - 0 * 0 * r 0 ≠ 0
        intro hh; exact h0 (by linarith)
      · exact row
    · refine aux (Mat4.mk4 1 0 0 0 0 0 1 0 (r 0) (r 1) (r 2) (r 3) 0 0 0 1) ⟨rfl, rfl, rfl, rfl⟩ ?_ ?_
      · rw [Matrix.det_fin_three]
        change (1 : ℝ) * 0 * r 2 - 1 * 1 * r 1 - 0 * 0 * r 2 + 0 * 1 * r 0 + 0 * 0 * r 1 - 0 * 0 * r 0 ≠ 0
        intro hh; exact h1 (by linarith)
      · exact row
  · refine aux (Mat4.mk4 1 0 0 0 0 1 0 0 (r 0) (r 1) (r 2) (r 3) 0 0 0 1) ⟨rfl, rfl, rfl, rfl⟩ ?_ ?_
    · rw [Matrix.det_fin_three]
      change (1 : ℝ) * 1 * r 2 - 1 * 0 * r 1 - 0 * 0 * r 2 + 0 * 0 * r 0 + 0 * 0 * r 1 - 0 * 1 * r 0 ≠ 0
      intro hh; exact h2 (by linarith)
    · exact row

theorem persp_reachable : (Transform.perspective 1 1 2 : Transform ℝ).Reachable :=
  .perspective _ _ _ one_pos (lt_of_lt_of_le one_lt_two Real.two_le_pi) one_pos (by norm_num)

/-- Every nonzero bottom row with a nonzero linear part occurs. -/
theorem bottom_reachable₁ (r : Fin 4 → ℝ) (h : ¬ (r 0 = 0 ∧ r 1 = 0 ∧ r 2 = 0)) :
    ∃ t : Transform ℝ, t.Reachable ∧ t.m.bottom = r := by
  obtain ⟨t, hc, ha, e⟩ := third_row r h
  refine ⟨.perspective 1 1 2 * t, .mul _ _ persp_reachable (affine_reachable hc ha), ?_⟩
  change ((Transform.perspective 1 1 2 : Transform ℝ).m * t.m).bottom = r
  rw [← e]
  funext j
  change ((Transform.perspective 1 1 2 : Transform ℝ).m * t.m).data 3 j = t.m.data 2 j
  rw [Mat4.mul_data, sumLoop_four, rzero, perspective_m]
  change 0 + 0 * t.m.data 0 j + 0 * t.m.data 1 j + 1 * t.m.data 2 j + 0 * t.m.data 3 j = t.m.data 2 j
  ring

/-- Every nonzero bottom row occurs. -/
theorem bottom_reachable (r : Fin 4 → ℝ) (h : r ≠ 0) : ∃ t : Transform ℝ, t.Reachable ∧ t.m.bottom = r := by
  by_cases h3 : r 0 = 0 ∧ r 1 = 0 ∧ r 2 = 0
  · obtain ⟨h0, h1, h2⟩ := h3
    have hr : r 3 ≠ 0 := by
      intro h3; refine h (funext fun i => ?_); fin_cases i <;> assumption
    obtain ⟨t, ht, e⟩ := bottom_reachable₁ ![0, 0, r 3 / 2, -r 3] (by
      rintro ⟨-, -, h'⟩
      change r 3 / 2 = 0 at h'
      exact hr (by linarith))
    refine ⟨t * .perspective 1 1 2, .mul _ _ ht persp_reachable, ?_⟩
    have b : ∀ j, t.m.data 3 j = ![0, 0, r 3 / 2, -r 3] j := fun j => congrFun e j
    funext j
    change (t.m * (Transform.perspective 1 1 2 : Transform ℝ).m).data 3 j = r j
    rw [Mat4.mul_data, sumLoop_four, rzero, b 0, b 1, b 2, b 3, perspective_m]
    generalize (-(1 / Real.tan (1 * (1 / 2)))) = k
    fin_cases j
    · change 0 + 0 * k + 0 * 0 + r 3 / 2 * 0 + -r 3 * (0 : ℝ) = r 0; rw [h0]; ring
    · change 0 + 0 * 0 + 0 * k + r 3 / 2 * 0 + -r 3 * (0 : ℝ) = r 1; rw [h1]; ring
    · change 0 + 0 * 0 + 0 * 0 + r 3 / 2 * (2 / (2 - 1)) + -r 3 * (1 : ℝ) = r 2; rw [h2]; ring
    · change 0 + 0 * 0 + 0 * 0 + r 3 / 2 * (2 * 1 / (2 - 1)) + -r 3 * (0 : ℝ) = r 3; ring
  · exact bottom_reachable₁ r h3

/-- C137: the transforms that can be built from the public constructors are exactly the pairs of mutually inverse
matrices (the converse of C34). -/
theorem C137_exact (t : Transform ℝ) :
    t.Reachable ↔ t.matrix * t.inverseMatrix = Mat4.identity ∧ t.inverseMatrix * t.matrix = Mat4.identity := by
  refine ⟨C34_reachable t, fun h => ?_⟩
  have hc : t.Carries := by
    simp only [← Mat4.toMatrix_inj, Mat4.mul_real, Mat4.identity_real] at h
    exact h
  have hb : t.m.bottom ≠ 0 := by
    intro h0
    have := congrFun (congrFun hc.1 3) 3
    rw [Matrix.mul_apply, Matrix.one_apply_eq, Fin.sum_univ_four] at this
    have z : ∀ j, t.m.toMatrix 3 j = 0 := fun j => congrFun h0 j
    rw [z, z, z, z] at this
    norm_num at this
  obtain ⟨x, hx, e⟩ := bottom_reachable _ hb
  have cx := reachable_carries hx
  have ha : (t * x.inverse).m.Affine := by
    have : (t.m * x.minv).bottom = Pi.single 3 1 := by
      rw [Mat4.bottom_mul, ← e]
      have : x.m.bottom = Pi.single 3 1 ᵥ* x.m.toMatrix := by rw [Matrix.single_one_vecMul]; rfl
      rw [this, Matrix.vecMul_vecMul, cx.1, Matrix.vecMul_one]
    exact ⟨congrFun this 0, congrFun this 1, congrFun this 2, congrFun this 3⟩
  have hr := affine_reachable (hc.mul cx.inverse) ha
  rw [← cx.cancel t]
  exact .mul _ _ hr hx

/-- C137: so for every matrix with a nonzero determinant `Transform::new(m, m.inverse())` is one of them, and everything
proved about reachable transforms holds of it. -/
theorem C137_new (m : Mat4 ℝ) (h : m.toMatrix.det ≠ 0) : (⟨m, m.inverse⟩ : Transform ℝ).Reachable :=
  (C137_exact _).2 (C33_inverse m h)

/-- A shear, for which there is no constructor, meets the hypotheses of `C137_affine`, `C137_exact` and `C137_new`; and the
motions of `C136_motions` meet those of `C137_euler` and `C137_axis`. -/
example : (Mat4.mk4 1 1 0 0 0 1 0 0 0 0 1 0 0 0 0 1 : Mat4 ℝ).toMatrix.det ≠ 0 ∧
    (Mat4.mk4 1 1 0 0 0 1 0 0 0 0 1 0 0 0 0 1 : Mat4 ℝ).Affine ∧
    (⟨.mk4 1 1 0 0 0 1 0 0 0 0 1 0 0 0 0 1, .mk4 1 (-1) 0 0 0 1 0 0 0 0 1 0 0 0 0 1⟩ : Transform ℝ).Carries := by
  refine ⟨?_, ⟨rfl, rfl, rfl, rfl⟩, Carries.of_mul ?_⟩
  · rw [Mat4.det_affine ⟨rfl, rfl, rfl, rfl⟩, Matrix.det_fin_three]
    change (1 : ℝ) * 1 * 1 - 1 * 0 * 0 - 1 * 0 * 1 + 1 * 0 * 0 + 0 * 0 * 0 - 0 * 1 * 0 ≠ 0
    norm_num
  · ext i j
    rw [Mat4.mul_data, sumLoop_four]
    fin_cases i <;> fin_cases j <;> simp [Mat4.identity]

end Scarlet
