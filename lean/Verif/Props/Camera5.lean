import Verif.Props.Camera3

/-! C97 (the projection of the thin-lens camera: linear, centred, aspect ratio). -/

set_option linter.unusedSectionVars false

namespace Scarlet
open GVec Real

/-- C97: rays through the lens centre: the horizontal and vertical slopes are linear in the film coordinates and zero in the
middle of the film; the vertical one is smaller by the factor `aspect_ratio`. -/
theorem C97_slopes (view : Transform ℝ) (o fov f lr ar : ℝ) (p : Point ℝ 2) :
    ((ThinLensCamera.new view o fov f lr ar).cameraRay ⟨p, new2 (1 / 2) (1 / 2)⟩).direction.x =
      (1 / 2 - p.x) * (tan (fov / 2) / 2) *
        ((ThinLensCamera.new view o fov f lr ar).cameraRay ⟨p, new2 (1 / 2) (1 / 2)⟩).direction.z ∧
    ((ThinLensCamera.new view o fov f lr ar).cameraRay ⟨p, new2 (1 / 2) (1 / 2)⟩).direction.y =
      (1 / 2 - p.y) * (tan (fov / 2) / 2) / ar *
        ((ThinLensCamera.new view o fov f lr ar).cameraRay ⟨p, new2 (1 / 2) (1 / 2)⟩).direction.z := by
  rw [cameraRay_direction, cameraRay_origin]
  dsimp only
  rw [concentric_centre]
  unfold GVec.normalize
  rw [x_sdiv, y_sdiv, z_sdiv]
  have ew : (ThinLensCamera.new view o fov f lr ar).filmWidth = 1 / 2 * tan (fov / 2) * (ThinLensCamera.new view o fov f lr ar).filmDistance := by
    change GFloat.half * Real.tan (fov * GFloat.half) * _ = _
    rw [rhalf]
    rw [show fov * (1 / 2) = fov / 2 by ring]
    rfl
  have eh : (ThinLensCamera.new view o fov f lr ar).filmHeight = (ThinLensCamera.new view o fov f lr ar).filmWidth / ar := rfl
  generalize (GVec.norm _ : ℝ) = N
  rw [x_psub, y_psub, z_psub, x_new3, y_new3, z_new3, x_new2, y_new2]
  unfold ThinLensCamera.meet ThinLensCamera.filmPoint
  rw [x_smul, y_smul, z_smul, x_new3, y_new3, z_new3, eh, ew]
  generalize (ThinLensCamera.new view o fov f lr ar).filmDistance = d
  constructor <;> ring

/-- C97: the picture is upright: for an object beyond twice the focal length the rays look along `-z`, and film points with a
larger coordinate see points with a larger coordinate (`0 < fov < π`, positive aspect ratio). -/
theorem C97_upright (view : Transform ℝ) (o fov f lr ar : ℝ) (p : Point ℝ 2) (hf : 0 < f) (h2 : 2 * f < o) (h0 : 0 < fov)
    (h1 : fov < π) (ha : 0 < ar) :
    ((ThinLensCamera.new view o fov f lr ar).cameraRay ⟨p, new2 (1 / 2) (1 / 2)⟩).direction.z < 0 ∧
    (0 < ((ThinLensCamera.new view o fov f lr ar).cameraRay ⟨p, new2 (1 / 2) (1 / 2)⟩).direction.x ↔ 1 / 2 < p.x) ∧
    (0 < ((ThinLensCamera.new view o fov f lr ar).cameraRay ⟨p, new2 (1 / 2) (1 / 2)⟩).direction.y ↔ 1 / 2 < p.y) := by
  have hd : (ThinLensCamera.new view o fov f lr ar).filmDistance = o * f / (o - f) := rfl
  have hof : 0 < o - f := by linarith
  have hpos : 0 < o * f / (o - f) := div_pos (mul_pos (by linarith) hf) hof
  have hlt : o * f / (o - f) < o := by
    rw [div_lt_iff₀ hof]; nlinarith
  obtain ⟨ex, ey⟩ := C97_slopes view o fov f lr ar p
  have ht : 0 < tan (fov / 2) := tan_pos_of_pos_of_lt_pi_div_two (by linarith) (by linarith)
  have hz : ((ThinLensCamera.new view o fov f lr ar).cameraRay ⟨p, new2 (1 / 2) (1 / 2)⟩).direction.z < 0 := by
    have hne := cameraRay_ne (.new view o fov f lr ar) ⟨p, new2 (1 / 2) (1 / 2)⟩ (by rw [hd]; exact hpos.ne')
      (by rw [hd]; exact hlt.ne)
    rw [cameraRay_direction]
    unfold GVec.normalize
    rw [z_sdiv, z_psub, meet_z _ _ (by rw [hd]; exact hpos.ne'), cameraRay_origin, z_new3, sub_zero]
    refine div_neg_of_neg_of_pos ?_ (norm_pos hne)
    rw [hd]
    change o * f / (o - f) - o < 0
    linarith
  refine ⟨hz, ?_, ?_⟩
  · rw [ex]
    constructor
    · intro h
      by_contra hc
      have : 0 ≤ (1 / 2 - p.x) * (tan (fov / 2) / 2) := mul_nonneg (by linarith) (by linarith)
      nlinarith
    · intro h
      exact mul_pos_of_neg_of_neg (mul_neg_of_neg_of_pos (by linarith) (by linarith)) hz
  · rw [ey]
    constructor
    · intro h
      by_contra hc
      have : 0 ≤ (1 / 2 - p.y) * (tan (fov / 2) / 2) / ar := div_nonneg (mul_nonneg (by linarith) (by linarith)) ha.le
      nlinarith
    · intro h
      exact mul_pos_of_neg_of_neg (div_neg_of_neg_of_pos (mul_neg_of_neg_of_pos (by linarith) (by linarith)) ha) hz

/-- Non-vacuity. -/
example : (0 : ℝ) < 1 ∧ (2 : ℝ) * 1 < 3 ∧ (1 : ℝ) < π ∧ (0 : ℝ) < 16 / 9 :=
  ⟨by norm_num, by norm_num, by linarith [pi_gt_three], by norm_num⟩
end Scarlet
