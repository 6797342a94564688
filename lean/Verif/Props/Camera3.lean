import Verif.Props.Camera1
import Verif.Props.Vector

/-! C71-C74: the thin lens camera in exact arithmetic. -/

set_option linter.unusedSectionVars false

namespace Scarlet
open GVec Real

/-! ### C71 -/

/-- C71: the film is placed where the lens equation `1/f = 1/o + 1/i` demands. -/
theorem C71_lens_equation (view : Transform ℝ) (o fov f lr ar : ℝ) (hf : f ≠ 0) (ho : o ≠ 0) (h : o ≠ f) :
    1 / f = 1 / o + 1 / (ThinLensCamera.new view o fov f lr ar).filmDistance := by
  have h' : o - f ≠ 0 := sub_ne_zero.2 h
  change 1 / f = 1 / o + 1 / (o * f / (o - f))
  field_simp
  ring

/-- C71: it is the only such place. -/
theorem C71_unique (view : Transform ℝ) (o fov f lr ar i : ℝ) (hf : f ≠ 0) (ho : o ≠ 0) (h : o ≠ f) 
    (heq : 1 / f = 1 / o + 1 / i) : (ThinLensCamera.new view o fov f lr ar).filmDistance = i := by
  have := C71_lens_equation view o fov f lr ar hf ho h
  generalize (ThinLensCamera.new view o fov f lr ar).filmDistance = d at *
  have e : 1 / d = 1 / i := by linarith
  rw [one_div, one_div] at e
  exact inv_injective e

/-- Non-vacuity: an object 3 away and focal length 1 need the film 3/2 away. -/
example : (ThinLensCamera.new .identity 3 1 1 1 1 : ThinLensCamera ℝ).filmDistance = 3 / 2 :=
  C71_unique _ _ _ _ _ _ _ (by norm_num) (by norm_num) (by norm_num) (by norm_num)

/-! ### The generated ray -/

namespace ThinLensCamera

/-- The point of the film addressed by a sample: film coordinates run from `0` to `1`, flipped. -/
noncomputable def filmPoint (cam : ThinLensCamera ℝ) (pFilm : Point ℝ 2) : Point ℝ 3 :=
  new3 (cam.filmWidth * (1 / 2 - pFilm.x)) (cam.filmHeight * (1 / 2 - pFilm.y)) cam.filmDistance

/-- The point through which all rays for one film point go. -/
noncomputable def meet (cam : ThinLensCamera ℝ) (pFilm : Point ℝ 2) : Point ℝ 3 :=
  (cam.filmPoint pFilm) * (1 - cam.focalDistance / cam.filmDistance)

end ThinLensCamera

theorem cameraRay_origin (cam : ThinLensCamera ℝ) (s : CameraSample ℝ) :
    (cam.cameraRay s).origin = new3 ((concentricSampleDisk s.pLens).x * cam.lensRadius) ((concentricSampleDisk s.pLens).y * cam.lensRadius) 0 := rfl

theorem cameraRay_direction (cam : ThinLensCamera ℝ) (s : CameraSample ℝ) :
    (cam.cameraRay s).direction = (cam.meet s.pFilm - (cam.cameraRay s).origin : Vec ℝ 3).normalize := by
  unfold ThinLensCamera.cameraRay
  dsimp only
  congr 1
  congr 1
  unfold Ray.eval ThinLensCamera.meet ThinLensCamera.filmPoint
  refine ext3 ?_ ?_ ?_
  all_goals
    simp only [x_padd, y_padd, z_padd, x_smul, y_smul, z_smul, x_psub, y_psub, z_psub, x_new3, y_new3, z_new3, rzero, rhalf]
    simp only [zero_sub, neg_div_neg_eq]
    ring

theorem meet_z (cam : ThinLensCamera ℝ) (pf : Point ℝ 2) (h : cam.filmDistance ≠ 0) :
    (cam.meet pf).z = cam.filmDistance - cam.focalDistance := by
  change cam.filmDistance * (1 - cam.focalDistance / cam.filmDistance) = _
  field_simp

theorem cameraRay_ne (cam : ThinLensCamera ℝ) (s : CameraSample ℝ) (h : cam.filmDistance ≠ 0) (hne : cam.filmDistance ≠ cam.focalDistance) :
    ∃ i, (cam.meet s.pFilm - (cam.cameraRay s).origin : Vec ℝ 3).vec i ≠ 0 := by
  refine ⟨2, ?_⟩
  have : (cam.meet s.pFilm - (cam.cameraRay s).origin : Vec ℝ 3).vec 2 = (cam.meet s.pFilm).z - 0 := rfl
  rw [this, sub_zero, meet_z cam _ h]
  exact sub_ne_zero.2 hne

/-- The ray reaches the common point at parameter = its distance from the origin of the ray. -/
theorem cameraRay_meet (cam : ThinLensCamera ℝ) (s : CameraSample ℝ) (h : cam.filmDistance ≠ 0) (hne : cam.filmDistance ≠ cam.focalDistance) :
    ∃ t > 0, (cam.cameraRay s).eval t = cam.meet s.pFilm := by
  have hp := norm_pos (cameraRay_ne cam s h hne)
  refine ⟨_, hp, ?_⟩
  ext i
  rw [eval_vec, cameraRay_direction, normalize_vec, div_mul_cancel₀ _ hp.ne', vec_psub]
  ring

/-! ### C72 -/

/-- C72, the part that holds, in camera space: all rays for one film point, whatever the lens sample, pass (at positive
parameters) through one common point.  Missing: that its `z` is `-focal_distance`; it is
`film_distance - focal_distance`, which refutes the claim (`C72_refuted`). -/
theorem C72_common_partial (cam : ThinLensCamera ℝ) (pFilm : Point ℝ 2) (h : cam.filmDistance ≠ 0)
    (hne : cam.filmDistance ≠ cam.focalDistance) :
    ∃ P : Point ℝ 3, P.z = cam.filmDistance - cam.focalDistance ∧
      ∀ pLens, ∃ t > 0, (cam.cameraRay ⟨pFilm, pLens⟩).eval t = P :=
  ⟨cam.meet pFilm, meet_z cam pFilm h, fun pLens => cameraRay_meet cam ⟨pFilm, pLens⟩ h hne⟩

/-- C72, the part that holds, in world space: for affine views `generate_ray` never panics and the rays of one film point
meet in one point. -/
theorem C72_world_partial (cam : ThinLensCamera ℝ) (hv : cam.view.Reachable) (ha : cam.view.m.Affine) (pFilm : Point ℝ 2)
    (h : cam.filmDistance ≠ 0) (hne : cam.filmDistance ≠ cam.focalDistance) :
    ∃ W P : Point ℝ 3, cam.view.mapPoint W = some P ∧ P.z = cam.filmDistance - cam.focalDistance ∧
      ∀ pLens, ∃ r, cam.generateRay ⟨pFilm, pLens⟩ = some r ∧ ∃ t > 0, r.eval t = W := by
  obtain ⟨P, hz, hP⟩ := C72_common_partial cam pFilm h hne
  have hai := C42_affine_inverse _ hv ha
  have hW := mapPt_affine hai P
  refine ⟨_, P, C35_point' _ hv _ _ hW, hz, fun pLens => ?_⟩
  obtain ⟨r, hr, -, hev⟩ := C42_map_inverse cam.view hai (cam.cameraRay ⟨pFilm, pLens⟩)
  obtain ⟨t, ht, e⟩ := hP pLens
  refine ⟨r, hr, t, ht, ?_⟩
  have := hev t
  rw [e] at this
  exact (Option.some.inj (this.symm.trans hW))

/-- The camera of the counterexamples: focus at distance 3, focal length 1 (so the film is at 3/2), field of view 1,
lens radius 1. -/
noncomputable def exCam : ThinLensCamera ℝ := .new .identity 3 1 1 1 1

theorem exCam_film : exCam.filmDistance = 3 / 2 := by
  change (3 : ℝ) * 1 / (3 - 1) = 3 / 2
  norm_num

/-- Non-vacuity of the hypotheses above. -/
example : exCam.filmDistance ≠ 0 ∧ exCam.filmDistance ≠ exCam.focalDistance ∧ exCam.view.Reachable ∧ exCam.view.m.Affine := by
  rw [exCam_film]
  refine ⟨by norm_num, ?_, .identity, ⟨rfl, rfl, rfl, rfl⟩⟩
  change (3 / 2 : ℝ) ≠ 3
  norm_num

theorem concentric_left : concentricSampleDisk (new2 0 (1 / 2) : Point ℝ 2) = new2 1 0 := by
  unfold concentricSampleDisk
  simp only [rone, lit2_f32, x_new2, y_new2, riabs, rfracPi4, rfracPi2, rcos, rsin]
  rw [if_neg (by simp only [Bool.and_eq_true, risZero]; norm_num), if_pos (rgt_iff.2 (by norm_num))]
  dsimp only
  norm_num

/-- C72 as claimed is false of the code: two rays of the same film point that do not meet on the plane
`z = -focal_distance`. -/
theorem C72_refuted : ¬ ∀ (view : Transform ℝ) (o fov f lr ar : ℝ) (pFilm : Point ℝ 2), 0 < f → f < o → 0 < lr →
    ∃ P : Point ℝ 3, P.z = -o ∧ ∀ pLens, InSquare pLens →
      ∃ t, ((ThinLensCamera.new view o fov f lr ar).cameraRay ⟨pFilm, pLens⟩).eval t = P := by
  intro H
  obtain ⟨P, hz, hP⟩ := H .identity 3 1 1 1 1 (new2 (1 / 2) (1 / 2)) (by norm_num) (by norm_num) (by norm_num)
  change ∀ pLens, InSquare pLens → ∃ t, (exCam.cameraRay ⟨_, pLens⟩).eval t = P at hP
  have hm : exCam.meet (new2 (1 / 2) (1 / 2)) = new3 0 0 (-(3 / 2)) := by
    unfold ThinLensCamera.meet ThinLensCamera.filmPoint
    rw [exCam_film]
    refine ext3 ?_ ?_ ?_
    · simp
    · simp
    · change (3 / 2 : ℝ) * (1 - 3 / (3 / 2)) = -(3 / 2)
      norm_num
  have dirs : ∀ s : CameraSample ℝ, s.pFilm = new2 (1 / 2) (1 / 2) → ∃ k : ℝ, ∀ i,
      (exCam.cameraRay s).direction.vec i = k * ((new3 0 0 (-(3 / 2)) : Point ℝ 3).vec i - (exCam.cameraRay s).origin.vec i) := by
    intro s hs
    rw [cameraRay_direction, hs, hm]
    exact ⟨1 / norm ((new3 0 0 (-(3 / 2)) : Point ℝ 3) - (exCam.cameraRay s).origin : Vec ℝ 3), fun i => by rw [normalize_vec, vec_psub]; ring⟩
  obtain ⟨t1, e1⟩ := hP (new2 (1 / 2) (1 / 2)) ⟨⟨by norm_num, by norm_num⟩, ⟨by norm_num, by norm_num⟩⟩
  obtain ⟨t2, e2⟩ := hP (new2 0 (1 / 2)) ⟨⟨by norm_num, by norm_num⟩, ⟨by norm_num, by norm_num⟩⟩
  obtain ⟨k1, d1⟩ := dirs ⟨new2 (1 / 2) (1 / 2), new2 (1 / 2) (1 / 2)⟩ rfl
  obtain ⟨k2, d2⟩ := dirs ⟨new2 (1 / 2) (1 / 2), new2 0 (1 / 2)⟩ rfl
  have o1 : (exCam.cameraRay ⟨new2 (1 / 2) (1 / 2), new2 (1 / 2) (1 / 2)⟩).origin = new3 0 0 0 := by
    rw [cameraRay_origin, concentric_centre]; simp
  have o2 : (exCam.cameraRay ⟨new2 (1 / 2) (1 / 2), new2 0 (1 / 2)⟩).origin = new3 1 0 0 := by
    rw [cameraRay_origin, concentric_left]
    change (new3 ((1 : ℝ) * 1) ((0 : ℝ) * 1) 0 : Point ℝ 3) = _
    norm_num
  have x1 := congrArg (fun q : Point ℝ 3 => q.vec 0) e1
  have x2 := congrArg (fun q : Point ℝ 3 => q.vec 0) e2
  have z2 := congrArg (fun q : Point ℝ 3 => q.vec 2) e2
  rw [eval_vec, d1, o1] at x1
  rw [eval_vec, d2, o2] at x2 z2
  simp only [vec_new3_0, vec_new3_2] at x1 x2 z2
  change _ = P.z at z2
  rw [hz] at z2
  rw [← x1] at x2
  nlinarith

/-! ### C73 -/

/-- C73: the ray starts on the lens: in the plane `z = 0`, no farther from the axis than the lens radius. -/
theorem C73_origin (cam : ThinLensCamera ℝ) (s : CameraSample ℝ) (hs : InSquare s.pLens) (hl : 0 ≤ cam.lensRadius) :
    (cam.cameraRay s).origin.z = 0 ∧
    Real.sqrt ((cam.cameraRay s).origin.x ^ 2 + (cam.cameraRay s).origin.y ^ 2) ≤ cam.lensRadius := by
  refine ⟨rfl, Real.sqrt_le_iff.2 ⟨hl, ?_⟩⟩
  have := C69_into s.pLens hs
  unfold InDisk at this
  rw [cameraRay_origin, x_new3, y_new3]
  nlinarith [sq_nonneg cam.lensRadius]

/-- C73: every point of the lens is the origin of the ray for some lens sample. -/
theorem C73_whole_lens (cam : ThinLensCamera ℝ) (pFilm : Point ℝ 2) (q : Point ℝ 3) (hz : q.z = 0) (hl : 0 < cam.lensRadius)
    (hq : Real.sqrt (q.x ^ 2 + q.y ^ 2) ≤ cam.lensRadius) : ∃ pLens, InSquare pLens ∧ (cam.cameraRay ⟨pFilm, pLens⟩).origin = q := by
  have h2 : q.x ^ 2 + q.y ^ 2 ≤ cam.lensRadius ^ 2 := (Real.sqrt_le_iff.1 hq).2
  obtain ⟨p, hp, e⟩ := C69_onto (new2 (q.x / cam.lensRadius) (q.y / cam.lensRadius)) (by
    unfold InDisk
    rw [x_new2, y_new2, div_pow, div_pow, ← add_div, div_le_one (by positivity)]
    exact h2)
  refine ⟨p, hp, ?_⟩
  rw [cameraRay_origin]
  dsimp only
  rw [e]
  refine ext3 ?_ ?_ hz.symm
  · rw [x_new3, x_new2, div_mul_cancel₀ _ hl.ne']
  · rw [y_new3, y_new2, div_mul_cancel₀ _ hl.ne']

/-- C73: the ray extends to `Float::highest()`, for every scalar type; so does the world space ray, if there is one. -/
theorem C73_tmax {T : Type} [Add T] [Sub T] [Mul T] [Div T] [Neg T] [Scalar T] [GFloat T] [GTrig T] [Inherent T]
    (cam : ThinLensCamera T) (s : CameraSample T) :
    (cam.cameraRay s).tmax = Scalar.highest ∧ ∀ r, cam.generateRay s = some r → r.tmax = Scalar.highest := by
  refine ⟨rfl, fun r hr => ?_⟩
  unfold ThinLensCamera.generateRay Transform.mapRayInv at hr
  simp only [Option.bind_eq_bind, Option.bind_eq_some_iff, Option.pure_def, Option.some.injEq] at hr
  obtain ⟨_, _, _, _, rfl⟩ := hr
  rfl

/-- C73, the part that holds about directions: unit length unless film and focus are equally far from the lens.
Missing: that case, where it is false (`C73_refuted`). -/
theorem C73_unit_partial (cam : ThinLensCamera ℝ) (s : CameraSample ℝ) (h : cam.filmDistance ≠ 0)
    (hne : cam.filmDistance ≠ cam.focalDistance) : (cam.cameraRay s).direction.norm = 1 := by
  rw [cameraRay_direction]
  exact (C29_normalize _ (cameraRay_ne cam s h hne)).1

/-- C73: for a camera made by `new` the exceptional case is `focal_distance = 2 focal_length`. -/
theorem C73_new (view : Transform ℝ) (o fov f lr ar : ℝ) (hf : f ≠ 0) (ho : o ≠ 0) (h : o ≠ f) (h2 : o ≠ 2 * f) :
    (ThinLensCamera.new view o fov f lr ar).filmDistance ≠ 0 ∧
    (ThinLensCamera.new view o fov f lr ar).filmDistance ≠ (ThinLensCamera.new view o fov f lr ar).focalDistance := by
  have h' : o - f ≠ 0 := sub_ne_zero.2 h
  change o * f / (o - f) ≠ 0 ∧ o * f / (o - f) ≠ o
  refine ⟨div_ne_zero (mul_ne_zero ho hf) h', fun e => h2 ?_⟩
  rw [div_eq_iff h'] at e
  have := mul_left_cancel₀ ho e
  linarith

/-- C73 as claimed is false of the code: with `focal_distance = 2 focal_length` the ray through the lens centre has no
direction at all (the zero vector is normalized; with floats: NaN). -/
theorem C73_refuted : ¬ ∀ (view : Transform ℝ) (o fov f lr ar : ℝ) (s : CameraSample ℝ), 0 < f → f < o → 0 < lr →
    ((ThinLensCamera.new view o fov f lr ar).cameraRay s).direction.norm = 1 := by
  intro H
  have := H .identity 2 1 1 1 1 ⟨new2 (1 / 2) (1 / 2), new2 (1 / 2) (1 / 2)⟩ (by norm_num) (by norm_num) (by norm_num)
  rw [cameraRay_direction, cameraRay_origin, concentric_centre] at this
  have hz : ∀ i, ((ThinLensCamera.meet (.new .identity 2 1 1 1 1) (new2 (1 / 2) (1 / 2)) -
      (new3 ((new2 0 0 : Point ℝ 2).x * (1 : ℝ)) ((new2 0 0 : Point ℝ 2).y * 1) 0 : Point ℝ 3) : Vec ℝ 3).normalize).vec i = 0 := by
    have e : (ThinLensCamera.meet (.new .identity 2 1 1 1 1) (new2 (1 / 2) (1 / 2)) : Point ℝ 3) = new3 0 0 0 := by
      unfold ThinLensCamera.meet
      have : (1 : ℝ) - (ThinLensCamera.new .identity 2 1 1 1 1 : ThinLensCamera ℝ).focalDistance /
          (ThinLensCamera.new .identity 2 1 1 1 1 : ThinLensCamera ℝ).filmDistance = 0 := by
        change (1 : ℝ) - 2 / (2 * 1 / (2 - 1)) = 0
        norm_num
      rw [this]
      exact ext3 (mul_zero _) (mul_zero _) (mul_zero _)
    intro i
    rw [e, normalize_vec, vec_psub]
    fin_cases i <;> simp
  rw [norm_real, squareNorm_real] at this
  have h0 : ∀ v : Vec ℝ 3, (∀ i, v.vec i = 0) → √(∑ i, v.vec i * v.vec i) = 1 → False := by
    intro v hv h1
    simp only [hv, mul_zero, Finset.sum_const_zero, Real.sqrt_zero] at h1
    norm_num at h1
  exact h0 _ hz this

/-! ### C74 -/

/-- C74, what holds: rays through the lens centre for `p_film.x = 0` or `1` have horizontal slope `tan(fov/2)/4`.
Missing: the slope should be `tan(fov/2)`; false of the code (`C74_refuted`), because `film_width` is
`tan(fov/2)/2 * film_distance` instead of `2 tan(fov/2) * film_distance`. -/
theorem C74_slope_partial (view : Transform ℝ) (o fov f lr ar x y : ℝ) (hx : x = 0 ∨ x = 1) :
    |((ThinLensCamera.new view o fov f lr ar).cameraRay ⟨new2 x y, new2 (1 / 2) (1 / 2)⟩).direction.x| =
    |tan (fov / 2) / 4| * |((ThinLensCamera.new view o fov f lr ar).cameraRay ⟨new2 x y, new2 (1 / 2) (1 / 2)⟩).direction.z| := by
  rw [cameraRay_direction, cameraRay_origin]
  dsimp only
  rw [concentric_centre]
  unfold GVec.normalize
  rw [x_sdiv, z_sdiv, ← abs_mul, ← mul_div_assoc, abs_div, abs_div]
  congr 1
  have ew : (ThinLensCamera.new view o fov f lr ar).filmWidth = 1 / 2 * tan (fov / 2) * (ThinLensCamera.new view o fov f lr ar).filmDistance := by
    change GFloat.half * Real.tan (fov * GFloat.half) * _ = _
    rw [rhalf]
    rw [show fov * (1 / 2) = fov / 2 by ring]
    rfl
  rw [x_psub, z_psub, x_new3, z_new3, x_new2]
  unfold ThinLensCamera.meet ThinLensCamera.filmPoint
  rw [x_smul, z_smul, x_new3, z_new3, x_new2, ew]
  generalize (ThinLensCamera.new view o fov f lr ar).filmDistance = d
  rcases hx with rfl | rfl
  · congr 1; ring
  · rw [← abs_neg]; congr 1; ring

/-- The direction is not horizontal, so the slope is meaningful (hypotheses as in C73). -/
theorem C74_not_horizontal (cam : ThinLensCamera ℝ) (s : CameraSample ℝ) (h : cam.filmDistance ≠ 0)
    (hne : cam.filmDistance ≠ cam.focalDistance) : (cam.cameraRay s).direction.z ≠ 0 := by
  rw [cameraRay_direction]
  unfold GVec.normalize
  rw [z_sdiv, z_psub, meet_z _ _ h]
  have := norm_pos (cameraRay_ne cam s h hne)
  refine div_ne_zero ?_ this.ne'
  rw [cameraRay_origin, z_new3, sub_zero]
  exact sub_ne_zero.2 hne

/-- C74 as claimed is false of the code, for every camera with `0 < fov < π`. -/
theorem C74_refuted (view : Transform ℝ) (o fov f lr ar x y : ℝ) (hf : f ≠ 0) (ho : o ≠ 0) (h : o ≠ f) (h2 : o ≠ 2 * f) (hx : x = 0 ∨ x = 1)
    (h0 : 0 < fov) (h1 : fov < π) :
    |((ThinLensCamera.new view o fov f lr ar).cameraRay ⟨new2 x y, new2 (1 / 2) (1 / 2)⟩).direction.x| ≠
    tan (fov / 2) * |((ThinLensCamera.new view o fov f lr ar).cameraRay ⟨new2 x y, new2 (1 / 2) (1 / 2)⟩).direction.z| := by
  rw [C74_slope_partial view o fov f lr ar x y hx]
  obtain ⟨e1, e2⟩ := C73_new view o fov f lr ar hf ho h h2
  have hz := abs_pos.2 (C74_not_horizontal _ ⟨new2 x y, new2 (1 / 2) (1 / 2)⟩ e1 e2)
  have ht : 0 < tan (fov / 2) := tan_pos_of_pos_of_lt_pi_div_two (by linarith) (by linarith)
  rw [abs_of_pos (by linarith)]
  intro e
  have := mul_right_cancel₀ hz.ne' e
  linarith

/-- Non-vacuity. -/
example : (1 : ℝ) ≠ 0 ∧ (3 : ℝ) ≠ 0 ∧ (3 : ℝ) ≠ 1 ∧ (3 : ℝ) ≠ 2 * 1 ∧ (0 : ℝ) < 1 ∧ (1 : ℝ) < π :=
  ⟨by norm_num, by norm_num, by norm_num, by norm_num, by norm_num, by linarith [pi_gt_three]⟩

end Scarlet
