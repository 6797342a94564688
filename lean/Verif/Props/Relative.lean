import Verif.Props.LookAt
import Verif.Props.SceneAlgebra
import Verif.Props.Rescale
import Verif.Props.Camera3

/-! C145: the picture depends only on how the scene lies relative to the camera. -/

set_option linter.unusedSimpArgs false
set_option linter.unnecessarySeqFocus false

namespace Scarlet
open GVec Matrix

/-! ### Specification -/

/-- What the program sees for one sample: the hit of the ray that the camera generates (`none` if something panics). -/
noncomputable def pixel (cam : ThinLensCamera ℝ) (scene : Primitive ℝ) (s : CameraSample ℝ) : Option (Option (IntersectionResult ℝ)) :=
  (cam.generateRay s).bind scene.intersect

/-- The sample mirrored through the middle of film and lens, horizontally if `a`, vertically if `b`. -/
noncomputable def CameraSample.mirror (s : CameraSample ℝ) (a b : Bool) : CameraSample ℝ :=
  let m (c : Bool) (x : ℝ) : ℝ := if c then 1 - x else x
  ⟨new2 (m a s.pFilm.x) (m b s.pFilm.y), new2 (m a s.pLens.x) (m b s.pLens.y)⟩

/-- The reflections of camera space in the planes `x = 0` (if `a`) and `y = 0` (if `b`). -/
noncomputable def mirrorXY (a b : Bool) : Transform ℝ := .scale (new3 (if a then -1 else 1) (if b then -1 else 1) 1)

/-! ### moving camera and scene together -/

/-- C145: if `view'` sees the moved scene where `view` saw the scene, every sample of every camera shows the same, to the last bit of
the reported hit (which is in object space). -/
theorem C145_together (cam : ThinLensCamera ℝ) (scene : Primitive ℝ) (view' g : Transform ℝ) (h1 : view'.minv.Affine)
    (h2 : g.minv.Affine) (h : view' * g = cam.view) (s : CameraSample ℝ) :
    pixel { cam with view := view' } (scene.transformed g) s = pixel cam scene s := by
  unfold pixel ThinLensCamera.generateRay
  rw [← h, mapRayInv_mul g view' h2 h1, Option.bind_assoc]
  rfl

/-- C145: so moving the objects of a list by `g` and the camera by `g` gives the same picture. -/
theorem C145_moved (cam : ThinLensCamera ℝ) (p : Primitive ℝ) (ps : List (Primitive ℝ)) (g : Transform ℝ)
    (hv : cam.view.minv.Affine) (hg : g.Reachable) (hga : g.m.Affine) (s : CameraSample ℝ) :
    pixel { cam with view := cam.view * g.inverse } (PrimitiveList.prim ((p :: ps).map (·.transformed g))) s =
      pixel cam (PrimitiveList.prim (p :: ps)) s := by
  have hc := reachable_carries hg
  have a2 := C42_affine_inverse _ hg hga
  rw [← C145_together cam (PrimitiveList.prim (p :: ps)) (cam.view * g.inverse) g _ a2 (hc.cancel _)]
  · unfold pixel
    congr 1
    funext r
    exact ((C135_distribute p ps g) r).1.symm
  · exact hga.mul hv

/-- C145: cameras placed by `look_at`: moving position, target, up and every object by the same rigid motion changes nothing. -/
theorem C145_look_at (g : Transform ℝ) (hg : RigidMotion g) (pos target pos' target' : Point ℝ 3) (up up' : Vec ℝ 3)
    (h : LookAtOk pos target up) (hp : g.mapPoint pos = some pos') (ht : g.mapPoint target = some target')
    (hu : g.mapVec up = some up') (o fov f lr ar : ℝ) (scene : Primitive ℝ) (s : CameraSample ℝ) :
    pixel (.new (.lookAt pos' target' up') o fov f lr ar) (scene.transformed g) s =
      pixel (.new (.lookAt pos target up) o fov f lr ar) scene s := by
  obtain ⟨ok, e⟩ := C136_move g hg pos target pos' target' up up' h hp ht hu
  exact C145_together (.new (.lookAt pos target up) o fov f lr ar) scene _ g ⟨rfl, rfl, rfl, rfl⟩ hg.inverse.affine e s

/-! ### mirror images -/

theorem scale_mapRayInv (u : Vec ℝ 3) (r : Ray ℝ) :
    (Transform.scale u : Transform ℝ).mapRayInv r =
      some ⟨new3 (r.origin.x / u.x) (r.origin.y / u.y) (r.origin.z / u.z),
        new3 (r.direction.x / u.x) (r.direction.y / u.y) (r.direction.z / u.z), r.tmax⟩ := by
  have ha : (Transform.scale u : Transform ℝ).minv.Affine := ⟨rfl, rfl, rfl, rfl⟩
  have e1 : (Transform.scale u : Transform ℝ).mapPointInv r.origin =
      some (new3 (r.origin.x / u.x) (r.origin.y / u.y) (r.origin.z / u.z)) := by
    unfold Transform.mapPointInv
    rw [mapPt_affine ha]
    congr 1
    apply ext3 <;> simp [Transform.scale, Mat4.lin, Mat4.trans, Matrix.mulVec, dotProduct, Fin.sum_univ_three, Mat4.mk4, GVec.x, GVec.y, GVec.z, new3] <;> ring
  have e2 : (Transform.scale u : Transform ℝ).mapVecInv r.direction =
      some (new3 (r.direction.x / u.x) (r.direction.y / u.y) (r.direction.z / u.z)) := by
    unfold Transform.mapVecInv
    rw [mapVector_affine ha]
    congr 1
    apply ext3 <;> simp [Transform.scale, Mat4.lin, Mat4.trans, Matrix.mulVec, dotProduct, Fin.sum_univ_three, Mat4.mk4, GVec.x, GVec.y, GVec.z, new3] <;> ring
  simp [Transform.mapRayInv, e1, e2]

/-- the sign belonging to a reflection -/
noncomputable def sgn (c : Bool) : ℝ := if c then -1 else 1

theorem sgn_sq (c : Bool) : sgn c * sgn c = 1 := by cases c <;> norm_num [sgn]
theorem div_sgn (c : Bool) (x : ℝ) : x / sgn c = sgn c * x := by cases c <;> simp [sgn, div_neg]

/-- the map in terms of the centred coordinates -/
theorem concentric_centred (p : Point ℝ 2) :
    concentricSampleDisk p = if 1 - 2 * p.x = 0 ∧ 1 - 2 * p.y = 0 then new2 0 0 else
      if |1 - 2 * p.y| < |1 - 2 * p.x| then
        new2 ((1 - 2 * p.x) * Real.cos (Real.pi / 4 * (1 - 2 * p.y) / (1 - 2 * p.x)))
          ((1 - 2 * p.x) * Real.sin (Real.pi / 4 * (1 - 2 * p.y) / (1 - 2 * p.x)))
      else new2 ((1 - 2 * p.y) * Real.cos (Real.pi / 2 - (1 - 2 * p.x) / (1 - 2 * p.y) * (Real.pi / 4)))
        ((1 - 2 * p.y) * Real.sin (Real.pi / 2 - (1 - 2 * p.x) / (1 - 2 * p.y) * (Real.pi / 4))) := by
  unfold concentricSampleDisk
  simp only [rone, lit2_f32, riabs, rfracPi4, rfracPi2, rcos, rsin]
  generalize 1 - 2 * p.x = x at *
  generalize 1 - 2 * p.y = y at *
  by_cases h : x = 0 ∧ y = 0
  · rw [if_pos h, if_pos (by simp only [Bool.and_eq_true, risZero]; exact h)]; rfl
  · rw [if_neg h, if_neg (by simp only [Bool.and_eq_true, risZero]; exact h)]
    by_cases hc : |y| < |x|
    · rw [if_pos hc, if_pos (rgt_iff.2 hc)]
    · rw [if_neg hc, if_neg (fun h' => hc (rgt_iff.1 h'))]

theorem concentric_mirror (p : Point ℝ 2) (a b : Bool) :
    concentricSampleDisk (new2 (if a then 1 - p.x else p.x) (if b then 1 - p.y else p.y)) =
      new2 (sgn a * (concentricSampleDisk p).x) (sgn b * (concentricSampleDisk p).y) := by
  have ex : (1 : ℝ) - 2 * (if a then 1 - p.x else p.x) = sgn a * (1 - 2 * p.x) := by cases a <;> simp [sgn] <;> ring
  have ey : (1 : ℝ) - 2 * (if b then 1 - p.y else p.y) = sgn b * (1 - 2 * p.y) := by cases b <;> simp [sgn] <;> ring
  rw [concentric_centred, concentric_centred]
  simp only [x_new2, y_new2, ex, ey]
  generalize 1 - 2 * p.x = X
  generalize 1 - 2 * p.y = Y
  have ax : |sgn a * X| = |X| := by cases a <;> simp [sgn]
  have ay : |sgn b * Y| = |Y| := by cases b <;> simp [sgn]
  have zx : sgn a * X = 0 ↔ X = 0 := by cases a <;> simp [sgn]
  have zy : sgn b * Y = 0 ↔ Y = 0 := by cases b <;> simp [sgn]
  rw [ax, ay]
  simp only [zx, zy]
  have s3 : ∀ x, Real.sin (Real.pi / 2 + x) = Real.sin (Real.pi / 2 - x) := fun x => by
    rw [Real.sin_pi_div_two_sub, add_comm, Real.sin_add_pi_div_two]
  have s4 : ∀ x, Real.cos (Real.pi / 2 + x) = -Real.cos (Real.pi / 2 - x) := fun x => by
    rw [Real.cos_pi_div_two_sub, add_comm, Real.cos_add_pi_div_two]
  split
  · apply ext2 <;> simp
  · split
    · cases a <;> cases b <;> simp [sgn, div_neg, neg_div, mul_neg]
    · cases a <;> cases b <;> simp [sgn, div_neg, neg_div, s3, s4]

theorem meet_mirror (cam : ThinLensCamera ℝ) (p : Point ℝ 2) (a b : Bool) :
    (cam.meet (new2 (if a then 1 - p.x else p.x) (if b then 1 - p.y else p.y))) =
      new3 (sgn a * (cam.meet p).x) (sgn b * (cam.meet p).y) (cam.meet p).z := by
  unfold ThinLensCamera.meet ThinLensCamera.filmPoint
  apply ext3 <;> simp only [x_smul, y_smul, z_smul, x_new3, y_new3, z_new3, x_new2, y_new2]
  · cases a
    · simp [sgn]
    · simp only [sgn, if_true]; ring
  · cases b
    · simp [sgn]
    · simp only [sgn, if_true]; ring

theorem cameraRay_mirror (cam : ThinLensCamera ℝ) (s : CameraSample ℝ) (a b : Bool) :
    (mirrorXY a b).mapRayInv (cam.cameraRay s) = some (cam.cameraRay (s.mirror a b)) := by
  unfold mirrorXY
  rw [scale_mapRayInv]
  congr 1
  have ho : (cam.cameraRay (s.mirror a b)).origin =
      new3 (sgn a * (cam.cameraRay s).origin.x) (sgn b * (cam.cameraRay s).origin.y) (cam.cameraRay s).origin.z := by
    have h := concentric_mirror s.pLens a b
    have hx := congrArg GVec.x h
    have hy := congrArg GVec.y h
    rw [cameraRay_origin, cameraRay_origin]
    simp only [x_new2, y_new2] at hx hy
    apply ext3 <;> simp only [x_new3, y_new3, z_new3, CameraSample.mirror]
    · rw [hx]; ring
    · rw [hy]; ring
  have hd : (cam.cameraRay (s.mirror a b)).direction =
      new3 (sgn a * (cam.cameraRay s).direction.x) (sgn b * (cam.cameraRay s).direction.y) (cam.cameraRay s).direction.z := by
    rw [cameraRay_direction, cameraRay_direction, ho]
    have hm := meet_mirror cam s.pFilm a b
    have hm' : cam.meet (s.mirror a b).pFilm = _ := hm
    rw [hm']
    generalize cam.meet s.pFilm = M
    generalize (cam.cameraRay s).origin = O
    have hv : ((new3 (sgn a * M.x) (sgn b * M.y) M.z : Point ℝ 3) - (new3 (sgn a * O.x) (sgn b * O.y) O.z : Point ℝ 3) : Vec ℝ 3) =
        new3 (sgn a * (M - O : Vec ℝ 3).x) (sgn b * (M - O : Vec ℝ 3).y) (M - O : Vec ℝ 3).z := by
      apply ext3 <;> simp only [x_psub, y_psub, z_psub, x_new3, y_new3, z_new3] <;> ring
    rw [hv]
    generalize (M - O : Vec ℝ 3) = v
    have hn : (new3 (sgn a * v.x) (sgn b * v.y) v.z : Vec ℝ 3).norm = v.norm := by
      rw [norm_real, norm_real, squareNorm3, squareNorm3]
      congr 1
      simp only [x_new3, y_new3, z_new3]
      linear_combination v.x * v.x * sgn_sq a + v.y * v.y * sgn_sq b
    obtain ⟨n0, n1, n2⟩ := normalize_comp v
    obtain ⟨m0, m1, m2⟩ := normalize_comp (new3 (sgn a * v.x) (sgn b * v.y) v.z : Vec ℝ 3)
    apply ext3
    · rw [m0, hn, x_new3, x_new3, n0]; ring
    · rw [m1, hn, y_new3, y_new3, n1]; ring
    · rw [m2, hn, z_new3, z_new3, n2]
  have key : ∀ r : Ray ℝ, (⟨r.origin, r.direction, r.tmax⟩ : Ray ℝ) = r := fun _ => rfl
  rw [← key (cam.cameraRay (s.mirror a b)), ho, hd]
  simp only [x_new3, y_new3, z_new3, div_one]
  change (⟨new3 (_ / sgn a) (_ / sgn b) _, new3 (_ / sgn a) (_ / sgn b) _, _⟩ : Ray ℝ) = _
  simp only [div_sgn]
  rfl

/-- C145: a mirrored view gives the mirrored picture: every sample of the camera whose view is reflected in the planes `x = 0`
or `y = 0` of camera space (or both) shows what the mirrored sample of the camera shows, for every film and lens position. -/
theorem C145_mirror (cam : ThinLensCamera ℝ) (scene : Primitive ℝ) (h : cam.view.minv.Affine) (a b : Bool) (s : CameraSample ℝ) :
    pixel { cam with view := mirrorXY a b * cam.view } scene s = pixel cam scene (s.mirror a b) := by
  unfold pixel ThinLensCamera.generateRay
  change Option.bind ((mirrorXY a b * cam.view).mapRayInv (cam.cameraRay s)) _ = _
  rw [mapRayInv_mul cam.view (mirrorXY a b) h ⟨rfl, rfl, rfl, rfl⟩, cameraRay_mirror]
  rfl

/-- C145: turning `up` round turns the picture upside down (and left to right, as turning a photograph does). -/
theorem C145_upside_down (pos target : Point ℝ 3) (up : Vec ℝ 3) (h : LookAtOk pos target up) (o fov f lr ar : ℝ)
    (scene : Primitive ℝ) (s : CameraSample ℝ) :
    pixel (.new (.lookAt pos target (-up)) o fov f lr ar) scene s =
      pixel (.new (.lookAt pos target up) o fov f lr ar) scene (s.mirror true true) := by
  have L := C136_does pos target up h
  have e : mirrorXY true true = .rotateZ Real.pi := by
    refine Transform.ext (Mat4.ext (funext₂ fun i j => ?_)) (Mat4.ext (funext₂ fun i j => ?_))
    · fin_cases i <;> fin_cases j <;> simp [mirrorXY, Transform.scale, Transform.rotateZ, Mat4.mk4]
    · fin_cases i <;> fin_cases j <;> simp [mirrorXY, Transform.scale, Transform.rotateZ, Mat4.mk4]
  have hR : RigidMotion (mirrorXY true true) := by rw [e]; exact C136_motions.2.1 _ _ _ (.z _)
  have hm : Transform.lookAt pos target (-up) = mirrorXY true true * .lookAt pos target up := by
    obtain ⟨hr, hp0, ⟨d, pd, hd⟩, ⟨u, w, pu, hw⟩⟩ := L
    refine (C136_unique _ pos target (-up) ⟨hR.mul hr, C36_point _ _ _ _ _ hp0 ?_, ⟨d, pd, C36_point _ _ _ _ _ hd ?_⟩,
      ⟨u, -w, pu, C36_vector _ _ _ (new3 0 (-u) (-w)) _ ?_ ?_⟩⟩).2.symm
    · unfold Transform.mapPoint
      rw [mapPt_affine hR.affine]
      congr 1
      apply ext3 <;> simp [mirrorXY, Transform.scale, Mat4.lin, Mat4.trans, Matrix.mulVec, dotProduct, Fin.sum_univ_three, Mat4.mk4, GVec.x, GVec.y, GVec.z, new3]
    · unfold Transform.mapPoint
      rw [mapPt_affine hR.affine]
      congr 1
      apply ext3 <;> simp [mirrorXY, Transform.scale, Mat4.lin, Mat4.trans, Matrix.mulVec, dotProduct, Fin.sum_univ_three, Mat4.mk4, GVec.x, GVec.y, GVec.z, new3]
    · unfold Transform.mapVec at hw ⊢
      rw [mapVector_affine hr.affine, Option.some.injEq] at hw ⊢
      have h' := congrArg GVec.vec hw
      refine GVec.ext ?_
      change _ *ᵥ (-up.vec) = _
      rw [Matrix.mulVec_neg]
      refine (congrArg Neg.neg h').trans ?_
      funext i; fin_cases i <;> simp [new3]
    · unfold Transform.mapVec
      rw [mapVector_affine hR.affine]
      congr 1
      apply ext3 <;> simp [mirrorXY, Transform.scale, Mat4.lin, Mat4.trans, Matrix.mulVec, dotProduct, Fin.sum_univ_three, Mat4.mk4, GVec.x, GVec.y, GVec.z, new3]
  rw [← C145_mirror _ _ ⟨rfl, rfl, rfl, rfl⟩]
  unfold ThinLensCamera.new
  rw [hm]

/-! ### the unit of length -/

/-- A positive factor on every length of the camera. -/
noncomputable def enlarge (k : ℝ) : Transform ℝ := .scale (new3 k k k)

theorem normalize_pos_smul (v : Vec ℝ 3) {k : ℝ} (hk : 0 < k) : (v * k).normalize = v.normalize := by
  have hn : (v * k).norm = k * v.norm := by
    rw [norm_real, norm_real, squareNorm3, squareNorm3]
    simp only [x_smul, y_smul, z_smul]
    rw [show v.x * k * (v.x * k) + v.y * k * (v.y * k) + v.z * k * (v.z * k) = k ^ 2 * (v.x * v.x + v.y * v.y + v.z * v.z) by ring,
      Real.sqrt_mul (by positivity), Real.sqrt_sq hk.le]
  obtain ⟨n0, n1, n2⟩ := normalize_comp v
  obtain ⟨m0, m1, m2⟩ := normalize_comp (v * k)
  have e : ∀ x : ℝ, x * k / (k * v.norm) = x / v.norm := fun x => by rw [mul_comm k, mul_div_mul_right _ _ hk.ne']
  apply ext3
  · rw [m0, hn, x_smul, n0, e]
  · rw [m1, hn, y_smul, n1, e]
  · rw [m2, hn, z_smul, n2, e]

theorem cameraRay_enlarge (view view' : Transform ℝ) (o fov f lr ar k : ℝ) (hk : 0 < k) (s : CameraSample ℝ) :
    (ThinLensCamera.new view' (k * o) fov (k * f) (k * lr) ar).cameraRay s =
      ⟨(((ThinLensCamera.new view o fov f lr ar).cameraRay s).origin * k : Point ℝ 3),
        ((ThinLensCamera.new view o fov f lr ar).cameraRay s).direction, ((ThinLensCamera.new view o fov f lr ar).cameraRay s).tmax⟩ := by
  have fd : (ThinLensCamera.new view' (k * o) fov (k * f) (k * lr) ar).filmDistance = k * (ThinLensCamera.new view o fov f lr ar).filmDistance := by
    change k * o * (k * f) / (k * o - k * f) = k * (o * f / (o - f))
    rw [← mul_sub, show k * o * (k * f) = k * (k * (o * f)) by ring, mul_div_mul_left _ _ hk.ne', mul_div_assoc]
  have fw : (ThinLensCamera.new view' (k * o) fov (k * f) (k * lr) ar).filmWidth = k * (ThinLensCamera.new view o fov f lr ar).filmWidth := by
    change _ * _ * (ThinLensCamera.new view' (k * o) fov (k * f) (k * lr) ar).filmDistance = k * (_ * _ * (ThinLensCamera.new view o fov f lr ar).filmDistance)
    rw [fd]; ring
  have fh : (ThinLensCamera.new view' (k * o) fov (k * f) (k * lr) ar).filmHeight = k * (ThinLensCamera.new view o fov f lr ar).filmHeight := by
    change (ThinLensCamera.new view' (k * o) fov (k * f) (k * lr) ar).filmWidth / _ = k * ((ThinLensCamera.new view o fov f lr ar).filmWidth / _)
    rw [fw]; ring
  have fo : (ThinLensCamera.new view' (k * o) fov (k * f) (k * lr) ar).focalDistance = k * (ThinLensCamera.new view o fov f lr ar).focalDistance := rfl
  have fl : (ThinLensCamera.new view' (k * o) fov (k * f) (k * lr) ar).lensRadius = k * (ThinLensCamera.new view o fov f lr ar).lensRadius := rfl
  have ft : ((ThinLensCamera.new view' (k * o) fov (k * f) (k * lr) ar).cameraRay s).tmax = ((ThinLensCamera.new view o fov f lr ar).cameraRay s).tmax := rfl
  generalize ThinLensCamera.new view' (k * o) fov (k * f) (k * lr) ar = C at *
  generalize ThinLensCamera.new view o fov f lr ar = D at *
  have ho : (C.cameraRay s).origin = ((D.cameraRay s).origin * k : Point ℝ 3) := by
    rw [cameraRay_origin, cameraRay_origin, fl]
    apply ext3 <;> simp only [x_smul, y_smul, z_smul, x_new3, y_new3, z_new3] <;> ring
  have hm : C.meet s.pFilm = (D.meet s.pFilm * k : Point ℝ 3) := by
    unfold ThinLensCamera.meet ThinLensCamera.filmPoint
    rw [fd, fw, fh, fo, mul_div_mul_left _ _ hk.ne']
    apply ext3 <;> simp only [x_smul, y_smul, z_smul, x_new3, y_new3, z_new3] <;> ring
  have hd : (C.cameraRay s).direction = (D.cameraRay s).direction := by
    rw [cameraRay_direction, cameraRay_direction, hm, ho]
    generalize D.meet s.pFilm = M
    generalize (D.cameraRay s).origin = O
    have : ((M * k : Point ℝ 3) - (O * k : Point ℝ 3) : Vec ℝ 3) = (M - O : Vec ℝ 3) * k := by
      apply ext3 <;> simp only [x_psub, y_psub, z_psub, x_smul, y_smul, z_smul] <;> ring
    rw [this, normalize_pos_smul _ hk]
  have key : ∀ r : Ray ℝ, (⟨r.origin, r.direction, r.tmax⟩ : Ray ℝ) = r := fun _ => rfl
  rw [← key (C.cameraRay s), ho, hd, ft]

/-- C145: the unit of length does not matter: with every length of the camera (focal distance, focal length, lens radius, position)
and every object enlarged by `k`, each sample's ray starts at the enlarged point, has the same direction, and hits the enlarged scene
as the original ray hits the original scene, with the same object-space hit and `k` times the distance. -/
theorem C145_units (view view' : Transform ℝ) (o fov f lr ar k : ℝ) (hk : 0 < k) (hv : view.minv.Affine) (hv' : view'.minv.Affine)
    (hs : view' * enlarge k = enlarge k * view) (s : CameraSample ℝ) :
    ∃ r r' : Ray ℝ, (ThinLensCamera.new view o fov f lr ar).generateRay s = some r ∧
      (ThinLensCamera.new view' (k * o) fov (k * f) (k * lr) ar).generateRay s = some r' ∧
      (∀ i, r'.origin.vec i = k * r.origin.vec i) ∧ r'.direction = r.direction ∧ r'.tmax = r.tmax ∧
      ∀ scene : Primitive ℝ, scene.Homogeneous →
        (scene.transformed (enlarge k)).intersect { r' with tmax := k * r.tmax } =
          (scene.intersect r).map (·.map fun x => { x with tRay := k * x.tRay }) := by
  obtain ⟨r, hr, ht, -⟩ := C42_map_inverse view hv ((ThinLensCamera.new view o fov f lr ar).cameraRay s)
  obtain ⟨r', hr', ht', -⟩ := C42_map_inverse view' hv' ((ThinLensCamera.new view' (k * o) fov (k * f) (k * lr) ar).cameraRay s)
  have hcr := cameraRay_enlarge view view' o fov f lr ar k hk s
  have hg : (ThinLensCamera.new view o fov f lr ar).generateRay s = some r := hr
  have hg' : (ThinLensCamera.new view' (k * o) fov (k * f) (k * lr) ar).generateRay s = some r' := hr'
  have hsa : (enlarge k).minv.Affine := ⟨rfl, rfl, rfl, rfl⟩
  have e1 := mapRayInv_mul (enlarge k) view' hsa hv' ((ThinLensCamera.new view' (k * o) fov (k * f) (k * lr) ar).cameraRay s)
  rw [hs, mapRayInv_mul view (enlarge k) hv hsa, hr', hcr] at e1
  have hq : ∀ c : Ray ℝ, (enlarge k).mapRayInv ⟨(c.origin * k : Point ℝ 3), c.direction, c.tmax⟩ =
      some (Ray.rescale ⟨c.origin, c.direction, c.tmax / k⟩ (1 / k)) := by
    intro c
    unfold enlarge Ray.rescale
    rw [scale_mapRayInv]
    congr 2
    · apply ext3 <;> simp only [x_new3, y_new3, z_new3, x_smul, y_smul, z_smul] <;> field_simp
    · apply ext3 <;> simp only [x_new3, y_new3, z_new3] <;> field_simp
    · simp only; field_simp
  have hS : ∀ c : Ray ℝ, (enlarge k).mapRayInv c = some ⟨new3 (c.origin.x / k) (c.origin.y / k) (c.origin.z / k),
      new3 (c.direction.x / k) (c.direction.y / k) (c.direction.z / k), c.tmax⟩ := fun c => scale_mapRayInv _ c
  rw [hq] at e1
  change view.mapRayInv (Ray.rescale _ _) = (enlarge k).mapRayInv r' at e1
  rw [mapRayInv_rescale _ _ _ (by positivity), hS] at e1
  generalize (ThinLensCamera.new view o fov f lr ar).cameraRay s = c at hr ht hcr e1
  have hr2 : view.mapRayInv ⟨c.origin, c.direction, c.tmax / k⟩ = some ⟨r.origin, r.direction, c.tmax / k⟩ := by
    unfold Transform.mapRayInv at hr ⊢
    obtain ⟨a, h1, h2⟩ := Option.bind_eq_some_iff.1 hr
    obtain ⟨b, h3, h4⟩ := Option.bind_eq_some_iff.1 h2
    have h4' : (⟨a, b, c.tmax⟩ : Ray ℝ) = r := Option.some.inj h4
    subst h4'
    simp [h1, h3]
  rw [hr2, Option.map_some, Option.some.injEq] at e1
  have eo : r.origin = new3 (r'.origin.x / k) (r'.origin.y / k) (r'.origin.z / k) := congrArg Ray.origin e1
  have ed : new3 (r.direction.x * (1 / k)) (r.direction.y * (1 / k)) (r.direction.z * (1 / k)) =
      new3 (r'.direction.x / k) (r'.direction.y / k) (r'.direction.z / k) := congrArg Ray.direction e1
  have edd : r'.direction = r.direction := by
    have x := congrArg GVec.x ed
    have y := congrArg GVec.y ed
    have z := congrArg GVec.z ed
    simp only [x_new3, y_new3, z_new3] at x y z
    field_simp at x y z
    exact ext3 x.symm y.symm z.symm
  refine ⟨r, r', hg, hg', ?_, edd, ?_, ?_⟩
  · intro i
    rw [eo]
    fin_cases i
    · change r'.origin.x = k * (r'.origin.x / k); field_simp
    · change r'.origin.y = k * (r'.origin.y / k); field_simp
    · change r'.origin.z = k * (r'.origin.z / k); field_simp
  · rw [ht, ht', hcr]
  · intro scene hh
    change ((enlarge k).mapRayInv _).bind scene.intersect = _
    rw [hS]
    have := (hh r (1 / k) (by positivity)).1
    have er : r.rescale (1 / k) = ⟨new3 (r'.origin.x / k) (r'.origin.y / k) (r'.origin.z / k),
      new3 (r'.direction.x / k) (r'.direction.y / k) (r'.direction.z / k), k * r.tmax⟩ := by
      unfold Ray.rescale
      rw [ed, eo]
      congr 1
      field_simp
    rw [er] at this
    refine this.trans ?_
    congr 1
    funext x
    congr 1
    funext x
    unfold IntersectionResult.rescale
    congr 1
    field_simp

/-- C145: the enlarged camera of `C145_units`, placed by `look_at`: enlarge position and target. -/
theorem C145_look_at_units (pos target : Point ℝ 3) (up : Vec ℝ 3) {k : ℝ} (hk : 0 < k) :
    (Transform.lookAt (pos * k) (target * k) up * enlarge k : Transform ℝ) = enlarge k * .lookAt pos target up := by
  have e : ((pos * k : Point ℝ 3) - (target * k : Point ℝ 3) : Vec ℝ 3) = (pos - target : Vec ℝ 3) * k := by
    apply ext3 <;> simp only [x_psub, y_psub, z_psub, x_smul, y_smul, z_smul] <;> ring
  unfold Transform.lookAt
  rw [e, normalize_pos_smul _ hk]
  generalize (pos - target : Vec ℝ 3).normalize = z
  generalize (up.normalize.cross z).normalize = x
  generalize z.cross x = y
  unfold Transform.initFromOrthogonalBasis enlarge Transform.scale
  simp only [dot3]
  refine Transform.ext (Mat4.ext (funext₂ fun i j => ?_)) (Mat4.ext (funext₂ fun i j => ?_))
  · change (_ * _ : Mat4 ℝ).data i j = (_ * _ : Mat4 ℝ).data i j
    rw [Mat4.mul_data, Mat4.mul_data, sumLoop_four, sumLoop_four]
    fin_cases i <;> fin_cases j <;> simp [Mat4.mk4] <;> ring
  · change (_ * _ : Mat4 ℝ).data i j = (_ * _ : Mat4 ℝ).data i j
    rw [Mat4.mul_data, Mat4.mul_data, sumLoop_four, sumLoop_four]
    fin_cases i <;> fin_cases j <;> simp [Mat4.mk4] <;> field_simp

/-- A non-trivial instance of the hypotheses: a camera at (1, 2, 3) looking at the origin, moved by a quarter turn about z and a shift;
the moved camera stands at (-2 + 5, 1, 3); and a sphere behind a transform is a scene whose hits scale. -/
example : LookAtOk (new3 1 2 3) (new3 0 0 0) (new3 0 1 0) ∧ RigidMotion (.translate (new3 5 0 0) * .rotateZ (Real.pi / 2)) ∧
    (Transform.translate (new3 5 0 0) * .rotateZ (Real.pi / 2) : Transform ℝ).mapPoint (new3 1 2 3 : Point ℝ 3) = some (new3 3 1 3) ∧
    (Transform.lookAt (new3 1 2 3) (new3 0 0 0) (new3 0 1 0) : Transform ℝ).minv.Affine ∧
    (∀ s : Sphere ℝ, (s.prim.transformed (.rotateX 1)).Homogeneous) := by
  have hR : RigidMotion (.translate (new3 5 0 0) * .rotateZ (Real.pi / 2)) := (C136_motions.1 _).mul (C136_motions.2.1 _ _ _ (.z _))
  refine ⟨?_, hR, ?_, ⟨rfl, rfl, rfl, rfl⟩, fun s => C95_scene (fun _ => False) (fun _ h => h.elim) _ (.transformed _ _ (.sphere s))⟩
  · rw [lookAtOk_iff]
    refine ⟨0, ?_⟩
    change ((new3 0 1 0 : Vec ℝ 3).cross _).x ≠ 0
    simp
  · refine C36_point _ _ _ (new3 (-2) 1 3) _ ?_ ?_
    · unfold Transform.mapPoint
      rw [mapPt_affine ⟨rfl, rfl, rfl, rfl⟩]
      congr 1
      apply ext3 <;> simp [Transform.rotateZ, Mat4.lin, Mat4.trans, Matrix.mulVec, dotProduct, Fin.sum_univ_three, Mat4.mk4, GVec.x, GVec.y, GVec.z, new3]
    · unfold Transform.mapPoint
      rw [mapPt_affine ⟨rfl, rfl, rfl, rfl⟩]
      congr 1
      apply ext3 <;> simp [Transform.translate, Mat4.lin, Mat4.trans, Matrix.mulVec, dotProduct, Fin.sum_univ_three, Mat4.mk4, GVec.x, GVec.y, GVec.z, new3] <;> norm_num

end Scarlet
