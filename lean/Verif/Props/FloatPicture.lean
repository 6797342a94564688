import Verif.Props.FloatNested
import Verif.Props.FloatCam
import Verif.Props.SphereLine

/-! C131: the whole pipeline on `f32`: camera, view transform and nested scene, against the exact camera ray. -/

set_option linter.unusedSectionVars false

namespace Scarlet
open Flt GVec

/-! ### Specification -/

section
variable {o fov f lr ar : F32}

/-- Specification: the exact ray of the sample in camera space, at `t`. -/
noncomputable def camPoint (o fov f lr ar : F32) (s : CameraSample F32) (t : ℝ) (i : _root_.Fin 3) : ℝ :=
  ((exactCam o fov f lr ar).cameraRay (exactSample s)).origin.vec i + ((exactCam o fov f lr ar).cameraRay (exactSample s)).direction.vec i * t

/-- Specification: how many roundings the direction of the ray is off (C113). -/
noncomputable def camTurns (o fov f lr ar : F32) (s : CameraSample F32) : ℝ :=
  9 + (25 * (1 + |o.toReal / (exactCam o fov f lr ar).filmDistance|) *
        (|(exactCam o fov f lr ar).filmWidth| + |(exactCam o fov f lr ar).filmHeight| + |(exactCam o fov f lr ar).filmDistance|) +
        65 * |lr.toReal|) /
    ((exactCam o fov f lr ar).meet (realPt2 s.pFilm) - ((exactCam o fov f lr ar).cameraRay (exactSample s)).origin : Vec ℝ 3).norm

/-- Specification: the size of the coordinates of the camera ray at `t`: those of its terms, plus the number of roundings of
the lens point (16 radii, and underflow) and of the direction. -/
noncomputable def camSize (o fov f lr ar : F32) (s : CameraSample F32) (t : ℝ) (i : _root_.Fin 3) : ℝ :=
  |((exactCam o fov f lr ar).cameraRay (exactSample s)).origin.vec i| +
    |((exactCam o fov f lr ar).cameraRay (exactSample s)).direction.vec i * t| +
    (16 * |lr.toReal| + etaRnd 23 8 / uRnd 23) + camTurns o fov f lr ar s * |t|

/-- Specification: the conditions of C113 on camera and sample. -/
structure CamTame [Libm 23 8] (view : Transform F32) (o fov f lr ar : F32) (s : CameraSample F32) : Prop where
  reg : CamRegular o fov f lr ar
  film : InSquareF s.pFilm
  lens : InSquareF s.pLens
  two : o.toReal ≠ 2 * f.toReal
  big : 15 * etaRnd 23 8 ≤ uRnd 23 * |(exactCam o fov f lr ar).filmDistance|
  ratio : Normalised 23 8 (o.toReal / (ThinLensCamera.new view o fov f lr ar).filmDistance.toReal)
  focusFin : ((ThinLensCamera.new view o fov f lr ar).toFocus s).squareNorm.isFin = true
  focusBig : 3 * etaRnd 23 8 ≤ uRnd 23 * ∑ i, (((ThinLensCamera.new view o fov f lr ar).toFocus s).vec i).toReal ^ 2

/-- Specification: the factor by which errors grow through camera, view transform and `k` transforms of the scene. -/
noncomputable def picGrowth (k : ℕ) : ℝ := (1 + uRnd 23) * (1 + 4.04 * uRnd 23) ^ (k + 1)

/-- Specification: the exact camera ray at `t` in the coordinates of a shape: through the exact inverse of the view transform and
of the transforms around the shape. -/
noncomputable def picPoint (view : Transform F32) (o fov f lr ar : F32) (s : CameraSample F32) (ts : List (Transform F32)) (t : ℝ)
    (i : _root_.Fin 3) : ℝ := pathPoint (view :: ts) (camPoint o fov f lr ar s t) i

/-- Specification: the size of the terms of that point. -/
noncomputable def picSize (view : Transform F32) (o fov f lr ar : F32) (s : CameraSample F32) (ts : List (Transform F32)) (t : ℝ)
    (i : _root_.Fin 3) : ℝ := pathSize (padding 23 8 t) (view :: ts) (camSize o fov f lr ar s t) i

/-- Specification: `obj` is the ray that the code hands to a shape under `ts`, for the sample `s`. -/
def PicChain [Libm 23 8] (view : Transform F32) (o fov f lr ar : F32) (s : CameraSample F32) (ts : List (Transform F32)) (obj : Ray F32) : Prop :=
  Chain (view :: ts) ((ThinLensCamera.new view o fov f lr ar).cameraRay s) obj

/-- Specification: nothing overflows and the maps are affine on the way to the shape. -/
def PicFin [Libm 23 8] (view : Transform F32) (o fov f lr ar : F32) (s : CameraSample F32) (ts : List (Transform F32)) : Prop :=
  ChainFin (view :: ts) ((ThinLensCamera.new view o fov f lr ar).cameraRay s)

/-! ### the ray -/

variable [Libm 23 8] [LawfulLibm 23 8]

/-- C131: the camera-space ray: at every `t`, each coordinate of the float ray is that of the exact ray up to one rounding of
`camSize`. -/
theorem C131_ray (view : Transform F32) (s : CameraSample F32) (h : CamTame view o fov f lr ar s) (t : ℝ) (i : _root_.Fin 3) :
    |camPoint o fov f lr ar s t i| ≤ camSize o fov f lr ar s t i ∧
    |rayPoint ((ThinLensCamera.new view o fov f lr ar).cameraRay s) t i - camPoint o fov f lr ar s t i| ≤
      uRnd 23 * camSize o fov f lr ar s t i ∧
    raySize ((ThinLensCamera.new view o fov f lr ar).cameraRay s) t i ≤ (1 + uRnd 23) * camSize o fov f lr ar s t i := by
  have u0 := uRnd_pos (mw := 23)
  have e0 := etaRnd_pos (mw := 23) (ew := 8)
  have hd := C113_direction view h.reg s h.film h.lens h.two h.big h.ratio h.focusFin h.focusBig i
  have hvf : ∀ i, (((ThinLensCamera.new view o fov f lr ar).toFocus s).vec i).isFin = true :=
    fun i => (isFin_of_mul (sumLoop_fin h.focusFin i)).1
  have hof : ((ThinLensCamera.new view o fov f lr ar).cameraRay s).origin.Fin := fun i => (isFin_of_sub (hvf i)).2
  obtain ⟨lx, ly, lz, -⟩ := C112_lens _ s h.lens hof
  have hl := h.lens
  have hM : Max.max |1 - 2 * s.pLens.x.toReal| |1 - 2 * s.pLens.y.toReal| ≤ 1 :=
    max_le (_root_.abs_le.2 ⟨by linarith [hl.1.2.2], by linarith [hl.1.2.1]⟩) (_root_.abs_le.2 ⟨by linarith [hl.2.2.2], by linarith [hl.2.2.1]⟩)
  generalize Max.max |1 - 2 * s.pLens.x.toReal| |1 - 2 * s.pLens.y.toReal| = M at *
  have bnd : |lr.toReal| * (15 * uRnd 23 * M + 5 * etaRnd 23 8) + etaRnd 23 8 ≤ uRnd 23 * (16 * |lr.toReal| + etaRnd 23 8 / uRnd 23) := by
    have h0 : uRnd 23 * (16 * |lr.toReal| + etaRnd 23 8 / uRnd 23) = 16 * (uRnd 23 * |lr.toReal|) + etaRnd 23 8 := by field_simp
    rw [h0]
    have h1 := mul_le_mul_of_nonneg_left hM (mul_nonneg u0.le (abs_nonneg lr.toReal))
    have h2 : etaRnd 23 8 ≤ uRnd 23 * 0.001 := eta_tiny
    have h3 := mul_le_mul_of_nonneg_right h2 (abs_nonneg lr.toReal)
    have h4 := mul_nonneg u0.le (abs_nonneg lr.toReal)
    nlinarith
  have ho : |(((ThinLensCamera.new view o fov f lr ar).cameraRay s).origin.vec i).toReal -
      ((exactCam o fov f lr ar).cameraRay (exactSample s)).origin.vec i| ≤ uRnd 23 * (16 * |lr.toReal| + etaRnd 23 8 / uRnd 23) := by
    fin_cases i
    · exact lx.trans bnd
    · exact ly.trans bnd
    · refine le_trans (le_of_eq ?_) ((by positivity : (0 : ℝ) ≤ uRnd 23 * (16 * |lr.toReal| + etaRnd 23 8 / uRnd 23)))
      change |((ThinLensCamera.new view o fov f lr ar).cameraRay s).origin.z.toReal - 0| = 0
      rw [lz, sub_zero, abs_zero]
  have hd' : |(((ThinLensCamera.new view o fov f lr ar).cameraRay s).direction.vec i).toReal -
      ((exactCam o fov f lr ar).cameraRay (exactSample s)).direction.vec i| ≤ uRnd 23 * camTurns o fov f lr ar s := by
    refine hd.trans (le_of_eq ?_)
    unfold camTurns
    ring
  unfold camPoint camSize rayPoint raySize
  generalize (((ThinLensCamera.new view o fov f lr ar).cameraRay s).direction.vec i).toReal = d at *
  generalize (((ThinLensCamera.new view o fov f lr ar).cameraRay s).origin.vec i).toReal = p at *
  generalize ((exactCam o fov f lr ar).cameraRay (exactSample s)).direction.vec i = D at *
  generalize ((exactCam o fov f lr ar).cameraRay (exactSample s)).origin.vec i = P at *
  have hL : 0 ≤ 16 * |lr.toReal| + etaRnd 23 8 / uRnd 23 := by positivity
  have hT : 0 ≤ camTurns o fov f lr ar s := by
    have := (abs_nonneg _).trans hd'
    exact nonneg_of_mul_nonneg_right this u0
  generalize 16 * |lr.toReal| + etaRnd 23 8 / uRnd 23 = L at *
  generalize camTurns o fov f lr ar s = K at *
  have hdt : |d * t - D * t| ≤ uRnd 23 * (K * |t|) := by
    rw [← sub_mul, abs_mul]
    have := mul_le_mul_of_nonneg_right hd' (abs_nonneg t)
    linarith
  have kt : 0 ≤ K * |t| := mul_nonneg hT (abs_nonneg t)
  have a1 := abs_nonneg P
  have a2 := abs_nonneg (D * t)
  have b1 := mul_nonneg u0.le a1
  have b2 := mul_nonneg u0.le a2
  have t1 : |p| ≤ |P| + uRnd 23 * L := by
    have := abs_sub_abs_le_abs_sub p P; linarith
  have t2 : |d * t| ≤ |D * t| + uRnd 23 * (K * |t|) := by
    have := abs_sub_abs_le_abs_sub (d * t) (D * t); linarith
  refine ⟨?_, ?_, ?_⟩
  · exact (abs_add_le _ _).trans (by linarith)
  · rw [show p + d * t - (P + D * t) = (p - P) + (d * t - D * t) by ring]
    refine (abs_add_le _ _).trans ?_
    nlinarith
  · nlinarith

/-- C131: the ray that reaches a shape under `k` transforms of the scene, against the exact camera ray. -/
theorem C131_chain (view : Transform F32) (s : CameraSample F32) (h : CamTame view o fov f lr ar s) (ts : List (Transform F32)) (obj : Ray F32)
    (hc : PicChain view o fov f lr ar s ts obj) (hf : PicFin view o fov f lr ar s ts) (t : ℝ) (i : _root_.Fin 3) :
    |picPoint view o fov f lr ar s ts t i| ≤ picSize view o fov f lr ar s ts t i ∧
    |rayPoint obj t i - picPoint view o fov f lr ar s ts t i| ≤ (picGrowth ts.length - 1) * picSize view o fov f lr ar s ts t i ∧
    raySize obj t i ≤ picGrowth ts.length * picSize view o fov f lr ar s ts t i := by
  have u0 := uRnd_pos (mw := 23)
  exact chain_err (by norm_num) (view :: ts) _ obj hc hf t (camPoint o fov f lr ar s t) (camSize o fov f lr ar s t) (1 + uRnd 23) (by linarith)
    (fun i => (C131_ray view s h t i).1) (fun i => by rw [add_sub_cancel_left]; exact (C131_ray view s h t i).2.1)
    (fun i => (C131_ray view s h t i).2.2) i

theorem one_le_picGrowth (k : ℕ) : 1 ≤ picGrowth k := by
  have u0 := uRnd_pos (mw := 23)
  exact one_le_mul_of_one_le_of_one_le (by linarith) (one_le_pow₀ (by linarith))

/-! ### spheres -/

/-- from the residual of the ray that the code uses to that of the exact point -/
theorem defect_near (sph : Sphere F32) (obj : Ray F32) (t g c : ℝ) (P W : _root_.Fin 3 → ℝ) (hg : 1 ≤ g) (hc : 0 ≤ c) (hP : ∀ i, |P i| ≤ W i)
    (hQ : ∀ i, |rayPoint obj t i - P i| ≤ (g - 1) * W i) (hS : ∀ i, raySize obj t i ≤ g * W i) :
    (-(c * sphereScale sph obj t) ≤ sphereDefect sph obj t →
      -(((1 + c) * g ^ 2 - 1) * (∑ i, W i ^ 2 + sph.radius.toReal ^ 2)) ≤ ∑ i, P i ^ 2 - sph.radius.toReal ^ 2) ∧
    (sphereDefect sph obj t ≤ c * sphereScale sph obj t →
      ∑ i, P i ^ 2 - sph.radius.toReal ^ 2 ≤ ((1 + c) * g ^ 2 - 1) * (∑ i, W i ^ 2 + sph.radius.toReal ^ 2)) := by
  obtain ⟨k1, k2⟩ := nested_squares P (fun i => (obj.origin.vec i).toReal + (obj.direction.vec i).toReal * t) W
    (fun i => (obj.origin.vec i).toReal) (fun i => (obj.direction.vec i).toReal * t) hg hP hQ hS
  unfold sphereDefect sphereScale
  have R0 := sq_nonneg sph.radius.toReal
  generalize ∑ i, W i ^ 2 = S at *
  generalize ∑ i, P i ^ 2 = P2 at *
  generalize ∑ i, ((obj.origin.vec i).toReal + (obj.direction.vec i).toReal * t) ^ 2 = Q at *
  have k4 := mul_le_mul_of_nonneg_left k2 hc
  have g2 : 1 ≤ g ^ 2 := one_le_pow₀ hg
  have k5 : sph.radius.toReal ^ 2 ≤ g ^ 2 * sph.radius.toReal ^ 2 := le_mul_of_one_le_left R0 g2
  have k6 := mul_le_mul_of_nonneg_left k5 hc
  rw [_root_.abs_le] at k1
  constructor
  · intro k3
    linarith [k1.1, k1.2]
  · intro k3
    linarith [k1.1, k1.2]

/-- Specification: nothing overflows or underflows when the sphere gets the ray `obj`. -/
def SphereTame (sph : Sphere F32) (obj : Ray F32) : Prop :=
  SphereRegular sph obj ∧ RootsFinite sph obj ∧ etaRnd 23 8 * ∑ i, (obj.direction.vec i).toReal ^ 2 ≤ uRnd 23

/-- Specification: nothing overflows when the box gets the ray `obj`, and the box is not inverted. -/
def BoxTame (b : Bbox F32) (obj : Ray F32) : Prop := SlabFinite b obj ∧ ∀ i, (b.pmin.vec i).toReal ≤ (b.pmax.vec i).toReal

/-- Specification: a scene of spheres and boxes in which nothing overflows or underflows for the ray `r`, on the way to the shapes
or at them. -/
inductive SceneTame : Ray F32 → Primitive F32 → Prop
  | sphere (r) (sph : Sphere F32) (hf : ChainFin [] r) (h : SphereTame sph r) : SceneTame r sph.prim
  | box (r) (b : Bbox F32) (hf : ChainFin [] r) (h : BoxTame b r) : SceneTame r b.prim
  | transformed (r p) (t : Transform F32) (hf : ChainFin [] r) (ht : t.minv.AffineF) (h : ∀ r', t.mapRayInv r = some r' → SceneTame r' p) :
      SceneTame r (p.transformed t)
  | list (r ps) (h : ∀ p ∈ ps, SceneTame r p) : SceneTame r (PrimitiveList.prim ps)

/-- the shape a hit comes from, with the conditions met there -/
theorem tame_origin (r : Ray F32) (p : Primitive F32) (hp : SceneTame r p) (res : IntersectionResult F32) (h : p.intersect r = some (some res)) :
    ∃ ts q obj, Reaches p ts q ∧ ((∃ sph : Sphere F32, q = sph.prim ∧ SphereTame sph obj) ∨ ∃ b : Bbox F32, q = b.prim ∧ BoxTame b obj) ∧
      Chain ts r obj ∧ (∀ s, Chain ts r s → s = obj) ∧ ChainFin ts r ∧ q.intersect obj = some (some res) := by
  induction hp with
  | sphere r sph hf hs => exact ⟨[], _, r, .here _, Or.inl ⟨sph, rfl, hs⟩, rfl, fun s hs => hs.symm, hf, h⟩
  | box r b hf hs => exact ⟨[], _, r, .here _, Or.inr ⟨b, rfl, hs⟩, rfl, fun s hs => hs.symm, hf, h⟩
  | transformed r p t hf ht _ ih =>
    obtain ⟨s, hs, h⟩ := Option.bind_eq_some_iff.1 h
    obtain ⟨ts, q, obj, k1, k2, k3, k4, k5, k6⟩ := ih s hs h
    refine ⟨t :: ts, q, obj, .transformed _ _ _ _ k1, k2, ⟨s, hs, k3⟩, ?_, ⟨hf, ht, ?_⟩, k6⟩
    · rintro s' ⟨r', hr', hc⟩
      cases hs.symm.trans hr'
      exact k4 s' hc
    · intro s' hs'
      cases hs.symm.trans hs'
      exact k5
  | list r ps _ ih =>
    rcases loop_member r ps none r res h with k | ⟨p, hp, k⟩
    · cases k
    · obtain ⟨ts, q, obj, k1, k2, k3⟩ := ih p hp k
      exact ⟨ts, q, obj, .list _ _ _ _ hp k1, k2, k3⟩

/-- Specification: how far the planes of a box may be moved. -/
noncomputable def picMargin (view : Transform F32) (o fov f lr ar : F32) (s : CameraSample F32) (ts : List (Transform F32)) (b : Bbox F32)
    (obj : Ray F32) (t : ℝ) (i : _root_.Fin 3) : ℝ :=
  slabMargin b obj i + (picGrowth ts.length - 1) * picSize view o fov f lr ar s ts t i

/-- Specification: the slack in the equation of a sphere of radius `R`: about `c + 2 (1 + 4.04 (k + 1))` roundings of the squared
sizes. -/
noncomputable def picSlack (view : Transform F32) (o fov f lr ar : F32) (s : CameraSample F32) (ts : List (Transform F32)) (c R t : ℝ) : ℝ :=
  ((1 + c * uRnd 23) * picGrowth ts.length ^ 2 - 1) * (∑ i, picSize view o fov f lr ar s ts t i ^ 2 + R ^ 2)

theorem highest32 : (Scalar.highest : F32).isNaN = false ∧ (Scalar.highest : F32).isFin = true ∧ 0 ≤ (Scalar.highest : F32).key := by
  decide +kernel

theorem highest32_nonneg : 0 ≤ (Scalar.highest : F32).val := by
  rw [val_of_isFin highest32.2.1]
  have : (0 : ℝ) ≤ (Scalar.highest : F32).toReal := by
    rw [← toReal_szero (mw := 23) (ew := 8), toReal_le_iff, key_szero]
    exact highest32.2.2
  exact_mod_cast this

theorem pic_tmax {view : Transform F32} {s : CameraSample F32} {ts : List (Transform F32)} {obj : Ray F32}
    (hc : PicChain view o fov f lr ar s ts obj) : obj.tmax = Scalar.highest := chain_tmax _ _ _ hc

/-- C131: the picture has nothing where there is nothing: if the scene reports a hit for the ray of a sample, then at the reported
`t_ray` the exact ray of that sample, taken through the exact maps, is on the image of a sphere of the scene, or in the image of a
box of it, up to rounding. -/
theorem C131_hit (view : Transform F32) (s : CameraSample F32) (h : CamTame view o fov f lr ar s) (p : Primitive F32)
    (hv : PicFin view o fov f lr ar s []) (r : Ray F32) (hr : (ThinLensCamera.new view o fov f lr ar).generateRay s = some r)
    (ht : SceneTame r p) (res : IntersectionResult F32)
    (hi : p.intersect r = some (some res)) (hn : etaRnd 23 8 ≤ uRnd 23 * |res.tRay.toReal|) :
    (∃ ts, ∃ sph : Sphere F32, Reaches p ts sph.prim ∧
      |∑ i, picPoint view o fov f lr ar s ts res.tRay.toReal i ^ 2 - sph.radius.toReal ^ 2| ≤
        picSlack view o fov f lr ar s ts 64 sph.radius.toReal res.tRay.toReal) ∨
    ∃ ts, ∃ b : Bbox F32, ∃ obj, Reaches p ts b.prim ∧ PicChain view o fov f lr ar s ts obj ∧ ∀ i,
      (b.pmin.vec i).toReal - picMargin view o fov f lr ar s ts b obj res.tRay.toReal i ≤ picPoint view o fov f lr ar s ts res.tRay.toReal i ∧
      picPoint view o fov f lr ar s ts res.tRay.toReal i ≤ (b.pmax.vec i).toReal + picMargin view o fov f lr ar s ts b obj res.tRay.toReal i := by
  have u0 := uRnd_pos (mw := 23)
  obtain ⟨ts, q, obj, hq, hl, hc, -, hcf, ho⟩ := tame_origin r p ht res hi
  have hpc : PicChain view o fov f lr ar s ts obj := ⟨r, hr, hc⟩
  have hpf : PicFin view o fov f lr ar s ts := ⟨hv.1, hv.2.1, fun s' hs' => by cases hr.symm.trans hs'; exact hcf⟩
  have ch := fun i => C131_chain view s h ts obj hpc hpf res.tRay.toReal i
  rcases hl with ⟨sph, rfl, h1, h2, -⟩ | ⟨b, rfl, h1, h2⟩
  · refine Or.inl ⟨ts, sph, hq, ?_⟩
    obtain ⟨hit, hh, he⟩ : ∃ hit, sph.intersectRay obj = some hit ∧ res.tRay = hit.tRay := by
      have hr' : sph.intersect obj = some res := Option.some.inj ho
      unfold Sphere.intersect at hr'
      cases hh : sph.intersectRay obj with
      | none => rw [hh] at hr'; cases hr'
      | some h => rw [hh] at hr'; cases hr'; exact ⟨h, rfl, rfl⟩
    have k := (C102_hit_partial (by norm_num) (by norm_num) sph obj hit hh h1 h2 (he ▸ hn)).1
    rw [← he, _root_.abs_le] at k
    have d := defect_near sph obj res.tRay.toReal (picGrowth ts.length) (64 * uRnd 23) _ _ (one_le_picGrowth _) (by positivity)
      (fun i => (ch i).1) (fun i => (ch i).2.1) (fun i => (ch i).2.2)
    exact _root_.abs_le.2 ⟨d.1 k.1, d.2 k.2⟩
  · refine Or.inr ⟨ts, b, obj, hq, hpc, fun i => ?_⟩
    obtain ⟨t1, he⟩ : ∃ t1, b.intersectRay obj = some (res.tRay, t1) := by
      unfold Bbox.prim Bbox.hit at ho
      have hr := Option.some.inj ho
      cases hx : b.intersectRay obj with
      | none => rw [hx] at hr; cases hr
      | some x => rw [hx] at hr; cases hr; exact ⟨x.2, rfl⟩
    have htm := pic_tmax hpc
    obtain ⟨⟨-, -, -, h01, -⟩, hin⟩ := C92_range b obj h1 h2 (by rw [htm]; exact highest32.1) (by rw [htm]; exact highest32_nonneg) _ _ he
    have a := _root_.abs_le.1 (ch i).2.1
    have := hin res.tRay.toReal le_rfl h01 i
    unfold exactAt at this
    unfold picMargin
    unfold rayPoint at a
    constructor <;> linarith [a.1, a.2, this.1, this.2]

/-- C131: the picture has no holes: if the scene reports no hit for the ray of a sample, then the exact ray of that sample passes
through no box of the scene, with the planes moved inwards by the margin. -/
theorem C131_miss_box (view : Transform F32) (s : CameraSample F32) (h : CamTame view o fov f lr ar s) (p : Primitive F32) (r : Ray F32)
    (hr : (ThinLensCamera.new view o fov f lr ar).generateRay s = some r) (hi : p.intersect r = some none)
    (ts : List (Transform F32)) (b : Bbox F32) (hq : Reaches p ts b.prim) (hf : PicFin view o fov f lr ar s ts)
    (hb : ∀ obj, PicChain view o fov f lr ar s ts obj → BoxTame b obj) :
    ∃ obj, PicChain view o fov f lr ar s ts obj ∧ ∀ t : ℝ, 0 ≤ t → t ≤ (Scalar.highest : F32).toReal → ∃ i,
      picPoint view o fov f lr ar s ts t i < (b.pmin.vec i).toReal + picMargin view o fov f lr ar s ts b obj t i ∨
      (b.pmax.vec i).toReal - picMargin view o fov f lr ar s ts b obj t i < picPoint view o fov f lr ar s ts t i := by
  obtain ⟨obj, hc, hno⟩ := C126_none p _ ts hq r hi
  have hpc : PicChain view o fov f lr ar s ts obj := ⟨r, hr, hc⟩
  refine ⟨obj, hpc, fun t h0 h1 => ?_⟩
  by_contra hcon
  push Not at hcon
  have htm := pic_tmax hpc
  obtain ⟨g1, g2⟩ := hb obj hpc
  have key : (b.intersectRay obj).isSome = true := by
    refine C92_hit b obj g1 g2 (by rw [htm]; exact highest32.1) t h0
      (by rw [htm, val_of_isFin highest32.2.1]; exact_mod_cast h1) fun i => ?_
    have a := _root_.abs_le.1 (C131_chain view s h ts obj hpc hf t i).2.1
    have := hcon i
    unfold picMargin at this
    unfold rayPoint at a
    unfold exactAt
    constructor <;> linarith [a.1, a.2, this.1, this.2]
  obtain ⟨x, hx⟩ := Option.isSome_iff_exists.1 key
  unfold Bbox.prim Bbox.hit at hno
  dsimp only at hno
  rw [hx] at hno
  cases hno

/-- C131: the picture has no holes: if the scene reports no hit for the ray of a sample, then the exact ray of that sample crosses no
sphere of the scene that is not clipped where the ray meets it: it stays outside, or it stays inside, up to rounding. -/
theorem C131_miss_sphere (view : Transform F32) (s : CameraSample F32) (h : CamTame view o fov f lr ar s) (p : Primitive F32) (r : Ray F32)
    (hr : (ThinLensCamera.new view o fov f lr ar).generateRay s = some r) (hi : p.intersect r = some none)
    (ts : List (Transform F32)) (sph : Sphere F32) (hq : Reaches p ts sph.prim) (hf : PicFin view o fov f lr ar s ts)
    (hs : ∀ obj, PicChain view o fov f lr ar s ts obj → SphereTame sph obj ∧ Unclipped sph obj) :
    (∀ t : ℝ, 0 ≤ t → t ≤ (Scalar.highest : F32).toReal →
      -picSlack view o fov f lr ar s ts 58 sph.radius.toReal t ≤ ∑ i, picPoint view o fov f lr ar s ts t i ^ 2 - sph.radius.toReal ^ 2) ∨
    (∀ t : ℝ, 0 ≤ t → t ≤ (Scalar.highest : F32).toReal →
      ∑ i, picPoint view o fov f lr ar s ts t i ^ 2 - sph.radius.toReal ^ 2 ≤ picSlack view o fov f lr ar s ts 58 sph.radius.toReal t) := by
  have u0 := uRnd_pos (mw := 23)
  obtain ⟨obj, hc, hno⟩ := C126_none p _ ts hq r hi
  have hpc : PicChain view o fov f lr ar s ts obj := ⟨r, hr, hc⟩
  obtain ⟨⟨h1, h2, h3⟩, hcl⟩ := hs obj hpc
  have htm := pic_tmax hpc
  have hdo : sph.doIntersect obj = false := by
    have : sph.intersect obj = none := Option.some.inj hno
    rw [C58_sphere, this]; rfl
  have hd := fun t => defect_near sph obj t (picGrowth ts.length) (58 * uRnd 23) _ _ (one_le_picGrowth _) (by positivity)
    (fun i => (C131_chain view s h ts obj hpc hf t i).1) (fun i => (C131_chain view s h ts obj hpc hf t i).2.1)
    (fun i => (C131_chain view s h ts obj hpc hf t i).2.2)
  rcases C120_miss (by norm_num) (by norm_num) sph obj h1 h3 h2 hcl (by rw [htm]; exact highest32.1) hdo with k | k
  · exact Or.inl fun t t0 t1 => (hd t).1 (k t t0 (Or.inl (by rw [htm]; exact t1)))
  · exact Or.inr fun t t0 t1 => (hd t).2 (k t t0 (Or.inl (by rw [htm]; exact t1)))
end


/-! ### the hypotheses can be met -/

section examples

theorem sub_same {y : F32} (h : y.isFin = true) : y - y = Scalar.zero := by
  obtain ⟨n, f⟩ : y.isNaN = false ∧ y.isInf = false := by
    unfold isFin at h; unfold isNaN isInf
    have := of_decide_eq_true h
    constructor <;> (apply decide_eq_false; omega)
  have n' : y.neg.isNaN = false := by unfold isNaN; rw [idx_neg]; exact n
  have f' : y.neg.isInf = false := by unfold isInf; rw [idx_neg]; exact f
  change Flt.add y (Flt.neg y) = _
  unfold Flt.add
  rw [n, f, n', f', sgn_neg, sval_neg]
  simp only [Bool.or_self, Bool.false_eq_true, if_false, add_neg_cancel, if_true, Bool.and_not_self]
  decide +kernel

/-- a camera at (−3, −3, −3) that looks along (1, 1, 1) -/
def picView : Transform F32 where
  m := ⟨![![F32.lit 1, Scalar.zero, -F32.lit 1, Scalar.zero], ![Scalar.zero, F32.lit 1, -F32.lit 1, Scalar.zero],
    ![Scalar.zero, Scalar.zero, -F32.lit 1, -F32.lit 3], ![Scalar.zero, Scalar.zero, Scalar.zero, Scalar.one]]⟩
  minv := ⟨![![F32.lit 1, Scalar.zero, -F32.lit 1, -F32.lit 3], ![Scalar.zero, F32.lit 1, -F32.lit 1, -F32.lit 3],
    ![Scalar.zero, Scalar.zero, -F32.lit 1, -F32.lit 3], ![Scalar.zero, Scalar.zero, Scalar.zero, Scalar.one]]⟩

/-- the middle of the film and of the lens -/
def picSample : CameraSample F32 := ⟨new2 GFloat.half GFloat.half, new2 GFloat.half GFloat.half⟩

/-- the camera-space ray for given points of the lens and of the film -/
def camRayOf (a b x y o lr D : F32) : Ray F32 :=
  let pLens : Point F32 3 := new3 (a * lr) (b * lr) Scalar.zero
  let pFilm : Point F32 3 := new3 x y D
  let filmToLens : Ray F32 := ⟨pFilm, (GVec.new3 Scalar.zero Scalar.zero Scalar.zero : Point F32 3) - pFilm, Scalar.zero⟩
  ⟨pLens, (filmToLens.eval (-o / filmToLens.direction.z) - pLens).normalize, Scalar.highest⟩

theorem camRayOf_eq [Libm 23 8] (cam : ThinLensCamera F32) (s : CameraSample F32) (a b x y : F32) (h : concentricSampleDisk s.pLens = new2 a b)
    (hx : GFloat.half * cam.filmWidth - s.pFilm.x * cam.filmWidth = x) (hy : GFloat.half * cam.filmHeight - s.pFilm.y * cam.filmHeight = y) :
    cam.cameraRay s = camRayOf a b x y cam.focalDistance cam.lensRadius cam.filmDistance := by
  unfold ThinLensCamera.cameraRay
  rw [h]
  dsimp only
  rw [hx, hy]
  rfl

/-- the ray of that sample in camera space, from the origin along −z -/
def picCam : Ray F32 := camRayOf Scalar.zero Scalar.zero Scalar.zero Scalar.zero (F32.lit 3) (F32.lit 1) (F32.lit 3 * F32.lit 1 / (F32.lit 3 - F32.lit 1))

theorem picR_some : (picView.mapRayInv picCam).isSome = true := by decide +kernel
/-- the ray of that sample in the world, from (−3, −3, −3) along (1, 1, 1) -/
def picR : Ray F32 := (picView.mapRayInv picCam).get picR_some

def picT : Transform F32 := Transform.translate (new3 (F32.lit 1) (F32.lit 1) (F32.lit 1))
def picS : Transform F32 := Transform.translate (new3 (F32.lit 5) (F32.lit 0) (F32.lit 0))
theorem picRT_some : (picT.mapRayInv picR).isSome = true := by decide +kernel
theorem picRS_some : (picS.mapRayInv picR).isSome = true := by decide +kernel
theorem picRO_some : (objT.mapRayInv picR).isSome = true := by decide +kernel
def picRT : Ray F32 := (picT.mapRayInv picR).get picRT_some
def picRS : Ray F32 := (picS.mapRayInv picR).get picRS_some
def picRO : Ray F32 := (objT.mapRayInv picR).get picRO_some

theorem picCam_eq : picCam = camRayOf Scalar.zero Scalar.zero Scalar.zero Scalar.zero (F32.lit 3) (F32.lit 1)
  (F32.lit 3 * F32.lit 1 / (F32.lit 3 - F32.lit 1)) := rfl
theorem picR_eq : picView.mapRayInv picCam = some picR := (Option.some_get _).symm
theorem picRT_eq : picT.mapRayInv picR = some picRT := (Option.some_get _).symm
theorem picRS_eq : picS.mapRayInv picR = some picRS := (Option.some_get _).symm
theorem picRO_eq : objT.mapRayInv picR = some picRO := (Option.some_get _).symm
theorem picT_affine : picT.minv.AffineF := affineF_of rfl rfl rfl rfl
theorem picS_affine : picS.minv.AffineF := affineF_of rfl rfl rfl rfl
theorem picO_affine : objT.minv.AffineF := affineF_of rfl rfl rfl rfl
theorem picS_disc : (Scalar.square ((GVec.conv .vector picRS.origin).dot picRS.direction * GFloat.fromI64 2) - picRS.direction.squareNorm *
    ((GVec.conv .vector picRS.origin).squareNorm - Scalar.square exSphF.radius) * GFloat.fromI64 4).isFin = true := by decide +kernel
theorem picT_slab : SlabFinite objB picRT := by unfold SlabFinite; decide +kernel
theorem picO_slab : SlabFinite objB picRO := by unfold SlabFinite; decide +kernel
theorem objB_proper (i : _root_.Fin 3) : (objB.pmin.vec i).toReal ≤ (objB.pmax.vec i).toReal :=
  toReal_le_iff.2 (by revert i; decide +kernel)
theorem picT_hit : objB.intersectRay picRT = some (F32.lit 3, F32.lit 5) := by decide +kernel
theorem picO_miss : objB.intersectRay picRO = none := by decide +kernel
theorem picS_miss : solveQuadratic picRS.direction.squareNorm ((GVec.conv .vector picRS.origin).dot picRS.direction * GFloat.fromI64 2)
      ((GVec.conv .vector picRS.origin).squareNorm - Scalar.square exSphF.radius) = none := by decide +kernel
theorem picCam_fin : ChainFin [] picCam := ⟨by decide +kernel, by decide +kernel⟩
theorem picR_fin : ChainFin [] picR := ⟨by decide +kernel, by decide +kernel⟩
theorem picRT_fin : ChainFin [] picRT := ⟨by decide +kernel, by decide +kernel⟩
theorem picRS_fin : ChainFin [] picRS := ⟨by decide +kernel, by decide +kernel⟩
theorem picRO_fin : ChainFin [] picRO := ⟨by decide +kernel, by decide +kernel⟩
theorem picView_affine : picView.minv.AffineF := affineF_of rfl rfl rfl rfl

theorem picS_vals : picRS.direction.vec 0 = F32.lit 1 ∧ picRS.direction.vec 1 = F32.lit 1 ∧ picRS.direction.vec 2 = F32.lit 1 ∧
    picRS.origin.vec 0 = -F32.lit 8 ∧ picRS.direction.squareNorm = F32.lit 3 ∧
    (GVec.conv .vector picRS.origin).dot picRS.direction * GFloat.fromI64 2 = -F32.lit 28 ∧
    (GVec.conv .vector picRS.origin).squareNorm - Scalar.square exSphF.radius = F32.lit 81 := by decide +kernel

attribute [local irreducible] picCam picR picRT picRS picRO picView picT picS objT exSphF objB

theorem picS_tame : SphereTame exSphF picRS := by
  have hu := uRnd_pos (mw := 23)
  have hη : 3 * etaRnd 23 8 ≤ uRnd 23 * 1 := by unfold etaRnd uRnd fK; norm_num
  have h8 : (F32.lit 8).toReal = 8 := by rw [toReal_lit (by decide)]; norm_num
  obtain ⟨e0, e1, e2, o0, e3, e4, e5⟩ := picS_vals
  refine ⟨⟨?_, ?_, picS_disc, ?_, ?_⟩, ?_, ?_⟩
  · rw [Fin.sum_univ_three, e0, e1, e2, toReal_lit_small.1]
    linarith
  · rw [Fin.sum_univ_three, o0, toReal_negop, h8]
    have h : 1 ≤ (-8 : ℝ) ^ 2 + (picRS.origin.vec 1).toReal ^ 2 + (picRS.origin.vec 2).toReal ^ 2 + exSphF.radius.toReal ^ 2 := by nlinarith [sq_nonneg (picRS.origin.vec 1).toReal, sq_nonneg (picRS.origin.vec 2).toReal, sq_nonneg exSphF.radius.toReal]
    exact hη.trans (mul_le_mul_of_nonneg_left h hu.le)
  · rw [e4, toReal_negop, toReal_lit (by decide)]
    exact normal_f32 (by norm_num)
  · rw [e3, e5, toReal_lit (by decide), toReal_lit (by decide)]
    exact normal_f32 (by norm_num)
  · intro t0 t1 h
    rw [picS_miss] at h
    cases h
  · rw [Fin.sum_univ_three, e0, e1, e2, toReal_lit_small.1]
    have := etaRnd_pos (mw := 23) (ew := 8)
    linarith

variable [Libm 23 8]

theorem view_focus (v v' : Transform F32) (o fov f lr ar : F32) (s : CameraSample F32) :
    (ThinLensCamera.new v o fov f lr ar).toFocus s = (ThinLensCamera.new v' o fov f lr ar).toFocus s := rfl
theorem view_dist (v v' : Transform F32) (o fov f lr ar : F32) :
    (ThinLensCamera.new v o fov f lr ar).filmDistance = (ThinLensCamera.new v' o fov f lr ar).filmDistance := rfl
theorem view_width (v v' : Transform F32) (o fov f lr ar : F32) :
    (ThinLensCamera.new v o fov f lr ar).filmWidth = (ThinLensCamera.new v' o fov f lr ar).filmWidth := rfl
theorem view_height (v v' : Transform F32) (o fov f lr ar : F32) :
    (ThinLensCamera.new v o fov f lr ar).filmHeight = (ThinLensCamera.new v' o fov f lr ar).filmHeight := rfl
theorem camRay_new (v : Transform F32) (o fov f lr ar a b x y : F32) (s : CameraSample F32) (h : concentricSampleDisk s.pLens = new2 a b)
    (hx : GFloat.half * (ThinLensCamera.new v o fov f lr ar).filmWidth - s.pFilm.x * (ThinLensCamera.new v o fov f lr ar).filmWidth = x)
    (hy : GFloat.half * (ThinLensCamera.new v o fov f lr ar).filmHeight - s.pFilm.y * (ThinLensCamera.new v o fov f lr ar).filmHeight = y) :
    (ThinLensCamera.new v o fov f lr ar).cameraRay s = camRayOf a b x y o lr (o * f / (o - f)) := camRayOf_eq _ _ _ _ _ _ h hx hy
theorem sphere_none (sph : Sphere F32) (r : Ray F32)
    (h : solveQuadratic r.direction.squareNorm ((GVec.conv .vector r.origin).dot r.direction * GFloat.fromI64 2)
      ((GVec.conv .vector r.origin).squareNorm - Scalar.square sph.radius) = none) : sph.intersect r = none := by
  unfold Sphere.intersect Sphere.intersectRay
  dsimp only
  rw [h]
  rfl

/-- the camera of C113 with that view -/
theorem pic_camera (ht : ∀ x : F32, (Libm.tan x : F32) = faithful 23 8 (Real.tan x.toReal)) :
    CamTame picView (F32.lit 3) (F32.lit 1) (F32.lit 1) (F32.lit 1) (F32.lit 1) picSample ∧
    (ThinLensCamera.new picView (F32.lit 3) (F32.lit 1) (F32.lit 1) (F32.lit 1) (F32.lit 1)).cameraRay picSample = picCam := by
  obtain ⟨R, wf⟩ := camRegular_example ht
  obtain ⟨h1, h2, h3, h4, h5, h6, h7⟩ := c113_example ht
  rw [view_dist _ picView] at h5
  rw [view_focus _ picView] at h6
  simp only [view_focus _ picView] at h7
  refine ⟨⟨R, h1, h2, h3, h4, h5, h6, h7⟩, ?_⟩
  have hf := R.heightFin
  rw [view_width _ picView] at wf
  rw [view_height _ picView] at hf
  obtain ⟨hF, hV⟩ := half_spec (mw := 23) (ew := 8)
  have hm : ∀ {w : F32}, w.isFin = true → (GFloat.half * w : F32).isFin = true := by
    intro w hw
    refine (rounded_bound (mul_fin hF hw) (c := iabs w) (by rw [isFin_iabs]; exact hw) ?_).1
    rw [hV, abs_mul, toReal_iabs, abs_of_pos (by norm_num)]
    linarith [abs_nonneg w.toReal]
  have conc : concentricSampleDisk picSample.pLens = new2 Scalar.zero Scalar.zero := by
    unfold concentricSampleDisk
    rw [if_pos (by decide +kernel)]
  have k1 : GFloat.half * (ThinLensCamera.new picView (F32.lit 3) (F32.lit 1) (F32.lit 1) (F32.lit 1) (F32.lit 1)).filmWidth - picSample.pFilm.x *
    (ThinLensCamera.new picView (F32.lit 3) (F32.lit 1) (F32.lit 1) (F32.lit 1) (F32.lit 1)).filmWidth = Scalar.zero := sub_same (hm wf)
  have k2 : GFloat.half * (ThinLensCamera.new picView (F32.lit 3) (F32.lit 1) (F32.lit 1) (F32.lit 1) (F32.lit 1)).filmHeight - picSample.pFilm.y *
    (ThinLensCamera.new picView (F32.lit 3) (F32.lit 1) (F32.lit 1) (F32.lit 1) (F32.lit 1)).filmHeight = Scalar.zero := sub_same (hm hf)
  exact (camRay_new _ _ _ _ _ _ _ _ _ _ _ conc k1 k2).trans picCam_eq.symm

/-- Non-vacuity of `C131_hit`: with that camera, the cube moved by (1, 1, 1) and the unit sphere moved by (5, 0, 0) in a list, the
hypotheses are met and a hit is reported at distance 3. -/
theorem pic_hit (ht : ∀ x : F32, (Libm.tan x : F32) = faithful 23 8 (Real.tan x.toReal)) :
    let cam := ThinLensCamera.new picView (F32.lit 3) (F32.lit 1) (F32.lit 1) (F32.lit 1) (F32.lit 1)
    let scene := PrimitiveList.prim [objB.prim.transformed picT, exSphF.prim.transformed picS]
    CamTame picView (F32.lit 3) (F32.lit 1) (F32.lit 1) (F32.lit 1) (F32.lit 1) picSample ∧
    PicFin picView (F32.lit 3) (F32.lit 1) (F32.lit 1) (F32.lit 1) (F32.lit 1) picSample [] ∧ cam.generateRay picSample = some picR ∧
    SceneTame picR scene ∧ (scene.intersect picR).map (fun o => o.map (·.tRay)) = some (some (F32.lit 3)) ∧
    etaRnd 23 8 ≤ uRnd 23 * |(F32.lit 3).toReal| := by
  intro cam scene
  obtain ⟨h1, h2⟩ := pic_camera ht
  refine ⟨h1, ?_, ?_, .list _ _ fun p hp => ?_, ?_, ?_⟩
  · unfold PicFin
    rw [h2]
    exact ⟨picCam_fin, picView_affine, fun s hs => by obtain rfl : s = picR := Option.some.inj (hs.symm.trans picR_eq); exact picR_fin⟩
  · unfold ThinLensCamera.generateRay
    rw [h2]
    exact picR_eq
  · rcases List.mem_cons.1 hp with rfl | hp
    · exact .transformed _ _ _ picR_fin (picT_affine) fun r' hr' => by
        obtain rfl : r' = picRT := Option.some.inj (hr'.symm.trans picRT_eq)
        exact .box _ _ picRT_fin ⟨picT_slab, objB_proper⟩
    · rw [List.mem_singleton.1 hp]
      exact .transformed _ _ _ picR_fin (picS_affine) fun r' hr' => by
        obtain rfl : r' = picRS := Option.some.inj (hr'.symm.trans picRS_eq)
        exact .sphere _ _ picRS_fin picS_tame
  · have a : (objB.prim.transformed picT).intersect picR = some (objB.hit picRT) := by
      change (picT.mapRayInv picR).bind _ = _
      rw [picRT_eq]; rfl
    have b : (exSphF.prim.transformed picS).intersect picR = some none := by
      change (picS.mapRayInv picR).bind _ = _
      rw [picRS_eq]
      exact congrArg some (sphere_none _ _ picS_miss)
    obtain ⟨res, hr, hres⟩ : ∃ res, objB.hit picRT = some res ∧ res.tRay = F32.lit 3 := by
      unfold Bbox.hit
      rw [picT_hit]
      exact ⟨_, rfl, rfl⟩
    rw [hr] at a
    change (PrimitiveList.intersectLoop picR [_, _] none picR).map _ = _
    unfold PrimitiveList.intersectLoop
    rw [a]
    change (PrimitiveList.intersectLoop picR [_] (some res) _).map _ = _
    unfold PrimitiveList.intersectLoop
    rw [b]
    change some (some res.tRay) = _
    rw [hres]
  · rw [toReal_lit_small.2.2]
    have : etaRnd 23 8 ≤ uRnd 23 * 0.2 := by unfold etaRnd uRnd fK; norm_num
    have := uRnd_pos (mw := 23)
    norm_num
    linarith

/-- Non-vacuity of `C131_miss_box` and `C131_miss_sphere`: with that camera, the cube moved by (7, 0, 0) and the unit sphere moved by
(5, 0, 0) in a list, the hypotheses are met and no hit is reported. -/
theorem pic_miss (ht : ∀ x : F32, (Libm.tan x : F32) = faithful 23 8 (Real.tan x.toReal)) :
    let cam := ThinLensCamera.new picView (F32.lit 3) (F32.lit 1) (F32.lit 1) (F32.lit 1) (F32.lit 1)
    let scene := PrimitiveList.prim [objB.prim.transformed objT, exSphF.prim.transformed picS]
    CamTame picView (F32.lit 3) (F32.lit 1) (F32.lit 1) (F32.lit 1) (F32.lit 1) picSample ∧ cam.generateRay picSample = some picR ∧
    scene.intersect picR = some none ∧ Reaches scene [objT] objB.prim ∧ Reaches scene [picS] exSphF.prim ∧
    PicFin picView (F32.lit 3) (F32.lit 1) (F32.lit 1) (F32.lit 1) (F32.lit 1) picSample [objT] ∧
    PicFin picView (F32.lit 3) (F32.lit 1) (F32.lit 1) (F32.lit 1) (F32.lit 1) picSample [picS] ∧
    (∀ obj, PicChain picView (F32.lit 3) (F32.lit 1) (F32.lit 1) (F32.lit 1) (F32.lit 1) picSample [objT] obj → BoxTame objB obj) ∧
    (∀ obj, PicChain picView (F32.lit 3) (F32.lit 1) (F32.lit 1) (F32.lit 1) (F32.lit 1) picSample [picS] obj →
      SphereTame exSphF obj ∧ Unclipped exSphF obj) := by
  intro cam scene
  obtain ⟨h1, h2⟩ := pic_camera ht
  refine ⟨h1, ?_, ?_, .list _ _ _ _ (.head _) (.transformed _ _ _ _ (.here _)), .list _ _ _ _ (.tail _ (.head _)) (.transformed _ _ _ _ (.here _)),
    ?_, ?_, ?_, ?_⟩
  · unfold ThinLensCamera.generateRay
    rw [h2]
    exact picR_eq
  · refine (C63_intersect _ _).2 fun p hp => ?_
    rcases List.mem_cons.1 hp with rfl | hp
    · change (objT.mapRayInv picR).bind _ = _
      rw [picRO_eq]
      change some (objB.hit picRO) = _
      unfold Bbox.hit
      rw [picO_miss]
      rfl
    · rw [List.mem_singleton.1 hp]
      change (picS.mapRayInv picR).bind _ = _
      rw [picRS_eq]
      exact congrArg some (sphere_none _ _ picS_miss)
  · unfold PicFin
    rw [h2]
    exact ⟨picCam_fin, picView_affine, fun s hs => by
      obtain rfl : s = picR := Option.some.inj (hs.symm.trans picR_eq)
      exact ⟨picR_fin, picO_affine, fun s hs => by obtain rfl : s = picRO := Option.some.inj (hs.symm.trans picRO_eq); exact picRO_fin⟩⟩
  · unfold PicFin
    rw [h2]
    exact ⟨picCam_fin, picView_affine, fun s hs => by
      obtain rfl : s = picR := Option.some.inj (hs.symm.trans picR_eq)
      exact ⟨picR_fin, picS_affine, fun s hs => by obtain rfl : s = picRS := Option.some.inj (hs.symm.trans picRS_eq); exact picRS_fin⟩⟩
  · rintro obj ⟨s, hs, s', hs', rfl⟩
    rw [h2] at hs
    obtain rfl : s = picR := Option.some.inj (hs.symm.trans picR_eq)
    obtain rfl : s' = picRO := Option.some.inj (hs'.symm.trans picRO_eq)
    exact ⟨picO_slab, objB_proper⟩
  · rintro obj ⟨s, hs, s', hs', rfl⟩
    rw [h2] at hs
    obtain rfl : s = picR := Option.some.inj (hs.symm.trans picR_eq)
    obtain rfl : s' = picRS := Option.some.inj (hs'.symm.trans picRS_eq)
    refine ⟨picS_tame, fun t0 t1 h => ?_⟩
    rw [picS_miss] at h
    cases h

end examples

end Scarlet
