import Verif.Props.FloatXform
import Verif.Props.FloatNorm
import Verif.Props.Camera4

/-! C89 (when `generate_ray` panics, floats); the exact panic condition of `map` for affine float matrices (C43). -/

set_option linter.unusedSectionVars false

namespace Scarlet
open Flt GVec
variable {mw ew : Nat} [FltImpl mw ew] [LawfulFlt mw ew]

/-- C43, exactly: an affine float matrix never panics on a point, whatever its coordinates, and panics on a vector precisely
when a component is infinite or NaN. -/
theorem C43_float_exact (m : Mat4 (Flt mw ew)) (hm : m.AffineF) (p : Point (Flt mw ew) 3) (v : Vec (Flt mw ew) 3) :
    mapPt m p ≠ none ∧ (mapVector m v = none ↔ ∃ i, (v.vec i).isFin = false) := by
  have zfin : ∀ {x : Flt mw ew}, Scalar.eq x Scalar.zero = true → x.isFin = true := fun h =>
    isFin_of_key_zero ((seq_iff.1 h).2.2.trans key_szero)
  constructor
  · intro h
    have hw : Scalar.eq (p.x * m.idx 3 0 + p.y * m.idx 3 1 + p.z * m.idx 3 2 + m.idx 3 3) Scalar.zero = true := by
      unfold mapPt at h
      by_contra hc
      simp only [hc, Bool.false_eq_true, if_false] at h
      cases h
    have f := isFin_of_add (isFin_of_add (isFin_of_add (zfin hw)).1).1
    have g := (isFin_of_add (isFin_of_add (zfin hw)).1).2
    refine (C43_float m hm p (new3 Scalar.zero Scalar.zero Scalar.zero) (fun i => ?_) (fun i => ?_)).1 h
    · fin_cases i
      · exact (isFin_of_mul f.1).1
      · exact (isFin_of_mul f.2).1
      · exact (isFin_of_mul g).1
    · fin_cases i <;> exact isFin_szero
  · constructor
    · intro h
      by_contra hc
      have hv : ∀ i, (v.vec i).isFin = true := fun i => by
        cases e : (v.vec i).isFin
        · exact absurd ⟨i, e⟩ hc
        · rfl
      exact (C43_float m hm (new3 Scalar.zero Scalar.zero Scalar.zero) v
        (fun i => by fin_cases i <;> exact isFin_szero) hv).2 h
    · rintro ⟨i, hi⟩
      unfold mapVector
      rw [if_neg]
      intro hw
      have f := isFin_of_add (isFin_of_add (zfin hw)).1
      have g := (isFin_of_add (zfin hw)).2
      have : (v.vec i).isFin = true := by
        fin_cases i
        · exact (isFin_of_mul f.1).1
        · exact (isFin_of_mul f.2).1
        · exact (isFin_of_mul g).1
      rw [this] at hi
      cases hi

/-- C43: hence `map` and `map_inverse` of rays panic precisely when the direction has a component that is infinite or NaN. -/
theorem C43_float_ray (t : Transform (Flt mw ew)) (hm : t.m.AffineF) (hi : t.minv.AffineF) (r : Ray (Flt mw ew)) :
    (t.mapRay r = none ↔ ∃ i, (r.direction.vec i).isFin = false) ∧
    (t.mapRayInv r = none ↔ ∃ i, (r.direction.vec i).isFin = false) := by
  have h1 := C43_float_exact t.m hm r.origin r.direction
  have h2 := C43_float_exact t.minv hi r.origin r.direction
  constructor
  · rw [← h1.2]
    unfold Transform.mapRay Transform.mapPoint Transform.mapVec
    obtain ⟨q, hq⟩ := Option.ne_none_iff_exists'.1 h1.1
    rw [hq]
    cases mapVector t.m r.direction <;> simp
  · rw [← h2.2]
    unfold Transform.mapRayInv Transform.mapPointInv Transform.mapVecInv
    obtain ⟨q, hq⟩ := Option.ne_none_iff_exists'.1 h2.1
    rw [hq]
    cases mapVector t.minv r.direction <;> simp

/-- A vector all of whose components are zero, infinite or NaN has no finite normalization. -/
theorem normalize_notFin (v : Vec (Flt mw ew) 3) (h : ∀ i, (v.vec i).isFin = true → (v.vec i).key = 0) :
    ∃ i, (v.normalize.vec i).isFin = false := by
  by_contra hc
  have hf : ∀ i, (v.normalize.vec i).isFin = true := fun i => by
    cases e : (v.normalize.vec i).isFin
    · exact absurd ⟨i, e⟩ hc
    · rfl
  have hd : ∀ i, (v.vec i / v.norm).isFin = true := hf
  have hk : ∀ i, (v.vec i).key = 0 := fun i => h i (isFin_of_div (hd i)).1
  refine (isFin_of_div (hd 0)).2.2 ?_
  have hs : ∀ i, (Scalar.square (v.vec i) : Flt mw ew).key = 0 := fun i =>
    mul_zero_key (isFin_of_key_zero (hk i)) (toReal_eq_zero_iff.2 (hk i))
  have hn : v.squareNorm.key = 0 := by
    change (Scalar.zero + Scalar.square (v.vec 0) + Scalar.square (v.vec 1) + Scalar.square (v.vec 2) : Flt mw ew).key = 0
    exact add_zero_key (add_zero_key (add_zero_key key_szero (hs 0)) (hs 1)) (hs 2)
  have := (sqrt_fin (isFin_of_key_zero hn) hn.ge).2
  rw [toReal_eq_zero_iff.2 hn, Real.sqrt_zero, rndK_zero] at this
  exact this

theorem sub_zero_key {x z : Flt mw ew} (hx : x.key = 0) (hz : z.key = 0) : (x - z).key = 0 := by
  have := sub_fin (isFin_of_key_zero hx) (isFin_of_key_zero hz)
  rw [toReal_eq_zero_iff.2 hz, toReal_eq_zero_iff.2 hx, sub_zero, rndK_zero] at this
  exact this.2

theorem zero_mul_key {x z : Flt mw ew} (hx : x.isFin = true) (hz : z.key = 0) : (z * x).key = 0 := by
  have := mul_fin (isFin_of_key_zero hz) hx
  rw [toReal_eq_zero_iff.2 hz, zero_mul, rndK_zero] at this
  exact this.2

theorem sub_self_key {x : Flt mw ew} (h : (x - x).isFin = true) : (x - x).key = 0 := by
  have hx := (isFin_of_sub h).1
  have := sub_fin hx hx
  rw [sub_self, rndK_zero] at this
  exact this.2

/-- A point in the middle of the film, seen through the middle of the lens: its image has coordinate 0, if finite. -/
theorem focus_coord {y t l z : Flt mw ew} (hz : z.key = 0)
    (h : (y - y + (Scalar.zero - (y - y)) * t - z * l).isFin = true) :
    (y - y + (Scalar.zero - (y - y)) * t - z * l).key = 0 := by
  have f := isFin_of_sub h
  have g := isFin_of_add f.1
  have ha := sub_self_key g.1
  exact sub_zero_key (add_zero_key ha (zero_mul_key (isFin_of_mul g.2).2 (sub_zero_key key_szero ha)))
    (zero_mul_key (isFin_of_mul f.2).2 hz)

namespace ThinLensCamera
variable [Libm mw ew]

/-- The vector from the sampled lens point to the point of focus, as computed: `cameraRay` normalizes it. -/
def toFocus (cam : ThinLensCamera (Flt mw ew)) (s : CameraSample (Flt mw ew)) : Vec (Flt mw ew) 3 :=
  let pFilm : Point (Flt mw ew) 3 := new3 (GFloat.half * cam.filmWidth - s.pFilm.x * cam.filmWidth)
    (GFloat.half * cam.filmHeight - s.pFilm.y * cam.filmHeight) cam.filmDistance
  let d : Vec (Flt mw ew) 3 := (new3 Scalar.zero Scalar.zero Scalar.zero : Point (Flt mw ew) 3) - pFilm
  (⟨pFilm, d, Scalar.zero⟩ : Ray (Flt mw ew)).eval (-cam.focalDistance / d.z) - (cam.cameraRay s).origin

theorem cameraRay_toFocus (cam : ThinLensCamera (Flt mw ew)) (s : CameraSample (Flt mw ew)) :
    (cam.cameraRay s).direction = (cam.toFocus s).normalize := rfl
end ThinLensCamera

variable [Libm mw ew]

/-- C89: with a view whose inverse matrix has bottom row `0 0 0 1`, `generate_ray` panics precisely when the direction
computed in camera space has an infinite or NaN component. -/
theorem C89_panic_iff (cam : ThinLensCamera (Flt mw ew)) (s : CameraSample (Flt mw ew)) (hm : cam.view.m.AffineF)
    (hv : cam.view.minv.AffineF) :
    cam.generateRay s = none ↔ ∃ i, ((cam.cameraRay s).direction.vec i).isFin = false :=
  (C43_float_ray cam.view hm hv _).2

/-- C89: it does panic whenever the computed point of focus coincides with the sampled lens point (or is not finite). -/
theorem C89_panic (cam : ThinLensCamera (Flt mw ew)) (s : CameraSample (Flt mw ew)) (hm : cam.view.m.AffineF)
    (hv : cam.view.minv.AffineF) (h : ∀ i, ((cam.toFocus s).vec i).isFin = true → ((cam.toFocus s).vec i).toReal = 0) :
    cam.generateRay s = none := by
  rw [C89_panic_iff cam s hm hv, ThinLensCamera.cameraRay_toFocus]
  exact normalize_notFin _ fun i hi => toReal_eq_zero_iff.1 (h i hi)

/-- C89: it does not panic, and the camera-space direction has length 1 to within `18u` (of its square), if the squared
distance from the lens point to the point of focus neither overflows nor is below `3η/u` (`3·2^-126` for `f32`). -/
theorem C89_no_panic_partial (hw : 9 ≤ mw) (cam : ThinLensCamera (Flt mw ew)) (s : CameraSample (Flt mw ew)) (hm : cam.view.m.AffineF)
    (hv : cam.view.minv.AffineF) (h : (cam.toFocus s).squareNorm.isFin = true)
    (hS : 3 * etaRnd mw ew ≤ uRnd mw * ∑ i, ((cam.toFocus s).vec i).toReal ^ 2) :
    cam.generateRay s ≠ none ∧ |∑ i, ((cam.cameraRay s).direction.vec i).toReal ^ 2 - 1| ≤ 18 * uRnd mw := by
  refine ⟨fun hc => ?_, C84_unit_partial hw _ h hS⟩
  obtain ⟨i, hi⟩ := (C89_panic_iff cam s hm hv).1 hc
  have := (C84_normalize_partial hw (cam.toFocus s) h hS i).1
  rw [ThinLensCamera.cameraRay_toFocus, this] at hi
  cases hi

/-- the middle of the film or lens -/
def centre : Point F32 2 := new2 (ofRat 23 8 false 1 2) (ofRat 23 8 false 1 2)

theorem cameraRay_centre [Libm 23 8] (cam : ThinLensCamera F32) (pFilm : Point F32 2) :
    (cam.cameraRay ⟨pFilm, centre⟩).origin = new3 (Scalar.zero * cam.lensRadius) (Scalar.zero * cam.lensRadius) Scalar.zero := by
  have hc : (concentricSampleDisk centre : Point F32 2) = new2 Scalar.zero Scalar.zero := by
    unfold concentricSampleDisk
    rw [if_pos (by decide +kernel)]
  unfold ThinLensCamera.cameraRay
  simp only [hc]
  rfl

/-- C89, a panic with unremarkable parameters: with the object at twice the focal length (here 2 and 1), the ray through the
middle of film and lens panics, whatever the field of view, lens radius, aspect ratio and libm. -/
theorem C89_refuted [Libm 23 8] (fov lr ar : F32) :
    (ThinLensCamera.new .identity (F32.lit 2) fov (F32.lit 1) lr ar).generateRay
      ⟨centre, centre⟩ = none := by
  set cam := ThinLensCamera.new .identity (F32.lit 2) fov (F32.lit 1) lr ar with hcam
  have hid : (Transform.identity : Transform F32).m.AffineF ∧ (Transform.identity : Transform F32).minv.AffineF :=
    ⟨affineF_identity, affineF_identity⟩
  refine C89_panic cam _ hid.1 hid.2 fun i hi => toReal_eq_zero_iff.2 ?_
  have hh : (GFloat.half : F32) = ofRat 23 8 false 1 2 := by decide +kernel
  unfold ThinLensCamera.toFocus at hi ⊢
  rw [cameraRay_centre] at hi ⊢
  rw [hh] at hi ⊢
  fin_cases i
  · exact focus_coord key_szero hi
  · exact focus_coord key_szero hi
  · have hd : cam.filmDistance = F32.lit 2 := by
      change F32.lit 2 * F32.lit 1 / (F32.lit 2 - F32.lit 1) = _
      decide +kernel
    have hf : cam.focalDistance = F32.lit 2 := rfl
    rw [hd, hf]
    change (F32.lit 2 + (Scalar.zero - F32.lit 2) * (-F32.lit 2 / (Scalar.zero - F32.lit 2)) - Scalar.zero : F32).key = 0
    decide +kernel

/-- Non-vacuity of `C89_no_panic_partial`: focal distance 3, film distance 1.5. -/
def okCam : ThinLensCamera F32 := ⟨.identity, F32.lit 3, F32.lit 1, ofRat 23 8 false 3 2, F32.lit 1, F32.lit 1⟩
example [Libm 23 8] : (okCam.toFocus ⟨centre, centre⟩).squareNorm.isFin = true ∧
    3 * etaRnd 23 8 ≤ uRnd 23 * ∑ i, ((okCam.toFocus ⟨centre, centre⟩).vec i).toReal ^ 2 := by
  have h : okCam.toFocus ⟨centre, centre⟩ = new3 Scalar.zero Scalar.zero (ofRat 23 8 true 3 2) := by
    unfold ThinLensCamera.toFocus
    rw [cameraRay_centre]
    apply GVec.ext
    funext i
    fin_cases i <;> decide +kernel
  rw [h]
  refine ⟨by decide +kernel, ?_⟩
  have e : (ofRat 23 8 true 3 2 : F32).toReal ≤ (-(F32.lit 1)).toReal := toReal_le_iff.2 (by decide +kernel)
  rw [toReal_negop, toReal_lit (by norm_num)] at e
  rw [Fin.sum_univ_three]
  change _ ≤ uRnd 23 * ((Scalar.zero : F32).toReal ^ 2 + (Scalar.zero : F32).toReal ^ 2 + (ofRat 23 8 true 3 2 : F32).toReal ^ 2)
  rw [toReal_szero]
  have h2 : (1 : ℝ) ≤ (ofRat 23 8 true 3 2 : F32).toReal ^ 2 := by
    norm_num at e
    nlinarith
  have : 3 * etaRnd 23 8 ≤ uRnd 23 * 1 := by unfold etaRnd uRnd fK; norm_num
  have hu := uRnd_pos (mw := 23)
  nlinarith
end Scarlet
