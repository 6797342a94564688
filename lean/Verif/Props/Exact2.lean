import Verif.Props.MapBox
import Verif.Props.Camera3
import Verif.Props.SphereFloat
import Verif.Props.FloatSphere

/-! Exact (if and only if) forms of C54, C60, C61, C72, C73; C54: tangents and parameters of a box hit on floats; the negations of
C100 and C102. -/

set_option linter.unusedSectionVars false

namespace Scarlet
open GVec Real

/-! ### C54 -/

/-- C54, for all floats (no hypothesis on box or ray): each tangent is plus or minus the unit vector of an axis of the face, the
two are along different axes, neither along the normal, and the surface parameters are `(0, 0)`. -/
theorem C54_tangents {mw ew : Nat} [FltImpl mw ew] (b : Bbox (Flt mw ew)) (ray : Ray (Flt mw ew))
    (r : IntersectionResult (Flt mw ew)) (h : b.hit ray = some r) :
    (∃ f i j, i ≠ j ∧ i ≠ faceAxis f ∧ j ≠ faceAxis f ∧ r.surfaceInteraction.n.vec = faceNormal f ∧
      (∀ k, k ≠ i → r.surfaceInteraction.dpdu.vec k = Scalar.zero) ∧
      (r.surfaceInteraction.dpdu.vec i = Scalar.one ∨ r.surfaceInteraction.dpdu.vec i = -Scalar.one) ∧
      (∀ k, k ≠ j → r.surfaceInteraction.dpdv.vec k = Scalar.zero) ∧
      (r.surfaceInteraction.dpdv.vec j = Scalar.one ∨ r.surfaceInteraction.dpdv.vec j = -Scalar.one)) ∧
    r.surfaceInteraction.uv.x = Scalar.zero ∧ r.surfaceInteraction.uv.y = Scalar.zero := by
  unfold Bbox.hit at h
  rw [Option.map_eq_some_iff] at h
  obtain ⟨⟨t0, t1⟩, -, rfl⟩ := h
  dsimp only
  generalize Bbox.minDistanceIdx (Bbox.faceDistances b (ray.eval t0)) = f
  generalize ray.eval t0 = p
  have hn := (faceInteraction_spec b p f).1
  have off : ∀ (v : _root_.Fin 3 → Flt mw ew) (i j k : _root_.Fin 3), (∀ l, l = i ∨ l = j ∨ l = k) → v j = Scalar.zero → v k = Scalar.zero →
      ∀ l, l ≠ i → v l = Scalar.zero := by
    intro v i j k hl h1 h2 l hne
    rcases hl l with rfl | rfl | rfl
    exacts [absurd rfl hne, h1, h2]
  constructor
  · refine ⟨f, ?_⟩
    fin_cases f
    exacts [⟨2, 1, by decide, by decide, by decide, hn, off _ 2 0 1 (by decide) rfl rfl, Or.inr rfl, off _ 1 0 2 (by decide) rfl rfl, Or.inl rfl⟩,
      ⟨2, 1, by decide, by decide, by decide, hn, off _ 2 0 1 (by decide) rfl rfl, Or.inl rfl, off _ 1 0 2 (by decide) rfl rfl, Or.inl rfl⟩,
      ⟨0, 2, by decide, by decide, by decide, hn, off _ 0 1 2 (by decide) rfl rfl, Or.inl rfl, off _ 2 0 1 (by decide) rfl rfl, Or.inr rfl⟩,
      ⟨0, 2, by decide, by decide, by decide, hn, off _ 0 1 2 (by decide) rfl rfl, Or.inl rfl, off _ 2 0 1 (by decide) rfl rfl, Or.inl rfl⟩,
      ⟨0, 1, by decide, by decide, by decide, hn, off _ 0 1 2 (by decide) rfl rfl, Or.inl rfl, off _ 1 0 2 (by decide) rfl rfl, Or.inl rfl⟩,
      ⟨0, 1, by decide, by decide, by decide, hn, off _ 0 1 2 (by decide) rfl rfl, Or.inr rfl, off _ 1 0 2 (by decide) rfl rfl, Or.inl rfl⟩]
  · fin_cases f <;> exact ⟨rfl, rfl⟩

/-- C54, exactly: the reported point is the point of the ray at the reported parameter if and only if the ray does not start
strictly inside the box. -/
theorem C54_exact (b : Bbox ℝ) (ray : Ray ℝ) (hb : b.OrderedR) (hd : ∀ i, ray.direction.vec i ≠ 0)
    (r : IntersectionResult ℝ) (h : b.hit ray = some r) :
    r.surfaceInteraction.p = ray.eval r.tRay ↔ ¬ ∀ i, b.pmin.vec i < ray.origin.vec i ∧ ray.origin.vec i < b.pmax.vec i := by
  have h0 : ray.eval 0 = ray.origin := GVec.ext (funext fun i => by rw [eval_coord]; ring)
  constructor
  · intro he hin
    obtain ⟨t1, f, hi, hs, hmin⟩ := hit_real b ray r h
    have hin0 : b.inside (ray.eval 0) = true := by
      rw [h0, inside_iff]; exact fun i => ⟨(hin i).1.le, (hin i).2.le⟩
    have ht : r.tRay = 0 := by
      rw [intersectRay_real] at hi
      split at hi
      · cases hi
      rw [Option.some.injEq, Prod.mk.injEq] at hi
      rw [← hi.1]
      exact max_eq_right ((inside_eval_iff b ray hb hd 0).1 hin0).1
    obtain ⟨-, ⟨g, -, hg⟩, -⟩ := C54_face b ray hb hd r h
    rw [he, ht, h0] at hg
    have h1 := hin (faceAxis g)
    rw [hg] at h1
    fin_cases g
    exacts [lt_irrefl _ h1.1, lt_irrefl _ h1.2, lt_irrefl _ h1.1, lt_irrefl _ h1.2, lt_irrefl _ h1.1, lt_irrefl _ h1.2]
  · intro hns
    by_cases hin : b.inside ray.origin = true
    · obtain ⟨t1, f, hi, hs, hmin⟩ := hit_real b ray r h
      have ht : r.tRay = 0 := by
        rw [intersectRay_real] at hi
        split at hi
        · cases hi
        rw [Option.some.injEq, Prod.mk.injEq] at hi
        rw [← hi.1]
        exact max_eq_right ((inside_eval_iff b ray hb hd 0).1 (by rw [h0]; exact hin)).1
      rw [inside_iff] at hin
      have hz : ∃ g, ray.origin.vec (faceAxis g) = faceBound b g := by
        by_contra hno
        rw [not_exists] at hno
        refine hns fun i => ⟨lt_of_le_of_ne (hin i).1 ?_, lt_of_le_of_ne (hin i).2 ?_⟩
        · fin_cases i
          exacts [fun e => hno 0 e.symm, fun e => hno 2 e.symm, fun e => hno 4 e.symm]
        · fin_cases i
          exacts [hno 1, hno 3, hno 5]
      obtain ⟨g, hg⟩ := hz
      have hf : (ray.eval r.tRay).vec (faceAxis f) = faceBound b f := by
        have h1 := hmin g
        rw [ht, h0, hg, sub_self, abs_zero] at h1
        have := abs_eq_zero.1 (le_antisymm h1 (abs_nonneg _))
        rw [ht, h0]; linarith
      refine GVec.ext ?_
      rw [hs, (faceInteraction_spec _ _ _).2]
      funext j
      split
      · rename_i hj; rw [hj, hf]
      · rfl
    · exact C54_genuine_partial b ray hb hd (Bool.eq_false_iff.2 hin) r h

/-! ### C60, C61 -/

/-- C60, exactly: the documented parameterization at the reported `(u, v)` is the hit point if and only if the hit is not below
the equator. -/
theorem C60_exact (radius zMin zMax phiMax : ℝ) (s : Sphere ℝ) (hs : Sphere.new radius zMin zMax phiMax = some s)
    (h0 : 0 < radius) (hmin : zMin < radius) (hmax : 0 < zMax) (hphi : -π < phiMax) (ray : Ray ℝ) (hr : s.Regular ray)
    (r : IntersectionResult ℝ) (h : s.intersect ray = some r) :
    r.surfaceInteraction.p.vec = s.param r.surfaceInteraction.uv.x r.surfaceInteraction.uv.y ↔ 0 ≤ r.surfaceInteraction.p.z := by
  refine ⟨fun e => ?_, fun hz => (C60_upper_partial radius zMin zMax phiMax s hs h0 hmin hmax hphi ray hr r h hz).2.2.2⟩
  by_contra hz
  exact (C60_wrong_below radius zMin zMax phiMax s hs h0 ray hr r h (not_le.1 hz)).2 e

/-- C61, exactly: away from the poles, the reported normal is the outward unit normal `p / r` if and only if the hit is not below
the equator. -/
theorem C61_exact (radius zMin zMax phiMax : ℝ) (s : Sphere ℝ) (hs : Sphere.new radius zMin zMax phiMax = some s)
    (h0 : 0 < radius) (hmin : zMin < radius) (hmax : 0 < zMax) (hphi : -π < phiMax) (ray : Ray ℝ) (hr : s.Regular ray)
    (r : IntersectionResult ℝ) (h : s.intersect ray = some r)
    (hpole : ¬ (r.surfaceInteraction.p.x = 0 ∧ r.surfaceInteraction.p.y = 0)) :
    (∀ i, r.surfaceInteraction.n.vec i = r.surfaceInteraction.p.vec i / radius) ↔ 0 ≤ r.surfaceInteraction.p.z := by
  refine ⟨fun e => ?_, fun hz => C61_normal_partial radius zMin zMax phiMax s hs h0 hmin hmax hphi ray hr r h hz hpole⟩
  by_contra hz
  rw [not_le] at hz
  obtain ⟨hlt, f1, f2, f3, f4, f5, f6⟩ := new_fields hs
  obtain ⟨-, -, hsurf, hz1, hz2, harg⟩ := C56_on_sphere s ray hr r h
  obtain ⟨-, -, hdu, hdv, hn⟩ := interaction_real h
  have ex := e 0
  have ey := e 1
  have ez := e 2
  rw [hn, vec_conv, normalize_vec] at ex ey ez
  clear e
  have hN : (r.surfaceInteraction.dpdu.cross r.surfaceInteraction.dpdv).norm ≠ 0 := by
    intro hN
    rw [hN, div_zero, eq_comm, div_eq_zero_iff] at ex ey
    exact hpole ⟨ex.resolve_right h0.ne', ey.resolve_right h0.ne'⟩
  generalize (r.surfaceInteraction.dpdu.cross r.surfaceInteraction.dpdv).norm = N at *
  generalize r.surfaceInteraction.p = p at *
  rw [f1] at hsurf hdv
  rw [f4] at hdu
  rw [codeTheta_lower h0 hz.le, sin_pi_div_two] at hdv
  have hd : s.thetaMax - s.thetaMin < 0 := by rw [f5, f6, sub_neg]; exact codeTheta_strict h0 hlt hmin hmax
  have hpp : 0 < phiMax + π := by linarith
  generalize s.thetaMax - s.thetaMin = D at *
  generalize phiMax + π = P at *
  have hc : ‖(⟨p.x, p.y⟩ : ℂ)‖ * cos (atan2R p.y p.x) = p.x := Complex.norm_mul_cos_arg _
  have hs' : ‖(⟨p.x, p.y⟩ : ℂ)‖ * sin (atan2R p.y p.x) = p.y := Complex.norm_mul_sin_arg _
  have hρ2 : ‖(⟨p.x, p.y⟩ : ℂ)‖ ^ 2 = p.x ^ 2 + p.y ^ 2 := by rw [Complex.sq_norm, Complex.normSq_mk]; ring
  have hρ0 := norm_nonneg (⟨p.x, p.y⟩ : ℂ)
  have cs := sin_sq_add_cos_sq (atan2R p.y p.x)
  generalize ‖(⟨p.x, p.y⟩ : ℂ)‖ = ρ at *
  generalize atan2R p.y p.x = φ at *
  have cx : (r.surfaceInteraction.dpdu.cross r.surfaceInteraction.dpdv).vec 0 = -(P * D * radius) * p.x := by
    change (r.surfaceInteraction.dpdu.cross r.surfaceInteraction.dpdv).x = _
    rw [hdu, hdv]; simp only [x_cross, x_new3, y_new3, z_new3]; ring
  have cy : (r.surfaceInteraction.dpdu.cross r.surfaceInteraction.dpdv).vec 1 = -(P * D * radius) * p.y := by
    change (r.surfaceInteraction.dpdu.cross r.surfaceInteraction.dpdv).y = _
    rw [hdu, hdv]; simp only [y_cross, x_new3, y_new3, z_new3]; ring
  have cz : (r.surfaceInteraction.dpdu.cross r.surfaceInteraction.dpdv).vec 2 = -(P * D * ρ) * p.z := by
    change (r.surfaceInteraction.dpdu.cross r.surfaceInteraction.dpdv).z = _
    rw [hdu, hdv]; simp only [z_cross, x_new3, y_new3, z_new3]
    rw [← hc, ← hs']
    linear_combination (-ρ * p.z * P * D) * cs
  rw [cx] at ex
  rw [cy] at ey
  rw [cz] at ez
  change _ = p.x / radius at ex
  change _ = p.y / radius at ey
  change _ = p.z / radius at ez
  rw [div_eq_div_iff hN h0.ne'] at ex ey ez
  -- off the axis the radial components force N = -(P D r) r, the vertical one N = -(P D ρ) r
  have e1 : -(P * D * radius) * radius = N := by
    rcases not_and_or.1 hpole with hx | hy
    · exact mul_left_cancel₀ hx (by linarith)
    · exact mul_left_cancel₀ hy (by linarith)
  have e2 : -(P * D * ρ) * radius = N := mul_left_cancel₀ hz.ne (by linarith)
  have e3 : P * D * radius * (radius - ρ) = 0 := by linarith
  have hPD : P * D * radius ≠ 0 := mul_ne_zero (mul_ne_zero hpp.ne' hd.ne) h0.ne'
  have e4 : radius = ρ := by
    have := (mul_eq_zero.1 e3).resolve_left hPD
    linarith
  rw [e4, hρ2] at hsurf
  have : p.z ^ 2 = 0 := by linarith
  exact hz.ne (pow_eq_zero_iff (two_ne_zero)|>.1 this)

/-! ### C72, C73 -/

/-- C72, exactly: there is a point at height `z` through which all rays of the central film point pass if and only if
`z = film_distance - focal_distance`.  In particular the plane of focus claimed, `z = -focal_distance`, is met by no camera
with a film distance other than zero. -/
theorem C72_exact (cam : ThinLensCamera ℝ) (pFilm : Point ℝ 2) (h : cam.filmDistance ≠ 0) (hne : cam.filmDistance ≠ cam.focalDistance)
    (hl : 0 < cam.lensRadius) (z : ℝ) :
    (∃ P : Point ℝ 3, P.z = z ∧ ∀ pLens, InSquare pLens → ∃ t, (cam.cameraRay ⟨pFilm, pLens⟩).eval t = P) ↔
      z = cam.filmDistance - cam.focalDistance := by
  constructor
  · rintro ⟨P, hz, hP⟩
    have dirs : ∀ s : CameraSample ℝ, s.pFilm = pFilm → ∃ k : ℝ, ∀ i,
        (cam.cameraRay s).direction.vec i = k * ((cam.meet pFilm).vec i - (cam.cameraRay s).origin.vec i) := by
      intro s hs
      rw [cameraRay_direction, hs]
      exact ⟨1 / norm (cam.meet pFilm - (cam.cameraRay s).origin : Vec ℝ 3), fun i => by rw [normalize_vec, vec_psub]; ring⟩
    obtain ⟨t1, e1⟩ := hP (new2 (1 / 2) (1 / 2)) ⟨⟨by norm_num, by norm_num⟩, ⟨by norm_num, by norm_num⟩⟩
    obtain ⟨t2, e2⟩ := hP (new2 0 (1 / 2)) ⟨⟨by norm_num, by norm_num⟩, ⟨by norm_num, by norm_num⟩⟩
    obtain ⟨k1, d1⟩ := dirs ⟨pFilm, new2 (1 / 2) (1 / 2)⟩ rfl
    obtain ⟨k2, d2⟩ := dirs ⟨pFilm, new2 0 (1 / 2)⟩ rfl
    have o1 : (cam.cameraRay ⟨pFilm, new2 (1 / 2) (1 / 2)⟩).origin = new3 0 0 0 := by
      rw [cameraRay_origin, concentric_centre]; simp
    have o2 : (cam.cameraRay ⟨pFilm, new2 0 (1 / 2)⟩).origin = new3 cam.lensRadius 0 0 := by
      rw [cameraRay_origin, concentric_left]
      change (new3 ((1 : ℝ) * _) ((0 : ℝ) * _) 0 : Point ℝ 3) = _
      rw [one_mul, zero_mul]
    have x1 := congrArg (fun q : Point ℝ 3 => q.vec 0) e1
    have x2 := congrArg (fun q : Point ℝ 3 => q.vec 0) e2
    have z1 := congrArg (fun q : Point ℝ 3 => q.vec 2) e1
    have z2 := congrArg (fun q : Point ℝ 3 => q.vec 2) e2
    have hm : (cam.meet pFilm).vec 2 = cam.filmDistance - cam.focalDistance := meet_z cam pFilm h
    have hm0 : cam.filmDistance - cam.focalDistance ≠ 0 := sub_ne_zero.2 hne
    rw [eval_vec, d1, o1] at x1 z1
    rw [eval_vec, d2, o2] at x2 z2
    simp only [vec_new3_0, vec_new3_2] at x1 x2 z1 z2
    rw [hm] at z1 z2
    change _ = P.z at z1 z2
    rw [hz] at z1 z2
    generalize cam.filmDistance - cam.focalDistance = m at *
    generalize (cam.meet pFilm).vec 0 = a at *
    -- both rays reach the height z at the same multiple of their vector to the meeting point
    have e : k1 * t1 = k2 * t2 := mul_left_cancel₀ hm0 (by linarith)
    have e' : k2 * t2 = 1 := by
      have : cam.lensRadius * (k2 * t2 - 1) = 0 := by
        have h1 : a * (k1 * t1) = P.vec 0 := by linarith
        have h2 : cam.lensRadius + (a - cam.lensRadius) * (k2 * t2) = P.vec 0 := by linarith
        rw [e] at h1
        linarith
      have := (mul_eq_zero.1 this).resolve_left hl.ne'
      linarith
    have : m * (k2 * t2) = z := by linarith
    rw [e', mul_one] at this
    exact this.symm
  · rintro rfl
    obtain ⟨P, hz, hP⟩ := C72_common_partial cam pFilm h hne
    exact ⟨P, hz, fun pLens _ => by obtain ⟨t, -, e⟩ := hP pLens; exact ⟨t, e⟩⟩

/-- C73, exactly: all directions are unit vectors if and only if film and plane of focus are not equally far from the lens. -/
theorem C73_exact (cam : ThinLensCamera ℝ) (h : cam.filmDistance ≠ 0) :
    (∀ s, InSquare s.pFilm → InSquare s.pLens → (cam.cameraRay s).direction.norm = 1) ↔ cam.filmDistance ≠ cam.focalDistance := by
  refine ⟨fun H e => ?_, fun hne s _ _ => C73_unit_partial cam s h hne⟩
  have hsq : InSquare (new2 (1 / 2) (1 / 2) : Point ℝ 2) := ⟨⟨by norm_num, by norm_num⟩, ⟨by norm_num, by norm_num⟩⟩
  have := H ⟨new2 (1 / 2) (1 / 2), new2 (1 / 2) (1 / 2)⟩ hsq hsq
  rw [cameraRay_direction, cameraRay_origin, concentric_centre] at this
  have hm : (cam.meet (new2 (1 / 2) (1 / 2)) : Point ℝ 3) = new3 0 0 0 := by
    unfold ThinLensCamera.meet
    rw [← e, div_self h, sub_self]
    exact ext3 (mul_zero _) (mul_zero _) (mul_zero _)
  dsimp only at this
  rw [hm, norm_real, squareNorm_real] at this
  have hz : ∀ i, (((new3 0 0 0 : Point ℝ 3) - (new3 ((new2 0 0 : Point ℝ 2).x * cam.lensRadius)
      ((new2 0 0 : Point ℝ 2).y * cam.lensRadius) 0 : Point ℝ 3) : Vec ℝ 3).normalize).vec i = 0 := by
    intro i
    rw [normalize_vec, vec_psub]
    fin_cases i <;> simp
  simp only [hz, mul_zero, Finset.sum_const_zero, Real.sqrt_zero] at this
  norm_num at this

example : exCam.filmDistance ≠ 0 ∧ exCam.filmDistance ≠ exCam.focalDistance ∧ 0 < exCam.lensRadius := by
  rw [exCam_film]
  refine ⟨by norm_num, ?_, ?_⟩
  · change (3 / 2 : ℝ) ≠ 3; norm_num
  · change (0 : ℝ) < 1; norm_num

/-! ### C100 -/

/-- The transforms of a scene are built from the API and affine, its boxes ordered and its spheres met regularly: `RegularOn`
without the restriction to diagonal transforms. -/
inductive Primitive.MetOn : Primitive ℝ → Ray ℝ → Prop
  | sphere (s : Sphere ℝ) (ray) (h : s.Regular ray) : MetOn s.prim ray
  | bbox (b : Bbox ℝ) (ray) (hb : b.OrderedR) (hd : ∀ i, ray.direction.vec i ≠ 0) : MetOn b.prim ray
  | transformed (p : Primitive ℝ) (t : Transform ℝ) (ray obj) (ht : t.Reachable) (ha : t.m.Affine)
      (ho : t.mapRayInv ray = some obj) (h : MetOn p obj) : MetOn (p.transformed t) ray
  | list (ps : List (Primitive ℝ)) (ray) (h : ∀ p ∈ ps, MetOn p ray) : MetOn (PrimitiveList.prim ps) ray

/-- C100 as claimed is false of the code, already for one rotated hemisphere (the witness of `C68_refuted`). -/
theorem C100_refuted : ¬ ∀ (p : Primitive ℝ) (ray : Ray ℝ), p.MetOn ray → ∀ r, p.intersect ray = some (some r) →
    p.bbox.inside (ray.eval r.tRay) = true := by
  intro H
  refine C68_refuted fun s t ht ha _ ray r hreg hr => ?_
  obtain ⟨obj, ho, -⟩ := C42_map_inverse t (C42_affine_inverse t ht ha) ray
  exact H _ ray (.transformed _ t ray obj ht ha ho (.sphere s obj (hreg obj ho))) r hr

/-! ### C102 -/

/-- a ray from far below, up the z axis through the centre of the sphere -/
def farRay : Ray F32 := ⟨new3 (F32.lit 0) (F32.lit 0) (-F32.lit (2 ^ 70)), new3 (F32.lit 0) (F32.lit 0) (F32.lit 1), F32.lit (2 ^ 71)⟩

open Flt in
theorem lit_pow {e : Nat} (h : 1 * 2 ^ (e + fK 23 8) < magN 23 (infIdx 23 8)) : (F32.lit (2 ^ e)).toReal = 2 ^ e := by
  refine (exact_of_repr (mw := 23) (ew := 8) (repr_of_mul_pow 1 (e + fK 23 8) (by norm_num) h ?_) ?_).2
  · rw [pow_add]; push_cast; ring
  · unfold F32.lit
    rw [(ofRat_key false _ 1 Nat.one_pos).2]; simp

/-- C102 without its proviso is false of the code on `f32`: for a ray starting `2^70` below the unit sphere the discriminant
overflows, and the sphere is missed by a ray that passes straight through its centre, whatever the library's trigonometric
functions are. -/
theorem C102_refuted [Libm 23 8] :
    exSphF.intersectRay farRay = none ∧ (∀ i, (farRay.origin.vec i).isFin = true ∧ (farRay.direction.vec i).isFin = true) ∧
    0 < exSphF.radius.toReal ∧ ∃ t : ℝ, 0 ≤ t ∧ t ≤ farRay.tmax.toReal ∧ sphereDefect exSphF farRay t = -exSphF.radius.toReal ^ 2 := by
  have h0 : (F32.lit 0).toReal = 0 := by rw [toReal_lit (by decide)]; norm_num
  have e1 := lit_pow (e := 70) (by decide +kernel)
  have e2 := lit_pow (e := 71) (by decide +kernel)
  refine ⟨intersectRay_none _ _ (by decide +kernel), by decide +kernel, ?_, 2 ^ 70, by positivity, ?_, ?_⟩
  · change 0 < (F32.lit 1).toReal; rw [toReal_lit_small.1]; norm_num
  · change _ ≤ (F32.lit (2 ^ 71)).toReal
    rw [e2]; norm_num
  · unfold sphereDefect
    rw [Fin.sum_univ_three]
    change ((F32.lit 0).toReal + (F32.lit 0).toReal * _) ^ 2 + ((F32.lit 0).toReal + (F32.lit 0).toReal * _) ^ 2 +
      ((-F32.lit (2 ^ 70)).toReal + (F32.lit 1).toReal * _) ^ 2 - _ = _
    rw [h0, toReal_lit_small.1, Flt.toReal_negop, e1]
    ring

end Scarlet
