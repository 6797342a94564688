import Verif.Spec.Sphere
import Verif.Props.Bbox3

/-! C55 (quadratic solver), C56 (hits are genuine), C57 (first hit), C59 (bounding box of a sphere). -/

set_option linter.unusedSectionVars false

namespace Scarlet
open GVec

/-! ### C55 -/

/-- In exact arithmetic the two branches compute the two roots of the textbook formula, smaller one first. -/
theorem solveQuadratic_real (a b c : ℝ) (ha : a ≠ 0) (hb : ¬ (b = 0 ∧ b * b - a * c * 4 = 0)) :
    solveQuadratic a b c =
      if 0 ≤ b * b - a * c * 4 then
        some (Min.min ((-b - Real.sqrt (b * b - a * c * 4)) / (2 * a)) ((-b + Real.sqrt (b * b - a * c * 4)) / (2 * a)),
              Max.max ((-b - Real.sqrt (b * b - a * c * 4)) / (2 * a)) ((-b + Real.sqrt (b * b - a * c * 4)) / (2 * a)))
      else none := by
  unfold solveQuadratic
  simp only [rsquare, rfromI64, rsqrt, rhalf, rminMax, risNonneg, Int.cast_ofNat]
  by_cases hd : 0 ≤ b * b - a * c * 4
  · rw [if_pos hd, if_pos hd]
    have hs := Real.mul_self_sqrt hd
    have hn := Real.sqrt_nonneg (b * b - a * c * 4)
    have hz : Real.sqrt (b * b - a * c * 4) = 0 → b * b - a * c * 4 = 0 := fun h => by rw [h] at hs; linarith
    generalize Real.sqrt (b * b - a * c * 4) = q at *
    by_cases h0 : 0 ≤ b
    · rw [if_pos h0]
      have hpos : 0 < b + q := by
        rcases h0.lt_or_eq with h | h
        · linarith
        · rcases hn.lt_or_eq with h' | h'
          · linarith
          · exact absurd ⟨h.symm, hz h'.symm⟩ hb
      have e1 : -(b + q) * (1 / 2) / a = (-b - q) / (2 * a) := by field_simp; ring
      have e2 : -(c + c) / (b + q) = (-b + q) / (2 * a) := by
        rw [div_eq_div_iff hpos.ne' (by simpa using ha)]
        linear_combination -hs
      rw [e1, e2]
    · rw [if_neg h0]
      have hpos : 0 < -b + q := by linarith [not_le.1 h0]
      have e1 : (-b + q) * (1 / 2) / a = (-b + q) / (2 * a) := by field_simp
      have e2 : (c + c) / (-b + q) = (-b - q) / (2 * a) := by
        rw [div_eq_div_iff hpos.ne' (by simpa using ha)]
        linear_combination hs
      rw [e1, e2, min_comm, max_comm]
  · rw [if_neg hd, if_neg hd]

/-- C55: `None` exactly when the equation has no real root. -/
theorem C55_none_iff (a b c : ℝ) (ha : a ≠ 0) (hb : ¬ (b = 0 ∧ b ^ 2 - 4 * a * c = 0)) :
    solveQuadratic a b c = none ↔ ∀ t : ℝ, a * t ^ 2 + b * t + c ≠ 0 := by
  rw [solveQuadratic_real a b c ha (by rwa [show b * b - a * c * 4 = b ^ 2 - 4 * a * c by ring])]
  split
  · rename_i hd
    simp only [reduceCtorEq, false_iff, not_forall, not_not]
    refine ⟨(-b + Real.sqrt (b * b - a * c * 4)) / (2 * a), ?_⟩
    have hs := Real.mul_self_sqrt hd
    generalize Real.sqrt (b * b - a * c * 4) = q at *
    field_simp
    linear_combination hs
  · rename_i hd
    simp only [true_iff]
    intro t ht
    apply hd
    have : b * b - a * c * 4 = (2 * a * t + b) ^ 2 := by linear_combination (-4 * a) * ht
    rw [this]; positivity

/-- C55: otherwise the two roots, in nondecreasing order. -/
theorem C55_roots (a b c t0 t1 : ℝ) (ha : a ≠ 0) (hb : ¬ (b = 0 ∧ b ^ 2 - 4 * a * c = 0))
    (h : solveQuadratic a b c = some (t0, t1)) :
    t0 ≤ t1 ∧ (∀ t : ℝ, a * t ^ 2 + b * t + c = a * (t - t0) * (t - t1)) ∧
    ∀ t : ℝ, a * t ^ 2 + b * t + c = 0 ↔ t = t0 ∨ t = t1 := by
  rw [solveQuadratic_real a b c ha (by rwa [show b * b - a * c * 4 = b ^ 2 - 4 * a * c by ring])] at h
  split at h
  · rename_i hd
    have hs := Real.mul_self_sqrt hd
    generalize Real.sqrt (b * b - a * c * 4) = q at *
    obtain ⟨rfl, rfl⟩ := Prod.mk.inj (Option.some.inj h)
    have hf : ∀ t : ℝ, a * t ^ 2 + b * t + c = a * (t - (-b - q) / (2 * a)) * (t - (-b + q) / (2 * a)) := by
      intro t; field_simp; linear_combination hs
    have hf' : ∀ t : ℝ, a * t ^ 2 + b * t + c =
        a * (t - Min.min ((-b - q) / (2 * a)) ((-b + q) / (2 * a))) * (t - Max.max ((-b - q) / (2 * a)) ((-b + q) / (2 * a))) := by
      intro t
      rcases le_total ((-b - q) / (2 * a)) ((-b + q) / (2 * a)) with g | g
      · rw [min_eq_left g, max_eq_right g, hf]
      · rw [min_eq_right g, max_eq_left g, hf]; ring
    refine ⟨min_le_max, hf', fun t => ?_⟩
    rw [hf', mul_eq_zero, mul_eq_zero, sub_eq_zero, sub_eq_zero]
    tauto
  · cases h

/-- Non-vacuity: `t² - 3t + 2` and `t² + 1`. -/
example : ∃ t0 t1 : ℝ, solveQuadratic (1 : ℝ) (-3) 2 = some (t0, t1) := by
  have h : solveQuadratic (1 : ℝ) (-3) 2 ≠ none := by
    rw [Ne, C55_none_iff 1 (-3) 2 (by norm_num) (by norm_num)]
    intro h; exact h 1 (by norm_num)
  obtain ⟨⟨t0, t1⟩, h⟩ := Option.ne_none_iff_exists'.1 h
  exact ⟨t0, t1, h⟩
example : solveQuadratic (1 : ℝ) 0 1 = none := by
  rw [C55_none_iff 1 0 1 (by norm_num) (by norm_num)]
  intro t ht; nlinarith [sq_nonneg t]

/-- What happens in the excluded case: for `t² = 0` the `f32` code computes `0/0` and returns a NaN root. -/
theorem C55_degenerate : ∃ t0 t1 : F32, solveQuadratic (Scalar.one : F32) Scalar.zero Scalar.zero = some (t0, t1) ∧
    t0.isNaN = true ∧ t1.isZero = true := by
  refine ⟨_, _, rfl, ?_, ?_⟩ <;> decide +kernel

/-! ### C56 -/

section
variable {mw ew : Nat} [FltImpl mw ew] [LawfulFlt mw ew] [Libm mw ew]

theorem getIntersection_some {T : Type} [Add T] [Sub T] [Mul T] [Div T] [Neg T] [Scalar T] [GFloat T] [GTrig T] [Inherent T]
    {s : Sphere T} {ray : Ray T} {t : T} {h : SphereHit T} (e : s.getIntersection ray t = some h) :
    Scalar.inRange t Scalar.zero ray.tmax = true ∧ Scalar.inRange (ray.eval t).z s.zMin s.zMax = true ∧
    Scalar.gt (GTrig.atan2 (ray.eval t).y (ray.eval t).x) s.phiMax = false ∧
    h = ⟨t, ray.eval t, GTrig.atan2 (ray.eval t).y (ray.eval t).x⟩ := by
  unfold Sphere.getIntersection at e
  split at e
  · cases e
  rename_i h1
  dsimp only at e
  split at e
  · cases e
  rename_i h2
  split at e
  · cases e
  rename_i h3
  simp only [Bool.not_eq_true, Bool.not_eq_false'] at h1 h2 h3
  exact ⟨h1, h2, h3, (Option.some.inj e).symm⟩

theorem intersectRay_some {T : Type} [Add T] [Sub T] [Mul T] [Div T] [Neg T] [Scalar T] [GFloat T] [GTrig T] [Inherent T]
    {s : Sphere T} {ray : Ray T} {h : SphereHit T} (e : s.intersectRay ray = some h) :
    ∃ t, s.getIntersection ray t = some h := by
  unfold Sphere.intersectRay at e
  dsimp only at e
  split at e
  · cases e
  · split at e
    · exact ⟨_, e⟩
    · rename_i i hi
      cases e
      exact ⟨_, hi⟩

/-- C56, for every float format, libm, sphere and ray (NaN and infinities included): a reported hit has its parameter in
`[0, tmax]`, its point is the ray's point at that parameter, `z_min ≤ z ≤ z_max`, and the azimuth is not above
`phi_max`. -/
theorem C56_hit_float (s : Sphere (Flt mw ew)) (ray : Ray (Flt mw ew)) (r : IntersectionResult (Flt mw ew))
    (h : s.intersect ray = some r) :
    r.tRay.isNaN = false ∧ 0 ≤ r.tRay.val ∧ r.tRay.val ≤ ray.tmax.val ∧
    r.surfaceInteraction.p = ray.eval r.tRay ∧
    r.surfaceInteraction.p.z.isNaN = false ∧ s.zMin.val ≤ r.surfaceInteraction.p.z.val ∧
    r.surfaceInteraction.p.z.val ≤ s.zMax.val ∧
    ((Libm.atan2 r.surfaceInteraction.p.y r.surfaceInteraction.p.x).isNaN = false → s.phiMax.isNaN = false →
      (Libm.atan2 r.surfaceInteraction.p.y r.surfaceInteraction.p.x).val ≤ s.phiMax.val) := by
  unfold Sphere.intersect at h
  obtain ⟨hit, he, rfl⟩ := Option.map_eq_some_iff.1 h
  obtain ⟨t, ht⟩ := intersectRay_some he
  obtain ⟨h1, h2, h3, rfl⟩ := getIntersection_some ht
  unfold Scalar.inRange at h1 h2
  rw [Bool.and_eq_true, Flt.sge_iff, Flt.sle_iff] at h1 h2
  obtain ⟨⟨a1, a2, a3⟩, a4, a5, a6⟩ := h1
  obtain ⟨⟨b1, b2, b3⟩, b4, b5, b6⟩ := h2
  refine ⟨a1, ?_, (Flt.val_le_iff a4 a5).2 a6, rfl, b1, (Flt.val_le_iff b2 b1).2 b3, (Flt.val_le_iff b4 b5).2 b6, ?_⟩
  · have e : (Scalar.zero : Flt mw ew).val = 0 := by rw [Flt.val_of_isFin Flt.isFin_szero, Flt.toReal_szero]; rfl
    rw [← e]
    exact (Flt.val_le_iff a2 a1).2 a3
  · intro c1 c2
    rw [Flt.val_le_iff c1 c2]
    by_contra hc
    have := Flt.sgt_iff.2 ⟨c1, c2, not_le.1 hc⟩
    exact absurd (h3.symm.trans this) (by simp)
end

/-- Non-vacuity: an upward ray hits the unit `f32` sphere (with some libm) at parameter 4. -/
example : letI : Libm 23 8 := ⟨id, id, id, id, id, id, fun y _ => y⟩
    let n : Int → F32 := GFloat.fromI64
    ((Sphere.intersect (⟨n 1, n (-1), n 1, n 0, n 0, n 1⟩ : Sphere F32) ⟨new3 (n 0) (n 0) (n (-5)), new3 (n 0) (n 0) (n 1), n 10⟩).map
      (·.tRay)) = some (n 4) := by
  decide +kernel

/-- In exact arithmetic the code's coefficients are those of `|o + t d|² = r²`. -/
theorem sphere_quad (s : Sphere ℝ) (ray : Ray ℝ) (t : ℝ) :
    (ray.eval t).x ^ 2 + (ray.eval t).y ^ 2 + (ray.eval t).z ^ 2 = s.radius ^ 2 ↔
    ray.direction.squareNorm * t ^ 2 + ((GVec.conv .vector ray.origin).dot ray.direction * 2) * t +
      ((GVec.conv .vector ray.origin).squareNorm - s.radius * s.radius) = 0 := by
  rw [squareNorm3, squareNorm3, dot3]
  simp only [x_conv, y_conv, z_conv]
  have ex : (ray.eval t).x = ray.origin.x + ray.direction.x * t := rfl
  have ey : (ray.eval t).y = ray.origin.y + ray.direction.y * t := rfl
  have ez : (ray.eval t).z = ray.origin.z + ray.direction.z * t := rfl
  rw [ex, ey, ez]
  constructor <;> intro h <;> linear_combination h

/-- The ray does not start tangentially on the sphere (the solver's `0/0` case) and has a direction. -/
def Sphere.Regular (s : Sphere ℝ) (ray : Ray ℝ) : Prop :=
  (∃ i, ray.direction.vec i ≠ 0) ∧
  ¬ (ray.origin.x * ray.direction.x + ray.origin.y * ray.direction.y + ray.origin.z * ray.direction.z = 0 ∧
     ray.origin.x ^ 2 + ray.origin.y ^ 2 + ray.origin.z ^ 2 = s.radius ^ 2)

theorem getIntersection_real (s : Sphere ℝ) (ray : Ray ℝ) (t : ℝ) :
    ((s.getIntersection ray t).isSome = true ↔ 0 ≤ t ∧ t ≤ ray.tmax ∧ s.zMin ≤ (ray.eval t).z ∧ (ray.eval t).z ≤ s.zMax ∧
      Complex.arg ⟨(ray.eval t).x, (ray.eval t).y⟩ ≤ s.phiMax) := by
  unfold Sphere.getIntersection
  simp only [ratan2]
  constructor
  · intro h
    split at h
    · cases h
    rename_i h1
    split at h
    · cases h
    rename_i h2
    split at h
    · cases h
    rename_i h3
    simp only [Bool.not_eq_true, Bool.not_eq_false', rinRange, rzero] at h1 h2
    rw [rgt_iff, not_lt] at h3
    exact ⟨h1.1, h1.2, h2.1, h2.2, h3⟩
  · rintro ⟨h1, h2, h3, h4, h5⟩
    rw [if_neg (by simp [h1, h2]), if_neg (by simp [h3, h4]), if_neg (by rw [rgt_iff]; exact not_lt.2 h5)]
    rfl

theorem regular_coeff {s : Sphere ℝ} {ray : Ray ℝ} (hr : s.Regular ray) :
    ray.direction.squareNorm ≠ 0 ∧
    ¬ ((GVec.conv .vector ray.origin).dot ray.direction * 2 = 0 ∧
      ((GVec.conv .vector ray.origin).dot ray.direction * 2) ^ 2 -
        4 * ray.direction.squareNorm * ((GVec.conv .vector ray.origin).squareNorm - s.radius * s.radius) = 0) := by
  have ha : ray.direction.squareNorm ≠ 0 := by
    rw [Ne, squareNorm_eq_zero]
    obtain ⟨i, hi⟩ := hr.1
    exact fun h => hi (h i)
  refine ⟨ha, ?_⟩
  rintro ⟨h1, h2⟩
  apply hr.2
  rw [h1] at h2
  have h3 : (GVec.conv .vector ray.origin).squareNorm - s.radius * s.radius = 0 := by
    have : ray.direction.squareNorm * ((GVec.conv .vector ray.origin).squareNorm - s.radius * s.radius) = 0 := by linarith
    exact (mul_eq_zero.1 this).resolve_left ha
  rw [dot3] at h1
  rw [squareNorm3] at h3
  simp only [x_conv, y_conv, z_conv] at h1 h3
  constructor
  · linarith
  · linarith [h3]

theorem intersectRay_cases (s : Sphere ℝ) (ray : Ray ℝ) (hr : s.Regular ray) :
    (s.intersectRay ray = none ∧ ∀ t, ¬ (ray.eval t).x ^ 2 + (ray.eval t).y ^ 2 + (ray.eval t).z ^ 2 = s.radius ^ 2) ∨
    ∃ t0 t1, t0 ≤ t1 ∧
      (∀ t, (ray.eval t).x ^ 2 + (ray.eval t).y ^ 2 + (ray.eval t).z ^ 2 = s.radius ^ 2 ↔ t = t0 ∨ t = t1) ∧
      s.intersectRay ray = (s.getIntersection ray t0).or (s.getIntersection ray t1) := by
  obtain ⟨ha, hb⟩ := regular_coeff hr
  have hn := C55_none_iff _ _ ((GVec.conv .vector ray.origin).squareNorm - s.radius * s.radius) ha hb
  have hq := sphere_quad s ray
  unfold Sphere.intersectRay
  simp only [rfromI64, rsquare, Int.cast_ofNat]
  cases e : solveQuadratic ray.direction.squareNorm ((GVec.conv .vector ray.origin).dot ray.direction * 2)
      ((GVec.conv .vector ray.origin).squareNorm - s.radius * s.radius) with
  | none =>
    left
    refine ⟨rfl, fun t ht => ?_⟩
    exact (hn.1 e) t ((hq t).1 ht)
  | some tt =>
    obtain ⟨t0, t1⟩ := tt
    right
    obtain ⟨h1, -, h2⟩ := C55_roots _ _ _ t0 t1 ha hb e
    refine ⟨t0, t1, h1, fun t => (hq t).trans (h2 t), ?_⟩
    dsimp only
    cases s.getIntersection ray t0 <;> rfl

/-- C56, exact arithmetic: a reported hit is a point of the partial sphere, at the reported parameter. -/
theorem C56_on_sphere (s : Sphere ℝ) (ray : Ray ℝ) (hr : s.Regular ray) (r : IntersectionResult ℝ)
    (h : s.intersect ray = some r) :
    s.HitAt ray r.tRay ∧ r.surfaceInteraction.p = ray.eval r.tRay ∧ s.OnSurface r.surfaceInteraction.p := by
  unfold Sphere.intersect at h
  obtain ⟨hit, he, rfl⟩ := Option.map_eq_some_iff.1 h
  have key : ∀ t, (ray.eval t).x ^ 2 + (ray.eval t).y ^ 2 + (ray.eval t).z ^ 2 = s.radius ^ 2 →
      s.getIntersection ray t = some hit → s.HitAt ray hit.tRay ∧ hit.p = ray.eval hit.tRay := by
    intro t ht e
    have hs := (getIntersection_real s ray t).1 (by rw [e]; rfl)
    obtain ⟨-, -, -, rfl⟩ := getIntersection_some e
    exact ⟨⟨hs.1, hs.2.1, ht, hs.2.2⟩, rfl⟩
  have : s.HitAt ray hit.tRay ∧ hit.p = ray.eval hit.tRay := by
    rcases intersectRay_cases s ray hr with ⟨h0, -⟩ | ⟨t0, t1, -, hq, h2⟩
    · rw [h0] at he; cases he
    · rw [h2] at he
      cases e : s.getIntersection ray t0 with
      | none =>
        rw [e] at he
        exact key t1 ((hq t1).2 (Or.inr rfl)) he
      | some i =>
        rw [e] at he
        exact key t0 ((hq t0).2 (Or.inl rfl)) (e.trans he)
  refine ⟨this.1, this.2, ?_⟩
  have e : s.OnSurface hit.p := by rw [this.2]; exact this.1.2.2
  exact e

/-! ### C57 -/

/-- C57: a hit is reported exactly when the ray meets the partial sphere within `[0, tmax]`. -/
theorem C57_complete (s : Sphere ℝ) (ray : Ray ℝ) (hr : s.Regular ray) :
    (s.intersect ray).isSome = true ↔ ∃ t, s.HitAt ray t := by
  constructor
  · intro h
    obtain ⟨r, hr'⟩ := Option.isSome_iff_exists.1 h
    exact ⟨_, (C56_on_sphere s ray hr r hr').1⟩
  · rintro ⟨t, h0, h1, h2, h3⟩
    unfold Sphere.intersect
    rw [Option.isSome_map]
    rcases intersectRay_cases s ray hr with ⟨-, hno⟩ | ⟨t0, t1, -, hq, e⟩
    · exact absurd h2 (hno t)
    · have hg := (getIntersection_real s ray t).2 ⟨h0, h1, h3⟩
      rw [e, Option.isSome_or]
      rcases (hq t).1 h2 with rfl | rfl
      · rw [hg]; rfl
      · rw [hg, Bool.or_true]

/-- C57: the reported parameter is the smallest one at which the ray meets the partial sphere. -/
theorem C57_first (s : Sphere ℝ) (ray : Ray ℝ) (hr : s.Regular ray) (r : IntersectionResult ℝ)
    (h : s.intersect ray = some r) (t : ℝ) (ht : s.HitAt ray t) : r.tRay ≤ t := by
  unfold Sphere.intersect at h
  obtain ⟨hit, he, rfl⟩ := Option.map_eq_some_iff.1 h
  change hit.tRay ≤ t
  rcases intersectRay_cases s ray hr with ⟨-, hno⟩ | ⟨t0, t1, hle, hq, e⟩
  · exact absurd ht.2.2.1 (hno t)
  · rw [e] at he
    have hg := (getIntersection_real s ray t).2 ⟨ht.1, ht.2.1, ht.2.2.2⟩
    cases e0 : s.getIntersection ray t0 with
    | none =>
      rw [e0] at he
      obtain ⟨-, -, -, rfl⟩ := getIntersection_some (he : s.getIntersection ray t1 = some hit)
      rcases (hq t).1 ht.2.2.1 with rfl | rfl
      · rw [e0] at hg; cases hg
      · exact le_rfl
    | some i =>
      rw [e0] at he
      obtain ⟨-, -, -, rfl⟩ := getIntersection_some (e0.trans he)
      rcases (hq t).1 ht.2.2.1 with rfl | rfl
      · exact le_rfl
      · exact hle

/-! ### C59 -/

/-- C59: every point of the partial sphere lies inside its box, for any radius. -/
theorem C59_surface_in_bbox (s : Sphere ℝ) (p : Point ℝ 3) (h : s.OnSurface p) : s.bbox.inside p = true := by
  obtain ⟨h1, h2, h3, -⟩ := h
  rw [inside_iff]
  unfold Sphere.bbox
  have hx : |p.x| ≤ |s.radius| := sq_le_sq.1 (by nlinarith [sq_nonneg p.y, sq_nonneg p.z])
  have hy : |p.y| ≤ |s.radius| := sq_le_sq.1 (by nlinarith [sq_nonneg p.x, sq_nonneg p.z])
  have hc : ∀ x : ℝ, |x| ≤ |s.radius| → Min.min (-s.radius) s.radius ≤ x ∧ x ≤ Max.max (-s.radius) s.radius := by
    intro x hx
    obtain ⟨a, b⟩ := abs_le.1 hx
    rcases abs_cases s.radius with ⟨e, -⟩ | ⟨e, -⟩ <;> rw [e] at a b
    · exact ⟨(min_le_left _ _).trans a, b.trans (le_max_right _ _)⟩
    · exact ⟨(min_le_right _ _).trans (by linarith), b.trans (le_max_left _ _)⟩
  intro i
  rw [(new_real _ _ i).1, (new_real _ _ i).2]
  fin_cases i
  · exact hc _ hx
  · exact hc _ hy
  · exact ⟨(min_le_left _ _).trans h2, h3.trans (le_max_right _ _)⟩

/-- C59: every hit point lies inside the sphere's box. -/
theorem C59_hit_in_bbox (s : Sphere ℝ) (ray : Ray ℝ) (hr : s.Regular ray) (r : IntersectionResult ℝ)
    (h : s.intersect ray = some r) : s.bbox.inside r.surfaceInteraction.p = true :=
  C59_surface_in_bbox s _ (C56_on_sphere s ray hr r h).2.2

end Scarlet
