import Verif.Props.Sphere2

/-! C94: a closed sphere encloses its inside. -/

set_option linter.unusedSectionVars false

namespace Scarlet
open GVec

theorem abs_z_le {r x y z : ℝ} (hr : 0 ≤ r) (e : x ^ 2 + y ^ 2 + z ^ 2 = r ^ 2) : |z| ≤ r := by
  apply abs_le_of_sq_le_sq _ hr
  linarith [sq_nonneg x, sq_nonneg y]

/-- C94 in exact arithmetic: a ray that starts strictly inside a closed sphere and is long enough (`tmax ‖d‖ ≥ 2r`) hits
it. -/
theorem C94_exact_partial (r : ℝ) (s : Sphere ℝ) (hs : Sphere.new r (-r) r Real.pi = some s) (ray : Ray ℝ)
    (ho : ray.origin.x ^ 2 + ray.origin.y ^ 2 + ray.origin.z ^ 2 < r ^ 2)
    (ht0 : 0 ≤ ray.tmax)
    (ht : 4 * r ^ 2 ≤ ray.tmax ^ 2 * (ray.direction.x ^ 2 + ray.direction.y ^ 2 + ray.direction.z ^ 2)) :
    (s.intersect ray).isSome = true := by
  obtain ⟨h0, f1, f2, f3, f4, -, -⟩ := new_fields hs
  have hr : 0 < r := by linarith
  have ev : ∀ t, (ray.eval t).x = ray.origin.x + ray.direction.x * t ∧ (ray.eval t).y = ray.origin.y + ray.direction.y * t ∧
      (ray.eval t).z = ray.origin.z + ray.direction.z * t := fun t => ⟨rfl, rfl, rfl⟩
  have hd : ray.direction.squareNorm = ray.direction.x ^ 2 + ray.direction.y ^ 2 + ray.direction.z ^ 2 := by
    rw [squareNorm3]; ring
  have hreg : s.Regular ray := by
    refine ⟨?_, fun h => ?_⟩
    · by_contra hn
      push Not at hn
      have x0 : ray.direction.x = 0 := hn 0
      have y0 : ray.direction.y = 0 := hn 1
      have z0 : ray.direction.z = 0 := hn 2
      rw [x0, y0, z0] at ht
      nlinarith
    · rw [f1] at h; linarith [h.2]
  rw [C57_complete s ray hreg]
  generalize ha : ray.direction.x ^ 2 + ray.direction.y ^ 2 + ray.direction.z ^ 2 = A at *
  generalize hc : ray.origin.x ^ 2 + ray.origin.y ^ 2 + ray.origin.z ^ 2 = C at *
  set B := ray.origin.x * ray.direction.x + ray.origin.y * ray.direction.y + ray.origin.z * ray.direction.z with hB
  have hA : 0 ≤ A := by rw [← ha]; positivity
  have hC : 0 ≤ C := by rw [← hc]; positivity
  have cs : B ^ 2 ≤ A * C := by
    rw [← ha, ← hc, hB]
    nlinarith [sq_nonneg (ray.origin.x * ray.direction.y - ray.origin.y * ray.direction.x),
      sq_nonneg (ray.origin.x * ray.direction.z - ray.origin.z * ray.direction.x),
      sq_nonneg (ray.origin.y * ray.direction.z - ray.origin.z * ray.direction.y)]
  have hf : ∀ t, (ray.eval t).x ^ 2 + (ray.eval t).y ^ 2 + (ray.eval t).z ^ 2 = A * t ^ 2 + 2 * B * t + C := by
    intro t
    rw [(ev t).1, (ev t).2.1, (ev t).2.2, ← ha, ← hc, hB]; ring
  have hcont : Continuous fun t : ℝ => A * t ^ 2 + 2 * B * t + C := by fun_prop
  have hend : r ^ 2 ≤ A * ray.tmax ^ 2 + 2 * B * ray.tmax + C := by
    have hy0 := Real.sqrt_nonneg (ray.tmax ^ 2 * A)
    have hy2 := Real.sq_sqrt (show 0 ≤ ray.tmax ^ 2 * A by positivity)
    have hp0 := Real.sqrt_nonneg C
    have hp2 := Real.sq_sqrt hC
    generalize Real.sqrt (ray.tmax ^ 2 * A) = y at *
    generalize Real.sqrt C = ρ at *
    have h2r : 2 * r ≤ y := by nlinarith
    have hρ : ρ ≤ r := by nlinarith
    have hb : |B * ray.tmax| ≤ ρ * y := by
      apply abs_le_of_sq_le_sq _ (by positivity)
      rw [mul_pow, mul_pow, hp2, hy2]
      nlinarith [sq_nonneg ray.tmax]
    have := (abs_le.1 hb).1
    nlinarith
  have hivt := intermediate_value_Icc (f := fun t : ℝ => A * t ^ 2 + 2 * B * t + C) ht0 hcont.continuousOn
  have hmem : r ^ 2 ∈ Set.Icc ((fun t : ℝ => A * t ^ 2 + 2 * B * t + C) 0)
      ((fun t : ℝ => A * t ^ 2 + 2 * B * t + C) ray.tmax) := by
    refine Set.mem_Icc.2 ⟨?_, hend⟩
    simp only [ne_eq, OfNat.ofNat_ne_zero, not_false_eq_true, zero_pow, mul_zero, zero_add]
    exact le_of_lt ho
  obtain ⟨t, ⟨t0, t1⟩, e⟩ := hivt hmem
  have e' : (ray.eval t).x ^ 2 + (ray.eval t).y ^ 2 + (ray.eval t).z ^ 2 = r ^ 2 := (hf t).trans e
  clear hivt hmem e hcont hend hf cs
  have hz := abs_le.1 (abs_z_le hr.le e')
  exact ⟨t, t0, t1, by rw [f1]; exact e', by rw [f2]; exact hz.1, by rw [f3]; exact hz.2,
    by rw [f4]; exact Complex.arg_le_pi _⟩

/-- Non-vacuity: the unit sphere and a ray of length 2 that starts off-centre. -/
example : ∃ (s : Sphere ℝ) (ray : Ray ℝ), Sphere.new 1 (-1) 1 Real.pi = some s ∧
    ray.origin.x ^ 2 + ray.origin.y ^ 2 + ray.origin.z ^ 2 < 1 ^ 2 ∧ 0 ≤ ray.tmax ∧
    4 * 1 ^ 2 ≤ ray.tmax ^ 2 * (ray.direction.x ^ 2 + ray.direction.y ^ 2 + ray.direction.z ^ 2) := by
  refine ⟨_, ⟨new3 (1/2) 0 0, new3 0 1 1, 2⟩, if_pos (rlt_iff.2 (by norm_num)), ?_⟩
  simp only [x_new3, y_new3, z_new3]
  norm_num

section
/-- one tenth -/
def tenth : F32 := Flt.ofRat 23 8 false 1 10
/-- from the centre straight up -/
def upRay : Ray F32 := ⟨new3 (F32.lit 0) (F32.lit 0) (F32.lit 0), new3 (F32.lit 0) (F32.lit 0) (F32.lit 1), F32.lit 10⟩

/-- A sphere reports no hit if both roots of its equation fail the range checks (which use no trigonometry). -/
theorem intersectRay_none [Libm 23 8] (s : Sphere F32) (ray : Ray F32)
    (h : ((solveQuadratic ray.direction.squareNorm ((GVec.conv .vector ray.origin).dot ray.direction * GFloat.fromI64 2)
      ((GVec.conv .vector ray.origin).squareNorm - Scalar.square s.radius)).all fun p =>
        (!Scalar.inRange p.1 Scalar.zero ray.tmax || !Scalar.inRange (ray.eval p.1).z s.zMin s.zMax) &&
        (!Scalar.inRange p.2 Scalar.zero ray.tmax || !Scalar.inRange (ray.eval p.2).z s.zMin s.zMax)) = true) :
    s.intersectRay ray = none := by
  have hg : ∀ t, (!Scalar.inRange t Scalar.zero ray.tmax || !Scalar.inRange (ray.eval t).z s.zMin s.zMax) = true →
      s.getIntersection ray t = none := by
    intro t ht
    unfold Sphere.getIntersection
    split
    · rfl
    · rename_i h1
      have h2 : (!Scalar.inRange (ray.eval t).z s.zMin s.zMax) = true := by
        rw [Bool.or_eq_true] at ht
        exact ht.resolve_left h1
      dsimp only
      rw [if_pos h2]
  unfold Sphere.intersectRay
  dsimp only
  split
  · rfl
  · rename_i t0 t1 e
    rw [e] at h
    have := (Bool.and_eq_true _ _).mp h
    rw [hg t0 this.1]
    exact hg t1 this.2

/-- C94 is false of the code on `f32`: the ray from the centre of the closed sphere of radius 0.1 straight up, of length
10, is reported to miss the sphere (the computed hit lies above `z_max`).  This holds whatever the library's
trigonometric functions are. -/
theorem C94_refuted [Libm 23 8] : ∃ s : Sphere F32, Sphere.new tenth (-tenth) tenth GFloat.pi = some s ∧
    s.intersect upRay = none ∧ s.doIntersect upRay = false := by
  have key : ∀ s : Sphere F32, s.radius = tenth → s.zMin = -tenth → s.zMax = tenth → s.intersectRay upRay = none := by
    intro s e1 e2 e3
    apply intersectRay_none
    rw [e1, e2, e3]
    decide +kernel
  have hn : ∀ s : Sphere F32, Sphere.new tenth (-tenth) tenth GFloat.pi = some s →
      s.intersect upRay = none ∧ s.doIntersect upRay = false := by
    intro s hs
    unfold Sphere.new at hs
    split at hs
    · cases hs
      unfold Sphere.intersect Sphere.doIntersect
      rw [key _ (by dsimp only) (by dsimp only) (by dsimp only)]
      exact ⟨rfl, rfl⟩
    · cases hs
  have hlt : Scalar.lt (-tenth) tenth = true := by decide +kernel
  have hs : Sphere.new tenth (-tenth) tenth GFloat.pi = some _ := if_pos hlt
  exact ⟨_, hs, hn _ hs⟩
end
end Scarlet
