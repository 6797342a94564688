import Verif.Props.Sphere1
import Mathlib.Analysis.SpecialFunctions.Integrals.Basic

/-! C60 (surface parameters), C61 (normal and tangents), C62 (area).  All three are false of the code as stated; the
negations and the true parts are proved. -/

set_option linter.unusedSectionVars false

namespace Scarlet
open GVec Real

/-! ### The interaction in exact arithmetic -/

/-- The polar angle the code computes at height `z`. -/
noncomputable def codeTheta (r z : ℝ) : ℝ := arccos (Max.max 0 (Min.min (z / r) 1))

theorem interaction_real {s : Sphere ℝ} {ray : Ray ℝ} {r : IntersectionResult ℝ} (h : s.intersect ray = some r) :
    r.surfaceInteraction.uv.x = (atan2R r.surfaceInteraction.p.y r.surfaceInteraction.p.x + π) / (s.phiMax + π) ∧
    r.surfaceInteraction.uv.y = (codeTheta s.radius r.surfaceInteraction.p.z - s.thetaMin) / (s.thetaMax - s.thetaMin) ∧
    r.surfaceInteraction.dpdu = new3 (-r.surfaceInteraction.p.y * (s.phiMax + π)) (r.surfaceInteraction.p.x * (s.phiMax + π)) 0 ∧
    r.surfaceInteraction.dpdv =
      new3 (r.surfaceInteraction.p.z * cos (atan2R r.surfaceInteraction.p.y r.surfaceInteraction.p.x) * (s.thetaMax - s.thetaMin))
           (r.surfaceInteraction.p.z * sin (atan2R r.surfaceInteraction.p.y r.surfaceInteraction.p.x) * (s.thetaMax - s.thetaMin))
           (-s.radius * sin (codeTheta s.radius r.surfaceInteraction.p.z) * (s.thetaMax - s.thetaMin)) ∧
    r.surfaceInteraction.n = conv .normal (r.surfaceInteraction.dpdu.cross r.surfaceInteraction.dpdv).normalize := by
  unfold Sphere.intersect at h
  obtain ⟨hit, he, rfl⟩ := Option.map_eq_some_iff.1 h
  obtain ⟨t, ht⟩ := intersectRay_some he
  obtain ⟨-, -, -, rfl⟩ := getIntersection_some ht
  unfold Sphere.interaction SurfaceInteraction.new codeTheta
  exact ⟨rfl, rfl, ext3 rfl rfl (zero_mul _), ext3 rfl rfl rfl, rfl⟩

theorem new_fields {r zMin zMax phiMax : ℝ} {s : Sphere ℝ} (h : Sphere.new r zMin zMax phiMax = some s) :
    zMin < zMax ∧ s.radius = r ∧ s.zMin = zMin ∧ s.zMax = zMax ∧ s.phiMax = phiMax ∧
    s.thetaMin = codeTheta r zMin ∧ s.thetaMax = codeTheta r zMax := by
  unfold Sphere.new at h
  split at h
  · rename_i h1
    cases h
    exact ⟨rlt_iff.1 h1, rfl, rfl, rfl, rfl, rfl, rfl⟩
  · cases h

theorem codeTheta_upper {r z : ℝ} (hr : 0 < r) (h0 : 0 ≤ z) (h1 : z ≤ r) : codeTheta r z = arccos (z / r) := by
  unfold codeTheta
  rw [min_eq_left ((div_le_one hr).2 h1), max_eq_right (by positivity)]
theorem codeTheta_lower {r z : ℝ} (hr : 0 < r) (h0 : z ≤ 0) : codeTheta r z = π / 2 := by
  unfold codeTheta
  rw [max_eq_left ((min_le_left _ _).trans (div_nonpos_of_nonpos_of_nonneg h0 hr.le)), arccos_zero]

theorem codeTheta_anti {r z w : ℝ} (hr : 0 < r) (h : z ≤ w) : codeTheta r w ≤ codeTheta r z := by
  unfold codeTheta
  exact arccos_le_arccos (max_le_max le_rfl (min_le_min (div_le_div_of_nonneg_right h hr.le) le_rfl))

theorem codeTheta_strict {r z w : ℝ} (hr : 0 < r) (h : z < w) (hz : z < r) (hw : 0 < w) : codeTheta r w < codeTheta r z := by
  unfold codeTheta
  refine arccos_lt_arccos ?_ ?_ ?_
  · exact (by norm_num : (-1 : ℝ) ≤ 0).trans (le_max_left _ _)
  · have e : z / r < w / r := div_lt_div_of_pos_right h hr
    have e1 : z / r < 1 := (div_lt_one hr).2 hz
    have e2 : 0 < w / r := by positivity
    rw [max_lt_iff]
    exact ⟨lt_max_of_lt_right (lt_min e2 one_pos), lt_max_of_lt_right ((min_le_left _ _).trans_lt (lt_min e e1))⟩
  · exact max_le zero_le_one (min_le_right _ _)

/-- On the upper half the point is recovered from its azimuth and the code's polar angle. -/
theorem upper_point {r : ℝ} {p : Point ℝ 3} (hr : 0 < r) (hs : p.x ^ 2 + p.y ^ 2 + p.z ^ 2 = r ^ 2) (hz : 0 ≤ p.z) :
    r * sin (codeTheta r p.z) * cos (atan2R p.y p.x) = p.x ∧ r * sin (codeTheta r p.z) * sin (atan2R p.y p.x) = p.y ∧
    r * cos (codeTheta r p.z) = p.z ∧ r * sin (codeTheta r p.z) = Real.sqrt (p.x ^ 2 + p.y ^ 2) := by
  have hzr : p.z ≤ r := by nlinarith [sq_nonneg p.x, sq_nonneg p.y]
  have hsin : r * sin (codeTheta r p.z) = Real.sqrt (p.x ^ 2 + p.y ^ 2) := by
    rw [codeTheta_upper hr hz hzr, sin_arccos]
    rw [eq_comm, Real.sqrt_eq_iff_mul_self_eq (by positivity) (by positivity)]
    have : 0 ≤ 1 - (p.z / r) ^ 2 := by
      have : (p.z / r) ^ 2 ≤ 1 := by
        rw [div_pow, div_le_one (by positivity)]; nlinarith
      linarith
    have e := Real.mul_self_sqrt this
    generalize Real.sqrt (1 - (p.z / r) ^ 2) = q at *
    have : r * q * (r * q) = r ^ 2 * (q * q) := by ring
    rw [this, e]
    field_simp
    linarith
  have hn : ‖(⟨p.x, p.y⟩ : ℂ)‖ = Real.sqrt (p.x ^ 2 + p.y ^ 2) := by
    rw [Complex.norm_def, Complex.normSq_mk, sq, sq]
  refine ⟨?_, ?_, ?_, hsin⟩
  · rw [hsin, ← hn]; exact Complex.norm_mul_cos_arg _
  · rw [hsin, ← hn]; exact Complex.norm_mul_sin_arg _
  · rw [codeTheta_upper hr hz hzr, cos_arccos]
    · field_simp
    · have : 0 ≤ p.z / r := by positivity
      linarith
    · exact (div_le_one hr).2 hzr

/-! ### C60 -/

/-- C60, the part that holds: on the upper half of a sphere made by `Sphere::new` (the band is not degenerate and
reaches above the equator), `(u, v)` lies in `[0,1]²`, `phi = u (phi_max + π) - π` is the azimuth of the hit, and the
documented parameterization at `(u, v)` is the hit point.  Missing: hits with `z < 0`, for which it is false
(`C60_refuted`, `C60_wrong_below`). -/
theorem C60_upper_partial (radius zMin zMax phiMax : ℝ) (s : Sphere ℝ) (hs : Sphere.new radius zMin zMax phiMax = some s)
    (h0 : 0 < radius) (hmin : zMin < radius) (hmax : 0 < zMax) (hphi : -π < phiMax) (ray : Ray ℝ) (hr : s.Regular ray)
    (r : IntersectionResult ℝ) (h : s.intersect ray = some r) (hz : 0 ≤ r.surfaceInteraction.p.z) :
    (0 ≤ r.surfaceInteraction.uv.x ∧ r.surfaceInteraction.uv.x ≤ 1) ∧
    (0 ≤ r.surfaceInteraction.uv.y ∧ r.surfaceInteraction.uv.y ≤ 1) ∧
    Complex.arg ⟨r.surfaceInteraction.p.x, r.surfaceInteraction.p.y⟩ = s.phiAt r.surfaceInteraction.uv.x ∧
    r.surfaceInteraction.p.vec = s.param r.surfaceInteraction.uv.x r.surfaceInteraction.uv.y := by
  obtain ⟨hlt, f1, f2, f3, f4, f5, f6⟩ := new_fields hs
  obtain ⟨-, -, hsurf, hz1, hz2, harg⟩ := C56_on_sphere s ray hr r h
  obtain ⟨hu, hv, -, -, -⟩ := interaction_real h
  generalize r.surfaceInteraction.p = p at *
  generalize r.surfaceInteraction.uv = uv at *
  rw [f1] at hsurf hv
  rw [f2] at hz1
  rw [f3] at hz2
  rw [f4] at harg hu
  have hd : s.thetaMax - s.thetaMin < 0 := by rw [f5, f6, sub_neg]; exact codeTheta_strict h0 hlt hmin hmax
  have hpp : 0 < phiMax + π := by linarith
  have ha : atan2R p.y p.x = s.phiAt uv.x := by
    unfold Sphere.phiAt; rw [hu, f4]; field_simp; ring
  have ht : codeTheta radius p.z = s.thetaAt uv.y := by
    unfold Sphere.thetaAt; rw [hv, div_mul_cancel₀ _ hd.ne, sub_add_cancel]
  obtain ⟨p1, p2, p3, -⟩ := upper_point h0 hsurf hz
  refine ⟨?_, ?_, ha, ?_⟩
  · rw [hu, le_div_iff₀ hpp, div_le_one hpp]
    have := Complex.neg_pi_lt_arg ⟨p.x, p.y⟩
    unfold atan2R
    constructor <;> linarith
  · rw [hv, le_div_iff_of_neg hd, div_le_one_of_neg hd]
    have e1 := codeTheta_anti h0 hz1
    have e2 := codeTheta_anti h0 hz2
    rw [← f5] at e1
    rw [← f6] at e2
    constructor <;> linarith
  · unfold Sphere.param
    rw [f1, ← ha, ← ht, p1, p2, p3]
    funext i; fin_cases i <;> rfl

/-- Below the equator the code's polar angle is stuck at `π/2`: `v` is constant and the parameterization at the
reported `(u, v)` is never the hit point. -/
theorem C60_wrong_below (radius zMin zMax phiMax : ℝ) (s : Sphere ℝ) (hs : Sphere.new radius zMin zMax phiMax = some s)
    (h0 : 0 < radius) (ray : Ray ℝ) (hr : s.Regular ray)
    (r : IntersectionResult ℝ) (h : s.intersect ray = some r) (hz : r.surfaceInteraction.p.z < 0) :
    r.surfaceInteraction.uv.y = 0 ∧
    r.surfaceInteraction.p.vec ≠ s.param r.surfaceInteraction.uv.x r.surfaceInteraction.uv.y := by
  obtain ⟨hlt, f1, f2, f3, f4, f5, f6⟩ := new_fields hs
  obtain ⟨-, -, hsurf, hz1, hz2, harg⟩ := C56_on_sphere s ray hr r h
  obtain ⟨-, hv, -, -, -⟩ := interaction_real h
  rw [f2] at hz1
  have hv0 : r.surfaceInteraction.uv.y = 0 := by
    rw [hv, f1, f5, codeTheta_lower h0 hz.le, codeTheta_lower h0 (hz1.trans hz.le), sub_self, zero_div]
  refine ⟨hv0, fun he => ?_⟩
  have := congrFun he 2
  rw [hv0] at this
  unfold Sphere.param Sphere.thetaAt at this
  rw [zero_mul, zero_add, f5, codeTheta_lower h0 (hz1.trans hz.le)] at this
  change r.surfaceInteraction.p.z = s.radius * cos (π / 2) at this
  rw [cos_pi_div_two, mul_zero] at this
  exact hz.ne this

/-- The full unit sphere. -/
noncomputable def unitS : Sphere ℝ := ⟨1, -1, 1, codeTheta 1 (-1), codeTheta 1 1, π⟩
theorem unitS_new : Sphere.new (1 : ℝ) (-1) 1 π = some unitS := by
  unfold Sphere.new
  rw [if_pos (rlt_iff.2 (by norm_num))]
  rfl

/-- A vertical ray from `(a, 0, o)`. -/
def vray (a o d : ℝ) : Ray ℝ := ⟨new3 a 0 o, new3 0 0 d, 10⟩

theorem vray_regular (s : Sphere ℝ) (a o d : ℝ) (hd : d ≠ 0) (ho : o ≠ 0) : s.Regular (vray a o d) := by
  refine ⟨⟨2, hd⟩, fun h => ?_⟩
  have := h.1
  simp [vray, hd, ho] at this

/-- The hits of vertical rays, upwards from below and downwards from above, on a sphere of radius 1. -/
theorem vray_hit (s : Sphere ℝ) (a z σ : ℝ) (hσ : σ = 1 ∨ σ = -1) (hz : 0 < z) (haz : a ^ 2 + z ^ 2 = 1)
    (hr : s.radius = 1) (hphi : s.phiMax = π) (h1 : s.zMin ≤ -z * σ) (h2 : -z * σ ≤ s.zMax) :
    ∃ r, s.intersect (vray a (-5 * σ) σ) = some r ∧ r.surfaceInteraction.p = new3 a 0 (-z * σ) ∧ r.tRay = 5 - z := by
  have hσ2 : σ * σ = 1 := by rcases hσ with rfl | rfl <;> norm_num
  have hσ0 : σ ≠ 0 := by rcases hσ with rfl | rfl <;> norm_num
  have hreg : s.Regular (vray a (-5 * σ) σ) := vray_regular _ _ _ _ hσ0 (by simpa using hσ0)
  have hz1 : z ≤ 1 := by nlinarith [sq_nonneg a]
  have ev : ∀ t, (vray a (-5 * σ) σ).eval t = new3 a 0 ((t - 5) * σ) := fun t => by
    apply ext3
    · change a + 0 * t = a; ring
    · change (0 : ℝ) + 0 * t = 0; ring
    · change -5 * σ + σ * t = (t - 5) * σ; ring
  have hit : s.HitAt (vray a (-5 * σ) σ) (5 - z) := by
    refine ⟨by linarith, ?_, ?_⟩
    · change 5 - z ≤ 10; linarith
    · rw [ev]
      refine ⟨?_, ?_, ?_, by rw [hphi]; exact Complex.arg_le_pi _⟩
      · rw [hr]
        change a ^ 2 + 0 ^ 2 + ((5 - z - 5) * σ) ^ 2 = 1 ^ 2
        linear_combination haz + z ^ 2 * hσ2
      · change s.zMin ≤ (5 - z - 5) * σ
        rw [show (5 - z - 5) * σ = -z * σ by ring]; exact h1
      · change (5 - z - 5) * σ ≤ s.zMax
        rw [show (5 - z - 5) * σ = -z * σ by ring]; exact h2
  obtain ⟨r, h⟩ := Option.isSome_iff_exists.1 ((C57_complete _ _ hreg).2 ⟨_, hit⟩)
  have hle := C57_first _ _ hreg r h _ hit
  obtain ⟨g1, g2, -⟩ := C56_on_sphere _ _ hreg r h
  have h3 := g1.2.2.1
  rw [ev, hr] at h3
  change a ^ 2 + 0 ^ 2 + ((r.tRay - 5) * σ) ^ 2 = 1 ^ 2 at h3
  have h4 : (r.tRay - 5 + z) * (r.tRay - 5 - z) = 0 := by
    linear_combination h3 - haz - (r.tRay - 5) ^ 2 * hσ2
  have h5 : r.tRay = 5 - z := by
    rcases mul_eq_zero.1 h4 with h5 | h5 <;> linarith
  refine ⟨r, h, ?_, h5⟩
  rw [g2, ev, h5]
  apply ext3 <;> simp

/-- Non-vacuity of `C60_upper_partial` and `C60_wrong_below`: hits of the unit sphere at `(3/5, 0, ±4/5)`. -/
example : ∃ r, unitS.intersect (vray (3/5) 5 (-1)) = some r ∧ 0 ≤ r.surfaceInteraction.p.z := by
  obtain ⟨r, h, e, -⟩ := vray_hit unitS (3/5) (4/5) (-1) (Or.inr rfl) (by norm_num) (by norm_num) rfl rfl
    (by norm_num [unitS]) (by norm_num [unitS])
  norm_num at h
  exact ⟨r, h, by rw [e]; norm_num⟩
theorem lower_witness : ∃ r, unitS.intersect (vray (3/5) (-5) 1) = some r ∧ r.surfaceInteraction.p = new3 (3/5) 0 (-(4/5)) := by
  obtain ⟨r, h, e, -⟩ := vray_hit unitS (3/5) (4/5) 1 (Or.inl rfl) (by norm_num) (by norm_num) rfl rfl
    (by norm_num [unitS]) (by norm_num [unitS])
  norm_num at h
  exact ⟨r, h, by rw [e]; norm_num⟩

/-- C60 as claimed (for all hits) is false of the code. -/
theorem C60_refuted : ¬ ∀ (radius zMin zMax phiMax : ℝ) (s : Sphere ℝ), Sphere.new radius zMin zMax phiMax = some s →
    0 < radius → -radius ≤ zMin → zMax ≤ radius → -π < phiMax → ∀ (ray : Ray ℝ), s.Regular ray →
    ∀ r : IntersectionResult ℝ, s.intersect ray = some r →
    r.surfaceInteraction.p.z = s.radius * cos (s.thetaAt r.surfaceInteraction.uv.y) := by
  intro H
  obtain ⟨r, h, e⟩ := lower_witness
  have hreg := vray_regular unitS (3/5) (-5) 1 one_ne_zero (by norm_num)
  have h1 := H 1 (-1) 1 π unitS unitS_new one_pos le_rfl le_rfl (by linarith [pi_pos]) _ hreg r h
  have hz : r.surfaceInteraction.p.z < 0 := by rw [e]; norm_num
  have h2 := (C60_wrong_below 1 (-1) 1 π unitS unitS_new one_pos _ hreg r h hz).1
  unfold Sphere.thetaAt at h1
  rw [h2, zero_mul, zero_add] at h1
  change _ = _ * cos (codeTheta 1 (-1)) at h1
  rw [codeTheta_lower one_pos (by norm_num), cos_pi_div_two, mul_zero] at h1
  exact hz.ne h1

/-! ### C61 -/

/-- C61, the part that holds: on the upper half, away from the pole, the normal is the outward unit normal `p / r`.
Missing: hits with `z < 0`, where it is false (`C61_refuted`), and the pole (`C61_pole`). -/
theorem C61_normal_partial (radius zMin zMax phiMax : ℝ) (s : Sphere ℝ) (hs : Sphere.new radius zMin zMax phiMax = some s)
    (h0 : 0 < radius) (hmin : zMin < radius) (hmax : 0 < zMax) (hphi : -π < phiMax) (ray : Ray ℝ) (hr : s.Regular ray)
    (r : IntersectionResult ℝ) (h : s.intersect ray = some r) (hz : 0 ≤ r.surfaceInteraction.p.z)
    (hpole : ¬ (r.surfaceInteraction.p.x = 0 ∧ r.surfaceInteraction.p.y = 0)) (i : _root_.Fin 3) :
    r.surfaceInteraction.n.vec i = r.surfaceInteraction.p.vec i / radius := by
  obtain ⟨hlt, f1, f2, f3, f4, f5, f6⟩ := new_fields hs
  obtain ⟨-, -, hsurf, -⟩ := C56_on_sphere s ray hr r h
  obtain ⟨-, -, hdu, hdv, hn⟩ := interaction_real h
  generalize r.surfaceInteraction.p = p at *
  rw [f1] at hsurf hdv
  rw [f4] at hdu
  have hd : s.thetaMax - s.thetaMin < 0 := by rw [f5, f6, sub_neg]; exact codeTheta_strict h0 hlt hmin hmax
  have hpp : 0 < phiMax + π := by linarith
  obtain ⟨p1, p2, p3, p4⟩ := upper_point h0 hsurf hz
  generalize s.thetaMax - s.thetaMin = D at *
  generalize phiMax + π = P at *
  generalize codeTheta radius p.z = θ at *
  generalize atan2R p.y p.x = φ at *
  have hρ : 0 < Real.sqrt (p.x ^ 2 + p.y ^ 2) := by
    apply Real.sqrt_pos.2
    rcases not_and_or.1 hpole with h | h
    · have := pow_pos (abs_pos.2 h) 2; rw [sq_abs] at this; nlinarith [sq_nonneg p.y]
    · have := pow_pos (abs_pos.2 h) 2; rw [sq_abs] at this; nlinarith [sq_nonneg p.x]
  rw [← p4] at hρ
  generalize hρd : radius * sin θ = ρ at *
  have cs := sin_sq_add_cos_sq φ
  -- the cross product is a positive multiple of `p`
  have hc : r.surfaceInteraction.dpdu.cross r.surfaceInteraction.dpdv = new3 (p.x * (-(ρ * P * D))) (p.y * (-(ρ * P * D))) (p.z * (-(ρ * P * D))) := by
    rw [hdu, hdv]
    apply ext3
    · simp only [x_cross, y_new3, z_new3, x_new3]
      linear_combination (-p.x * P * D) * hρd
    · simp only [y_cross, y_new3, z_new3, x_new3]
      linear_combination (-p.y * P * D) * hρd
    · simp only [z_cross, y_new3, z_new3, x_new3]
      rw [← p1, ← p2]
      linear_combination (-ρ * p.z * P * D) * cs
  have hk : 0 < -(ρ * P * D) := by
    have := mul_pos (mul_pos hρ hpp) (neg_pos.2 hd)
    linarith
  generalize -(ρ * P * D) = k at *
  have hnorm : (r.surfaceInteraction.dpdu.cross r.surfaceInteraction.dpdv).norm = radius * k := by
    rw [hc, norm_real, squareNorm3]
    simp only [x_new3, y_new3, z_new3]
    rw [show p.x * k * (p.x * k) + p.y * k * (p.y * k) + p.z * k * (p.z * k) = (radius * k) ^ 2 by
      linear_combination (k ^ 2) * hsurf, Real.sqrt_sq (by positivity)]
  rw [hn, vec_conv, normalize_vec, hnorm, hc]
  fin_cases i
  · change p.x * k / (radius * k) = p.x / radius; field_simp
  · change p.y * k / (radius * k) = p.y / radius; field_simp
  · change p.z * k / (radius * k) = p.z / radius; field_simp

/-- C61, the part that holds: on the upper half, `dpdu` and `dpdv` are the partial derivatives of the documented
parameterization at the reported `(u, v)`.  Missing: hits with `z < 0`. -/
theorem C61_tangents_partial (radius zMin zMax phiMax : ℝ) (s : Sphere ℝ) (hs : Sphere.new radius zMin zMax phiMax = some s)
    (h0 : 0 < radius) (hmin : zMin < radius) (hmax : 0 < zMax) (hphi : -π < phiMax) (ray : Ray ℝ) (hr : s.Regular ray)
    (r : IntersectionResult ℝ) (h : s.intersect ray = some r) (hz : 0 ≤ r.surfaceInteraction.p.z) :
    HasDerivAt (fun u => s.param u r.surfaceInteraction.uv.y) r.surfaceInteraction.dpdu.vec r.surfaceInteraction.uv.x ∧
    HasDerivAt (fun v => s.param r.surfaceInteraction.uv.x v) r.surfaceInteraction.dpdv.vec r.surfaceInteraction.uv.y := by
  obtain ⟨hlt, f1, f2, f3, f4, f5, f6⟩ := new_fields hs
  obtain ⟨-, -, ha, hparam⟩ := C60_upper_partial radius zMin zMax phiMax s hs h0 hmin hmax hphi ray hr r h hz
  obtain ⟨-, hv, hdu, hdv, -⟩ := interaction_real h
  have hd : s.thetaMax - s.thetaMin < 0 := by rw [f5, f6, sub_neg]; exact codeTheta_strict h0 hlt hmin hmax
  have ht : codeTheta s.radius r.surfaceInteraction.p.z = s.thetaAt r.surfaceInteraction.uv.y := by
    unfold Sphere.thetaAt; rw [hv, div_mul_cancel₀ _ hd.ne, sub_add_cancel]
  rw [show atan2R r.surfaceInteraction.p.y r.surfaceInteraction.p.x = s.phiAt r.surfaceInteraction.uv.x from ha, ht] at hdv
  have px : r.surfaceInteraction.p.x = _ := congrFun hparam 0
  have py : r.surfaceInteraction.p.y = _ := congrFun hparam 1
  have pz : r.surfaceInteraction.p.z = _ := congrFun hparam 2
  have dphi : HasDerivAt s.phiAt (s.phiMax + π) r.surfaceInteraction.uv.x := by
    unfold Sphere.phiAt
    simpa using ((hasDerivAt_id r.surfaceInteraction.uv.x).mul_const (s.phiMax + π)).sub_const π
  have dtheta : HasDerivAt s.thetaAt (s.thetaMax - s.thetaMin) r.surfaceInteraction.uv.y := by
    unfold Sphere.thetaAt
    simpa using ((hasDerivAt_id r.surfaceInteraction.uv.y).mul_const (s.thetaMax - s.thetaMin)).add_const s.thetaMin
  unfold Sphere.param at px py pz
  simp only [Matrix.cons_val] at px py pz
  constructor
  · rw [hasDerivAt_pi]
    intro i
    fin_cases i
    · have := dphi.cos.const_mul (s.radius * sin (s.thetaAt r.surfaceInteraction.uv.y))
      refine this.congr_deriv ?_
      change _ = r.surfaceInteraction.dpdu.x
      rw [hdu, x_new3, py]; ring
    · have := dphi.sin.const_mul (s.radius * sin (s.thetaAt r.surfaceInteraction.uv.y))
      refine this.congr_deriv ?_
      change _ = r.surfaceInteraction.dpdu.y
      rw [hdu, y_new3, px]; ring
    · refine (hasDerivAt_const _ (s.radius * cos (s.thetaAt r.surfaceInteraction.uv.y))).congr_deriv ?_
      change _ = r.surfaceInteraction.dpdu.z
      rw [hdu, z_new3]
  · rw [hasDerivAt_pi]
    intro i
    fin_cases i
    · have := (dtheta.sin.const_mul s.radius).mul_const (cos (s.phiAt r.surfaceInteraction.uv.x))
      refine this.congr_deriv ?_
      change _ = r.surfaceInteraction.dpdv.x
      rw [hdv, x_new3, pz]; ring
    · have := (dtheta.sin.const_mul s.radius).mul_const (sin (s.phiAt r.surfaceInteraction.uv.x))
      refine this.congr_deriv ?_
      change _ = r.surfaceInteraction.dpdv.y
      rw [hdv, y_new3, pz]; ring
    · have := dtheta.cos.const_mul s.radius
      refine this.congr_deriv ?_
      change _ = r.surfaceInteraction.dpdv.z
      rw [hdv, z_new3]; ring

/-- At a pole the normal is computed from a zero vector: `dpdu × dpdv = 0`, so `normalize` divides by zero. -/
theorem C61_pole (s : Sphere ℝ) (ray : Ray ℝ) (r : IntersectionResult ℝ) (h : s.intersect ray = some r)
    (hx : r.surfaceInteraction.p.x = 0) (hy : r.surfaceInteraction.p.y = 0) :
    (r.surfaceInteraction.dpdu.cross r.surfaceInteraction.dpdv).norm = 0 := by
  obtain ⟨-, -, hdu, hdv, -⟩ := interaction_real h
  rw [norm_real, squareNorm3, hdu]
  simp [hx, hy]

/-- C61 as claimed is false of the code: at `(3/5, 0, -4/5)` on the unit sphere the reported normal is not `p / r`. -/
theorem C61_refuted : ¬ ∀ (radius zMin zMax phiMax : ℝ) (s : Sphere ℝ), Sphere.new radius zMin zMax phiMax = some s →
    0 < radius → -radius ≤ zMin → zMax ≤ radius → -π < phiMax → ∀ (ray : Ray ℝ), s.Regular ray →
    ∀ r : IntersectionResult ℝ, s.intersect ray = some r →
    ¬ (r.surfaceInteraction.p.x = 0 ∧ r.surfaceInteraction.p.y = 0) →
    ∀ i, r.surfaceInteraction.n.vec i = r.surfaceInteraction.p.vec i / radius := by
  intro H
  obtain ⟨r, h, e⟩ := lower_witness
  have hreg := vray_regular unitS (3/5) (-5) 1 one_ne_zero (by norm_num)
  have h1 := H 1 (-1) 1 π unitS unitS_new one_pos le_rfl le_rfl (by linarith [pi_pos]) _ hreg r h
    (by rw [e]; norm_num)
  obtain ⟨-, -, hdu, hdv, hn⟩ := interaction_real h
  rw [e] at h1 hdu hdv
  have hz : atan2R (0 : ℝ) (3 / 5) = 0 := by rw [atan2R_of_pos (by norm_num)]; simp
  simp only [x_new3, y_new3, z_new3] at hdu hdv
  rw [hz, show unitS.radius = 1 from rfl, codeTheta_lower one_pos (by norm_num), sin_pi_div_two, cos_zero, sin_zero,
    show unitS.thetaMax = codeTheta 1 1 from rfl, show unitS.thetaMin = codeTheta 1 (-1) from rfl,
    codeTheta_upper one_pos zero_le_one le_rfl, div_one, arccos_one,
    codeTheta_lower one_pos (show (-1 : ℝ) ≤ 0 by norm_num)] at hdv
  rw [show unitS.phiMax = π from rfl] at hdu
  have hx := h1 0
  have hzz := h1 2
  rw [hn, vec_conv, normalize_vec] at hx hzz
  generalize (r.surfaceInteraction.dpdu.cross r.surfaceInteraction.dpdv).norm = N at *
  have cx : (r.surfaceInteraction.dpdu.cross r.surfaceInteraction.dpdv).vec 0 = 3 / 5 * π ^ 2 := by
    change (r.surfaceInteraction.dpdu.cross r.surfaceInteraction.dpdv).x = _
    rw [hdu, hdv]; simp only [x_cross, x_new3, y_new3, z_new3]; ring
  have cz : (r.surfaceInteraction.dpdu.cross r.surfaceInteraction.dpdv).vec 2 = -(12 / 25) * π ^ 2 := by
    change (r.surfaceInteraction.dpdu.cross r.surfaceInteraction.dpdv).z = _
    rw [hdu, hdv]; simp only [z_cross, x_new3, y_new3, z_new3]; ring
  rw [cx] at hx
  rw [cz] at hzz
  simp only [vec_new3_0, vec_new3_2] at hx hzz
  have hpi := pi_pos
  rcases eq_or_ne N 0 with hN | hN
  · rw [hN] at hx; norm_num at hx
  · field_simp at hx hzz
    nlinarith

/-! ### C62 -/

theorem trueArea_eq (s : Sphere ℝ) (h0 : 0 < s.radius) (h1 : -s.radius ≤ s.zMin) (h2 : s.zMin ≤ s.zMax) (h3 : s.zMax ≤ s.radius) :
    s.trueArea = (s.phiMax + π) * s.radius * (s.zMax - s.zMin) := by
  unfold Sphere.trueArea
  have c : ∀ z, -s.radius ≤ z → z ≤ s.radius → cos (arccos (z / s.radius)) = z / s.radius := fun z a b =>
    cos_arccos (by rw [le_div_iff₀ h0]; linarith) ((div_le_one h0).2 b)
  rw [intervalIntegral.integral_const_mul, integral_sin, c _ (h1.trans h2) h3, c _ h1 (h2.trans h3), intervalIntegral.integral_const]
  rw [smul_eq_mul]
  field_simp
  ring

/-- C62: what `area()` returns: the true area less the part `π r (z_max - z_min)`, because the azimuth range starts at
`-π`, not at `0`.  Missing: equality with the area, which is false (`C62_refuted`). -/
theorem C62_area_partial (s : Sphere ℝ) (h0 : 0 < s.radius) (h1 : -s.radius ≤ s.zMin) (h2 : s.zMin ≤ s.zMax) (h3 : s.zMax ≤ s.radius) :
    s.area = s.trueArea - π * s.radius * (s.zMax - s.zMin) := by
  rw [trueArea_eq s h0 h1 h2 h3]
  unfold Sphere.area
  ring

/-- The specification is the usual one: `4 π r²` for the full sphere. -/
theorem trueArea_full (r : ℝ) (hr : 0 < r) (a b : ℝ) : Sphere.trueArea ⟨r, -r, r, a, b, π⟩ = 4 * π * r ^ 2 := by
  rw [trueArea_eq _ hr (by simp) (by simp; linarith) (by simp)]; ring

/-- C62 as claimed is false for every non-degenerate sphere: `area()` is too small; for the full sphere it returns
`2 π r²` instead of `4 π r²`. -/
theorem C62_refuted (s : Sphere ℝ) (h0 : 0 < s.radius) (h1 : -s.radius ≤ s.zMin) (h2 : s.zMin < s.zMax) (h3 : s.zMax ≤ s.radius) :
    s.area < s.trueArea := by
  rw [C62_area_partial s h0 h1 h2.le h3]
  have := mul_pos (mul_pos pi_pos h0) (sub_pos.2 h2)
  linarith

theorem C62_full_sphere (r : ℝ) (hr : 0 < r) (s : Sphere ℝ) (hs : Sphere.new r (-r) r π = some s) :
    s.area = 2 * π * r ^ 2 ∧ s.trueArea = 4 * π * r ^ 2 := by
  obtain ⟨-, f1, f2, f3, f4, -, -⟩ := new_fields hs
  constructor
  · unfold Sphere.area; rw [f1, f2, f3, f4]; ring
  · rw [trueArea_eq s (by rw [f1]; exact hr) (by rw [f1, f2]) (by rw [f2, f3]; linarith) (by rw [f1, f3]), f1, f2, f3, f4]; ring
example : Sphere.new (1 : ℝ) (-1) 1 π = some unitS := unitS_new

end Scarlet
