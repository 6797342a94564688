import Verif.Props.SphereFloat
import Verif.Props.SphereUV

/-! C116: a sphere whose z range extends a little beyond its radius is watertight on floats.  (With `z_min = -radius` and
`z_max = radius` it is not: C94_refuted.) -/

set_option linter.unusedSectionVars false

namespace Scarlet
open Flt GVec

section core
variable {u O P X R2 R Z a b c : ℝ}

/-- the size of everything at the exit, given that the exit is on the sphere up to rounding -/
theorem tight_core (hu : 0 < u) (hu1 : u ≤ 1 / 1024) (X0 : 0 ≤ X) (R0 : 0 < R2) (hO : O ≤ R2 * (1 - 80 * u)) (hX : X ≤ 2 * O + 2 * P)
    (hP : |P - R2| ≤ 64 * u * (O + X + R2)) :
    X ≤ 4 * R2 * (1 + 180 * u) ∧ O + X + R2 ≤ 6.86 * R2 := by
  have uR := mul_pos hu R0
  have hO' : O ≤ R2 := by nlinarith
  have h1 := (abs_le.1 hP).2
  have h2 : 64 * u * (O + X + R2) ≤ 64 * u * (2 * R2 + X) := mul_le_mul_of_nonneg_left (by linarith) (by positivity)
  have h3 : u * (2 * R2 + X) ≤ (1 / 1024) * (2 * R2 + X) := mul_le_mul_of_nonneg_right hu1 (by positivity)
  have h4 : X ≤ 4.86 * R2 := by linarith
  have h5 : O + X + R2 ≤ 6.86 * R2 := by linarith
  have h6 : 64 * u * (O + X + R2) ≤ 64 * u * (6.86 * R2) := mul_le_mul_of_nonneg_left h5 (by positivity)
  exact ⟨by linarith, h5⟩

/-- a parabola that is negative at 0 has a positive root -/
theorem pos_root (ha : 0 < a) (hc : c < 0) : ∃ r, 0 < r ∧ a * r ^ 2 + b * r + c = 0 := by
  have D0 : b ^ 2 < b ^ 2 - 4 * a * c := by nlinarith [mul_pos ha (neg_pos.2 hc)]
  have hs := Real.sq_sqrt ((sq_nonneg b).trans D0.le)
  have hb : |b| < Real.sqrt (b ^ 2 - 4 * a * c) := by
    rw [← Real.sqrt_sq_eq_abs]
    exact Real.sqrt_lt_sqrt (sq_nonneg b) D0
  refine ⟨(-b + Real.sqrt (b ^ 2 - 4 * a * c)) / (2 * a), ?_, ?_⟩
  · apply div_pos _ (by positivity)
    linarith [le_abs_self b]
  · generalize Real.sqrt (b ^ 2 - 4 * a * c) = S at *
    field_simp
    linear_combination hs
end core

variable {mw ew : Nat} [FltImpl mw ew] [LawfulFlt mw ew]

/-- a float above minus half the smallest positive float is not negative -/
theorem nonneg_of_gt_eta {x : Flt mw ew} (h : -etaRnd mw ew < x.toReal) : 0 ≤ x.toReal := by
  unfold Flt.toReal at h ⊢
  have h0 : (0 : ℝ) < 2 ^ fK mw ew := by positivity
  have e : etaRnd mw ew = (1 / 2) / 2 ^ fK mw ew := by unfold etaRnd; rw [pow_succ]; field_simp
  rw [e, ← neg_div, div_lt_div_iff_of_pos_right h0] at h
  apply div_nonneg _ h0.le
  by_cases hs : x.sgn = true
  · rw [if_pos hs] at h ⊢
    have h1 : (magN mw x.idx : ℝ) < 1 := by linarith
    have h2 : magN mw x.idx = 0 := by
      have : magN mw x.idx < 1 := by exact_mod_cast h1
      omega
    rw [h2]; norm_num
  · rw [if_neg hs]
    positivity

variable [Libm mw ew]

/-- C116: on floats, a ray that starts inside the sphere (by a margin of `80u` of the squared radius) and is longer than a
diameter (by a margin of `180u`) hits the sphere, provided `z_min` and `z_max` extend beyond the radius by at least `275u` of it,
`phi_max` is not below any value of `atan2`, and nothing overflows or underflows. -/
theorem C116_hit (hm : 9 ≤ mw) (hw : mw + 3 ≤ 2 ^ (ew - 1)) (s : Sphere (Flt mw ew)) (ray : Ray (Flt mw ew)) (hs : SphereRegular s ray)
    (hr : 0 ≤ s.radius.toReal)
    (hlo : s.zMin.isNaN = false) (hl : s.zMin.toReal ≤ -(s.radius.toReal * (1 + 275 * uRnd mw)))
    (hhi : s.zMax.isNaN = false) (hh : s.radius.toReal * (1 + 275 * uRnd mw) ≤ s.zMax.toReal)
    (hφ : ∀ y x : Flt mw ew, y.isFin = true → x.isFin = true → Scalar.gt (Libm.atan2 y x) s.phiMax = false)
    (ho : ∑ i, (ray.origin.vec i).toReal ^ 2 ≤ s.radius.toReal ^ 2 * (1 - 80 * uRnd mw))
    (htn : ray.tmax.isNaN = false) (ht0 : 0 ≤ ray.tmax.toReal)
    (ht : 4 * s.radius.toReal ^ 2 * (1 + 180 * uRnd mw) ≤ ray.tmax.toReal ^ 2 * ∑ i, (ray.direction.vec i).toReal ^ 2)
    (hf : ∀ t0 t1, solveQuadratic ray.direction.squareNorm ((GVec.conv .vector ray.origin).dot ray.direction * GFloat.fromI64 2)
      ((GVec.conv .vector ray.origin).squareNorm - Scalar.square s.radius) = some (t0, t1) → t0.isFin = true ∧ t1.isFin = true ∧
        etaRnd mw ew ≤ uRnd mw * |t1.toReal| ∧ ∀ i, ((ray.eval t1).vec i).isFin = true) :
    (s.intersect ray).isSome = true ∧ s.doIntersect ray = true := by
  have hu := uRnd_pos (mw := mw)
  have hη := etaRnd_pos (mw := mw) (ew := ew)
  have hu1 := uRnd_small hm
  have R0 : 0 < s.radius.toReal ^ 2 := by
    have h1 := hs.org
    have h2 := sq_nonneg s.radius.toReal
    by_contra hc
    have h3 : s.radius.toReal ^ 2 = 0 := le_antisymm (not_lt.1 hc) h2
    rw [h3, zero_mul] at ho
    rw [h3, add_zero] at h1
    have := mul_nonpos_of_nonneg_of_nonpos hu.le ho
    linarith
  have uR := mul_pos hu R0
  have O0 : 0 ≤ ∑ i, (ray.origin.vec i).toReal ^ 2 := Finset.sum_nonneg fun i _ => sq_nonneg _
  have hO' : ∑ i, (ray.origin.vec i).toReal ^ 2 ≤ s.radius.toReal ^ 2 := by linarith
  suffices h : (s.intersectRay ray).isSome = true by
    obtain ⟨r, hr⟩ := Option.isSome_iff_exists.1 h
    unfold Sphere.intersect Sphere.doIntersect
    rw [hr]
    exact ⟨rfl, rfl⟩
  unfold Sphere.intersectRay
  dsimp only
  split
  · -- the solver finds roots
    rename_i hq
    exfalso
    have h1 := C102_miss_partial hm s ray hs hq 0
    rw [defect_eq] at h1
    have h2 := mul_le_mul_of_nonneg_left hO' hu.le
    nlinarith
  rename_i t0 t1 hq
  obtain ⟨f0, f1, hn, hp⟩ := hf t0 t1 hq
  split
  swap
  · rfl
  -- the exit is ahead
  have A0 : 0 < ray.direction.squareNorm.toReal ∧ 0 ≤ t1.toReal := by
    obtain ⟨h01, b', c', r0, r1, kb, kc, kr, k0, k1⟩ := C101_backward_partial hm hw _ _ _ t0 t1 hq f0 f1 hs.hb hs.hc
    obtain ⟨ca, -, -, cc⟩ := sphere_coeff hm s ray hs kb kc
    have D0 : 0 < ∑ i, (ray.direction.vec i).toReal ^ 2 := by
      by_contra hc
      have := hs.dir
      nlinarith
    have a0 : 0 < ray.direction.squareNorm.toReal := by
      have := (_root_.abs_le.1 ca).1
      have : uRnd mw * ∑ i, (ray.direction.vec i).toReal ^ 2 ≤ (1 / 1024) * ∑ i, (ray.direction.vec i).toReal ^ 2 :=
        mul_le_mul_of_nonneg_right hu1 D0.le
      linarith
    have c0 : c' < 0 := by
      have h1 := (_root_.abs_le.1 cc).2
      have h2 := mul_le_mul_of_nonneg_left hO' hu.le
      linarith
    refine ⟨a0, nonneg_of_gt_eta ?_⟩
    obtain ⟨r, r0', hr'⟩ := pos_root (b := b') a0 c0
    have ur : uRnd mw * r ≤ (1 / 1024) * r := mul_le_mul_of_nonneg_right hu1 r0'.le
    rcases (kr r).1 hr' with rfl | rfl
    · rw [abs_of_pos r0'] at k0
      have := (_root_.abs_le.1 k0).1
      linarith
    · rw [abs_of_pos r0'] at k1
      have := (_root_.abs_le.1 k1).1
      linarith
  obtain ⟨-, t10⟩ := A0
  obtain ⟨q1, q2⟩ := sphere_root hm hw s ray hs hq f0 f1 (Or.inr rfl) hn
  have q2 := q2 hp
  have X0 : 0 ≤ ∑ i, ((ray.direction.vec i).toReal * t1.toReal) ^ 2 := Finset.sum_nonneg fun i _ => sq_nonneg _
  have hX : ∑ i, ((ray.direction.vec i).toReal * t1.toReal) ^ 2 ≤ 2 * ∑ i, (ray.origin.vec i).toReal ^ 2 +
      2 * ∑ i, ((ray.origin.vec i).toReal + (ray.direction.vec i).toReal * t1.toReal) ^ 2 := by
    rw [Finset.mul_sum, Finset.mul_sum, ← Finset.sum_add_distrib]
    refine Finset.sum_le_sum fun i _ => ?_
    nlinarith [sq_nonneg (2 * (ray.origin.vec i).toReal + (ray.direction.vec i).toReal * t1.toReal)]
  obtain ⟨g1, g2⟩ := tight_core hu hu1 X0 R0 ho hX q1
  -- the exit is within `tmax`
  have D0 : 0 ≤ ∑ i, (ray.direction.vec i).toReal ^ 2 := Finset.sum_nonneg fun i _ => sq_nonneg _
  have c1 : Scalar.inRange t1 Scalar.zero ray.tmax = true := by
    unfold Scalar.inRange
    rw [Bool.and_eq_true, sge_iff, sle_iff]
    have e : ∑ i, ((ray.direction.vec i).toReal * t1.toReal) ^ 2 = t1.toReal ^ 2 * ∑ i, (ray.direction.vec i).toReal ^ 2 := by
      rw [Finset.mul_sum]; exact Finset.sum_congr rfl fun i _ => by ring
    rw [e] at g1
    have D1 : 0 < ∑ i, (ray.direction.vec i).toReal ^ 2 := by
      by_contra hc
      have := hs.dir
      nlinarith
    have h1 : t1.toReal ^ 2 ≤ ray.tmax.toReal ^ 2 := le_of_mul_le_mul_right (g1.trans ht) D1
    have h2 : t1.toReal ≤ ray.tmax.toReal := le_of_sq_le_sq h1 ht0
    exact ⟨⟨notNaN_of_isFin f1, rfl, (key_zero false).le.trans (toReal_nonneg_iff.1 t10)⟩, notNaN_of_isFin f1, htn, toReal_le_iff.1 h2⟩
  have c2 : Scalar.inRange (ray.eval t1).z s.zMin s.zMax = true := by
    unfold Scalar.inRange
    rw [Bool.and_eq_true, sge_iff, sle_iff, ← toReal_le_iff, ← toReal_le_iff]
    have z1 : ((ray.eval t1).z).toReal ^ 2 ≤ ∑ i, ((ray.eval t1).vec i).toReal ^ 2 :=
      Finset.single_le_sum (f := fun i => ((ray.eval t1).vec i).toReal ^ 2) (fun i _ => sq_nonneg _) (Finset.mem_univ 2)
    have z2 : |((ray.eval t1).z).toReal| ≤ s.radius.toReal * (1 + 275 * uRnd mw) := by
      apply abs_le_of_sq_le_sq _ (by positivity)
      have h1 := (_root_.abs_le.1 q2).2
      have h2 : 80 * uRnd mw * sphereScale s ray t1.toReal ≤ 80 * uRnd mw * (6.86 * s.radius.toReal ^ 2) :=
        mul_le_mul_of_nonneg_left g2 (by positivity)
      nlinarith [mul_pos uR hu]
    obtain ⟨z3, z4⟩ := _root_.abs_le.1 z2
    have zf := notNaN_of_isFin (hp 2)
    exact ⟨⟨zf, hlo, by linarith⟩, ⟨zf, hhi, by linarith⟩⟩
  unfold Sphere.getIntersection
  rw [c1]
  dsimp only
  rw [c2]
  have c3 := hφ (ray.eval t1).y (ray.eval t1).x (hp 1) (hp 0)
  change Scalar.gt (GTrig.atan2 (ray.eval t1).y (ray.eval t1).x) s.phiMax = false at c3
  rw [c3]
  rfl

/-- C116 for the spheres of `f32` that a user builds: `Sphere::new(radius, -z, z, π)` with `z` at least `275u` of the radius beyond
the radius, on a platform whose `atan2` is accurate. -/
theorem C116_closed [Libm 23 8] (ha : Atan2Lawful) {radius z : F32} {s : Sphere F32} (hsn : Sphere.new radius (-z) z GFloat.pi = some s)
    (ray : Ray F32) (hs : SphereRegular s ray) (hr : 0 ≤ radius.toReal)
    (hz : z.isNaN = false) (hh : radius.toReal * (1 + 275 * uRnd 23) ≤ z.toReal)
    (ho : ∑ i, (ray.origin.vec i).toReal ^ 2 ≤ radius.toReal ^ 2 * (1 - 80 * uRnd 23))
    (htn : ray.tmax.isNaN = false) (ht0 : 0 ≤ ray.tmax.toReal)
    (ht : 4 * radius.toReal ^ 2 * (1 + 180 * uRnd 23) ≤ ray.tmax.toReal ^ 2 * ∑ i, (ray.direction.vec i).toReal ^ 2)
    (hf : ∀ t0 t1, solveQuadratic ray.direction.squareNorm ((GVec.conv .vector ray.origin).dot ray.direction * GFloat.fromI64 2)
      ((GVec.conv .vector ray.origin).squareNorm - Scalar.square radius) = some (t0, t1) → t0.isFin = true ∧ t1.isFin = true ∧
        etaRnd 23 8 ≤ uRnd 23 * |t1.toReal| ∧ ∀ i, ((ray.eval t1).vec i).isFin = true) :
    (s.intersect ray).isSome = true ∧ s.doIntersect ray = true := by
  have e : s.radius = radius ∧ s.zMin = -z ∧ s.zMax = z ∧ s.phiMax = GFloat.pi := by
    unfold Sphere.new at hsn
    split at hsn
    · cases hsn
      exact ⟨rfl, rfl, rfl, rfl⟩
    · cases hsn
  obtain ⟨e1, e2, e3, e4⟩ := e
  refine C116_hit (by norm_num) (by norm_num) s ray hs ?_ ?_ ?_ ?_ ?_ ?_ ?_ htn ht0 ?_ ?_
  · rw [e1]; exact hr
  · rw [e2]; exact (isNaN_negop z).trans hz
  · rw [e1, e2, toReal_negop]; linarith
  · rw [e3]; exact hz
  · rw [e1, e3]; exact hh
  · intro y x hy hx
    rw [e4, Bool.eq_false_iff]
    intro hc
    have h1 := toReal_lt_iff.2 (sgt_iff.1 hc).2.2
    have h2 := (_root_.abs_le.1 (ha.range y x hy hx)).2
    linarith
  · rw [e1]; exact ho
  · rw [e1]; exact ht
  · rw [e1]; exact hf

/-- Non-vacuity: the sphere of radius 3 with z from −4 to 4 and the ray from (0, 0, −1) up. -/
example [Libm 23 8] : let ray : Ray F32 := ⟨new3 (F32.lit 0) (F32.lit 0) (-F32.lit 1), new3 (F32.lit 0) (F32.lit 0) (F32.lit 1), F32.lit 10⟩
    ∃ s : Sphere F32, Sphere.new (F32.lit 3) (-F32.lit 4) (F32.lit 4) GFloat.pi = some s ∧ SphereRegular s ray ∧
    0 ≤ (F32.lit 3).toReal ∧ (F32.lit 4).isNaN = false ∧ (F32.lit 3).toReal * (1 + 275 * uRnd 23) ≤ (F32.lit 4).toReal ∧
    ∑ i, (ray.origin.vec i).toReal ^ 2 ≤ (F32.lit 3).toReal ^ 2 * (1 - 80 * uRnd 23) ∧
    ray.tmax.isNaN = false ∧ 0 ≤ ray.tmax.toReal ∧
    4 * (F32.lit 3).toReal ^ 2 * (1 + 180 * uRnd 23) ≤ ray.tmax.toReal ^ 2 * ∑ i, (ray.direction.vec i).toReal ^ 2 ∧
    ∀ t0 t1, solveQuadratic ray.direction.squareNorm ((GVec.conv .vector ray.origin).dot ray.direction * GFloat.fromI64 2)
      ((GVec.conv .vector ray.origin).squareNorm - Scalar.square (F32.lit 3)) = some (t0, t1) → t0.isFin = true ∧ t1.isFin = true ∧
        etaRnd 23 8 ≤ uRnd 23 * |t1.toReal| ∧ ∀ i, ((ray.eval t1).vec i).isFin = true := by
  intro ray
  have h0 : (F32.lit 0).toReal = 0 := by rw [toReal_lit (by decide)]; norm_num
  have h4 : (F32.lit 4).toReal = 4 := by rw [toReal_lit (by decide)]; norm_num
  have h10 : (F32.lit 10).toReal = 10 := by rw [toReal_lit (by decide)]; norm_num
  obtain ⟨h1, h2, h3⟩ := toReal_lit_small
  have hu := uRnd_pos (mw := 23)
  have hu1 : uRnd 23 ≤ 1 / 1024 := uRnd_small (by norm_num)
  have hu2 : uRnd 23 ≤ 1 / 100000 := by unfold uRnd; norm_num
  have hη : 3 * etaRnd 23 8 ≤ uRnd 23 * 1 := by unfold etaRnd uRnd fK; norm_num
  have hη0 := etaRnd_pos (mw := 23) (ew := 8)
  have eo : ∑ i, (ray.origin.vec i).toReal ^ 2 = 1 := by
    rw [Fin.sum_univ_three]
    change (F32.lit 0).toReal ^ 2 + (F32.lit 0).toReal ^ 2 + (-F32.lit 1).toReal ^ 2 = 1
    rw [h0, toReal_negop, h1]; norm_num
  have ed : ∑ i, (ray.direction.vec i).toReal ^ 2 = 1 := by
    rw [Fin.sum_univ_three]
    change (F32.lit 0).toReal ^ 2 + (F32.lit 0).toReal ^ 2 + (F32.lit 1).toReal ^ 2 = 1
    rw [h0, h1]; norm_num
  have hlt : Scalar.lt (-F32.lit 4) (F32.lit 4) = true := by decide +kernel
  have key : ∀ s : Sphere F32, s.radius = F32.lit 3 → SphereRegular s ray := by
    intro s e
    refine ⟨?_, ?_, ?_, ?_, ?_⟩
    · rw [ed]; exact hη
    · rw [eo, e, h3]; linarith
    · rw [e]; decide +kernel
    · have e : (GVec.conv .vector ray.origin).dot ray.direction * GFloat.fromI64 2 = -F32.lit 2 := by decide +kernel
      rw [e, toReal_negop, h2]
      exact normal_f32 (by norm_num)
    · rw [e]
      have e : ray.direction.squareNorm = F32.lit 1 := by decide +kernel
      have e2 : (GVec.conv .vector ray.origin).squareNorm - Scalar.square (F32.lit 3) = -F32.lit 8 := by decide +kernel
      rw [e, e2, toReal_negop, toReal_lit (by decide), toReal_lit (by decide)]
      exact normal_f32 (by norm_num)
  refine ⟨_, if_pos hlt, key _ rfl, ?_, by decide +kernel, ?_, ?_, by decide +kernel, ?_, ?_, ?_⟩
  · rw [h3]; norm_num
  · rw [h3, h4]; linarith
  · rw [h3, eo]; linarith
  · change 0 ≤ (F32.lit 10).toReal
    rw [h10]; norm_num
  · change _ ≤ (F32.lit 10).toReal ^ 2 * _
    rw [h10, h3, ed]; linarith
  · have e : solveQuadratic ray.direction.squareNorm ((GVec.conv .vector ray.origin).dot ray.direction * GFloat.fromI64 2)
      ((GVec.conv .vector ray.origin).squareNorm - Scalar.square (F32.lit 3)) = some (-F32.lit 2, F32.lit 4) := by decide +kernel
    intro t0 t1 h
    rw [e] at h
    cases h
    refine ⟨by decide +kernel, by decide +kernel, ?_, by decide +kernel⟩
    rw [h4]; norm_num; linarith
end Scarlet
