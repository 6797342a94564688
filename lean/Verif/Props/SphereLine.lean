import Verif.Props.SphereTight

/-! C120: on floats, the two roots found for a sphere split the line of the ray into outside, inside and outside, up to rounding;
so the reported hit is the first crossing of the surface, and a missed sphere is not crossed. -/

set_option linter.unusedSectionVars false

namespace Scarlet
open Flt GVec

section core
variable {u η A O R Y a b' c' t r r0 r1 t0 t1 : ℝ}

theorem le_thousandth {x : ℝ} (hu1 : u ≤ 1 / 1024) (hx : 0 ≤ x) : u * x ≤ x / 1024 := by
  have := mul_le_mul_of_nonneg_right hu1 hx
  linarith

/-- the mixed terms -/
theorem mixed_core (hu : 0 < u) (hη : 0 < η) (hAη : η * A ≤ u) (O0 : 0 ≤ O) (A0 : 0 < A) (hYAO : Y ^ 2 ≤ A * O) :
    η * (A * η) ≤ u * η ∧ 2 * (η * (A * |t|)) ≤ u * (A * t ^ 2) + η ∧ 2 * (η * Y) ≤ u * O + η := by
  refine ⟨?_, ?_, ?_⟩
  · have := mul_le_mul_of_nonneg_left hAη hη.le
    linarith
  · apply le_of_mul_le_mul_left _ hu
    have h1 := mul_nonneg A0.le (sq_nonneg (u * |t| - η))
    have h2 : A * (u * |t| - η) ^ 2 = u * (u * (A * t ^ 2)) - u * (2 * (η * (A * |t|))) + η * (η * A) := by rw [← sq_abs t]; ring
    rw [h2] at h1
    have := mul_le_mul_of_nonneg_left hAη hη.le
    linarith
  · apply le_of_sq_le _ (by positivity)
    have h1 : η ^ 2 * Y ^ 2 ≤ η ^ 2 * (A * O) := mul_le_mul_of_nonneg_left hYAO (by positivity)
    have h2 : η * O * (η * A) ≤ η * O * u := mul_le_mul_of_nonneg_left hAη (by positivity)
    have h3 := sq_nonneg (u * O - η)
    linarith

/-- the polynomial near a root, without a condition on the size of `t` -/
theorem near_root_core (hu : 0 < u) (hu1 : u ≤ 1 / 1024) (hη : 0 < η) (hηu : η ≤ u) (hAη : η * A ≤ u) (hO : 3 * η ≤ u * (O + R))
    (O0 : 0 ≤ O) (R0 : 0 ≤ R) (A0 : 0 < A) (Y0 : 0 ≤ Y) (hYAO : Y ^ 2 ≤ A * O)
    (ha : |a - A| ≤ 4.1 * u * A) (hb : |b'| ≤ 2.05 * Y + 9 * η)
    (f1 : 2 * (Y * |t|) ≤ O + A * t ^ 2) (f2 : 6 * (η * |t|) ≤ u * (O + R) + u * (A * t ^ 2))
    (hroot : a * r ^ 2 + b' * r + c' = 0) (ht : |t - r| ≤ 11 * u * |r| + η) :
    |a * t ^ 2 + b' * t + c'| ≤ 42 * u * (O + A * t ^ 2 + R) := by
  have t0 := abs_nonneg t
  have g0 : |r| - |t| ≤ |t - r| := by rw [abs_sub_comm]; exact abs_sub_abs_le_abs_sub r t
  have ur := le_thousandth hu1 (abs_nonneg r)
  have g1 : |r| ≤ 1.02 * |t| + 1.02 * η := by linarith
  have uη := le_thousandth hu1 hη.le
  have g2 : |t - r| ≤ 11.3 * (u * |t|) + 1.02 * η := by
    have := mul_le_mul_of_nonneg_left g1 hu.le
    have := mul_nonneg hu.le t0
    linarith
  have g3 : |a| ≤ 1.01 * A := by
    have h1 := abs_sub_abs_le_abs_sub a A
    rw [abs_of_pos A0] at h1
    have := le_thousandth hu1 A0.le
    linarith
  have At := mul_nonneg A0.le t0
  have Aη := mul_pos A0 hη
  have g4 : |a * (t + r) + b'| ≤ 2.05 * (A * |t|) + 1.04 * (A * η) + (2.05 * Y + 9 * η) := by
    have h1 := abs_add_le (a * (t + r)) b'
    rw [abs_mul] at h1
    have h2 := abs_add_le t r
    have h3 : |a| * |t + r| ≤ (1.01 * A) * (2.02 * |t| + 1.02 * η) := mul_le_mul g3 (by linarith) (abs_nonneg _) (by positivity)
    linarith
  have e : a * t ^ 2 + b' * t + c' = (t - r) * (a * (t + r) + b') := by linear_combination hroot
  rw [e, abs_mul]
  have g5 : |t - r| * |a * (t + r) + b'| ≤ (11.3 * (u * |t|) + 1.02 * η) * (2.05 * (A * |t|) + 1.04 * (A * η) + (2.05 * Y + 9 * η)) :=
    mul_le_mul g2 g4 (abs_nonneg _) (by positivity)
  refine g5.trans ?_
  obtain ⟨k1, k2, k3⟩ := mixed_core (t := t) hu hη hAη O0 A0 hYAO
  have k4 : η * η ≤ u * η := mul_le_mul_of_nonneg_right hηu hη.le
  have k5 := le_thousandth hu1 (mul_nonneg hη.le At)
  have k6 := le_thousandth hu1 (mul_nonneg hη.le t0)
  have k7 : u * (2 * (Y * |t|)) ≤ u * (O + A * t ^ 2) := mul_le_mul_of_nonneg_left f1 hu.le
  have e2 : (11.3 * (u * |t|) + 1.02 * η) * (2.05 * (A * |t|) + 1.04 * (A * η) + (2.05 * Y + 9 * η)) =
      23.165 * (u * (A * t ^ 2)) + 11.752 * (u * (η * (A * |t|))) + 23.165 * (u * (Y * |t|)) + 101.7 * (u * (η * |t|)) +
      2.091 * (η * (A * |t|)) + 1.0608 * (η * (A * η)) + 2.091 * (η * Y) + 9.18 * (η * η) := by
    rw [← sq_abs t]; ring
  rw [e2]
  have uO : 0 ≤ u * O := mul_nonneg hu.le O0
  have uR : 0 ≤ u * R := mul_nonneg hu.le R0
  have uA : 0 ≤ u * (A * t ^ 2) := mul_nonneg hu.le (mul_nonneg A0.le (sq_nonneg t))
  linarith

/-- a quadratic with known roots is the product of its linear factors -/
theorem factor_core (ha : a ≠ 0) (kr : ∀ x, a * x ^ 2 + b' * x + c' = 0 ↔ x = r0 ∨ x = r1) (x : ℝ) :
    a * x ^ 2 + b' * x + c' = a * ((x - r0) * (x - r1)) := by
  have h0 := (kr r0).2 (Or.inl rfl)
  have h1 := (kr r1).2 (Or.inr rfl)
  -- the other root
  have hs : a * (-b' / a - r0) ^ 2 + b' * (-b' / a - r0) + c' = 0 := by
    have e : a * (-b' / a) = -b' := by field_simp
    linear_combination h0 + (-b' / a - 2 * r0) * e
  have hv : -b' / a - r0 = r1 := by
    rcases (kr _).1 hs with h | h
    · have hb : b' = -(2 * a * r0) := by
        have e : a * (-b' / a) = -b' := by field_simp
        rw [show -b' / a = 2 * r0 by linarith] at e
        linarith
      have : a * (r1 - r0) ^ 2 = 0 := by rw [hb] at h0 h1; linear_combination h1 - h0 - 0
      have : r1 - r0 = 0 := by
        rcases mul_eq_zero.1 this with h | h
        · exact absurd h ha
        · exact pow_eq_zero_iff (two_ne_zero) |>.1 h
      linarith
    · exact h
  have hb : b' = -(a * (r0 + r1)) := by
    have e : a * (-b' / a) = -b' := by field_simp
    rw [show -b' / a = r0 + r1 by linarith] at e
    linarith
  have hc : c' = a * (r0 * r1) := by rw [hb] at h0; linarith
  rw [hb, hc]; ring

/-- the sign of a quadratic between and beyond approximations of its roots -/
theorem classify_core {M : ℝ} {x : ℝ} (ha : 0 < a) (kr : ∀ x, a * x ^ 2 + b' * x + c' = 0 ↔ x = r0 ∨ x = r1) (h01 : t0 ≤ t1)
    (n0 : |x - r0| ≤ |t0 - r0| → |a * x ^ 2 + b' * x + c'| ≤ M) (n1 : |x - r1| ≤ |t1 - r1| → |a * x ^ 2 + b' * x + c'| ≤ M) (hM : 0 ≤ M) :
    (x ≤ t0 → -M ≤ a * x ^ 2 + b' * x + c') ∧ (t0 ≤ x → x ≤ t1 → a * x ^ 2 + b' * x + c' ≤ M) ∧
    (t1 ≤ x → -M ≤ a * x ^ 2 + b' * x + c') := by
  have hf := factor_core ha.ne' kr x
  -- between the approximation and the root
  have b0 : (r0 ≤ x ∧ x ≤ t0) ∨ (t0 ≤ x ∧ x ≤ r0) → |a * x ^ 2 + b' * x + c'| ≤ M := by
    intro h
    apply n0
    rcases h with ⟨h1, h2⟩ | ⟨h1, h2⟩
    · rw [abs_of_nonneg (by linarith), abs_of_nonneg (by linarith)]; linarith
    · rw [abs_of_nonpos (by linarith), abs_of_nonpos (by linarith)]; linarith
  have b1 : (r1 ≤ x ∧ x ≤ t1) ∨ (t1 ≤ x ∧ x ≤ r1) → |a * x ^ 2 + b' * x + c'| ≤ M := by
    intro h
    apply n1
    rcases h with ⟨h1, h2⟩ | ⟨h1, h2⟩
    · rw [abs_of_nonneg (by linarith), abs_of_nonneg (by linarith)]; linarith
    · rw [abs_of_nonpos (by linarith), abs_of_nonpos (by linarith)]; linarith
  refine ⟨fun h => ?_, fun h h' => ?_, fun h => ?_⟩
  · by_cases c0 : r0 ≤ x
    · exact (_root_.abs_le.1 (b0 (Or.inl ⟨c0, h⟩))).1
    by_cases c1 : r1 ≤ x
    · exact (_root_.abs_le.1 (b1 (Or.inl ⟨c1, h.trans h01⟩))).1
    rw [hf]
    have := mul_nonneg ha.le (mul_nonneg_of_nonpos_of_nonpos (sub_nonpos.2 (not_le.1 c0).le) (sub_nonpos.2 (not_le.1 c1).le))
    linarith
  · by_cases c0 : x ≤ r0
    · exact (_root_.abs_le.1 (b0 (Or.inr ⟨h, c0⟩))).2
    by_cases c1 : r1 ≤ x
    · exact (_root_.abs_le.1 (b1 (Or.inl ⟨c1, h'⟩))).2
    rw [hf]
    have := mul_nonpos_of_nonneg_of_nonpos ha.le
      (mul_nonpos_of_nonneg_of_nonpos (sub_nonneg.2 (not_le.1 c0).le) (sub_nonpos.2 (not_le.1 c1).le))
    linarith
  · by_cases c0 : x ≤ r0
    · exact (_root_.abs_le.1 (b0 (Or.inr ⟨h01.trans h, c0⟩))).1
    by_cases c1 : x ≤ r1
    · exact (_root_.abs_le.1 (b1 (Or.inr ⟨h, c1⟩))).1
    rw [hf]
    have := mul_nonneg ha.le (mul_nonneg (sub_nonneg.2 (not_le.1 c0).le) (sub_nonneg.2 (not_le.1 c1).le))
    linarith

/-- everything together -/
theorem line_core {X : ℝ} (hu : 0 < u) (hu1 : u ≤ 1 / 1024) (hη : 0 < η) (hηu : η ≤ u) (hAη : η * A ≤ u) (hA : 3 * η ≤ u * A)
    (hO : 3 * η ≤ u * (O + R)) (O0 : 0 ≤ O) (R0 : 0 ≤ R) (A0 : 0 < A) (Y0 : 0 ≤ Y) (hYAO : Y ^ 2 ≤ A * O)
    (ha : |a - A| ≤ 4.1 * u * A) (hb : |b' - 2 * X| ≤ 10.2 * u * Y + 7.2 * η) (hb' : |b'| ≤ 2.05 * Y + 9 * η)
    (hc : |c' - (O - R)| ≤ 9.4 * u * (O + R)) (kr : ∀ x, a * x ^ 2 + b' * x + c' = 0 ↔ x = r0 ∨ x = r1) (h01 : t0 ≤ t1)
    (k0 : |t0 - r0| ≤ 11 * u * |r0| + η) (k1 : |t1 - r1| ≤ 11 * u * |r1| + η) :
    (t ≤ t0 → -(58 * u * (O + A * t ^ 2 + R)) ≤ A * t ^ 2 + 2 * X * t + O - R) ∧
    (t0 ≤ t → t ≤ t1 → A * t ^ 2 + 2 * X * t + O - R ≤ 58 * u * (O + A * t ^ 2 + R)) ∧
    (t1 ≤ t → -(58 * u * (O + A * t ^ 2 + R)) ≤ A * t ^ 2 + 2 * X * t + O - R) := by
  obtain ⟨q1, q2, q3⟩ := poly_core (t := t) hu hη hA hO O0 R0 hYAO Y0 ha hb hc
  have a0 : 0 < a := by
    have := (_root_.abs_le.1 ha).1
    have := le_thousandth hu1 A0.le
    linarith
  have hcl := classify_core (x := t) a0 kr h01
    (fun h => near_root_core hu hu1 hη hηu hAη hO O0 R0 A0 Y0 hYAO ha hb' q1 q2 ((kr r0).2 (Or.inl rfl)) (h.trans k0))
    (fun h => near_root_core hu hu1 hη hηu hAη hO O0 R0 A0 Y0 hYAO ha hb' q1 q2 ((kr r1).2 (Or.inr rfl)) (h.trans k1))
    (by positivity)
  have q3 := _root_.abs_le.1 q3
  refine ⟨fun h => ?_, fun h h' => ?_, fun h => ?_⟩
  · linarith [hcl.1 h]
  · linarith [hcl.2.1 h h']
  · linarith [hcl.2.2 h]
end core

variable {mw ew : Nat} [FltImpl mw ew] [LawfulFlt mw ew] [Libm mw ew]

/-- Specification: at the parameter `t`, the exact ray is not inside the sphere by more than rounding. -/
def OutsideAt (s : Sphere (Flt mw ew)) (ray : Ray (Flt mw ew)) (t : ℝ) : Prop :=
  -(58 * uRnd mw * sphereScale s ray t) ≤ sphereDefect s ray t

/-- Specification: at the parameter `t`, the exact ray is not outside the sphere by more than rounding. -/
def InsideAt (s : Sphere (Flt mw ew)) (ray : Ray (Flt mw ew)) (t : ℝ) : Prop :=
  sphereDefect s ray t ≤ 58 * uRnd mw * sphereScale s ray t

/-- C120: the two roots split the whole line of the ray into outside, inside and outside. -/
theorem C120_line (hm : 9 ≤ mw) (hw : mw + 3 ≤ 2 ^ (ew - 1)) (s : Sphere (Flt mw ew)) (ray : Ray (Flt mw ew)) (hs : SphereRegular s ray)
    (hd : etaRnd mw ew * ∑ i, (ray.direction.vec i).toReal ^ 2 ≤ uRnd mw) {t0 t1 : Flt mw ew}
    (hq : solveQuadratic ray.direction.squareNorm ((GVec.conv .vector ray.origin).dot ray.direction * GFloat.fromI64 2)
      ((GVec.conv .vector ray.origin).squareNorm - Scalar.square s.radius) = some (t0, t1)) (f0 : t0.isFin = true) (f1 : t1.isFin = true)
    (t : ℝ) :
    (t ≤ t0.toReal → OutsideAt s ray t) ∧ (t0.toReal ≤ t → t ≤ t1.toReal → InsideAt s ray t) ∧ (t1.toReal ≤ t → OutsideAt s ray t) := by
  have hu := uRnd_pos (mw := mw)
  have hη := etaRnd_pos (mw := mw) (ew := ew)
  have hu1 := uRnd_small hm
  have hηu : etaRnd mw ew ≤ uRnd mw := (eta_le_sq hw).trans (by nlinarith)
  have A0 : 0 < ∑ i, (ray.direction.vec i).toReal ^ 2 := by
    by_contra hc
    have := hs.dir
    nlinarith
  have O0 : 0 ≤ ∑ i, (ray.origin.vec i).toReal ^ 2 := Finset.sum_nonneg fun i _ => sq_nonneg _
  have R0 := sq_nonneg s.radius.toReal
  have Y0 : 0 ≤ ∑ i, |(ray.origin.vec i).toReal * (ray.direction.vec i).toReal| := Finset.sum_nonneg fun i _ => abs_nonneg _
  have hC := cauchy_abs (fun i => (ray.origin.vec i).toReal) (fun i => (ray.direction.vec i).toReal)
  obtain ⟨h01, b', c', r0, r1, kb, kc, kr, k0, k1⟩ := C101_backward_partial hm hw _ _ _ t0 t1 hq f0 f1 hs.hb hs.hc
  obtain ⟨ca, cb, cb', cc⟩ := sphere_coeff hm s ray hs kb kc
  unfold OutsideAt InsideAt
  rw [defect_eq, scale_eq]
  exact line_core hu hu1 hη hηu hd hs.dir hs.org O0 R0 A0 Y0 hC ca cb cb' cc kr h01 k0 k1

/-- The hypothesis on the roots: they do not overflow. -/
def RootsFinite (s : Sphere (Flt mw ew)) (ray : Ray (Flt mw ew)) : Prop :=
  ∀ t0 t1, solveQuadratic ray.direction.squareNorm ((GVec.conv .vector ray.origin).dot ray.direction * GFloat.fromI64 2)
    ((GVec.conv .vector ray.origin).squareNorm - Scalar.square s.radius) = some (t0, t1) → t0.isFin = true ∧ t1.isFin = true

/-- C120: a reported hit is the first crossing.  Either the ray is outside the sphere up to the hit, or it is outside up to an entry
that was rejected (behind the origin, beyond `tmax`, or clipped away by `z_min`, `z_max` or `phi_max`) and inside from there to the hit. -/
theorem C120_first (hm : 9 ≤ mw) (hw : mw + 3 ≤ 2 ^ (ew - 1)) (s : Sphere (Flt mw ew)) (ray : Ray (Flt mw ew)) (hs : SphereRegular s ray)
    (hd : etaRnd mw ew * ∑ i, (ray.direction.vec i).toReal ^ 2 ≤ uRnd mw) (hf : RootsFinite s ray)
    (r : IntersectionResult (Flt mw ew)) (hh : s.intersect ray = some r) :
    (∀ t ≤ r.tRay.toReal, OutsideAt s ray t) ∨
    ∃ t0 : Flt mw ew, t0.toReal ≤ r.tRay.toReal ∧ (∀ t ≤ t0.toReal, OutsideAt s ray t) ∧
      (∀ t, t0.toReal ≤ t → t ≤ r.tRay.toReal → InsideAt s ray t) ∧
      (Scalar.inRange t0 Scalar.zero ray.tmax = false ∨ Scalar.inRange (ray.eval t0).z s.zMin s.zMax = false ∨
        Scalar.gt (Libm.atan2 (ray.eval t0).y (ray.eval t0).x) s.phiMax = true) := by
  unfold Sphere.intersect at hh
  obtain ⟨h, hi, rfl⟩ := Option.map_eq_some_iff.1 hh
  change (∀ t ≤ h.tRay.toReal, _) ∨ ∃ t0 : Flt mw ew, t0.toReal ≤ h.tRay.toReal ∧ _ ∧ (∀ t, t0.toReal ≤ t → t ≤ h.tRay.toReal → _) ∧ _
  unfold Sphere.intersectRay at hi
  dsimp only at hi
  split at hi
  · cases hi
  rename_i t0 t1 hq
  obtain ⟨f0, f1⟩ := hf t0 t1 hq
  have h01 := (C101_backward_partial hm hw _ _ _ t0 t1 hq f0 f1 hs.hb hs.hc).1
  have L := fun t => C120_line hm hw s ray hs hd hq f0 f1 t
  split at hi
  · rename_i hn
    obtain ⟨-, -, -, rfl⟩ := getIntersection_some hi
    refine Or.inr ⟨t0, h01, fun t ht => (L t).1 ht, fun t ht ht' => (L t).2.1 ht ht', ?_⟩
    unfold Sphere.getIntersection at hn
    by_contra hc
    push Not at hc
    obtain ⟨c1, c2, c3⟩ := hc
    rw [Bool.ne_false_iff] at c1 c2
    rw [ne_eq, Bool.not_eq_true] at c3
    have c3' : Scalar.gt (GTrig.atan2 (ray.eval t0).y (ray.eval t0).x) s.phiMax = false := c3
    simp [c1, c2, c3'] at hn
  · rename_i i hi'
    cases hi
    obtain ⟨-, -, -, rfl⟩ := getIntersection_some hi'
    exact Or.inl fun t ht => (L t).1 ht

/-- Hypothesis of `C120_miss`: neither of the two points is clipped away by `z_min`, `z_max` or `phi_max`. -/
def Unclipped (s : Sphere (Flt mw ew)) (ray : Ray (Flt mw ew)) : Prop :=
  ∀ t0 t1, solveQuadratic ray.direction.squareNorm ((GVec.conv .vector ray.origin).dot ray.direction * GFloat.fromI64 2)
    ((GVec.conv .vector ray.origin).squareNorm - Scalar.square s.radius) = some (t0, t1) → ∀ t, t = t0 ∨ t = t1 →
    Scalar.inRange (ray.eval t).z s.zMin s.zMax = true ∧ Scalar.gt (Libm.atan2 (ray.eval t).y (ray.eval t).x) s.phiMax = false

/-- C120: a sphere that is reported missed is not crossed, when it is not clipped where the ray meets it: along the whole ray, the exact
ray stays outside, or it stays inside, up to rounding. -/
theorem C120_miss (hm : 9 ≤ mw) (hw : mw + 3 ≤ 2 ^ (ew - 1)) (s : Sphere (Flt mw ew)) (ray : Ray (Flt mw ew)) (hs : SphereRegular s ray)
    (hd : etaRnd mw ew * ∑ i, (ray.direction.vec i).toReal ^ 2 ≤ uRnd mw) (hf : RootsFinite s ray) (hc : Unclipped s ray)
    (htn : ray.tmax.isNaN = false) (hh : s.doIntersect ray = false) :
    (∀ t, 0 ≤ t → (t ≤ ray.tmax.toReal ∨ ray.tmax = Flt.inf mw ew false) → OutsideAt s ray t) ∨
    (∀ t, 0 ≤ t → (t ≤ ray.tmax.toReal ∨ ray.tmax = Flt.inf mw ew false) → InsideAt s ray t) := by
  have hu := uRnd_pos (mw := mw)
  unfold Sphere.doIntersect Sphere.intersectRay at hh
  dsimp only at hh
  split at hh
  · rename_i hq
    refine Or.inl fun t _ _ => ?_
    have h1 := C102_miss_partial hm s ray hs hq t
    unfold OutsideAt
    rw [scale_eq]
    have : 0 ≤ (∑ i, (ray.direction.vec i).toReal ^ 2) * t ^ 2 :=
      mul_nonneg (Finset.sum_nonneg fun i _ => sq_nonneg _) (sq_nonneg t)
    have : 0 ≤ ∑ i, (ray.origin.vec i).toReal ^ 2 := Finset.sum_nonneg fun i _ => sq_nonneg _
    have := sq_nonneg s.radius.toReal
    refine le_trans (neg_le_neg ?_) h1
    apply mul_le_mul _ (by linarith) (by positivity) (by positivity)
    linarith
  rename_i t0 t1 hq
  obtain ⟨f0, f1⟩ := hf t0 t1 hq
  have h01 := (C101_backward_partial hm hw _ _ _ t0 t1 hq f0 f1 hs.hb hs.hc).1
  have L := fun t => C120_line hm hw s ray hs hd hq f0 f1 t
  -- a root in range would have been reported
  have out : ∀ t : Flt mw ew, t = t0 ∨ t = t1 → t.isFin = true → s.getIntersection ray t = none →
      t.toReal < 0 ∨ (ray.tmax.toReal < t.toReal ∧ ray.tmax ≠ Flt.inf mw ew false) := by
    intro t ht ft hn
    obtain ⟨c1, c2⟩ := hc t0 t1 hq t ht
    have c2' : Scalar.gt (GTrig.atan2 (ray.eval t).y (ray.eval t).x) s.phiMax = false := c2
    by_contra hcon
    push Not at hcon
    obtain ⟨d1, d2⟩ := hcon
    have d3 : t.toReal ≤ ray.tmax.toReal := by
      by_contra h
      have h := not_le.1 h
      have e := d2 h
      rw [e, toReal_lt_iff, key_inf] at h
      have := (isFin_iff_key.1 ft).2
      simp at h
      omega
    have c0 : Scalar.inRange t Scalar.zero ray.tmax = true := by
      unfold Scalar.inRange
      rw [Bool.and_eq_true, sge_iff, sle_iff]
      exact ⟨⟨notNaN_of_isFin ft, rfl, (key_zero false).le.trans (toReal_nonneg_iff.1 d1)⟩, notNaN_of_isFin ft, htn, toReal_le_iff.1 d3⟩
    unfold Sphere.getIntersection at hn
    simp [c0, c1, c2'] at hn
  split at hh
  swap
  · cases hh
  rename_i g0
  have g1 : s.getIntersection ray t1 = none := by simpa using hh
  rcases out t0 (Or.inl rfl) f0 g0 with a0 | ⟨a0, e0⟩
  · rcases out t1 (Or.inr rfl) f1 g1 with a1 | ⟨a1, e1⟩
    · exact Or.inl fun t ht _ => (L t).2.2 (by linarith)
    · refine Or.inr fun t ht ht' => (L t).2.1 (by linarith) ?_
      rcases ht' with h | h
      · linarith
      · exact absurd h e1
  · refine Or.inl fun t ht ht' => (L t).1 ?_
    rcases ht' with h | h
    · linarith
    · exact absurd h e0

/-- The hypotheses of C120 hold for a ray from `(0, 0, -5)` along z and spheres of radius 3.  The ray of length 10 hits; the ray of length 1
misses although its line meets the sphere, and nothing is clipped. -/
theorem line_example [Libm 23 8] (ray : Ray F32) (ho : ray.origin = new3 (F32.lit 0) (F32.lit 0) (-F32.lit 5))
    (hd : ray.direction = new3 (F32.lit 0) (F32.lit 0) (F32.lit 1)) :
    etaRnd 23 8 * ∑ i, (ray.direction.vec i).toReal ^ 2 ≤ uRnd 23 ∧
    solveQuadratic ray.direction.squareNorm ((GVec.conv .vector ray.origin).dot ray.direction * GFloat.fromI64 2)
        ((GVec.conv .vector ray.origin).squareNorm - Scalar.square (F32.lit 3)) = some (F32.lit 2, F32.lit 8) ∧
    ∀ s : Sphere F32, s.radius = F32.lit 3 → SphereRegular s ray ∧ RootsFinite s ray := by
  have h0 : (F32.lit 0).toReal = 0 := by rw [toReal_lit (by decide)]; norm_num
  have h5 : (F32.lit 5).toReal = 5 := by rw [toReal_lit (by decide)]; norm_num
  obtain ⟨h1, h2, h3⟩ := toReal_lit_small
  have hu := uRnd_pos (mw := 23)
  have hη : 3 * etaRnd 23 8 ≤ uRnd 23 * 1 := by unfold etaRnd uRnd fK; norm_num
  have hη0 := etaRnd_pos (mw := 23) (ew := 8)
  have eo : ∑ i, (ray.origin.vec i).toReal ^ 2 = 25 := by
    rw [Fin.sum_univ_three, ho]
    change (F32.lit 0).toReal ^ 2 + (F32.lit 0).toReal ^ 2 + (-F32.lit 5).toReal ^ 2 = 25
    rw [h0, toReal_negop, h5]; norm_num
  have ed : ∑ i, (ray.direction.vec i).toReal ^ 2 = 1 := by
    rw [Fin.sum_univ_three, hd]
    change (F32.lit 0).toReal ^ 2 + (F32.lit 0).toReal ^ 2 + (F32.lit 1).toReal ^ 2 = 1
    rw [h0, h1]; norm_num
  have e3 : solveQuadratic ray.direction.squareNorm ((GVec.conv .vector ray.origin).dot ray.direction * GFloat.fromI64 2)
        ((GVec.conv .vector ray.origin).squareNorm - Scalar.square (F32.lit 3)) = some (F32.lit 2, F32.lit 8) := by rw [ho, hd]; decide +kernel
  refine ⟨by rw [ed]; linarith, e3, fun s e => ?_⟩
  refine ⟨⟨?_, ?_, ?_, ?_, ?_⟩, ?_⟩
  · rw [ed]; exact hη
  · rw [eo, e, h3]; linarith
  · rw [e]; rw [ho, hd]; decide +kernel
  · have e : (GVec.conv .vector ray.origin).dot ray.direction * GFloat.fromI64 2 = -F32.lit 10 := by rw [ho, hd]; decide +kernel
    rw [e, toReal_negop, toReal_lit (by decide)]
    exact normal_f32 (by norm_num)
  · rw [e]
    have e : ray.direction.squareNorm = F32.lit 1 := by rw [hd]; decide +kernel
    have e2 : (GVec.conv .vector ray.origin).squareNorm - Scalar.square (F32.lit 3) = F32.lit 16 := by rw [ho]; decide +kernel
    rw [e, e2, toReal_lit (by decide), toReal_lit (by decide)]
    exact normal_f32 (by norm_num)
  · unfold RootsFinite
    rw [e, e3]
    intro t0 t1 h
    cases h
    exact ⟨by decide +kernel, by decide +kernel⟩

example [Libm 23 8] :
    let ray : Ray F32 := ⟨new3 (F32.lit 0) (F32.lit 0) (-F32.lit 5), new3 (F32.lit 0) (F32.lit 0) (F32.lit 1), F32.lit 1⟩
    let s : Sphere F32 := ⟨F32.lit 3, -F32.lit 4, F32.lit 4, F32.lit 0, F32.lit 0, Flt.inf 23 8 false⟩
    SphereRegular s ray ∧ RootsFinite s ray ∧ Unclipped s ray ∧ ray.tmax.isNaN = false ∧ s.doIntersect ray = false := by
  intro ray s
  obtain ⟨-, e3, k⟩ := line_example ray rfl rfl
  obtain ⟨k1, k2⟩ := k s rfl
  have hg : ∀ x : F32, Scalar.gt x (Flt.inf 23 8 false) = false := by
    intro x
    rw [Bool.eq_false_iff]
    intro h
    obtain ⟨hn, -, hk⟩ := sgt_iff.1 h
    rw [key_inf] at hk
    have := key_bounds hn
    simp at hk
    omega
  refine ⟨k1, k2, ?_, by decide +kernel, ?_⟩
  · intro t0 t1 h t ht
    have h' := e3.symm.trans h
    cases h'
    refine ⟨?_, hg _⟩
    rcases ht with rfl | rfl <;> decide +kernel
  · unfold Sphere.doIntersect Sphere.intersectRay
    dsimp only
    have e3' : solveQuadratic ray.direction.squareNorm ((GVec.conv .vector ray.origin).dot ray.direction * GFloat.fromI64 2)
        ((GVec.conv .vector ray.origin).squareNorm - Scalar.square s.radius) = some (F32.lit 2, F32.lit 8) := e3
    rw [e3']
    dsimp only
    have g : ∀ t : F32, Scalar.inRange t Scalar.zero (F32.lit 1) = false → s.getIntersection ray t = none := by
      intro t h
      unfold Sphere.getIntersection
      have h' : Scalar.inRange t Scalar.zero ray.tmax = false := h
      rw [h']
      rfl
    rw [g _ (by decide +kernel), g _ (by decide +kernel)]
    rfl

end Scarlet
