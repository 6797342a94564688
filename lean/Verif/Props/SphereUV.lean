import Verif.Props.FloatDisk
import Verif.Props.FloatPersp
import Verif.Props.SphereFloat
import Verif.Spec.Sphere

/-! C114: the surface parameters `(u, v)` of a sphere hit on `f32`. -/

set_option linter.unusedSectionVars false

namespace Scarlet
open Flt GVec

/-! ### specification -/

/-- `Φ` is an azimuth of the point `(x, y)` (any angle, if both are zero) -/
def IsAzimuth (x y Φ : ℝ) : Prop :=
  |Φ| ≤ Real.pi ∧ x = Real.sqrt (x ^ 2 + y ^ 2) * Real.cos Φ ∧ y = Real.sqrt (x ^ 2 + y ^ 2) * Real.sin Φ

/-- What is assumed of the platform's `atan2`: it returns an azimuth of the point to within two units of rounding of `π`
(next to `π` the floats are four units of rounding apart), never beyond the float `π`.  Points of the negative x axis may give `π` or `-π` (`atan2` tells by the sign of the zero). -/
structure Atan2Lawful [Libm 23 8] : Prop where
  fin : ∀ y x : F32, y.isFin = true → x.isFin = true → (Libm.atan2 y x).isFin = true
  range : ∀ y x : F32, y.isFin = true → x.isFin = true → |(Libm.atan2 y x).toReal| ≤ (GFloat.pi : F32).toReal
  accurate : ∀ y x : F32, y.isFin = true → x.isFin = true →
    ∃ Φ, IsAzimuth x.toReal y.toReal Φ ∧ |(Libm.atan2 y x).toReal - Φ| ≤ 6.3 * uRnd 23

/-- What is assumed of the platform's `acos` beyond its accuracy: it is decreasing on `[0, 1]`. -/
def AcosDecreasing [Libm 23 8] : Prop := ∀ x y : F32, x.isFin = true → y.isFin = true → 0 ≤ x.toReal → x.toReal ≤ y.toReal →
  y.toReal ≤ 1 → (Libm.acos y).toReal ≤ (Libm.acos x).toReal

/-- the sphere with the same parameters, as reals -/
noncomputable def Sphere.toReals (s : Sphere F32) : Sphere ℝ :=
  ⟨s.radius.toReal, s.zMin.toReal, s.zMax.toReal, s.thetaMin.toReal, s.thetaMax.toReal, s.phiMax.toReal⟩

/-! ### the error analysis, on reals -/

theorem azimuth_core {u η φ Φ P π M N D U : ℝ} (hu : 0 < u) (hu1 : u ≤ 1 / 1024) (he : 0 < η) (heu : η ≤ u * 0.001)
    (hφ : |φ - Φ| ≤ 6.3 * u) (hP : |P - π| ≤ 1.5 * u) (hP1 : P ≤ 3.142) (hr : |φ| ≤ P) (hM : M ≤ 4) (hMP : 0 < M + P)
    (hN : |N - (φ + P)| ≤ u * |φ + P|) (hD : |D - (M + P)| ≤ u * |M + P|) (hD0 : 0 < D) (hN0 : 0 ≤ N) (hND : N ≤ D)
    (hU : |U - N / D| ≤ u * |N / D| + η) (hU0 : 0 ≤ U) (hU1 : U ≤ 1) :
    |U * (M + π) - π - Φ| ≤ 30 * u := by
  rw [abs_le] at hr
  rw [abs_of_nonneg (show 0 ≤ φ + P by linarith)] at hN
  rw [abs_of_pos hMP] at hD
  rw [abs_of_nonneg (div_nonneg hN0 hD0.le)] at hU
  have n1 : N ≤ 6.3 := by
    have := (abs_le.1 hN).2
    nlinarith
  have d1 : D ≤ 7.2 := by
    have := (abs_le.1 hD).2
    nlinarith
  have a1 : |U * D - N| ≤ u * N + η * D := by
    rw [show U * D - N = (U - N / D) * D by field_simp, abs_mul, abs_of_pos hD0]
    refine (mul_le_mul_of_nonneg_right hU hD0.le).trans (le_of_eq ?_)
    field_simp
  have a2 : |U * (M + π - D)| ≤ 1.5 * u + u * 7.142 := by
    rw [abs_mul, abs_of_nonneg hU0]
    have h1 : |M + π - D| ≤ 1.5 * u + u * 7.142 := by
      have := abs_sub (M + P - D) (P - π)
      rw [show M + P - D - (P - π) = M + π - D by ring] at this
      rw [abs_sub_comm] at hD
      nlinarith
    have := mul_le_mul_of_nonneg_right hU1 (abs_nonneg (M + π - D))
    linarith
  have a3 : |N - (Φ + π)| ≤ u * 6.284 + 7.8 * u := by
    have h1 := abs_add_le (N - (φ + P)) ((φ - Φ) + (P - π))
    have h2 := abs_add_le (φ - Φ) (P - π)
    rw [show N - (φ + P) + ((φ - Φ) + (P - π)) = N - (Φ + π) by ring] at h1
    nlinarith
  have b1 : η * D ≤ 0.0072 * u := by
    have := mul_le_mul heu d1 hD0.le (by positivity)
    linarith
  have b2 : u * N ≤ u * 6.3 := mul_le_mul_of_nonneg_left n1 hu.le
  have t1 := abs_add_le (U * D - N) (U * (M + π - D) + (N - (Φ + π)))
  have t2 := abs_add_le (U * (M + π - D)) (N - (Φ + π))
  rw [show U * D - N + (U * (M + π - D) + (N - (Φ + π))) = U * (M + π) - π - Φ by ring] at t1
  linarith

theorem height_core {u η q Q θ B m a b v : ℝ} (hu : 0 < u) (hu1 : u ≤ 1 / 1024) (he : 0 < η) (heu : η ≤ u * 0.001)
    (hQ0 : 0 ≤ Q) (hQ1 : Q ≤ 1) (hq : |q - Q| ≤ u * |Q| + η) (hq0 : 0 ≤ q) (hq1 : q ≤ 1)
    (hθ : |θ - Real.arccos q| ≤ 3.2 * u) (hA : |θ - m| ≤ 1.6) (hB : |B| ≤ 1.6) (hB0 : B ≠ 0)
    (ha : |a - (θ - m)| ≤ u * |θ - m|) (hb : |b - B| ≤ u * |B|) (hb0 : b ≠ 0) (hv : |v - a / b| ≤ u * |a / b| + η) :
    |Real.cos (v * B + m) - Q| ≤ 10 * u := by
  have hB' := abs_pos.2 hB0
  have bB : 0.999 * |B| ≤ |b| := by
    have := abs_sub_abs_le_abs_sub B b
    rw [abs_sub_comm] at this
    have := mul_le_mul_of_nonneg_right hu1 hB'.le
    linarith
  have aA : |a| ≤ 1.001 * |θ - m| := by
    have := abs_add_le (a - (θ - m)) (θ - m)
    rw [sub_add_cancel] at this
    have := mul_le_mul_of_nonneg_right hu1 (abs_nonneg (θ - m))
    have := abs_nonneg (θ - m)
    linarith
  have Bb : |B| / |b| ≤ 1.0011 := by
    rw [div_le_iff₀ (abs_pos.2 hb0)]; linarith
  have c1 : |a / b * B - a| ≤ 1.0022 * u * |θ - m| := by
    rw [show a / b * B - a = a * (B - b) / b by field_simp, abs_div, abs_mul, abs_sub_comm B b, div_le_iff₀ (abs_pos.2 hb0)]
    have h1 := mul_le_mul aA hb (abs_nonneg _) (by positivity)
    have h2 : |B| ≤ 1.0011 * |b| := by linarith
    have h3 := mul_le_mul_of_nonneg_left h2 (show 0 ≤ 1.001 * |θ - m| * u by positivity)
    have h4 : 0 ≤ u * |θ - m| * |b| := by positivity
    nlinarith
  have c2 : |(v - a / b) * B| ≤ 1.0022 * u * |θ - m| + 1.6 * η := by
    rw [abs_mul]
    have h1 := mul_le_mul_of_nonneg_right hv hB'.le
    have h2 : |a / b| * |B| ≤ 1.0022 * |θ - m| := by
      rw [abs_div, div_mul_eq_mul_div, mul_div_assoc]
      have := mul_le_mul aA Bb (by positivity) (by positivity)
      have := abs_nonneg (θ - m)
      linarith
    have h3 := mul_le_mul_of_nonneg_left h2 hu.le
    have h4 := mul_le_mul_of_nonneg_left hB he.le
    nlinarith
  have c3 : |v * B + m - θ| ≤ 4.9 * u := by
    have t1 := abs_add_le ((v - a / b) * B) ((a / b * B - a) + (a - (θ - m)))
    have t2 := abs_add_le (a / b * B - a) (a - (θ - m))
    rw [show (v - a / b) * B + ((a / b * B - a) + (a - (θ - m))) = v * B + m - θ by ring] at t1
    have := mul_le_mul_of_nonneg_left hA hu.le
    linarith
  have c4 := Real.abs_cos_sub_cos_le (v * B + m) (Real.arccos q)
  rw [Real.cos_arccos (by linarith) hq1] at c4
  have t1 := abs_sub_le (v * B + m) θ (Real.arccos q)
  have t2 := abs_sub_le (Real.cos (v * B + m)) q Q
  rw [abs_of_nonneg hQ0] at hq
  have := mul_le_mul_of_nonneg_left hQ1 hu.le
  linarith

theorem scale_abs {R c z e : ℝ} (hR : 0 < R) (h : |c - z / R| ≤ e) : |R * c - z| ≤ e * R := by
  have := mul_le_mul_of_nonneg_right h hR.le
  rwa [← abs_of_pos hR, ← abs_mul, abs_of_pos hR, sub_mul, div_mul_cancel₀ _ hR.ne', mul_comm c] at this

/-! ### on floats -/

theorem pi_f32 : (GFloat.pi : F32).isFin = true ∧ |(GFloat.pi : F32).toReal - Real.pi| ≤ 1.5 * uRnd 23 ∧
    3.141 ≤ (GFloat.pi : F32).toReal ∧ (GFloat.pi : F32).toReal ≤ 3.142 := by
  have hlo := Real.pi_gt_d20
  have hhi := Real.pi_lt_d20
  have v1 : (GFloat.pi : F32).toReal = 13176795 / 2 ^ 22 := by
    have := sval_cast (GFloat.pi : F32)
    rw [show (GFloat.pi : F32).sval = 13176795 * 2 ^ 127 by decide +kernel] at this
    refine (mul_right_cancel₀ (b := (2 : ℝ) ^ fK 23 8) (by positivity) ?_).symm
    rw [← this]
    unfold fK; norm_num
  rw [v1]
  unfold uRnd
  refine ⟨by decide +kernel, ?_, by norm_num, by norm_num⟩
  rw [abs_le]; constructor <;> norm_num <;> linarith

/-- a rounded quotient between zero and one stays there -/
theorem round_unit {mw ew : Nat} [FltImpl mw ew] [LawfulFlt mw ew] {z : Flt mw ew} {r : ℝ} (hz : z.isNaN = false ∧ z.key = rndK mw ew r)
    (h0 : 0 ≤ r) (h1 : r ≤ 1) : z.isFin = true ∧ 0 ≤ z.toReal ∧ z.toReal ≤ 1 := by
  have o := sone_spec (mw := mw) (ew := ew)
  have b := rounded_bound hz o.1 (by rw [o.2, abs_of_nonneg h0]; exact h1)
  refine ⟨b.1, toReal_nonneg_iff.2 (by rw [hz.2]; exact rndK_nonneg h0), ?_⟩
  have := (le_abs_self _).trans b.2
  rwa [o.2] at this

theorem clamp01 {x : F32} (hx : x.isNaN = false) :
    (Inherent.clamp x Scalar.zero Scalar.one).isFin = true ∧ 0 ≤ (Inherent.clamp x Scalar.zero Scalar.one).toReal ∧
    (Inherent.clamp x Scalar.zero Scalar.one).toReal ≤ 1 ∧
    (Inherent.clamp x Scalar.zero Scalar.one).key = Max.max 0 (Min.min x.key (Scalar.one : F32).key) ∧
    (0 ≤ x.toReal → x.toReal ≤ 1 → Inherent.clamp x Scalar.zero Scalar.one = x) := by
  have o := sone_spec (mw := 23) (ew := 8)
  have on := notNaN_of_isFin o.1
  have zn := notNaN_of_isFin (isFin_szero (mw := 23) (ew := 8))
  have k1 : 0 < (Scalar.one : F32).key := by rw [← toReal_pos_iff, o.2]; norm_num
  have b1 := isFin_iff_key.1 o.1
  have l1 : x.lt Scalar.zero = true ↔ x.key < 0 := by
    rw [lt_iff, key_szero]; exact ⟨fun h => h.2.2, fun h => ⟨hx, zn, h⟩⟩
  have l2 : (Scalar.one : F32).lt x = true ↔ (Scalar.one : F32).key < x.key := by
    rw [lt_iff]; exact ⟨fun h => h.2.2, fun h => ⟨on, hx, h⟩⟩
  have l3 : (Scalar.one : F32).lt Scalar.zero = false := by decide +kernel
  have key : (Inherent.clamp x Scalar.zero Scalar.one).key = Max.max 0 (Min.min x.key (Scalar.one : F32).key) ∧
      (0 ≤ x.key → x.key ≤ (Scalar.one : F32).key → Inherent.clamp x Scalar.zero Scalar.one = x) := by
    change (iclamp x Scalar.zero Scalar.one).key = _ ∧ (_ → _ → iclamp x Scalar.zero Scalar.one = x)
    unfold iclamp
    dsimp only
    by_cases h : x.key < 0
    · rw [if_pos (l1.2 h), l3]
      refine ⟨?_, fun h' => by omega⟩
      simp only [Bool.false_eq_true, if_false, key_szero]
      omega
    · rw [if_neg (fun h' => h (l1.1 h'))]
      by_cases h2 : (Scalar.one : F32).key < x.key
      · simp only [l2.2 h2, if_true]
        exact ⟨by omega, fun _ h' => by omega⟩
      · rw [if_neg (fun h' => h2 (l2.1 h'))]
        exact ⟨by omega, fun _ _ => rfl⟩
  refine ⟨isFin_iff_key.2 ⟨by omega, by omega⟩, toReal_nonneg_iff.2 (by omega), ?_, key.1, fun h h' => key.2 (toReal_nonneg_iff.1 h) ?_⟩
  · rw [← o.2]; exact toReal_le_iff.2 (by omega)
  · rw [← o.2] at h'; exact toReal_le_iff.1 h'

section
variable [Libm 23 8] [LawfulLibm 23 8]

/-- the polar angle of a height -/
theorem acos_near {q : F32} (hq : q.isFin = true) (h0 : 0 ≤ q.toReal) (h1 : q.toReal ≤ 1) :
    (Libm.acos q).isFin = true ∧ |(Libm.acos q).toReal - Real.arccos q.toReal| ≤ 3.2 * uRnd 23 ∧
    0 ≤ (Libm.acos q).toReal ∧ (Libm.acos q).toReal ≤ 1.6 := by
  have hlo := Real.pi_gt_d20
  have hhi := Real.pi_lt_d20
  have u0 := uRnd_pos (mw := 23)
  have us := uRnd_small (mw := 23) (by norm_num)
  have et := eta_tiny
  have acc := LawfulLibm.acos q hq (by linarith) h1
  have a0 := Real.arccos_nonneg q.toReal
  have a1 : Real.arccos q.toReal ≤ Real.pi / 2 := Real.arccos_le_pi_div_two.2 h0
  have hn : (Libm.acos q).isNaN = false := by have := acc.lo.1; rwa [isNaN_nextDown] at this
  obtain ⟨nd, kd⟩ := nextDown_key hn
  obtain ⟨nu, ku⟩ := nextUp_key hn
  have f2 : (F32.lit 2).isFin = true := by decide +kernel
  have l2 := toReal_lit_small.2.1
  have p0 : 0 ≤ (Libm.acos q).key := by
    by_contra hc
    have : (Libm.acos q).val < 0 := by
      have e : (Scalar.zero : F32).val = 0 := by rw [val_of_isFin isFin_szero, toReal_szero]; rfl
      rw [← e]
      exact (val_lt_iff hn (notNaN_of_isFin isFin_szero)).2 (by rw [key_szero]; omega)
    linarith [acc.neg.1 this]
  have up : (GFloat.nextDown (Libm.acos q)).key ≤ (F32.lit 2).key := by
    refine (val_le_iff nd (notNaN_of_isFin f2)).1 (acc.lo.2.trans ?_)
    rw [val_of_isFin f2, l2]
    exact EReal.coe_le_coe_iff.2 (by linarith)
  have kl : (F32.lit 2).key + 2 < kInf 23 8 := by decide +kernel
  have kp := kInf_pos (mw := 23) (ew := 8)
  have fd : (GFloat.nextDown (Libm.acos q)).isFin = true := isFin_iff_key.2 ⟨by omega, by omega⟩
  have fu : (GFloat.nextUp (Libm.acos q)).isFin = true := isFin_iff_key.2 ⟨by omega, by omega⟩
  obtain ⟨f, e⟩ := accurate_rel acc fd fu
  have t0 := toReal_nonneg_iff.2 p0
  rw [abs_of_nonneg t0] at e
  have t2 : (Libm.acos q).toReal ≤ 1.6 := by
    rcases le_max_iff.1 e with e | e <;> have := (abs_le.1 e).2
    · nlinarith
    · nlinarith
  refine ⟨f, e.trans (max_le (by linarith) ?_), t0, t2⟩
  nlinarith

/-- What a hit on a sphere made by `Sphere::new` must satisfy for its surface parameters to be defined: the radius is positive,
the limits finite, the azimuths not empty, and the heights of the two limits have different polar angles. -/
structure UVRegular (radius zMin zMax phiMax : F32) : Prop where
  radiusFin : radius.isFin = true
  radiusPos : 0 < radius.toReal
  zMinFin : zMin.isFin = true
  zMaxFin : zMax.isFin = true
  phiMaxFin : phiMax.isFin = true
  phiMaxLo : -(GFloat.pi : F32).toReal < phiMax.toReal
  phiMaxHi : phiMax.toReal ≤ 4
  theta : (Libm.acos (Inherent.clamp (zMin / radius) Scalar.zero Scalar.one : F32)).toReal ≠
    (Libm.acos (Inherent.clamp (zMax / radius) Scalar.zero Scalar.one : F32)).toReal

variable {radius zMin zMax phiMax : F32}

/-- what `intersect` returns -/
theorem uv_form {s : Sphere F32} (hs : Sphere.new radius zMin zMax phiMax = some s) {ray : Ray F32} {r : IntersectionResult F32}
    (h : s.intersect ray = some r) :
    s = ⟨radius, zMin, zMax, Libm.acos (Inherent.clamp (zMin / radius) Scalar.zero Scalar.one),
      Libm.acos (Inherent.clamp (zMax / radius) Scalar.zero Scalar.one), phiMax⟩ ∧
    FLe zMin r.surfaceInteraction.p.z ∧ FLe r.surfaceInteraction.p.z zMax ∧
    Scalar.gt (Libm.atan2 r.surfaceInteraction.p.y r.surfaceInteraction.p.x) phiMax = false ∧
    r.surfaceInteraction.uv.x = (Libm.atan2 r.surfaceInteraction.p.y r.surfaceInteraction.p.x + GFloat.pi) / (phiMax + GFloat.pi) ∧
    r.surfaceInteraction.uv.y = (Libm.acos (Inherent.clamp (r.surfaceInteraction.p.z / radius) Scalar.zero Scalar.one) - s.thetaMin) /
      (s.thetaMax - s.thetaMin) := by
  unfold Sphere.new at hs
  split at hs
  · cases hs
    obtain ⟨hit, he, rfl⟩ := Option.map_eq_some_iff.1 h
    obtain ⟨t, ht⟩ := intersectRay_some he
    obtain ⟨-, h2, h3, rfl⟩ := getIntersection_some ht
    unfold Scalar.inRange at h2
    rw [Bool.and_eq_true, sge_iff, sle_iff] at h2
    obtain ⟨⟨b1, b2, b3⟩, b4, b5, b6⟩ := h2
    exact ⟨rfl, ⟨b2, b1, b3⟩, ⟨b4, b5, b6⟩, h3, rfl, rfl⟩
  · cases hs

/-- facts about the denominator of `u` -/
theorem phi_den (hr : UVRegular radius zMin zMax phiMax) :
    (phiMax + GFloat.pi : F32).isFin = true ∧ 0 < (phiMax + GFloat.pi : F32).toReal := by
  obtain ⟨pf, -, p1, p2⟩ := pi_f32
  have f8 : (F32.lit 8).isFin = true := by decide +kernel
  have l8 : (F32.lit 8).toReal = 8 := by rw [toReal_lit (by decide)]; norm_num
  have lo := hr.phiMaxLo
  have hi := hr.phiMaxHi
  have b := rounded_bound (add_fin hr.phiMaxFin pf) f8 (by rw [l8, _root_.abs_le]; constructor <;> linarith)
  refine ⟨b.1, ?_⟩
  have e := add_err hr.phiMaxFin pf b.1
  have us := uRnd_small (mw := 23) (by norm_num)
  have hp : 0 < phiMax.toReal + (GFloat.pi : F32).toReal := by linarith
  rw [abs_of_pos hp] at e
  have := (_root_.abs_le.1 e).1
  nlinarith

/-- C114: the surface parameters of every hit lie in `[0, 1]²`, exactly. -/
theorem C114_range (ha : Atan2Lawful) (hd : AcosDecreasing) {s : Sphere F32} (hs : Sphere.new radius zMin zMax phiMax = some s)
    (hr : UVRegular radius zMin zMax phiMax) (ray : Ray F32) (r : IntersectionResult F32) (h : s.intersect ray = some r)
    (hx : r.surfaceInteraction.p.x.isFin = true) (hy : r.surfaceInteraction.p.y.isFin = true) :
    (r.surfaceInteraction.uv.x.isFin = true ∧ 0 ≤ r.surfaceInteraction.uv.x.toReal ∧ r.surfaceInteraction.uv.x.toReal ≤ 1) ∧
    (r.surfaceInteraction.uv.y.isFin = true ∧ 0 ≤ r.surfaceInteraction.uv.y.toReal ∧ r.surfaceInteraction.uv.y.toReal ≤ 1) := by
  obtain ⟨rfl, zl, zh, hp, eu, ev⟩ := uv_form hs h
  obtain ⟨pf, -, p1, p2⟩ := pi_f32
  rw [eu, ev]
  set p := r.surfaceInteraction.p
  have us := uRnd_small (mw := 23) (by norm_num)
  constructor
  · have φf := ha.fin _ _ hy hx
    have φr := _root_.abs_le.1 (ha.range _ _ hy hx)
    set φ : F32 := Libm.atan2 p.y p.x
    obtain ⟨Df, D0⟩ := phi_den hr
    have hle : φ.toReal ≤ phiMax.toReal := by
      rw [toReal_le_iff]
      by_contra hc
      rw [sgt_iff.2 ⟨notNaN_of_isFin φf, notNaN_of_isFin hr.phiMaxFin, by omega⟩] at hp
      cases hp
    have kN := add_fin φf pf
    have kD := add_fin hr.phiMaxFin pf
    have nk : (φ + GFloat.pi : F32).key = rndK 23 8 (φ.toReal + (GFloat.pi : F32).toReal) := kN.2
    have dk : (phiMax + GFloat.pi : F32).key = rndK 23 8 (phiMax.toReal + (GFloat.pi : F32).toReal) := kD.2
    have k1 := rndK_nonneg (mw := 23) (ew := 8) (show 0 ≤ φ.toReal + (GFloat.pi : F32).toReal by linarith)
    have k2 := rndK_mono 23 8 (show φ.toReal + (GFloat.pi : F32).toReal ≤ phiMax.toReal + (GFloat.pi : F32).toReal by linarith)
    have Db := isFin_iff_key.1 Df
    have Nf : (φ + GFloat.pi : F32).isFin = true := isFin_iff_key.2 ⟨by omega, by omega⟩
    have N0 : 0 ≤ (φ + GFloat.pi : F32).toReal := toReal_nonneg_iff.2 (by omega)
    have ND : (φ + GFloat.pi : F32).toReal ≤ (phiMax + GFloat.pi : F32).toReal := toReal_le_iff.2 (by omega)
    exact round_unit (div_fin Nf Df (fun h' => D0.ne' (toReal_eq_zero_iff.2 h'))) (div_nonneg N0 D0.le)
      (div_le_one_of_le₀ ND D0.le)
  · have hz : p.z.isFin = true := by
      have a := isFin_iff_key.1 hr.zMinFin
      have b := isFin_iff_key.1 hr.zMaxFin
      exact isFin_iff_key.2 ⟨by have := zl.2.2; omega, by have := zh.2.2; omega⟩
    have R0 : radius.key ≠ 0 := fun h' => hr.radiusPos.ne' (toReal_eq_zero_iff.2 h')
    have q1 := div_fin hr.zMinFin hr.radiusFin R0
    have q2 := div_fin hz hr.radiusFin R0
    have q3 := div_fin hr.zMaxFin hr.radiusFin R0
    have m1 := rndK_mono 23 8 (div_le_div_of_nonneg_right (toReal_le_iff.2 zl.2.2) hr.radiusPos.le)
    have m2 := rndK_mono 23 8 (div_le_div_of_nonneg_right (toReal_le_iff.2 zh.2.2) hr.radiusPos.le)
    obtain ⟨cf1, c01, c11, ck1, -⟩ := clamp01 (x := zMin / radius) q1.1
    obtain ⟨cf2, c02, c12, ck2, -⟩ := clamp01 (x := p.z / radius) q2.1
    obtain ⟨cf3, c03, c13, ck3, -⟩ := clamp01 (x := zMax / radius) q3.1
    have e1 : (zMin / radius : F32).key = _ := q1.2
    have e2 : (p.z / radius : F32).key = _ := q2.2
    have e3 : (zMax / radius : F32).key = _ := q3.2
    have d1 := hd _ _ cf1 cf2 c01 (toReal_le_iff.2 (by rw [ck1, ck2, e1, e2]; omega)) c12
    have d2 := hd _ _ cf2 cf3 c02 (toReal_le_iff.2 (by rw [ck2, ck3, e2, e3]; omega)) c13
    obtain ⟨tf1, -, t01, t11⟩ := acos_near cf1 c01 c11
    obtain ⟨tf2, -, t02, t12⟩ := acos_near cf2 c02 c12
    obtain ⟨tf3, -, t03, t13⟩ := acos_near cf3 c03 c13
    have ne := hr.theta
    change ((Libm.acos (Inherent.clamp (p.z / radius) Scalar.zero Scalar.one : F32) -
        Libm.acos (Inherent.clamp (zMin / radius) Scalar.zero Scalar.one : F32)) /
      (Libm.acos (Inherent.clamp (zMax / radius) Scalar.zero Scalar.one : F32) -
        Libm.acos (Inherent.clamp (zMin / radius) Scalar.zero Scalar.one : F32))).isFin = true ∧
      0 ≤ ((Libm.acos (Inherent.clamp (p.z / radius) Scalar.zero Scalar.one : F32) -
        Libm.acos (Inherent.clamp (zMin / radius) Scalar.zero Scalar.one : F32)) /
      (Libm.acos (Inherent.clamp (zMax / radius) Scalar.zero Scalar.one : F32) -
        Libm.acos (Inherent.clamp (zMin / radius) Scalar.zero Scalar.one : F32))).toReal ∧
      ((Libm.acos (Inherent.clamp (p.z / radius) Scalar.zero Scalar.one : F32) -
        Libm.acos (Inherent.clamp (zMin / radius) Scalar.zero Scalar.one : F32)) /
      (Libm.acos (Inherent.clamp (zMax / radius) Scalar.zero Scalar.one : F32) -
        Libm.acos (Inherent.clamp (zMin / radius) Scalar.zero Scalar.one : F32))).toReal ≤ 1
    generalize (Libm.acos (Inherent.clamp (p.z / radius) Scalar.zero Scalar.one : F32)) = θ at *
    generalize (Libm.acos (Inherent.clamp (zMin / radius) Scalar.zero Scalar.one : F32)) = θm at *
    generalize (Libm.acos (Inherent.clamp (zMax / radius) Scalar.zero Scalar.one : F32)) = θM at *
    have f2 : (F32.lit 2).isFin = true := by decide +kernel
    have l2 := toReal_lit_small.2.1
    have B := rounded_bound (sub_fin tf3 tf1) f2 (by rw [l2, _root_.abs_le]; constructor <;> linarith)
    have A := rounded_bound (sub_fin tf2 tf1) f2 (by rw [l2, _root_.abs_le]; constructor <;> linarith)
    have kA : (θ - θm : F32).key = rndK 23 8 (θ.toReal - θm.toReal) := (sub_fin tf2 tf1).2
    have kB : (θM - θm : F32).key = rndK 23 8 (θM.toReal - θm.toReal) := (sub_fin tf3 tf1).2
    have n1 := rndK_nonpos (mw := 23) (ew := 8) (show θ.toReal - θm.toReal ≤ 0 by linarith)
    have n2 := rndK_mono 23 8 (show θM.toReal - θm.toReal ≤ θ.toReal - θm.toReal by linarith)
    have Bn : (θM - θm : F32).toReal < 0 := by
      have e := sub_err tf3 tf1 B.1
      have hn : θM.toReal - θm.toReal < 0 := by
        rcases lt_or_eq_of_le (d2.trans d1) with h' | h'
        · linarith
        · exact absurd h'.symm ne
      rw [abs_of_neg hn] at e
      have := (_root_.abs_le.1 e).2
      nlinarith
    have An : (θ - θm : F32).toReal ≤ 0 := by
      have : (θ - θm : F32).toReal ≤ (Scalar.zero : F32).toReal := toReal_le_iff.2 (by rw [key_szero]; omega)
      rwa [toReal_szero] at this
    have AB : (θM - θm : F32).toReal ≤ (θ - θm : F32).toReal := toReal_le_iff.2 (by omega)
    refine round_unit (div_fin A.1 B.1 (fun h' => Bn.ne (toReal_eq_zero_iff.2 h'))) (div_nonneg_of_nonpos An Bn.le) ?_
    rw [div_le_one_of_neg Bn]
    exact AB

/-- C114: the azimuth `u (phi_max + π) - π` of the reported `u` is the azimuth of the hit to within 30 units of rounding. -/
theorem C114_azimuth (ha : Atan2Lawful) (hd : AcosDecreasing) {s : Sphere F32} (hs : Sphere.new radius zMin zMax phiMax = some s)
    (hr : UVRegular radius zMin zMax phiMax) (ray : Ray F32) (r : IntersectionResult F32) (h : s.intersect ray = some r)
    (hx : r.surfaceInteraction.p.x.isFin = true) (hy : r.surfaceInteraction.p.y.isFin = true) :
    ∃ Φ, IsAzimuth r.surfaceInteraction.p.x.toReal r.surfaceInteraction.p.y.toReal Φ ∧
      |s.toReals.phiAt r.surfaceInteraction.uv.x.toReal - Φ| ≤ 30 * uRnd 23 := by
  obtain ⟨⟨uf, u0, u1⟩, -⟩ := C114_range ha hd hs hr ray r h hx hy
  obtain ⟨rfl, -, -, hp, eu, -⟩ := uv_form hs h
  obtain ⟨pf, pe, p1, p2⟩ := pi_f32
  obtain ⟨Φ, hΦ, he⟩ := ha.accurate _ _ hy hx
  have φf := ha.fin _ _ hy hx
  have φr := ha.range _ _ hy hx
  refine ⟨Φ, hΦ, ?_⟩
  rw [eu] at uf u0 u1 ⊢
  set p := r.surfaceInteraction.p
  set φ : F32 := Libm.atan2 p.y p.x
  obtain ⟨Df, D0⟩ := phi_den hr
  have φr' := _root_.abs_le.1 φr
  have hle : φ.toReal ≤ phiMax.toReal := by
    rw [toReal_le_iff]
    by_contra hc
    rw [sgt_iff.2 ⟨notNaN_of_isFin φf, notNaN_of_isFin hr.phiMaxFin, by omega⟩] at hp
    cases hp
  have nk : (φ + GFloat.pi : F32).key = rndK 23 8 (φ.toReal + (GFloat.pi : F32).toReal) := (add_fin φf pf).2
  have dk : (phiMax + GFloat.pi : F32).key = rndK 23 8 (phiMax.toReal + (GFloat.pi : F32).toReal) := (add_fin hr.phiMaxFin pf).2
  have k1 := rndK_nonneg (mw := 23) (ew := 8) (show 0 ≤ φ.toReal + (GFloat.pi : F32).toReal by linarith)
  have k2 := rndK_mono 23 8 (show φ.toReal + (GFloat.pi : F32).toReal ≤ phiMax.toReal + (GFloat.pi : F32).toReal by linarith)
  have Db := isFin_iff_key.1 Df
  have Nf : (φ + GFloat.pi : F32).isFin = true := isFin_iff_key.2 ⟨by omega, by omega⟩
  have e1 := div_err Nf Df D0.ne' uf
  have eη := etaRnd_pos (mw := 23) (ew := 8)
  have uu := uRnd_pos (mw := 23)
  change |_ * (phiMax.toReal + Real.pi) - Real.pi - Φ| ≤ _
  refine azimuth_core uu (uRnd_small (by norm_num)) eη eta_tiny he pe p2 φr hr.phiMaxHi (by linarith [hr.phiMaxLo]) (add_err φf pf Nf)
    (add_err hr.phiMaxFin pf Df) D0 (toReal_nonneg_iff.2 (by omega)) (toReal_le_iff.2 (by omega)) (e1.trans (max_le ?_ ?_)) u0 u1
  · have := mul_nonneg uu.le (abs_nonneg ((φ + GFloat.pi : F32).toReal / (phiMax + GFloat.pi : F32).toReal)); linarith
  · linarith

/-- C114: the documented parameterization at the reported `(u, v)` points in the direction of the hit in the xy plane, to within
30 units of rounding of the distance from the axis. -/
theorem C114_xy (ha : Atan2Lawful) (hd : AcosDecreasing) {s : Sphere F32} (hs : Sphere.new radius zMin zMax phiMax = some s)
    (hr : UVRegular radius zMin zMax phiMax) (ray : Ray F32) (r : IntersectionResult F32) (h : s.intersect ray = some r)
    (hx : r.surfaceInteraction.p.x.isFin = true) (hy : r.surfaceInteraction.p.y.isFin = true) (ρ : ℝ)
    (hρ : ρ = Real.sqrt (r.surfaceInteraction.p.x.toReal ^ 2 + r.surfaceInteraction.p.y.toReal ^ 2)) :
    |ρ * Real.cos (s.toReals.phiAt r.surfaceInteraction.uv.x.toReal) - r.surfaceInteraction.p.x.toReal| ≤ 30 * uRnd 23 * ρ ∧
    |ρ * Real.sin (s.toReals.phiAt r.surfaceInteraction.uv.x.toReal) - r.surfaceInteraction.p.y.toReal| ≤ 30 * uRnd 23 * ρ := by
  obtain ⟨Φ, ⟨-, ex, ey⟩, e⟩ := C114_azimuth ha hd hs hr ray r h hx hy
  have r0 : 0 ≤ ρ := by rw [hρ]; exact Real.sqrt_nonneg _
  rw [← hρ] at ex ey
  constructor
  · rw [ex, ← mul_sub, abs_mul, abs_of_nonneg r0, mul_comm]
    exact mul_le_mul_of_nonneg_right ((lip_cos _ _).trans e) r0
  · rw [ey, ← mul_sub, abs_mul, abs_of_nonneg r0, mul_comm]
    exact mul_le_mul_of_nonneg_right ((lip_sin _ _).trans e) r0

/-- C114: on the upper half of the sphere, the height of the documented parameterization at the reported `v` is the height of the
hit, to within ten units of rounding of the radius. -/
theorem C114_height {s : Sphere F32} (hs : Sphere.new radius zMin zMax phiMax = some s)
    (hr : UVRegular radius zMin zMax phiMax) (ray : Ray F32) (r : IntersectionResult F32) (h : s.intersect ray = some r)
    (hz0 : 0 ≤ r.surfaceInteraction.p.z.toReal) (hz1 : r.surfaceInteraction.p.z.toReal ≤ radius.toReal)
    (hv : r.surfaceInteraction.uv.y.isFin = true) :
    |radius.toReal * Real.cos (s.toReals.thetaAt r.surfaceInteraction.uv.y.toReal) - r.surfaceInteraction.p.z.toReal| ≤
      10 * uRnd 23 * radius.toReal := by
  obtain ⟨rfl, zl, zh, -, -, ev⟩ := uv_form hs h
  rw [ev] at hv ⊢
  set p := r.surfaceInteraction.p
  have us := uRnd_small (mw := 23) (by norm_num)
  have eη := etaRnd_pos (mw := 23) (ew := 8)
  have uu := uRnd_pos (mw := 23)
  have hz : p.z.isFin = true := by
    have a := isFin_iff_key.1 hr.zMinFin
    have b := isFin_iff_key.1 hr.zMaxFin
    exact isFin_iff_key.2 ⟨by have := zl.2.2; omega, by have := zh.2.2; omega⟩
  have R0 : radius.key ≠ 0 := fun h' => hr.radiusPos.ne' (toReal_eq_zero_iff.2 h')
  have q1 := div_fin hr.zMinFin hr.radiusFin R0
  have q2 := div_fin hz hr.radiusFin R0
  have q3 := div_fin hr.zMaxFin hr.radiusFin R0
  obtain ⟨cf1, c01, c11, -, -⟩ := clamp01 (x := zMin / radius) q1.1
  obtain ⟨cf2, c02, c12, -, ce⟩ := clamp01 (x := p.z / radius) q2.1
  obtain ⟨cf3, c03, c13, -, -⟩ := clamp01 (x := zMax / radius) q3.1
  have Q0 : 0 ≤ p.z.toReal / radius.toReal := div_nonneg hz0 hr.radiusPos.le
  have Q1 : p.z.toReal / radius.toReal ≤ 1 := div_le_one_of_le₀ hz1 hr.radiusPos.le
  obtain ⟨qf, q0, q1'⟩ := round_unit q2 Q0 Q1
  have qe := div_err hz hr.radiusFin hr.radiusPos.ne' qf
  rw [ce q0 q1'] at hv ⊢
  obtain ⟨tf1, -, t01, t11⟩ := acos_near cf1 c01 c11
  obtain ⟨tf2, te2, t02, t12⟩ := acos_near (q := p.z / radius) qf q0 q1'
  obtain ⟨tf3, -, t03, t13⟩ := acos_near cf3 c03 c13
  have ne := hr.theta
  change |radius.toReal * Real.cos (((Libm.acos (p.z / radius : F32) -
        Libm.acos (Inherent.clamp (zMin / radius) Scalar.zero Scalar.one : F32)) /
      (Libm.acos (Inherent.clamp (zMax / radius) Scalar.zero Scalar.one : F32) -
        Libm.acos (Inherent.clamp (zMin / radius) Scalar.zero Scalar.one : F32)) : F32).toReal *
      ((Libm.acos (Inherent.clamp (zMax / radius) Scalar.zero Scalar.one : F32)).toReal -
        (Libm.acos (Inherent.clamp (zMin / radius) Scalar.zero Scalar.one : F32)).toReal) +
      (Libm.acos (Inherent.clamp (zMin / radius) Scalar.zero Scalar.one : F32)).toReal) - _| ≤ _
  change ((Libm.acos (p.z / radius : F32) -
        Libm.acos (Inherent.clamp (zMin / radius) Scalar.zero Scalar.one : F32)) /
      (Libm.acos (Inherent.clamp (zMax / radius) Scalar.zero Scalar.one : F32) -
        Libm.acos (Inherent.clamp (zMin / radius) Scalar.zero Scalar.one : F32)) : F32).isFin = true at hv
  generalize (Libm.acos (p.z / radius : F32)) = θ at *
  generalize (Libm.acos (Inherent.clamp (zMin / radius) Scalar.zero Scalar.one : F32)) = θm at *
  generalize (Libm.acos (Inherent.clamp (zMax / radius) Scalar.zero Scalar.one : F32)) = θM at *
  have f2 : (F32.lit 2).isFin = true := by decide +kernel
  have l2 := toReal_lit_small.2.1
  have B := rounded_bound (sub_fin tf3 tf1) f2 (by rw [l2, _root_.abs_le]; constructor <;> linarith)
  have A := rounded_bound (sub_fin tf2 tf1) f2 (by rw [l2, _root_.abs_le]; constructor <;> linarith)
  have B0 : θM.toReal - θm.toReal ≠ 0 := fun h' => ne (by linarith)
  have eb := sub_err tf3 tf1 B.1
  have b0 : (θM - θm : F32).toReal ≠ 0 := by
    intro h'
    rw [h', zero_sub, abs_neg] at eb
    have := abs_pos.2 B0
    nlinarith
  have evv := div_err A.1 B.1 b0 hv
  have sum_of_max : ∀ {x y : ℝ}, x ≤ Max.max (etaRnd 23 8) (uRnd 23 * |y|) → x ≤ uRnd 23 * |y| + etaRnd 23 8 := by
    intro x y hxy
    have := mul_nonneg uu.le (abs_nonneg y)
    exact hxy.trans (max_le (by linarith) (by linarith))
  have core := height_core uu us eη eta_tiny Q0 Q1 (sum_of_max qe) q0 q1' te2
    (show |θ.toReal - θm.toReal| ≤ 1.6 by rw [_root_.abs_le]; constructor <;> linarith)
    (show |θM.toReal - θm.toReal| ≤ 1.6 by rw [_root_.abs_le]; constructor <;> linarith) B0 (sub_err tf2 tf1 A.1) eb b0 (sum_of_max evv)
  exact scale_abs hr.radiusPos core

/-! ### non-vacuity -/

end

theorem faithful_mono_nonneg {r t : ℝ} (h0 : 0 ≤ r) (h : r ≤ t) : (faithful 23 8 r).toReal ≤ (faithful 23 8 t).toReal := by
  rw [toReal_le_iff, (faithful_key r).2, (faithful_key t).2]
  have m := rndK_mono 23 8 h
  have m0 := rndK_nonneg (mw := 23) (ew := 8) h0
  by_cases h1 : rndK 23 8 r = 0
  · rw [if_pos h1]
    by_cases h2 : rndK 23 8 t = 0
    · rw [if_pos h2]
      split
      · rw [if_pos (by linarith)]
      · rw [if_neg (by linarith)]
        split
        · norm_num
        · rw [if_neg (by linarith)]
    · rw [if_neg h2]
      split
      · omega
      · rw [if_neg (by linarith)]; omega
  · rw [if_neg h1, if_neg (by omega)]
    exact m

/-- the float next to an angle -/
theorem faithful_angle {Φ : ℝ} (h : |Φ| ≤ Real.pi) : (faithful 23 8 Φ).isFin = true ∧ |(faithful 23 8 Φ).toReal| ≤ (GFloat.pi : F32).toReal ∧
    |(faithful 23 8 Φ).toReal - Φ| ≤ 6.3 * uRnd 23 := by
  obtain ⟨pf, pe, p1, p2⟩ := pi_f32
  have hlo := Real.pi_gt_d20
  have hhi := Real.pi_lt_d20
  have hpi : Real.pi ≤ (GFloat.pi : F32).toReal := by
    have v1 : (GFloat.pi : F32).toReal = 13176795 / 2 ^ 22 := by
      have := sval_cast (GFloat.pi : F32)
      rw [show (GFloat.pi : F32).sval = 13176795 * 2 ^ 127 by decide +kernel] at this
      refine (mul_right_cancel₀ (b := (2 : ℝ) ^ fK 23 8) (by positivity) ?_).symm
      rw [← this]
      unfold fK; norm_num
    rw [v1]; norm_num; linarith
  obtain ⟨h1, h2⟩ := _root_.abs_le.1 h
  have k1 := rndK_mono 23 8 (show -(GFloat.pi : F32).toReal ≤ Φ by linarith)
  have k2 := rndK_mono 23 8 (show Φ ≤ (GFloat.pi : F32).toReal by linarith)
  rw [rndK_neg, rndK_toReal (notNaN_of_isFin pf)] at k1
  rw [rndK_toReal (notNaN_of_isFin pf)] at k2
  have kp : 2 ≤ (GFloat.pi : F32).key ∧ (GFloat.pi : F32).key + 2 < kInf 23 8 := by decide +kernel
  obtain ⟨nn, ke⟩ := faithful_key (mw := 23) (ew := 8) Φ
  have kb : -(GFloat.pi : F32).key ≤ (faithful 23 8 Φ).key ∧ (faithful 23 8 Φ).key ≤ (GFloat.pi : F32).key := by
    rw [ke]
    split
    · split
      · omega
      · split <;> omega
    · omega
  have kk := kInf_pos (mw := 23) (ew := 8)
  have fin : (faithful 23 8 Φ).isFin = true := isFin_iff_key.2 ⟨by omega, by omega⟩
  have bnd : |(faithful 23 8 Φ).toReal| ≤ (GFloat.pi : F32).toReal := by
    rw [_root_.abs_le, ← toReal_negop]
    exact ⟨toReal_le_iff.2 (by rw [key_negop]; omega), toReal_le_iff.2 (by omega)⟩
  refine ⟨fin, bnd, ?_⟩
  have acc := faithful_accurate (mw := 23) (ew := 8) (f := fun _ => Φ) (fl := fun _ => faithful 23 8 Φ) (x := Scalar.zero) rfl
  have kd := (nextDown_key nn).2
  have ku := (nextUp_key nn).2
  have e := (accurate_rel acc (isFin_iff_key.2 ⟨by omega, by omega⟩) (isFin_iff_key.2 ⟨by omega, by omega⟩)).2
  have u0 := uRnd_pos (mw := 23)
  have et : etaRnd 23 8 ≤ uRnd 23 * 0.001 := by unfold etaRnd uRnd fK; norm_num
  refine e.trans (max_le (by linarith) ?_)
  have := mul_le_mul_of_nonneg_left bnd u0.le
  nlinarith

/-- There is a libm meeting all the assumptions made above. -/
theorem uvLibm_exists : ∃ L : Libm 23 8, @LawfulLibm 23 8 _ L ∧ @Atan2Lawful L ∧ @AcosDecreasing L ∧
    ∀ x : F32, L.acos x = faithful 23 8 (Real.arccos x.toReal) := by
  obtain ⟨L0, h0⟩ := lawfulLibm_exists 23 8
  let L : Libm 23 8 := { L0 with acos := fun x => faithful 23 8 (Real.arccos x.toReal),
                                  atan2 := fun y x => faithful 23 8 (Complex.arg ⟨x.toReal, y.toReal⟩) }
  refine ⟨L, @LawfulLibm.mk 23 8 _ L h0.sin h0.cos h0.asin (fun x _ _ _ => faithful_accurate rfl) h0.atan h0.atan_bot h0.atan_top,
    @Atan2Lawful.mk L ?_ ?_ ?_, ?_, fun _ => rfl⟩
  · exact fun y x _ _ => (faithful_angle (Complex.abs_arg_le_pi _)).1
  · exact fun y x _ _ => (faithful_angle (Complex.abs_arg_le_pi _)).2.1
  · intro y x _ _
    refine ⟨Complex.arg ⟨x.toReal, y.toReal⟩, ⟨Complex.abs_arg_le_pi _, ?_, ?_⟩, (faithful_angle (Complex.abs_arg_le_pi _)).2.2⟩
    · have := Complex.norm_mul_cos_arg ⟨x.toReal, y.toReal⟩
      rw [Complex.norm_def, Complex.normSq_mk, ← sq, ← sq] at this
      exact this.symm
    · have := Complex.norm_mul_sin_arg ⟨x.toReal, y.toReal⟩
      rw [Complex.norm_def, Complex.normSq_mk, ← sq, ← sq] at this
      exact this.symm
  · intro x y _ _ _ hxy _
    exact faithful_mono_nonneg (Real.arccos_nonneg _) (Real.antitone_arccos hxy)

def uvRay : Ray F32 := ⟨new3 (F32.lit 1 / F32.lit 2) (F32.lit 0) (F32.lit 3), new3 (F32.lit 0) (F32.lit 0) (-F32.lit 1), F32.lit 10⟩

def uvT : F32 := ⟨1074303754#32⟩
def uvT1 : F32 := ⟨1081568502#32⟩

/-- Non-vacuity of C114: with such a libm the unit sphere meets the hypotheses, and a ray hits it at a point of the upper half
with finite coordinates. -/
theorem uv_hit : ∃ (L : Libm 23 8) (_ : LawfulLibm 23 8), Atan2Lawful ∧ AcosDecreasing ∧
    ∃ s, Sphere.new (F32.lit 1) (-F32.lit 1) (F32.lit 1) GFloat.pi = some s ∧
    UVRegular (F32.lit 1) (-F32.lit 1) (F32.lit 1) GFloat.pi ∧
    ∃ r, s.intersect uvRay = some r ∧ r.surfaceInteraction.p.x.isFin = true ∧ r.surfaceInteraction.p.y.isFin = true ∧
      0 ≤ r.surfaceInteraction.p.z.toReal ∧ r.surfaceInteraction.p.z.toReal ≤ (F32.lit 1).toReal ∧
      r.surfaceInteraction.p = uvRay.eval uvT := by
  obtain ⟨L, hL, ha, hd, hc⟩ := uvLibm_exists
  obtain ⟨pf, pe, p1, p2⟩ := pi_f32
  have l1 := toReal_lit_small.1
  have hp := Real.pi_gt_d20
  have c0 : (Inherent.clamp (-F32.lit 1 / F32.lit 1) Scalar.zero Scalar.one : F32) = F32.lit 0 := by decide +kernel
  have c1 : (Inherent.clamp (F32.lit 1 / F32.lit 1) Scalar.zero Scalar.one : F32) = F32.lit 1 := by decide +kernel
  have l0 : (F32.lit 0).toReal = 0 := by rw [toReal_lit (by decide)]; norm_num
  have hr : UVRegular (F32.lit 1) (-F32.lit 1) (F32.lit 1) (GFloat.pi : F32) := by
    refine ⟨by decide +kernel, by rw [l1]; norm_num, by decide +kernel, by decide +kernel, pf, by linarith, by linarith, ?_⟩
    rw [c0, c1]
    change (L.acos _).toReal ≠ (L.acos _).toReal
    rw [hc, hc, l0, l1, Real.arccos_zero, Real.arccos_one]
    have e1 := (faithful_angle (Φ := Real.pi / 2) (by rw [abs_of_pos (by linarith)]; linarith)).2.2
    have e2 := (faithful_angle (Φ := 0) (by rw [abs_zero]; linarith)).2.2
    have us := uRnd_small (mw := 23) (by norm_num)
    intro h
    rw [h] at e1
    have := (_root_.abs_le.1 e1).1
    have := (_root_.abs_le.1 e2).2
    linarith
  have hn : Scalar.lt (-F32.lit 1) (F32.lit 1 : F32) = true := by decide +kernel
  refine ⟨L, hL, ha, hd, _, by unfold Sphere.new; rw [if_pos hn], hr, ?_⟩
  have hq : solveQuadratic uvRay.direction.squareNorm ((GVec.conv .vector uvRay.origin).dot uvRay.direction * GFloat.fromI64 2)
      ((GVec.conv .vector uvRay.origin).squareNorm - Scalar.square (F32.lit 1)) = some (uvT, uvT1) := by decide +kernel
  have g1 : (!Scalar.inRange uvT Scalar.zero uvRay.tmax) = false := by decide +kernel
  have g2 : (!Scalar.inRange (uvRay.eval uvT).z (-F32.lit 1) (F32.lit 1)) = false := by decide +kernel
  have fx : (uvRay.eval uvT).x.isFin = true := by decide +kernel
  have fy : (uvRay.eval uvT).y.isFin = true := by decide +kernel
  have g3 : Scalar.gt (Libm.atan2 (uvRay.eval uvT).y (uvRay.eval uvT).x) (GFloat.pi : F32) = false := by
    rw [Bool.eq_false_iff]
    intro h
    have h1 := toReal_lt_iff.2 (sgt_iff.1 h).2.2
    have h2 := (_root_.abs_le.1 (ha.range _ _ fy fx)).2
    linarith
  have key : ∀ s : Sphere F32, s.radius = F32.lit 1 → s.zMin = -F32.lit 1 → s.zMax = F32.lit 1 → s.phiMax = GFloat.pi →
      s.intersectRay uvRay = some ⟨uvT, uvRay.eval uvT, Libm.atan2 (uvRay.eval uvT).y (uvRay.eval uvT).x⟩ := by
    intro s e1 e2 e3 e4
    have hg : s.getIntersection uvRay uvT = some ⟨uvT, uvRay.eval uvT, Libm.atan2 (uvRay.eval uvT).y (uvRay.eval uvT).x⟩ := by
      unfold Sphere.getIntersection
      dsimp only
      rw [e2, e3, e4, g1, g2]
      change (if Scalar.gt (Libm.atan2 (uvRay.eval uvT).y (uvRay.eval uvT).x) (GFloat.pi : F32) then none else some _) = _
      rw [g3]
      rfl
    unfold Sphere.intersectRay
    dsimp only
    rw [e1, hq]
    dsimp only
    rw [hg]
  obtain ⟨i, hi1, hi2⟩ : ∃ i : SphereHit F32, i.p = uvRay.eval uvT ∧ ∀ s : Sphere F32, s.radius = F32.lit 1 → s.zMin = -F32.lit 1 →
      s.zMax = F32.lit 1 → s.phiMax = GFloat.pi → s.intersectRay uvRay = some i := ⟨_, rfl, key⟩
  refine ⟨_, Option.map_eq_some_iff.2 ⟨i, hi2 _ rfl rfl rfl rfl, rfl⟩, ?_⟩
  · change i.p.x.isFin = true ∧ i.p.y.isFin = true ∧ 0 ≤ i.p.z.toReal ∧ i.p.z.toReal ≤ _ ∧ i.p = _
    rw [hi1]
    refine ⟨fx, fy, ?_, ?_, rfl⟩
    · rw [← l0]; exact toReal_le_iff.2 (show (F32.lit 0).key ≤ (uvRay.eval uvT).z.key by decide +kernel)
    · exact toReal_le_iff.2 (show (uvRay.eval uvT).z.key ≤ (F32.lit 1).key by decide +kernel)

end Scarlet
