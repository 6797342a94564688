import Verif.Props.FloatShadeCore
import Verif.Props.ParallelBox

/-!
# C125: the shading frame of a sphere hit on floats
-/

namespace Scarlet
open Flt GVec

/-- numbers used below -/
theorem shade_g {u δ R ρ g : ℝ} (hu : 0 < u) (hδ : 0 ≤ δ) (hR : 0 < R) (hρ : 0 < ρ) (aw : (150 * u + 50 * δ) * R ≤ ρ)
    (hg : g = (40 * u + 2.2 * δ) * (R ^ 2 / ρ)) : g ≤ 0.267 * R := by
  rw [hg, mul_div_assoc', div_le_iff₀ hρ]
  have h1 := mul_le_mul_of_nonneg_right aw hR.le
  have h2 := mul_nonneg hδ (sq_nonneg R)
  have h3 := mul_pos hu (sq_pos_of_pos hR)
  linarith

theorem shade_lo {δ R N q : ℝ} (δ1 : 49 * δ ≤ 1) (hN : 0 ≤ N) (N2 : N ^ 2 = q) (hδ : |q - R ^ 2| ≤ δ * R ^ 2) :
    0.9897 * R ≤ N := by
  refine (abs_le_of_sq_le_sq' ?_ hN).2
  rw [N2]
  have := (_root_.abs_le.1 hδ).1
  nlinarith [mul_le_mul_of_nonneg_right δ1 (sq_nonneg R)]

theorem shade_tiny {u η w R : ℝ} (hu : 0 < u) (hw : 0 < w) (hR : 0 < R) (hη : 0 < η) (et : η ≤ u * 0.001) (t : 13 * η ≤ u * (w * R) ^ 2) :
    η ≤ u * (w * R) := by
  by_contra hc
  push Not at hc
  have wR := mul_pos hw hR
  have h1 : u * (w * R) < u * 0.001 := lt_of_lt_of_le hc et
  have h2 : w * R < 0.001 := lt_of_mul_lt_mul_left h1 hu.le
  have h3 : u * (w * R) ^ 2 ≤ u * (w * R) := mul_le_mul_of_nonneg_left (by nlinarith) hu.le
  linarith

theorem shade_sum {u η w R N Q : ℝ} (hu : 0 < u) (hw : 0 < w) (hR : 0 < R) (hη : 0 < η) (t : 13 * η ≤ u * (w * R) ^ 2)
    (hN : 0.9897 * R ≤ N) (hQ : 0 ≤ Q) (h : w * N / 2 ≤ Real.sqrt Q) : 3 * η ≤ u * Q := by
  have N0 : 0 < N := by linarith
  have hq : (w * N / 2) ^ 2 ≤ Q := by
    rw [← Real.sq_sqrt hQ]
    exact pow_le_pow_left₀ (by positivity) h 2
  have hq2 : (w * (0.9897 * R) / 2) ^ 2 ≤ (w * N / 2) ^ 2 :=
    pow_le_pow_left₀ (by positivity) (div_le_div_of_nonneg_right (mul_le_mul_of_nonneg_left hN hw.le) (by norm_num)) 2
  have h2 := mul_le_mul_of_nonneg_left (hq2.trans hq) hu.le
  have e : u * (w * (0.9897 * R) / 2) ^ 2 = 0.9897 ^ 2 / 4 * (u * (w * R) ^ 2) := by ring
  rw [e] at h2
  linarith

theorem shade_rel {u δ R N ρ g : ℝ} (hu : 0 < u) (hδ : 0 ≤ δ) (hR : 0 < R) (hρ : 0 < ρ) (hN : 0.9897 * R ≤ N)
    (hg : g = (40 * u + 2.2 * δ) * (R ^ 2 / ρ)) : 2.733 * g / N ≤ (114 * u + 7 * δ) * (R / ρ) := by
  rw [div_le_iff₀ (by linarith)]
  have e : (114 * u + 7 * δ) * (R / ρ) * (0.9897 * R) = 0.9897 * ((114 * u + 7 * δ) * (R ^ 2 / ρ)) := by ring
  have T0 : 0 < R ^ 2 / ρ := by positivity
  have B0 : 0 ≤ (114 * u + 7 * δ) * (R / ρ) := by positivity
  refine le_trans ?_ (mul_le_mul_of_nonneg_left hN B0)
  rw [e, hg]
  have h1 := mul_nonneg hδ T0.le
  have h2 := mul_pos hu T0
  linarith

/-! ### no overflow -/

theorem big_bits : (⟨0x7B800000#32⟩ : F32).toReal = 2 ^ 120 := by
  rw [toReal_bits32 _ 0 120 (by decide +kernel) (by decide +kernel) (by decide +kernel) (by decide +kernel)]
  norm_num

/-- rounding a number of size at most `A ≤ 2^120` -/
theorem fin_small {z : F32} {q A : ℝ} (hz : z.isNaN = false ∧ z.key = rndK 23 8 q) (h : |q| ≤ A) (hA : A ≤ 2 ^ 120) :
    z.isFin = true ∧ |z.toReal| ≤ 2 * A + 1 := by
  have f := (rounded_bound hz (c := ⟨0x7B800000#32⟩) (by decide +kernel) (by rw [big_bits]; exact h.trans hA)).1
  refine ⟨f, ?_⟩
  have e := err_of_key f hz.2
  have us := uRnd_small (mw := 23) (by norm_num)
  have et : etaRnd 23 8 ≤ uRnd 23 * 0.001 := by unfold etaRnd uRnd fK; norm_num
  have u0 := uRnd_pos (mw := 23)
  have q0 := abs_nonneg q
  have e1 : |z.toReal - q| ≤ |q| + 1 := e.trans (max_le (by linarith) (by nlinarith))
  have e2 := abs_add_le (z.toReal - q) q
  rw [sub_add_cancel] at e2
  linarith

theorem mul_small {x y : F32} {A B : ℝ} (hx : x.isFin = true ∧ |x.toReal| ≤ A) (hy : y.isFin = true ∧ |y.toReal| ≤ B)
    (h : A * B ≤ 2 ^ 120) : (x * y).isFin = true ∧ |(x * y).toReal| ≤ 2 * (A * B) + 1 :=
  fin_small (mul_fin hx.1 hy.1) (by rw [abs_mul]; exact mul_le_mul hx.2 hy.2 (abs_nonneg _) ((abs_nonneg _).trans hx.2)) h

theorem sub_small {x y : F32} {A B : ℝ} (hx : x.isFin = true ∧ |x.toReal| ≤ A) (hy : y.isFin = true ∧ |y.toReal| ≤ B)
    (h : A + B ≤ 2 ^ 120) : (x - y).isFin = true ∧ |(x - y).toReal| ≤ 2 * (A + B) + 1 :=
  fin_small (sub_fin hx.1 hy.1) ((_root_.abs_sub _ _).trans (add_le_add hx.2 hy.2)) h

theorem add_small {x y : F32} {A B : ℝ} (hx : x.isFin = true ∧ |x.toReal| ≤ A) (hy : y.isFin = true ∧ |y.toReal| ≤ B)
    (h : A + B ≤ 2 ^ 120) : (x + y).isFin = true ∧ |(x + y).toReal| ≤ 2 * (A + B) + 1 :=
  fin_small (add_fin hx.1 hy.1) ((abs_add_le _ _).trans (add_le_add hx.2 hy.2)) h

theorem small_mono {x : F32} {A B : ℝ} (h : x.isFin = true ∧ |x.toReal| ≤ A) (hAB : A ≤ B) : x.isFin = true ∧ |x.toReal| ≤ B :=
  ⟨h.1, h.2.trans hAB⟩

theorem cross_small {a b : GVec F32 3 .vector} (U : ∀ i, (a.vec i).isFin = true ∧ |(a.vec i).toReal| ≤ 2 ^ 22)
    (V : ∀ i, (b.vec i).isFin = true ∧ |(b.vec i).toReal| ≤ 2 ^ 23) : (a.cross b).squareNorm.isFin = true := by
  have C : ∀ i, ((a.cross b).vec i).isFin = true ∧ |((a.cross b).vec i).toReal| ≤ 2 ^ 49 := by
    intro i
    have m := fun i j => mul_small (U i) (V j) (by norm_num)
    fin_cases i
    · exact small_mono (sub_small (m 1 2) (m 2 1) (by norm_num)) (by norm_num)
    · exact small_mono (sub_small (m 2 0) (m 0 2) (by norm_num)) (by norm_num)
    · exact small_mono (sub_small (m 0 1) (m 1 0) (by norm_num)) (by norm_num)
  have Q : ∀ i, (Scalar.square ((a.cross b).vec i)).isFin = true ∧ |(Scalar.square ((a.cross b).vec i)).toReal| ≤ 2 ^ 100 :=
    fun i => small_mono (mul_small (C i) (C i) (by norm_num)) (by norm_num)
  have z8 : (Scalar.zero : F32).isFin = true ∧ |(Scalar.zero : F32).toReal| ≤ 0 := ⟨by decide +kernel, by rw [toReal_szero, abs_zero]⟩
  exact (add_small (add_small (add_small z8 (Q 0) (by norm_num)) (Q 1) (by norm_num)) (Q 2) (by norm_num)).1

/-! ### zero or NaN -/

/-- NaN or a zero -/
def ZN (x : F32) : Prop := x.isNaN = true ∨ x.key = 0

theorem fin_key0 {x : F32} (h : x.key = 0) (hn : x.isNaN = false) : x.isFin = true := by
  rcases isFin_or_isInf hn with h' | h'
  · exact h'
  · have := kInf_pos (mw := 23) (ew := 8)
    rcases isInf_iff_key.1 h' with h2 | h2 <;> omega

theorem ZN_mul {x y : F32} (hx : ZN x) : ZN (x * y) := by
  rcases hn : x.isNaN with _ | _
  · have h0 := hx.resolve_left (by rw [hn]; decide)
    have xf := fin_key0 h0 hn
    rcases hm : y.isNaN with _ | _
    · rcases isFin_or_isInf hm with h' | h'
      · have zk := (mul_fin xf h').2
        rw [toReal_eq_zero_iff.2 h0, zero_mul, rndK_zero] at zk
        exact Or.inr zk
      · exact Or.inl ((mul_inf hn hm (Or.inr h')).1 (Or.inl h0))
    · exact Or.inl (isNaN_mul_of_right hm)
  · exact Or.inl (isNaN_mul_of_left hn)

theorem ZN_add {x y : F32} (hx : ZN x) (hy : ZN y) : ZN (x + y) := by
  rcases hn : x.isNaN with _ | _
  · have h0 := hx.resolve_left (by rw [hn]; decide)
    rcases hm : y.isNaN with _ | _
    · have h1 := hy.resolve_left (by rw [hm]; decide)
      have zk := (add_fin (fin_key0 h0 hn) (fin_key0 h1 hm)).2
      rw [toReal_eq_zero_iff.2 h0, toReal_eq_zero_iff.2 h1, add_zero, rndK_zero] at zk
      exact Or.inr zk
    · exact Or.inl (isNaN_add_of_right hm)
  · exact Or.inl (isNaN_add_of_left hn)

theorem ZN_neg {x : F32} (hx : ZN x) : ZN (-x) := by
  rcases hx with h | h
  · exact Or.inl ((isNaN_neg x).trans h)
  · exact Or.inr (by rw [show (-x : F32).key = -x.key from key_neg x, h, neg_zero])

theorem ZN_sub {x y : F32} (hx : ZN x) (hy : ZN y) : ZN (x - y) := ZN_add hx (ZN_neg hy)

theorem ZN_sqrt {x : F32} (hx : ZN x) : ZN (GFloat.sqrt x) := by
  rcases hn : x.isNaN with _ | _
  · have h0 := hx.resolve_left (by rw [hn]; decide)
    have zk := (sqrt_fin (fin_key0 h0 hn) h0.ge).2
    rw [toReal_eq_zero_iff.2 h0, Real.sqrt_zero, rndK_zero] at zk
    exact Or.inr zk
  · refine Or.inl ?_
    change (Flt.sqrt x).isNaN = true
    unfold Flt.sqrt
    rw [hn]
    exact isNaN_nan

theorem ZN_div {x y : F32} (hx : ZN x) (hy : ZN y) : (x / y).isNaN = true := by
  rcases hx with h | h
  · exact isNaN_div_of_left h
  · rcases hy with h' | h'
    · exact isNaN_div_of_right h'
    · exact div_zero_zero h h'

section
variable [Libm 23 8] [LawfulLibm 23 8] {radius zMin zMax phiMax : F32}

/-- C125: the tangents of a sphere hit on floats are those of the parameterization at the hit point: `dpdu` is `(-y, x, 0)` times
`phi_max + π`, `dpdv` is `(z x/ρ, z y/ρ, -ρ)` times `theta_max - theta_min`, up to rounding. -/
theorem C125_tangents (ha : Atan2Lawful) (hd : AcosDecreasing) {s : Sphere F32} (hs : Sphere.new radius zMin zMax phiMax = some s)
    (hr : UVRegular radius zMin zMax phiMax) (ray : Ray F32) (r : IntersectionResult F32) (h : s.intersect ray = some r)
    {δ ρ : ℝ} (hg : ShadeRegular s r δ ρ) {K L l t x y z : ℝ} (hK : K = (s.phiMax + GFloat.pi : F32).toReal)
    (hL : L = (s.thetaMax - s.thetaMin : F32).toReal) (hl : l = |L|) (ht : t = s.radius.toReal ^ 2 / ρ)
    (hx : x = r.surfaceInteraction.p.x.toReal) (hy : y = r.surfaceInteraction.p.y.toReal) (hz : z = r.surfaceInteraction.p.z.toReal) :
    (|r.surfaceInteraction.dpdu.x.toReal - -y * K| ≤ 2 * (uRnd 23 * ρ * K) ∧
      |r.surfaceInteraction.dpdu.y.toReal - x * K| ≤ 2 * (uRnd 23 * ρ * K) ∧
      r.surfaceInteraction.dpdu.z.toReal = 0) ∧
    |r.surfaceInteraction.dpdv.x.toReal - L * (z * (x / ρ))| ≤ l * (14.6 * uRnd 23 * s.radius.toReal) ∧
    |r.surfaceInteraction.dpdv.y.toReal - L * (z * (y / ρ))| ≤ l * (14.6 * uRnd 23 * s.radius.toReal) ∧
    |r.surfaceInteraction.dpdv.z.toReal - -(L * ρ)| ≤ l * ((17 * uRnd 23 + 2.1 * δ) * t) := by
  obtain ⟨L0, L2, -⟩ := shade_theta hd hs hr h
  obtain ⟨rfl, -⟩ := uv_form hs h
  obtain ⟨Kf, K0⟩ := phi_den hr
  obtain ⟨eu, ev, -⟩ := shade_form h
  obtain ⟨xf, yf, zf, z0, hρ, hδ, aw, t1, t2, -, ov⟩ := hg
  have fx := (isFin_of_mul (sumLoop_fin ov 0)).1
  have fy := (isFin_of_mul (sumLoop_fin ov 1)).1
  have fx1 := isFin_of_mul (isFin_of_sub fx).1
  have fx2 := isFin_of_mul (isFin_of_sub fx).2
  have fy1 := isFin_of_mul (isFin_of_sub fy).1
  have fy2 := isFin_of_mul (isFin_of_sub fy).2
  have u0 := uRnd_pos (mw := 23)
  have us := uRnd_small (mw := 23) (by norm_num)
  have η0 := etaRnd_pos (mw := 23) (ew := 8)
  have R0 := hr.radiusPos
  dsimp only at aw hδ t1 t2 hK hL ht eu ev ⊢
  have ρ2 : ρ ^ 2 = r.surfaceInteraction.p.x.toReal ^ 2 + r.surfaceInteraction.p.y.toReal ^ 2 := by
    rw [hρ, Real.sq_sqrt (by positivity)]
  obtain ⟨δ0, δ1, ρ0, ρ1, z1, Rt, zq⟩ := shade_sizes u0 R0 z0 ρ2 (by rw [hρ]; exact Real.sqrt_nonneg _) hδ aw
  obtain ⟨ac, as⟩ := shade_azimuth ha xf yf hρ ρ0
  obtain ⟨θf, θc, θs⟩ := shade_polar zf hr.radiusFin R0 z0 δ0 zq
  obtain ⟨ns, -⟩ := near_trig (mw := 23) (ew := 8) (by norm_num) (by norm_num) θf
  have S0 : |Real.sin (Libm.acos (Inherent.clamp (r.surfaceInteraction.p.z / radius) Scalar.zero Scalar.one : F32)).toReal| ≤ 1 :=
    Real.abs_sin_le_one _
  have sc := shade_sin (S := Real.sin (Libm.acos (Inherent.clamp (r.surfaceInteraction.p.z / radius) Scalar.zero Scalar.one : F32)).toReal)
    R0 ρ0 z0 (by linarith) (by rw [ρ2]; exact hδ) θc (Real.sin_sq_add_cos_sq _) θs
  have x1 : |r.surfaceInteraction.p.x.toReal| ≤ ρ := abs_le_of_sq_le_sq (by rw [ρ2]; linarith [sq_nonneg r.surfaceInteraction.p.y.toReal]) ρ0.le
  have y1 : |r.surfaceInteraction.p.y.toReal| ≤ ρ := abs_le_of_sq_le_sq (by rw [ρ2]; linarith [sq_nonneg r.surfaceInteraction.p.x.toReal]) ρ0.le
  have cx : |r.surfaceInteraction.p.x.toReal / ρ| ≤ 1 := by rw [abs_div, abs_of_pos ρ0]; exact div_le_one_of_le₀ x1 ρ0.le
  have cy : |r.surfaceInteraction.p.y.toReal / ρ| ≤ 1 := by rw [abs_div, abs_of_pos ρ0]; exact div_le_one_of_le₀ y1 ρ0.le
  rw [eu] at fx1 fx2 fy1 fy2
  rw [ev] at fx1 fx2 fy1 fy2
  rw [eu, ev]
  clear eu ev ov fx fy h hs
  dsimp only at L0 L2
  subst hx hy hz hK hL ht
  generalize r.surfaceInteraction.p.x = px at *
  generalize r.surfaceInteraction.p.y = py at *
  generalize r.surfaceInteraction.p.z = pz at *
  generalize Libm.atan2 py px = φ at *
  generalize (Libm.acos (Inherent.clamp (pz / radius) Scalar.zero Scalar.one : F32)) = θ at *
  generalize (Libm.acos (Inherent.clamp (zMax / radius) Scalar.zero Scalar.one : F32) -
              Libm.acos (Inherent.clamp (zMin / radius) Scalar.zero Scalar.one)) = Lf at *
  generalize (phiMax + GFloat.pi : F32) = K at *
  replace fx1 : (px * K).isFin = true ∧ (-radius * Libm.sin θ * Lf).isFin = true := fx1
  replace fx2 : (Scalar.zero * K : F32).isFin = true ∧ (pz * Libm.sin φ * Lf).isFin = true := fx2
  replace fy1 : (Scalar.zero * K : F32).isFin = true ∧ (pz * Libm.cos φ * Lf).isFin = true := fy1
  replace fy2 : (-py * K).isFin = true ∧ (-radius * Libm.sin θ * Lf).isFin = true := fy2
  have ux := mul_err' fy2.1
  have uy := mul_err' fx1.1
  have vx := mul_err' fy1.2
  have vy := mul_err' fx2.2
  have vz := mul_err' fx1.2
  have mx := mul_err' (isFin_of_mul fy1.2).1
  have my := mul_err' (isFin_of_mul fx2.2).1
  have mz := mul_err' (isFin_of_mul fx1.2).1
  rw [show (-py : F32).toReal = -py.toReal from toReal_neg py] at ux
  rw [show (-radius : F32).toReal = -radius.toReal from toReal_neg radius] at mz
  change (|(-py * K).toReal - -py.toReal * K.toReal| ≤ _ ∧ |(px * K).toReal - _| ≤ _ ∧ (Scalar.zero * K : F32).toReal = 0) ∧
    |(pz * Libm.cos φ * Lf).toReal - _| ≤ _ ∧ |(pz * Libm.sin φ * Lf).toReal - _| ≤ _ ∧ |(-radius * Libm.sin θ * Lf).toReal - _| ≤ _
  have l0 : 0 < l := by rw [hl]; exact abs_pos.2 L0.ne
  rw [← hl] at t2
  have l2 : l ≤ 2 := by rw [hl, abs_of_neg L0]; linarith
  have e1 : uRnd 23 * l * ρ ≤ uRnd 23 * l * (1.0102 * radius.toReal) := mul_le_mul_of_nonneg_left ρ1 (by positivity)
  have e2 : uRnd 23 * l * (1.0102 * radius.toReal) ≤ uRnd 23 * 2 * (1.0102 * radius.toReal) :=
    mul_le_mul_of_nonneg_right (mul_le_mul_of_nonneg_left l2 u0.le) (by positivity)
  have ulR : 0 < uRnd 23 * l * radius.toReal := by positivity
  have uR : 0 < uRnd 23 * radius.toReal := by positivity
  have hη : etaRnd 23 8 ≤ 2.05 * uRnd 23 * radius.toReal := by linarith
  have hηl : etaRnd 23 8 ≤ 1.02 * (uRnd 23 * l * radius.toReal) := by linarith
  have Rt0 : 0 < radius.toReal ^ 2 / ρ := by positivity
  refine ⟨⟨?_, ?_, ?_⟩, ?_, ?_, ?_⟩
  · refine ux.trans ?_
    rw [abs_mul, abs_neg, abs_of_pos K0]
    have : uRnd 23 * (|py.toReal| * K.toReal) ≤ uRnd 23 * (ρ * K.toReal) :=
      mul_le_mul_of_nonneg_left (mul_le_mul_of_nonneg_right y1 K0.le) u0.le
    linarith
  · refine uy.trans ?_
    rw [abs_mul, abs_of_pos K0]
    have : uRnd 23 * (|px.toReal| * K.toReal) ≤ uRnd 23 * (ρ * K.toReal) :=
      mul_le_mul_of_nonneg_left (mul_le_mul_of_nonneg_right x1 K0.le) u0.le
    linarith
  · have zk := (mul_fin (x := (Scalar.zero : F32)) (y := K) (by decide +kernel) Kf).2
    rw [toReal_szero, zero_mul, rndK_zero] at zk
    exact toReal_eq_zero_iff.2 zk
  · exact shade_flat u0 us R0 z0 z1 l0 hl.symm η0 hη hηl cx ac mx vx
  · exact shade_flat u0 us R0 z0 z1 l0 hl.symm η0 hη hηl cy as my vy
  · refine shade_steep u0 us R0 δ0 Rt l0 hl.symm η0 hη hηl S0 (ns.2.trans (le_of_eq (by norm_num))) (sc.trans ?_) mz vz
    exact mul_le_mul_of_nonneg_right (by linarith) Rt0.le

/-- the unnormalized normal, and the conditions of C84 -/
theorem shade_cross (ha : Atan2Lawful) (hd : AcosDecreasing) {s : Sphere F32} (hs : Sphere.new radius zMin zMax phiMax = some s)
    (hr : UVRegular radius zMin zMax phiMax) (ray : Ray F32) (r : IntersectionResult F32) (h : s.intersect ray = some r)
    {δ ρ : ℝ} (hg : ShadeRegular s r δ ρ) {N : ℝ} {p : _root_.Fin 3 → ℝ} (hp : p = fun i => (r.surfaceInteraction.p.vec i).toReal)
    (hN : N = Real.sqrt (∑ i, p i ^ 2)) (v : GVec F32 3 .vector)
    (hv : v = r.surfaceInteraction.dpdu.cross r.surfaceInteraction.dpdv) :
    3 * etaRnd 23 8 ≤ uRnd 23 * ∑ i, (v.vec i).toReal ^ 2 ∧
    ∀ i, |(v.vec i).toReal / Real.sqrt (∑ j, (v.vec j).toReal ^ 2) - p i / N| ≤ (114 * uRnd 23 + 7 * δ) * (s.radius.toReal / ρ) := by
  obtain ⟨L0, L2, -⟩ := shade_theta hd hs hr h
  obtain ⟨⟨ux, uy, uz⟩, vx, vy, vz⟩ := C125_tangents ha hd hs hr ray r h hg rfl rfl rfl rfl rfl rfl rfl
  have es := (uv_form hs h).1
  have R0 : 0 < s.radius.toReal := by rw [es]; exact hr.radiusPos
  have K0 : 0 < (s.phiMax + GFloat.pi : F32).toReal := by rw [es]; exact (phi_den hr).2
  obtain ⟨xf, yf, zf, z0, hρ, hδ, aw, t1, t2, t3, ov⟩ := hg
  rw [← hv] at ov
  have fx := (isFin_of_mul (sumLoop_fin ov 0)).1
  have fy := (isFin_of_mul (sumLoop_fin ov 1)).1
  have fz := (isFin_of_mul (sumLoop_fin ov 2)).1
  have u0 := uRnd_pos (mw := 23)
  have us := uRnd_small (mw := 23) (by norm_num)
  have η0 := etaRnd_pos (mw := 23) (ew := 8)
  have et := eta_tiny
  have ρ2 : ρ ^ 2 = r.surfaceInteraction.p.x.toReal ^ 2 + r.surfaceInteraction.p.y.toReal ^ 2 := by
    rw [hρ, Real.sq_sqrt (by positivity)]
  obtain ⟨δ0, δ1, ρ0, ρ1, z1, Rt, zq⟩ := shade_sizes u0 R0 z0 ρ2 (by rw [hρ]; exact Real.sqrt_nonneg _) hδ aw
  obtain ⟨c1, c2, c3⟩ := C117_cross (mw := 23) (ew := 8) (by norm_num) r.surfaceInteraction.dpdu r.surfaceInteraction.dpdv
  rw [← hv] at c1 c2 c3
  replace c1 := c1 fx
  replace c2 := c2 fy
  replace c3 := c3 fz
  clear hr hs h es ha hd
  rw [uz] at c1 c2
  have e0 : v.vec 0 = v.x := rfl
  have e1 : v.vec 1 = v.y := rfl
  have e2 : v.vec 2 = v.z := rfl
  have p0 : p 0 = r.surfaceInteraction.p.x.toReal := by rw [hp]; rfl
  have p1 : p 1 = r.surfaceInteraction.p.y.toReal := by rw [hp]; rfl
  have p2 : p 2 = r.surfaceInteraction.p.z.toReal := by rw [hp]; rfl
  clear hp hv ov
  generalize r.surfaceInteraction.p.x.toReal = x at *
  generalize r.surfaceInteraction.p.y.toReal = y at *
  generalize r.surfaceInteraction.p.z.toReal = z at *
  generalize r.surfaceInteraction.dpdu.x.toReal = Ux at *
  generalize r.surfaceInteraction.dpdu.y.toReal = Uy at *
  generalize r.surfaceInteraction.dpdv.x.toReal = Vx at *
  generalize r.surfaceInteraction.dpdv.y.toReal = Vy at *
  generalize r.surfaceInteraction.dpdv.z.toReal = Vz at *
  generalize s.radius.toReal = R at *
  generalize (s.phiMax + GFloat.pi : F32).toReal = K at *
  generalize (s.thetaMax - s.thetaMin : F32).toReal = L at *
  obtain ⟨l, hl⟩ : ∃ l, l = |L| := ⟨_, rfl⟩
  rw [← hl] at t2 t3 vx vy vz
  have l0 : 0 < l := by rw [hl]; exact abs_pos.2 L0.ne
  have hL : L = -l := by rw [hl, abs_of_neg L0, _root_.neg_neg]
  obtain ⟨w, hw⟩ : ∃ w, w = K * l * ρ := ⟨_, rfl⟩
  have w0 : 0 < w := by rw [hw]; positivity
  have hη : etaRnd 23 8 ≤ uRnd 23 * (K * l * ρ * R) := by
    rw [← hw] at t3 ⊢
    exact shade_tiny u0 w0 R0 η0 et t3
  have x1 : |x| ≤ ρ := abs_le_of_sq_le_sq (by rw [ρ2]; linarith [sq_nonneg y]) ρ0.le
  have y1 : |y| ≤ ρ := abs_le_of_sq_le_sq (by rw [ρ2]; linarith [sq_nonneg x]) ρ0.le
  have aL : |(-(L * ρ))| = l * ρ := by rw [abs_neg, abs_mul, ← hl, abs_of_pos ρ0]
  have X0 := shade_cross_xy (X := v.x.toReal) u0 us K0 l0 ρ0 R0 δ0 Rt ρ1 hη x1 aL uy vz
    (by simpa only [zero_mul, sub_zero, abs_zero, add_zero] using c1)
  have X1 := shade_cross_xy (X := v.y.toReal) (U := -Ux) u0 us K0 l0 ρ0 R0 δ0 Rt ρ1 hη y1 aL
    (by rw [← abs_neg]; convert ux using 2; ring) vz
    (by simpa only [zero_mul, zero_sub, neg_mul, abs_neg, abs_zero, zero_add] using c2)
  have X2 := shade_cross_z u0 us K0 l0 hL ρ0 R0 δ0 Rt hη ρ2 z0 z1 ux uy vx vy c3
  rw [← hw] at X0 X1 X2 t3
  rw [show x * K * -(L * ρ) = w * x by rw [hw, hL]; ring] at X0
  rw [show y * K * -(L * ρ) = w * y by rw [hw, hL]; ring] at X1
  have S3 : ∑ i, p i ^ 2 = x ^ 2 + y ^ 2 + z ^ 2 := by rw [Fin.sum_univ_three, p0, p1, p2]
  have N2 : N ^ 2 = x ^ 2 + y ^ 2 + z ^ 2 := by rw [hN, Real.sq_sqrt (by rw [S3]; positivity), S3]
  have Nn : 0 ≤ N := by rw [hN]; exact Real.sqrt_nonneg _
  have Nlo : 0.9897 * R ≤ N := shade_lo δ1 Nn N2 hδ
  have N0 : 0 < N := by linarith
  obtain ⟨g, hgg⟩ : ∃ g, g = (40 * uRnd 23 + 2.2 * δ) * (R ^ 2 / ρ) := ⟨_, rfl⟩
  rw [← hgg] at X0 X1 X2
  have gR := shade_g u0 δ0 R0 ρ0 aw hgg
  obtain ⟨h1, h2⟩ := shade_unit (p := p) (X := fun i => (v.vec i).toReal) w0 hN N0 (g := g)
    (by intro i; fin_cases i
        · change |(v.vec 0).toReal - w * p 0| ≤ _; rw [e0, p0]; exact X0
        · change |(v.vec 1).toReal - w * p 1| ≤ _; rw [e1, p1]; exact X1
        · change |(v.vec 2).toReal - w * p 2| ≤ _; rw [e2, p2]; exact X2) (by linarith)
  have Q0 : 0 ≤ ∑ i, (v.vec i).toReal ^ 2 := Finset.sum_nonneg fun i _ => sq_nonneg _
  exact ⟨shade_sum u0 w0 R0 η0 t3 Nlo Q0 h1, fun i => (h2 i).trans (shade_rel u0 δ0 R0 ρ0 Nlo hgg)⟩

/-- C125: the shading normal of a sphere hit on floats is the unit vector from the center to the hit, to within `120u + 7δ` times
`R / ρ` in each component, where `δ` is how far the hit is off the sphere and `ρ` its distance from the axis. -/
theorem C125_normal (ha : Atan2Lawful) (hd : AcosDecreasing) {s : Sphere F32} (hs : Sphere.new radius zMin zMax phiMax = some s)
    (hr : UVRegular radius zMin zMax phiMax) (ray : Ray F32) (r : IntersectionResult F32) (h : s.intersect ray = some r)
    {δ ρ : ℝ} (hg : ShadeRegular s r δ ρ) (i : _root_.Fin 3) :
    (r.surfaceInteraction.n.vec i).isFin = true ∧
    |(r.surfaceInteraction.n.vec i).toReal - (r.surfaceInteraction.p.vec i).toReal /
        Real.sqrt (∑ j, (r.surfaceInteraction.p.vec j).toReal ^ 2)| ≤
      (120 * uRnd 23 + 7 * δ) * (s.radius.toReal / ρ) := by
  obtain ⟨h1, h2⟩ := shade_cross ha hd hs hr ray r h hg rfl rfl _ rfl
  obtain ⟨nf, ne⟩ := C84_normalize_partial (by norm_num) _ hg.noOverflow h1 i
  rw [(shade_form h).2.2]
  refine ⟨nf, ?_⟩
  have R0 : 0 < s.radius.toReal := by rw [(uv_form hs h).1]; exact hr.radiusPos
  have u0 := uRnd_pos (mw := 23)
  obtain ⟨-, -, ρ0, ρ1, -⟩ := shade_sizes u0 R0 hg.upper (by rw [hg.rho, Real.sq_sqrt (by positivity)])
    (by rw [hg.rho]; exact Real.sqrt_nonneg _) hg.onSphere hg.away
  have q : 1 ≤ 1.0102 * (s.radius.toReal / ρ) := by rw [mul_div_assoc', le_div_iff₀ ρ0]; linarith
  refine (abs_sub_le _ _ _).trans ((add_le_add ne (h2 i)).trans ?_)
  have := mul_le_mul_of_nonneg_left q u0.le
  linarith

/-- C125: the shading normal is a unit vector up to 18 units of rounding. -/
theorem C125_unit (ha : Atan2Lawful) (hd : AcosDecreasing) {s : Sphere F32} (hs : Sphere.new radius zMin zMax phiMax = some s)
    (hr : UVRegular radius zMin zMax phiMax) (ray : Ray F32) (r : IntersectionResult F32) (h : s.intersect ray = some r)
    {δ ρ : ℝ} (hg : ShadeRegular s r δ ρ) :
    |∑ i, (r.surfaceInteraction.n.vec i).toReal ^ 2 - 1| ≤ 18 * uRnd 23 := by
  obtain ⟨h1, -⟩ := shade_cross ha hd hs hr ray r h hg rfl rfl _ rfl
  rw [(shade_form h).2.2]
  exact C84_unit_partial (by norm_num) _ hg.noOverflow h1

/-- C125: on a sphere of radius at most `2^16`, computing the normal does not overflow (so `noOverflow` below is no restriction). -/
theorem C125_no_overflow (ha : Atan2Lawful) (hd : AcosDecreasing) {s : Sphere F32} (hs : Sphere.new radius zMin zMax phiMax = some s)
    (hr : UVRegular radius zMin zMax phiMax) (ray : Ray F32) (r : IntersectionResult F32) (h : s.intersect ray = some r)
    (hx : r.surfaceInteraction.p.x.isFin = true) (hy : r.surfaceInteraction.p.y.isFin = true)
    (hR : s.radius.toReal ≤ 2 ^ 16) (hp : ∀ i, |(r.surfaceInteraction.p.vec i).toReal| ≤ 2 * s.radius.toReal) :
    (r.surfaceInteraction.dpdu.cross r.surfaceInteraction.dpdv).squareNorm.isFin = true := by
  have pz : |r.surfaceInteraction.p.z.toReal| ≤ 2 * s.radius.toReal := hp 2
  have px : |r.surfaceInteraction.p.x.toReal| ≤ 2 * s.radius.toReal := hp 0
  have py : |r.surfaceInteraction.p.y.toReal| ≤ 2 * s.radius.toReal := hp 1
  obtain ⟨L0, L2, Lf⟩ := shade_theta hd hs hr h
  have u0 := uRnd_pos (mw := 23)
  have us := uRnd_small (mw := 23) (by norm_num)
  have es := (uv_form hs h).1
  have R0 : 0 < s.radius.toReal := by rw [es]; exact hr.radiusPos
  have Rf : s.radius.isFin = true := by rw [es]; exact hr.radiusFin
  have zf : r.surfaceInteraction.p.z.isFin = true := by
    obtain ⟨-, zl, zh, -⟩ := uv_form hs h
    have a := isFin_iff_key.1 hr.zMinFin
    have b := isFin_iff_key.1 hr.zMaxFin
    exact isFin_iff_key.2 ⟨by have := zl.2.2; omega, by have := zh.2.2; omega⟩
  obtain ⟨pf, -, p1, p2⟩ := pi_f32
  have f8 : (F32.lit 8).isFin = true := by decide +kernel
  have l8 : (F32.lit 8).toReal = 8 := by rw [toReal_lit (by decide)]; norm_num
  have K8 : (s.phiMax + GFloat.pi : F32).isFin = true ∧ |(s.phiMax + GFloat.pi : F32).toReal| ≤ 8 := by
    rw [es, ← l8]
    have lo := hr.phiMaxLo
    have hi := hr.phiMaxHi
    exact rounded_bound (add_fin hr.phiMaxFin pf) f8 (by rw [l8, _root_.abs_le]; constructor <;> linarith)
  have z8 : (Scalar.zero : F32).isFin = true ∧ |(Scalar.zero : F32).toReal| ≤ 2 ^ 17 := ⟨by decide +kernel, by rw [toReal_szero]; norm_num⟩
  obtain ⟨ns, nc⟩ := near_trig (mw := 23) (ew := 8) (by norm_num) (by norm_num) (ha.fin _ _ hy hx)
  have q2 : (r.surfaceInteraction.p.z / s.radius).isNaN = false :=
    (div_fin zf Rf (fun h' => R0.ne' (toReal_eq_zero_iff.2 h'))).1
  obtain ⟨cf, c0, c1, -, -⟩ := clamp01 q2
  obtain ⟨tf, -, -, -⟩ := acos_near cf c0 c1
  obtain ⟨nt, -⟩ := near_trig (mw := 23) (ew := 8) (by norm_num) (by norm_num) tf
  have trig : ∀ {x : F32} {X : ℝ}, Near x X (21 / 10) → |X| ≤ 1 → x.isFin = true ∧ |x.toReal| ≤ 2 := by
    intro x X hn hX
    refine ⟨hn.1, ?_⟩
    have e := abs_add_le (x.toReal - X) X
    rw [sub_add_cancel] at e
    linarith [hn.2]
  have B1 := trig nc (Real.abs_cos_le_one _)
  have B2 := trig ns (Real.abs_sin_le_one _)
  have B3 := trig nt (Real.abs_sin_le_one _)
  obtain ⟨eu, ev, -⟩ := shade_form h
  have Lb : (s.thetaMax - s.thetaMin : F32).isFin = true ∧ |(s.thetaMax - s.thetaMin : F32).toReal| ≤ 2 :=
    ⟨Lf, by rw [abs_of_neg L0]; linarith⟩
  have X : r.surfaceInteraction.p.x.isFin = true ∧ |r.surfaceInteraction.p.x.toReal| ≤ 2 ^ 17 := ⟨hx, by linarith⟩
  have Y : (-r.surfaceInteraction.p.y).isFin = true ∧ |(-r.surfaceInteraction.p.y).toReal| ≤ 2 ^ 17 := by
    rw [show (-r.surfaceInteraction.p.y : F32).toReal = -r.surfaceInteraction.p.y.toReal from toReal_neg _, abs_neg]
    exact ⟨(isFin_neg _).trans hy, by linarith⟩
  have Z : r.surfaceInteraction.p.z.isFin = true ∧ |r.surfaceInteraction.p.z.toReal| ≤ 2 ^ 17 := ⟨zf, by linarith⟩
  have NR : (-s.radius).isFin = true ∧ |(-s.radius).toReal| ≤ 2 ^ 17 := by
    rw [show (-s.radius : F32).toReal = -s.radius.toReal from toReal_neg _, abs_neg, abs_of_pos R0]
    exact ⟨(isFin_neg _).trans Rf, by linarith⟩
  rw [eu, ev]
  generalize (s.thetaMax - s.thetaMin : F32) = Lv at *
  generalize (s.phiMax + GFloat.pi : F32) = Kv at *
  have U : ∀ i, ((GVec.new3 (-r.surfaceInteraction.p.y) r.surfaceInteraction.p.x Scalar.zero * Kv : GVec F32 3 .vector).vec i).isFin = true ∧
      |((GVec.new3 (-r.surfaceInteraction.p.y) r.surfaceInteraction.p.x Scalar.zero * Kv : GVec F32 3 .vector).vec i).toReal| ≤ 2 ^ 22 := by
    intro i
    fin_cases i
    · exact small_mono (mul_small Y K8 (by norm_num)) (by norm_num)
    · exact small_mono (mul_small X K8 (by norm_num)) (by norm_num)
    · exact small_mono (mul_small z8 K8 (by norm_num)) (by norm_num)
  have V : ∀ a b c : F32, (a.isFin = true ∧ |a.toReal| ≤ 2 ^ 20) → (b.isFin = true ∧ |b.toReal| ≤ 2 ^ 20) →
      (c.isFin = true ∧ |c.toReal| ≤ 2 ^ 20) → ∀ i, ((GVec.new3 a b c * Lv : GVec F32 3 .vector).vec i).isFin = true ∧
      |((GVec.new3 a b c * Lv : GVec F32 3 .vector).vec i).toReal| ≤ 2 ^ 23 := by
    intro a b c ha hb hc i
    fin_cases i
    · exact small_mono (mul_small ha Lb (by norm_num)) (by norm_num)
    · exact small_mono (mul_small hb Lb (by norm_num)) (by norm_num)
    · exact small_mono (mul_small hc Lb (by norm_num)) (by norm_num)
  exact cross_small U (V _ _ _ (small_mono (mul_small Z B1 (by norm_num)) (by norm_num))
    (small_mono (mul_small Z B2 (by norm_num)) (by norm_num)) (small_mono (mul_small NR B3 (by norm_num)) (by norm_num)))

/-- C125: at a pole (a hit on the axis) the normal is NaN in every component, whatever the platform's functions return. -/
theorem C125_pole {s : Sphere F32} (ray : Ray F32) (r : IntersectionResult F32) (h : s.intersect ray = some r)
    (hx : r.surfaceInteraction.p.x.toReal = 0) (hy : r.surfaceInteraction.p.y.toReal = 0) (i : _root_.Fin 3) :
    (r.surfaceInteraction.n.vec i).isNaN = true := by
  obtain ⟨eu, -, en⟩ := shade_form h
  have U : ∀ i, ZN (r.surfaceInteraction.dpdu.vec i) := by
    intro i
    rw [eu]
    fin_cases i
    · exact ZN_mul (ZN_neg (Or.inr (toReal_eq_zero_iff.1 hy)))
    · exact ZN_mul (Or.inr (toReal_eq_zero_iff.1 hx))
    · exact ZN_mul (Or.inr key_szero)
  have C : ∀ i, ZN ((r.surfaceInteraction.dpdu.cross r.surfaceInteraction.dpdv).vec i) := by
    intro i
    fin_cases i
    · exact ZN_sub (ZN_mul (U 1)) (ZN_mul (U 2))
    · exact ZN_sub (ZN_mul (U 2)) (ZN_mul (U 0))
    · exact ZN_sub (ZN_mul (U 0)) (ZN_mul (U 1))
  rw [en]
  have Q : ZN (r.surfaceInteraction.dpdu.cross r.surfaceInteraction.dpdv).squareNorm :=
    ZN_add (ZN_add (ZN_add (Or.inr key_szero) (ZN_mul (C 0))) (ZN_mul (C 1))) (ZN_mul (C 2))
  exact ZN_div (C i) (ZN_sqrt Q)

end

theorem uv_z : (uvRay.eval uvT).z = ⟨1063105496#32⟩ := by decide +kernel
theorem uv_x : (uvRay.eval uvT).x = ⟨1056964608#32⟩ := by decide +kernel
theorem uv_y : (uvRay.eval uvT).y = F32.lit 0 := by decide +kernel

/-- Non-vacuity of C125: the hit of C114's example on the unit sphere meets the hypotheses, with `δ = 1/1000` and `ρ = 1/2`. -/
example : ∃ (L : Libm 23 8) (_ : LawfulLibm 23 8), Atan2Lawful ∧ AcosDecreasing ∧
    ∃ s, Sphere.new (F32.lit 1) (-F32.lit 1) (F32.lit 1) GFloat.pi = some s ∧
    UVRegular (F32.lit 1) (-F32.lit 1) (F32.lit 1) GFloat.pi ∧
    ∃ r, s.intersect uvRay = some r ∧ ShadeRegular s r (1 / 1000) (1 / 2) := by
  obtain ⟨L, hL, ha, hd, s, hs, hr, r, h, hx, hy, hz, -, hp⟩ := uv_hit
  refine ⟨L, hL, ha, hd, s, hs, hr, r, h, ?_⟩
  have es := (uv_form hs h).1
  have l1 := toReal_lit_small.1
  have l0 : (F32.lit 0).toReal = 0 := by rw [toReal_lit (by decide)]; norm_num
  have u0 := uRnd_pos (mw := 23)
  have u1 : uRnd 23 = 1 / 2 ^ 24 := rfl
  have et := eta_tiny
  have vx : r.surfaceInteraction.p.x.toReal = 1 / 2 := by
    rw [hp, uv_x, toReal_bits32 _ 0 (-1) (by decide +kernel) (by decide +kernel) (by decide +kernel) (by decide +kernel)]
    norm_num
  have vy : r.surfaceInteraction.p.y.toReal = 0 := by rw [hp, uv_y, l0]
  have vz : r.surfaceInteraction.p.z.toReal = (1 + 6140888 / 2 ^ 23) / 2 := by
    rw [hp, uv_z, toReal_bits32 _ 6140888 (-1) (by decide +kernel) (by decide +kernel) (by decide +kernel) (by decide +kernel)]
    norm_num
  have hR : s.radius.toReal = 1 := by rw [es]; exact l1
  obtain ⟨pf, -, p1, p2⟩ := pi_f32
  have K1 : 1 ≤ (s.phiMax + GFloat.pi : F32).toReal := by
    obtain ⟨Kf, K0⟩ := phi_den hr
    have e := add_err pf pf Kf
    have e' : (s.phiMax + GFloat.pi : F32) = GFloat.pi + GFloat.pi := by rw [es]
    rw [e']
    have m : uRnd 23 * |(GFloat.pi : F32).toReal + (GFloat.pi : F32).toReal| ≤ 1 := by
      rw [abs_of_pos (by linarith), u1]; linarith
    have := (_root_.abs_le.1 (e.trans m)).1
    linarith
  have L1 : 1 ≤ |(s.thetaMax - s.thetaMin : F32).toReal| := by
    obtain ⟨L0, L2, Lf⟩ := shade_theta hd hs hr h
    have c0 : (Inherent.clamp (-F32.lit 1 / F32.lit 1) Scalar.zero Scalar.one : F32) = F32.lit 0 := by decide +kernel
    have c1 : (Inherent.clamp (F32.lit 1 / F32.lit 1) Scalar.zero Scalar.one : F32) = F32.lit 1 := by decide +kernel
    have e' : (s.thetaMax - s.thetaMin : F32) = Libm.acos (F32.lit 1) - Libm.acos (F32.lit 0) := by rw [es, c0, c1]
    obtain ⟨f0, e0, -⟩ := acos_near (q := F32.lit 0) (by decide +kernel) (by rw [l0]) (by rw [l0]; norm_num)
    obtain ⟨f1, e1, a1, a2⟩ := acos_near (q := F32.lit 1) (by decide +kernel) (by rw [l1]; norm_num) (by rw [l1])
    rw [l0, Real.arccos_zero] at e0
    rw [l1, Real.arccos_one] at e1
    rw [e'] at Lf L0 ⊢
    have e := sub_err f1 f0 Lf
    have := Real.pi_gt_d20
    have := Real.pi_lt_d20
    rw [u1] at e0 e1 e et
    have q0 := _root_.abs_le.1 e0
    have q1 := _root_.abs_le.1 e1
    have m : 1 / 2 ^ 24 * |(Libm.acos (F32.lit 1)).toReal - (Libm.acos (F32.lit 0)).toReal| ≤ 0.1 := by
      rw [abs_of_neg (by linarith)]
      linarith
    have := (_root_.abs_le.1 (e.trans m)).2
    rw [abs_of_neg L0]
    linarith
  have hq : (1 : ℝ) / 2 = Real.sqrt (r.surfaceInteraction.p.x.toReal ^ 2 + r.surfaceInteraction.p.y.toReal ^ 2) := by
    rw [vx, vy]
    rw [show (1 / 2 : ℝ) ^ 2 + 0 ^ 2 = (1 / 2) ^ 2 by norm_num, Real.sqrt_sq (by norm_num)]
  refine ⟨hx, hy, ?_, hz, hq, ?_, ?_, ?_, ?_, ?_, ?_⟩
  · rw [hp]; decide +kernel
  · rw [vx, vy, vz, hR, _root_.abs_le]; constructor <;> norm_num
  · rw [hR, u1]; norm_num
  · nlinarith
  · nlinarith
  · rw [hR]
    have : 1 ≤ (s.phiMax + GFloat.pi : F32).toReal * |(s.thetaMax - s.thetaMin : F32).toReal| := by nlinarith
    nlinarith
  · refine C125_no_overflow ha hd hs hr uvRay r h hx hy (by rw [hR]; norm_num) ?_
    intro i
    rw [hR]
    fin_cases i
    · change |r.surfaceInteraction.p.x.toReal| ≤ _; rw [vx]; norm_num [_root_.abs_le]
    · change |r.surfaceInteraction.p.y.toReal| ≤ _; rw [vy]; norm_num
    · change |r.surfaceInteraction.p.z.toReal| ≤ _; rw [vz]; norm_num [_root_.abs_le]

end Scarlet
