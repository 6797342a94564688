import Verif.Props.FloatDisk
import Verif.Props.FloatPersp
import Verif.Props.CameraFloat
import Verif.Props.Camera3

/-! C113: the thin-lens camera on floats. -/

set_option linter.unusedSectionVars false

namespace Scarlet
open Flt GVec

/-! ### the error analysis, on reals -/

/-- a film coordinate -/
theorem film_core {u η w W x a b c k : ℝ} (hu : 0 < u) (hu1 : u ≤ 1 / 1024) (he : 0 < η) (hk : k ≤ 7.6) (hx0 : 0 ≤ x) (hx1 : x ≤ 1)
    (hw : |w - W| ≤ k * u * |W|) (ha : |a - 1 / 2 * w| ≤ u * |1 / 2 * w| + η) (hb : |b - x * w| ≤ u * |x * w| + η)
    (hc : |c - (a - b)| ≤ u * |a - b|) : |c - W * (1 / 2 - x)| ≤ 6 * u * |W| + 3 * η := by
  have W0 := abs_nonneg W
  have ku := mul_le_mul_of_nonneg_right (mul_le_mul_of_nonneg_right hk hu.le) W0
  have w1 : |w| ≤ 1.008 * |W| := by
    have := abs_add_le (w - W) W
    rw [sub_add_cancel] at this
    have := mul_le_mul_of_nonneg_right hu1 W0
    linarith
  have a1 : |a - 1 / 2 * w| ≤ 0.5 * u * |w| + η := by
    rw [abs_mul, abs_of_pos (show (0 : ℝ) < 1 / 2 by norm_num)] at ha; linarith
  have b1 : |b - x * w| ≤ u * |w| + η := by
    rw [abs_mul, abs_of_nonneg hx0] at hb
    have := mul_le_mul_of_nonneg_left (mul_le_mul_of_nonneg_right hx1 (abs_nonneg w)) hu.le
    linarith
  have h12 : |1 / 2 - x| ≤ 1 / 2 := by rw [abs_le]; constructor <;> linarith
  have d1 : |a - b - w * (1 / 2 - x)| ≤ 1.5 * u * |w| + 2 * η := by
    rw [show a - b - w * (1 / 2 - x) = (a - 1 / 2 * w) - (b - x * w) by ring]
    have := abs_sub (a - 1 / 2 * w) (b - x * w)
    linarith
  have d2 : |w * (1 / 2 - x)| ≤ 0.5 * |w| := by
    rw [abs_mul]; have := mul_le_mul_of_nonneg_left h12 (abs_nonneg w); linarith
  have d3 : |a - b| ≤ 0.502 * |w| + 2 * η := by
    have := abs_add_le (a - b - w * (1 / 2 - x)) (w * (1 / 2 - x))
    rw [sub_add_cancel] at this
    have := mul_le_mul_of_nonneg_right hu1 (abs_nonneg w)
    have := abs_nonneg w
    linarith
  have d4 : |w * (1 / 2 - x) - W * (1 / 2 - x)| ≤ 3.8 * u * |W| := by
    rw [← sub_mul, abs_mul]
    have := mul_le_mul (hw.trans ku) h12 (abs_nonneg _) (by positivity)
    linarith
  have e1 := mul_le_mul_of_nonneg_left d3 hu.le
  have e2 := abs_sub_le c (a - b) (W * (1 / 2 - x))
  have e3 := abs_sub_le (a - b) (w * (1 / 2 - x)) (W * (1 / 2 - x))
  have e4 := mul_le_mul_of_nonneg_left w1 hu.le
  have e5 := mul_le_mul_of_nonneg_right hu1 he.le
  have : 0 ≤ u * |W| := by positivity
  linarith

/-- a coordinate of the point of focus -/
theorem focus_core {u η c C e M t τ m s : ℝ} (hu : 0 < u) (hu1 : u ≤ 1 / 1024) (he : 0 < η) (hc : |c - C| ≤ e) (hC : |C| ≤ M)
    (ht : |t - τ| ≤ 4.2 * u * |τ|) (hm : |m - -c * t| ≤ u * |-c * t| + η) (hs : |s - (c + m)| ≤ u * |c + m|) :
    |s - C * (1 - τ)| ≤ (1 + |τ|) * (1.02 * e + 6.4 * u * M + 1.01 * η) := by
  have e0 : 0 ≤ e := (abs_nonneg _).trans hc
  have M0 : 0 ≤ M := (abs_nonneg _).trans hC
  have T0 := abs_nonneg τ
  have c1 : |c| ≤ M + e := by have := abs_add_le (c - C) C; rw [sub_add_cancel] at this; linarith
  have t1 : |t| ≤ 1.005 * |τ| := by
    have := abs_add_le (t - τ) τ
    rw [sub_add_cancel] at this
    have := mul_le_mul_of_nonneg_right hu1 T0
    linarith
  have p1 : |c * t| ≤ 1.005 * (M + e) * |τ| := by
    rw [abs_mul]; have := mul_le_mul c1 t1 (abs_nonneg _) (by positivity); linarith
  have p2 : |c * t - C * τ| ≤ 1.005 * e * |τ| + 4.2 * u * M * |τ| := by
    rw [show c * t - C * τ = (c - C) * t + C * (t - τ) by ring]
    refine (abs_add_le _ _).trans ?_
    rw [abs_mul, abs_mul]
    have a := mul_le_mul hc t1 (abs_nonneg _) e0
    have b := mul_le_mul hC ht (abs_nonneg _) M0
    linarith
  have m1 : |m + c * t| ≤ u * (1.005 * (M + e) * |τ|) + η := by
    rw [neg_mul, abs_neg, sub_neg_eq_add] at hm
    have := mul_le_mul_of_nonneg_left p1 hu.le; linarith
  have m2 : |m| ≤ 1.006 * (M + e) * |τ| + η := by
    have h := abs_sub (m + c * t) (c * t)
    rw [add_sub_cancel_right] at h
    have := mul_le_mul_of_nonneg_right hu1 (show 0 ≤ 1.005 * (M + e) * |τ| by positivity)
    have : 0 ≤ (M + e) * |τ| := by positivity
    linarith
  have s1 : |c + m| ≤ (M + e) + 1.006 * (M + e) * |τ| + η := by
    have := abs_add_le c m; linarith
  have s2 := mul_le_mul_of_nonneg_left s1 hu.le
  have q : |c + m - C * (1 - τ)| ≤ e + (u * (1.005 * (M + e) * |τ|) + η) + (1.005 * e * |τ| + 4.2 * u * M * |τ|) := by
    rw [show c + m - C * (1 - τ) = (c - C) + (m + c * t) - (c * t - C * τ) by ring]
    have a := abs_sub ((c - C) + (m + c * t)) (c * t - C * τ)
    have b := abs_add_le (c - C) (m + c * t)
    linarith
  have r := abs_sub_le s (c + m) (C * (1 - τ))
  have k1 := mul_le_mul_of_nonneg_right hu1 e0
  have k2 := mul_le_mul_of_nonneg_right hu1 (show 0 ≤ e * |τ| by positivity)
  have k3 := mul_le_mul_of_nonneg_right hu1 he.le
  have k4 : 0 ≤ u * M := by positivity
  have k5 : 0 ≤ u * M * |τ| := by positivity
  have k6 : 0 ≤ e * |τ| := by positivity
  have k7 : 0 ≤ η * |τ| := by positivity
  nlinarith

/-- normalizing two nearby vectors -/
theorem normalize_near {n : ℕ} {v V : Fin n → ℝ} (hV : 0 < Real.sqrt (∑ i, V i ^ 2)) (hv : 0 < Real.sqrt (∑ i, v i ^ 2)) (i : Fin n) :
    |v i / Real.sqrt (∑ j, v j ^ 2) - V i / Real.sqrt (∑ j, V j ^ 2)| ≤ 2 * (∑ j, |v j - V j|) / Real.sqrt (∑ j, V j ^ 2) := by
  have tri : ∀ a b : Fin n → ℝ, Real.sqrt (∑ j, a j ^ 2) ≤ Real.sqrt (∑ j, b j ^ 2) + ∑ j, |a j - b j| := by
    intro a b
    have e : ∀ c : Fin n → ℝ, Real.sqrt (∑ j, c j ^ 2) = ‖(WithLp.toLp 2 c : EuclideanSpace ℝ (Fin n))‖ := fun c => by
      rw [EuclideanSpace.norm_eq]; simp
    rw [e, e]
    have h := norm_sub_norm_le (WithLp.toLp 2 a : EuclideanSpace ℝ (Fin n)) (WithLp.toLp 2 b)
    have h2 : ‖(WithLp.toLp 2 a : EuclideanSpace ℝ (Fin n)) - WithLp.toLp 2 b‖ ≤ ∑ j, |a j - b j| := by
      rw [EuclideanSpace.norm_eq]
      refine Real.sqrt_le_iff.2 ⟨Finset.sum_nonneg fun _ _ => abs_nonneg _, ?_⟩
      have := Finset.sum_sq_le_sq_sum_of_nonneg (s := Finset.univ) (f := fun j => |a j - b j|) (fun _ _ => abs_nonneg _)
      simpa using this
    linarith
  have h1 := tri v V
  have h2 := tri V v
  have e : ∑ j, |V j - v j| = ∑ j, |v j - V j| := Finset.sum_congr rfl fun j _ => abs_sub_comm _ _
  rw [e] at h2
  have hi : |v i - V i| ≤ ∑ j, |v j - V j| := Finset.single_le_sum (f := fun j => |v j - V j|) (fun _ _ => abs_nonneg _) (Finset.mem_univ i)
  have hvi : |v i| ≤ Real.sqrt (∑ j, v j ^ 2) :=
    Real.abs_le_sqrt (Finset.single_le_sum (f := fun j => v j ^ 2) (fun j _ => sq_nonneg _) (Finset.mem_univ i))
  generalize Real.sqrt (∑ j, v j ^ 2) = a at *
  generalize Real.sqrt (∑ j, V j ^ 2) = b at *
  generalize ∑ j, |v j - V j| = d at *
  have e : v i / a - V i / b = (v i / a * (b - a) + (v i - V i)) / b := by field_simp; ring
  rw [e, abs_div, abs_of_pos hV]
  refine div_le_div_of_nonneg_right ?_ hV.le
  refine (abs_add_le _ _).trans ?_
  rw [abs_mul, abs_div, abs_of_pos hv]
  have f1 : |v i| / a ≤ 1 := (div_le_one hv).2 hvi
  have f2 : |b - a| ≤ d := abs_le.2 ⟨by linarith, by linarith⟩
  have := mul_le_mul f1 f2 (abs_nonneg _) zero_le_one
  linarith

theorem normalize_near3 {v V : Fin 3 → ℝ} (hV : 0 < Real.sqrt (∑ i, V i ^ 2)) (hv : 0 < Real.sqrt (∑ i, v i ^ 2)) (i : Fin 3) :
    |v i / Real.sqrt (∑ j, v j ^ 2) - V i / Real.sqrt (∑ j, V j ^ 2)| ≤
      2 * (|v 0 - V 0| + |v 1 - V 1| + |v 2 - V 2|) / Real.sqrt (∑ j, V j ^ 2) := by
  have := normalize_near hV hv i
  rwa [Fin.sum_univ_three (fun j => |v j - V j|)] at this

/-! ### the camera -/

section
variable {mw ew : Nat} [FltImpl mw ew] [LawfulFlt mw ew]

theorem zero_sub_exact {c : Flt mw ew} (hc : c.isFin = true) :
    (Scalar.zero - c : Flt mw ew).isFin = true ∧ (Scalar.zero - c : Flt mw ew).toReal = -c.toReal := by
  have hk : (Scalar.zero - c : Flt mw ew).key = _ := (sub_fin isFin_szero hc).2
  rw [toReal_szero, zero_sub, rndK_neg, rndK_toReal (notNaN_of_isFin hc)] at hk
  constructor
  · rw [isFin_iff_key] at hc ⊢; rw [hk]; omega
  · rw [← toReal_negop, toReal_eq_iff, hk, key_negop]

variable [Libm mw ew]

/-- The parameters of a camera (`focal_distance`, `fov`, `focal_length`, `aspect_ratio`) are in the normal working range: no
overflow, no underflow, `tan` accurate at `fov/2`. -/
structure CamRegular (o fov f lr ar : Flt mw ew) : Prop where
  subFin : (o - f).isFin = true
  arFin : ar.isFin = true
  o0 : o.toReal ≠ 0
  f0 : f.toReal ≠ 0
  fovFin : fov.isFin = true
  fovPos : 0 < fov.toReal
  fovPi : fov.toReal < Real.pi
  fovBig : etaRnd mw ew ≤ uRnd mw * (fov.toReal / 2)
  tanAcc : AccurateAt (Libm.tan : Flt mw ew → Flt mw ew) Real.tan (fov * GFloat.half)
  tanFin : (GFloat.nextUp (Libm.tan (fov * GFloat.half))).isFin = true
  tanBig : etaRnd mw ew ≤ uRnd mw * |(Libm.tan (fov * GFloat.half)).toReal / 2|
  heightFin : (ThinLensCamera.new .identity o fov f lr ar).filmHeight.isFin = true
  prodBig : Normalised mw ew (o.toReal * f.toReal)
  distBig : Normalised mw ew ((o * f).toReal / (o - f).toReal)
  widthBig : Normalised mw ew ((Libm.tan (fov * GFloat.half) * GFloat.half).toReal *
    (ThinLensCamera.new .identity o fov f lr ar).filmDistance.toReal)
  heightBig : Normalised mw ew ((ThinLensCamera.new .identity o fov f lr ar).filmWidth.toReal / ar.toReal)

variable {o fov f lr ar : Flt mw ew}

theorem cam_film (hm : 9 ≤ mw) (view : Transform (Flt mw ew)) (h : CamRegular o fov f lr ar) :
    o.toReal - f.toReal ≠ 0 ∧ ar.toReal ≠ 0 ∧ o.isFin = true ∧
    Rel (ThinLensCamera.new view o fov f lr ar).filmDistance (o.toReal * f.toReal / (o.toReal - f.toReal)) 3.1 ∧
    Rel (ThinLensCamera.new view o fov f lr ar).filmWidth
      (1 / 2 * Real.tan (fov.toReal / 2) * (o.toReal * f.toReal / (o.toReal - f.toReal))) 6.2 ∧
    Rel (ThinLensCamera.new view o fov f lr ar).filmHeight
      (1 / 2 * Real.tan (fov.toReal / 2) * (o.toReal * f.toReal / (o.toReal - f.toReal)) / ar.toReal) 7.3 := by
  obtain ⟨subFin, arFin, o0, f0, fovFin, fovPos, fovPi, fovBig, tanAcc, tanFin, tanBig, heightFin, prodBig, distBig, widthBig, heightBig⟩ := h
  have T := (tan_rel hm fovFin fovPos fovPi fovBig tanAcc tanFin).1
  change (GFloat.half * Libm.tan (fov * GFloat.half) * (o * f / (o - f)) / ar).isFin = true at heightFin
  change Normalised mw ew ((Libm.tan (fov * GFloat.half) * GFloat.half).toReal * (o * f / (o - f)).toReal) at widthBig
  change Normalised mw ew ((GFloat.half * Libm.tan (fov * GFloat.half) * (o * f / (o - f))).toReal / ar.toReal) at heightBig
  change _ ∧ _ ∧ _ ∧ Rel (o * f / (o - f)) _ _ ∧ Rel (GFloat.half * Libm.tan (fov * GFloat.half) * (o * f / (o - f))) _ _ ∧
    Rel (GFloat.half * Libm.tan (fov * GFloat.half) * (o * f / (o - f)) / ar) _ _
  rw [Flt.mul_comm' GFloat.half] at heightFin heightBig ⊢
  have g := isFin_of_div heightFin
  have g1 := isFin_of_mul g.1
  have g2 := isFin_of_div g1.2
  have g3 := isFin_of_mul g2.1
  have H : Rel (Libm.tan (fov * GFloat.half) * GFloat.half) (1 / 2 * Real.tan (fov.toReal / 2)) 2.01 := by
    obtain ⟨a, b⟩ := half_exact T.1 tanBig
    refine ⟨a, ?_⟩
    rw [b, show (Libm.tan (fov * GFloat.half)).toReal / 2 - 1 / 2 * Real.tan (fov.toReal / 2) =
      1 / 2 * ((Libm.tan (fov * GFloat.half)).toReal - Real.tan (fov.toReal / 2)) by ring, abs_mul, abs_mul]
    have := mul_le_mul_of_nonneg_left T.2 (abs_nonneg (1 / 2 : ℝ))
    linarith
  have D := rel_sub_exact g3.1 g3.2 subFin
  have hne : o.toReal - f.toReal ≠ 0 := by
    intro e
    have := (sub_fin g3.1 g3.2).2
    rw [e, rndK_zero] at this
    exact g2.2.2 this
  have P : Rel (o * f) (o.toReal * f.toReal) 1 :=
    rel_mul hm (rel_exact g3.1) (rel_exact g3.2) g2.1 prodBig le_rfl le_rfl (by norm_num)
  have I : Rel (o * f / (o - f)) (o.toReal * f.toReal / (o.toReal - f.toReal)) 3.1 :=
    rel_div hm P D g1.2 distBig zero_le_one zero_le_one hne (by norm_num) (by norm_num)
  have W := rel_mul (m := 6.2) hm H I g.1 widthBig (by norm_num) (by norm_num) (by norm_num)
  have ar0 : ar.toReal ≠ 0 := fun e => g.2.2 (toReal_eq_zero_iff.1 e)
  exact ⟨hne, ar0, g3.1, I, W, rel_div hm W (rel_exact arFin) heightFin heightBig (by norm_num) le_rfl ar0 (by norm_num) (by norm_num)⟩

/-- C113: the film of a camera made by `new`: at the distance of the lens equation, of width `tan(fov/2)/2` times that
distance, and of the height the aspect ratio demands; the first up to 3.1 roundings, the second up to 6.2, the third up to
7.3. -/
theorem C113_film (hm : 9 ≤ mw) (view : Transform (Flt mw ew)) (h : CamRegular o fov f lr ar) (I W H : ℝ)
    (hI : 1 / f.toReal = 1 / o.toReal + 1 / I) (hW : W = 1 / 2 * Real.tan (fov.toReal / 2) * I) (hH : W = H * ar.toReal) :
    |(ThinLensCamera.new view o fov f lr ar).filmDistance.toReal - I| ≤ 3.1 * uRnd mw * |I| ∧
    |(ThinLensCamera.new view o fov f lr ar).filmWidth.toReal - W| ≤ 6.2 * uRnd mw * |W| ∧
    |(ThinLensCamera.new view o fov f lr ar).filmHeight.toReal - H| ≤ 7.3 * uRnd mw * |H| := by
  obtain ⟨hne, ar0, -, a, b, c⟩ := cam_film hm view h
  have e : I = o.toReal * f.toReal / (o.toReal - f.toReal) :=
    (C71_unique .identity o.toReal 0 f.toReal 0 0 I h.f0 h.o0 (sub_ne_zero.1 hne) hI).symm
  have e2 : H = W / ar.toReal := by rw [hH, mul_div_cancel_right₀ _ ar0]
  rw [e2, hW, e]
  exact ⟨a.2, b.2, c.2⟩

/-- one coordinate of the point of focus -/
theorem focus_coord_near (hm : 9 ≤ mw) {c t : Flt mw ew} {C e M τ : ℝ} (hf : (c + (Scalar.zero - c) * t).isFin = true)
    (hc : |c.toReal - C| ≤ e) (hC : |C| ≤ M) (ht : Rel t τ 4.2) :
    |(c + (Scalar.zero - c) * t).toReal - C * (1 - τ)| ≤ (1 + |τ|) * (1.02 * e + 6.4 * uRnd mw * M + 1.01 * etaRnd mw ew) := by
  have g := isFin_of_add hf
  have g1 := isFin_of_mul g.2
  obtain ⟨z1, z2⟩ := zero_sub_exact g.1
  have m := mul_err' g.2
  rw [z2] at m
  exact focus_core uRnd_pos (uRnd_small hm) etaRnd_pos hc hC ht.2 m (add_err g.1 g.2 hf)

/-- a film coordinate -/
theorem film_coord_near (hm : 9 ≤ mw) {x w : Flt mw ew} {W k : ℝ} (hf : (GFloat.half * w - x * w).isFin = true)
    (hx0 : 0 ≤ x.toReal) (hx1 : x.toReal ≤ 1) (hk : k ≤ 7.6) (hw : Rel w W k) :
    |(GFloat.half * w - x * w).toReal - W * (1 / 2 - x.toReal)| ≤ 6 * uRnd mw * |W| + 3 * etaRnd mw ew := by
  have g := isFin_of_sub hf
  have g1 := isFin_of_mul g.1
  have g2 := isFin_of_mul g.2
  have a := mul_err' g.1
  rw [(half_spec (mw := mw) (ew := ew)).2] at a
  exact film_core uRnd_pos (uRnd_small hm) etaRnd_pos hk hx0 hx1 hw.2 a (mul_err' g.2) (sub_err g.1 g.2 hf)

end

/-! ### the direction of the ray -/

theorem sub_near {u p P l L v a b : ℝ} (hu : 0 < u) (hu1 : u ≤ 1 / 1024) (hp : |p - P| ≤ a) (hl : |l - L| ≤ b)
    (hv : |v - (p - l)| ≤ u * |p - l|) : |v - (P - L)| ≤ u * |P - L| + 1.001 * (a + b) := by
  have d : |p - l - (P - L)| ≤ a + b := by
    rw [show p - l - (P - L) = (p - P) - (l - L) by ring]
    have := abs_sub (p - P) (l - L); linarith
  have e := abs_add_le (p - l - (P - L)) (P - L)
  rw [sub_add_cancel] at e
  have e1 := mul_le_mul_of_nonneg_left e hu.le
  have e2 := mul_le_mul_of_nonneg_left d hu.le
  have ab : 0 ≤ a + b := (abs_nonneg _).trans d
  have e3 := mul_le_mul_of_nonneg_right hu1 ab
  have e4 := abs_sub_le v (p - l) (P - L)
  linarith

theorem direction_core {u η N S R I τ q v0 v1 v2 V0 V1 V2 w x a b r s e : ℝ} (hu : 0 < u) (he : 0 < η) (heu : η ≤ u * 0.001) (hN : 0 < N)
    (hN2 : V0 ^ 2 + V1 ^ 2 + V2 ^ 2 = N ^ 2) (hq : |q - w| ≤ 5 * u) (hw : |w - x| ≤ 2 * (|v0 - V0| + |v1 - V1| + |v2 - V2|) / N)
    (h0 : |v0 - V0| ≤ u * |V0| + 1.001 * (a + r)) (h1 : |v1 - V1| ≤ u * |V1| + 1.001 * (b + s)) (h2 : |v2 - V2| ≤ u * |V2| + 1.001 * (e + 0))
    (habe : a + b + e ≤ (1 + τ) * (10 * u * S + 15 * η)) (hτ : 0 ≤ τ) (hI : 15 * η ≤ u * I) (hIS : I ≤ S) (hR : 0 ≤ R)
    (hrs : r + s ≤ 2 * (R * (15 * u + 5 * η) + η)) :
    |q - x| ≤ 9 * u + u / N * (25 * (1 + τ) * S + 65 * R) := by
  have S0 : 0 < S := by by_contra hc; push Not at hc; nlinarith
  have sum : |V0| + |V1| + |V2| ≤ 1.7321 * N := by
    refine abs_le_of_sq_le_sq' ?_ (by positivity) |>.2
    nlinarith [sq_abs V0, sq_abs V1, sq_abs V2, sq_nonneg (|V0| - |V1|), sq_nonneg (|V1| - |V2|), sq_nonneg (|V0| - |V2|)]
  have k := mul_le_mul_of_nonneg_left sum hu.le
  have k1 : (1 + τ) * (10 * u * S + 15 * η) ≤ (1 + τ) * (11 * u * S) := by
    apply mul_le_mul_of_nonneg_left _ (by linarith)
    have := mul_le_mul_of_nonneg_left hIS hu.le
    linarith
  have k2 := mul_le_mul_of_nonneg_right heu hR
  have k3 : 0 ≤ τ * (u * S) := by positivity
  have k4 := mul_le_mul_of_nonneg_left hIS hu.le
  have k5 : 0 ≤ u * R := by positivity
  have tot : 2 * (|v0 - V0| + |v1 - V1| + |v2 - V2|) ≤ 3.5 * u * N + u * (25 * (1 + τ) * S + 65 * R) := by
    have : 0 ≤ u * N := by positivity
    linarith
  have d := div_le_div_of_nonneg_right tot hN.le
  have f : (3.5 * u * N + u * (25 * (1 + τ) * S + 65 * R)) / N = 3.5 * u + u / N * (25 * (1 + τ) * S + 65 * R) := by field_simp
  have := abs_sub_le q w x
  linarith

section
variable [Libm 23 8] [LawfulLibm 23 8] {o fov f lr ar : F32}

/-- the same camera in exact arithmetic -/
noncomputable def exactCam (o fov f lr ar : F32) : ThinLensCamera ℝ :=
  .new .identity o.toReal fov.toReal f.toReal lr.toReal ar.toReal

/-- the same sample -/
noncomputable def exactSample (s : CameraSample F32) : CameraSample ℝ := ⟨realPt2 s.pFilm, realPt2 s.pLens⟩

/-- C113: the direction of the camera ray: every component is that of the exact ray up to 9 roundings, plus
`25 (1 + |o/I|) (|W| + |H| + |I|) + 65 |R|` roundings over the distance from the lens point to the point of focus (`W`, `H`,
`I` width, height and distance of the film, `R` the radius of the lens, `o` the focal distance). -/
theorem C113_direction (view : Transform F32) (h : CamRegular o fov f lr ar) (s : CameraSample F32) (hp : InSquareF s.pFilm)
    (hl : InSquareF s.pLens) (h2 : o.toReal ≠ 2 * f.toReal)
    (hbig : 15 * etaRnd 23 8 ≤ uRnd 23 * |(exactCam o fov f lr ar).filmDistance|)
    (ht : Normalised 23 8 (o.toReal / (ThinLensCamera.new view o fov f lr ar).filmDistance.toReal))
    (hv : ((ThinLensCamera.new view o fov f lr ar).toFocus s).squareNorm.isFin = true)
    (hS : 3 * etaRnd 23 8 ≤ uRnd 23 * ∑ i, (((ThinLensCamera.new view o fov f lr ar).toFocus s).vec i).toReal ^ 2) (i : _root_.Fin 3) :
    |(((ThinLensCamera.new view o fov f lr ar).cameraRay s).direction.vec i).toReal -
      ((exactCam o fov f lr ar).cameraRay (exactSample s)).direction.vec i| ≤
    9 * uRnd 23 + uRnd 23 / ((exactCam o fov f lr ar).meet (realPt2 s.pFilm) - ((exactCam o fov f lr ar).cameraRay (exactSample s)).origin : Vec ℝ 3).norm *
      (25 * (1 + |o.toReal / (exactCam o fov f lr ar).filmDistance|) *
        (|(exactCam o fov f lr ar).filmWidth| + |(exactCam o fov f lr ar).filmHeight| + |(exactCam o fov f lr ar).filmDistance|) +
        65 * |lr.toReal|) := by
  have u0 := uRnd_pos (mw := 23)
  have u1 := uRnd_small (mw := 23) (by norm_num)
  have e0 := etaRnd_pos (mw := 23) (ew := 8)
  obtain ⟨hne, ar0, oFin, rI, rW, rH⟩ := cam_film (by norm_num) view h
  have eI : (exactCam o fov f lr ar).filmDistance = o.toReal * f.toReal / (o.toReal - f.toReal) := rfl
  have eW : (exactCam o fov f lr ar).filmWidth = 1 / 2 * Real.tan (fov.toReal / 2) * (o.toReal * f.toReal / (o.toReal - f.toReal)) := by
    change GFloat.half * Real.tan (fov.toReal * GFloat.half) * _ = _
    rw [rhalf, show fov.toReal * (1 / 2) = fov.toReal / 2 by ring]
  have eH : (exactCam o fov f lr ar).filmHeight = (exactCam o fov f lr ar).filmWidth / ar.toReal := rfl
  have eR : (exactCam o fov f lr ar).lensRadius = lr.toReal := rfl
  have eO : (exactCam o fov f lr ar).focalDistance = o.toReal := rfl
  rw [← eI] at rI
  rw [← eW] at rW rH
  rw [← eH] at rH
  obtain ⟨n1, n2⟩ := C73_new .identity o.toReal fov.toReal f.toReal lr.toReal ar.toReal h.f0 h.o0 (sub_ne_zero.1 hne) h2
  have Npos := norm_pos (cameraRay_ne (exactCam o fov f lr ar) (exactSample s) n1 n2)
  rw [ThinLensCamera.cameraRay_toFocus]
  obtain ⟨-, q⟩ := C84_normalize_partial (by norm_num) _ hv hS i
  have hvf : ∀ i, (((ThinLensCamera.new view o fov f lr ar).toFocus s).vec i).isFin = true :=
    fun i => (isFin_of_mul (sumLoop_fin hv i)).1
  rw [cameraRay_direction, normalize_vec]
  have hsq : ∀ a : Vec ℝ 3, a.norm = Real.sqrt (∑ i, a.vec i ^ 2) := fun a => by
    rw [norm_real, squareNorm_real]; simp only [sq]
  have vpos : 0 < Real.sqrt (∑ i, (((ThinLensCamera.new view o fov f lr ar).toFocus s).vec i).toReal ^ 2) := by
    refine Real.sqrt_pos.2 ?_
    by_contra hc
    push Not at hc
    have := mul_nonpos_of_nonneg_of_nonpos u0.le hc
    linarith
  have near := normalize_near3 (v := fun i => (((ThinLensCamera.new view o fov f lr ar).toFocus s).vec i).toReal)
    (V := ((exactCam o fov f lr ar).meet (realPt2 s.pFilm) - ((exactCam o fov f lr ar).cameraRay (exactSample s)).origin : Vec ℝ 3).vec)
    (by rw [← hsq]; exact Npos) vpos i
  rw [← hsq] at near
  have Nsq : _ ^ 2 = _ := congrArg (· ^ 2) (hsq ((exactCam o fov f lr ar).meet (realPt2 s.pFilm) - ((exactCam o fov f lr ar).cameraRay (exactSample s)).origin : Vec ℝ 3))
  rw [Real.sq_sqrt (Finset.sum_nonneg fun _ _ => sq_nonneg _), Fin.sum_univ_three] at Nsq
  have hof : ((ThinLensCamera.new view o fov f lr ar).cameraRay s).origin.Fin := fun i => (isFin_of_sub (hvf i)).2
  obtain ⟨lx, ly, lz, -⟩ := C112_lens _ s hl hof
  have hM : Max.max |1 - 2 * s.pLens.x.toReal| |1 - 2 * s.pLens.y.toReal| ≤ 1 :=
    max_le (_root_.abs_le.2 ⟨by linarith [hl.1.2.2], by linarith [hl.1.2.1]⟩) (_root_.abs_le.2 ⟨by linarith [hl.2.2.2], by linarith [hl.2.2.1]⟩)
  generalize Max.max |1 - 2 * s.pLens.x.toReal| |1 - 2 * s.pLens.y.toReal| = M at *
  have hv0 : ((ThinLensCamera.new view o fov f lr ar).toFocus s).vec 0 =
    (GFloat.half * (ThinLensCamera.new view o fov f lr ar).filmWidth - s.pFilm.x * (ThinLensCamera.new view o fov f lr ar).filmWidth) +
    (Scalar.zero - (GFloat.half * (ThinLensCamera.new view o fov f lr ar).filmWidth - s.pFilm.x * (ThinLensCamera.new view o fov f lr ar).filmWidth)) *
    (-o / (Scalar.zero - (ThinLensCamera.new view o fov f lr ar).filmDistance)) - ((ThinLensCamera.new view o fov f lr ar).cameraRay s).origin.x := rfl
  have hv1 : ((ThinLensCamera.new view o fov f lr ar).toFocus s).vec 1 =
    (GFloat.half * (ThinLensCamera.new view o fov f lr ar).filmHeight - s.pFilm.y * (ThinLensCamera.new view o fov f lr ar).filmHeight) +
    (Scalar.zero - (GFloat.half * (ThinLensCamera.new view o fov f lr ar).filmHeight - s.pFilm.y * (ThinLensCamera.new view o fov f lr ar).filmHeight)) *
    (-o / (Scalar.zero - (ThinLensCamera.new view o fov f lr ar).filmDistance)) - ((ThinLensCamera.new view o fov f lr ar).cameraRay s).origin.y := rfl
  have hv2 : ((ThinLensCamera.new view o fov f lr ar).toFocus s).vec 2 =
    (ThinLensCamera.new view o fov f lr ar).filmDistance +
    (Scalar.zero - (ThinLensCamera.new view o fov f lr ar).filmDistance) *
    (-o / (Scalar.zero - (ThinLensCamera.new view o fov f lr ar).filmDistance)) - ((ThinLensCamera.new view o fov f lr ar).cameraRay s).origin.z := rfl
  have f0 := hvf 0
  have f1 := hvf 1
  have f2 := hvf 2
  rw [hv0] at f0
  rw [hv1] at f1
  rw [hv2] at f2
  have hV0 : ((exactCam o fov f lr ar).meet (realPt2 s.pFilm) - ((exactCam o fov f lr ar).cameraRay (exactSample s)).origin : Vec ℝ 3).vec 0 =
      (exactCam o fov f lr ar).filmWidth * (1 / 2 - s.pFilm.x.toReal) * (1 - o.toReal / (exactCam o fov f lr ar).filmDistance) -
      (concentricSampleDisk (realPt2 s.pLens)).x * lr.toReal := rfl
  have hV1 : ((exactCam o fov f lr ar).meet (realPt2 s.pFilm) - ((exactCam o fov f lr ar).cameraRay (exactSample s)).origin : Vec ℝ 3).vec 1 =
      (exactCam o fov f lr ar).filmHeight * (1 / 2 - s.pFilm.y.toReal) * (1 - o.toReal / (exactCam o fov f lr ar).filmDistance) -
      (concentricSampleDisk (realPt2 s.pLens)).y * lr.toReal := rfl
  have hV2 : ((exactCam o fov f lr ar).meet (realPt2 s.pFilm) - ((exactCam o fov f lr ar).cameraRay (exactSample s)).origin : Vec ℝ 3).vec 2 =
      (exactCam o fov f lr ar).filmDistance * (1 - o.toReal / (exactCam o fov f lr ar).filmDistance) - 0 := rfl
  have g0 := isFin_of_sub f0
  have g1 := isFin_of_sub f1
  have g2 := isFin_of_sub f2
  have k0 := (isFin_of_add g0.1).1
  have k1 := (isFin_of_add g1.1).1
  have tFin := (isFin_of_mul (isFin_of_add g2.1).2).2
  have T : Rel (-o / (Scalar.zero - (ThinLensCamera.new view o fov f lr ar).filmDistance)) (o.toReal / (exactCam o fov f lr ar).filmDistance) 4.2 := by
    obtain ⟨z1, z2⟩ := zero_sub_exact rI.1
    have rz : Rel (Scalar.zero - (ThinLensCamera.new view o fov f lr ar).filmDistance) (-(exactCam o fov f lr ar).filmDistance) 3.1 :=
      ⟨z1, by rw [z2, ← toReal_negop]; exact rI.neg.2⟩
    have := rel_div (m := 4.2) (by norm_num) (rel_exact oFin).neg rz tFin (by rw [toReal_negop, z2, neg_div_neg_eq]; exact ht) le_rfl (by norm_num)
      (neg_ne_zero.2 n1) (by norm_num) (by norm_num)
    rwa [neg_div_neg_eq] at this
  have c0 := film_coord_near (by norm_num) k0 hp.1.2.1 hp.1.2.2 (by norm_num) rW
  have c1 := film_coord_near (by norm_num) k1 hp.2.2.1 hp.2.2.2 (by norm_num) rH
  have half : ∀ {W x : ℝ}, 0 ≤ x → x ≤ 1 → |W * (1 / 2 - x)| ≤ 1 / 2 * |W| := fun {W x} a b => by
    rw [abs_mul, mul_comm]
    exact mul_le_mul_of_nonneg_right (_root_.abs_le.2 ⟨by linarith, by linarith⟩) (abs_nonneg _)
  have p0 := focus_coord_near (by norm_num) g0.1 c0 (half hp.1.2.1 hp.1.2.2) T
  have p1 := focus_coord_near (by norm_num) g1.1 c1 (half hp.2.2.1 hp.2.2.2) T
  have p2 := focus_coord_near (by norm_num) g2.1 rI.2 le_rfl T
  have s0 := sub_near u0 u1 p0 lx (sub_err g0.1 g0.2 f0)
  have s1 := sub_near u0 u1 p1 ly (sub_err g1.1 g1.2 f1)
  have s2 := sub_near u0 u1 p2 (by rw [lz, sub_zero, abs_zero]) (sub_err g2.1 g2.2 f2)
  rw [hv0, hv1, hv2, hV0, hV1, hV2] at near
  rw [hV0, hV1, hV2] at Nsq
  refine direction_core u0 e0 eta_tiny Npos Nsq.symm q near s0 s1 s2 ?_ (abs_nonneg _) hbig ?_ (abs_nonneg _) ?_
  · have := abs_nonneg (o.toReal / (exactCam o fov f lr ar).filmDistance)
    rw [← mul_add, ← mul_add]
    refine mul_le_mul_of_nonneg_left ?_ (by linarith)
    have := mul_nonneg u0.le (abs_nonneg (exactCam o fov f lr ar).filmWidth)
    have := mul_nonneg u0.le (abs_nonneg (exactCam o fov f lr ar).filmHeight)
    have := mul_nonneg u0.le (abs_nonneg (exactCam o fov f lr ar).filmDistance)
    linarith
  · have := abs_nonneg (exactCam o fov f lr ar).filmWidth
    have := abs_nonneg (exactCam o fov f lr ar).filmHeight
    linarith
  · change |lr.toReal| * (15 * uRnd 23 * M + 5 * etaRnd 23 8) + etaRnd 23 8 + (|lr.toReal| * (15 * uRnd 23 * M + 5 * etaRnd 23 8) + etaRnd 23 8) ≤ _
    have := mul_le_mul_of_nonneg_left hM (mul_nonneg u0.le (abs_nonneg lr.toReal))
    linarith

end

/-! ### the hypotheses can be met -/

section
variable [Libm 23 8]

/-- the camera of C72 on `f32`: focus at distance 3, field of view 1, focal length 1, lens radius 1, aspect ratio 1 -/
theorem camRegular_example (ht : ∀ x : F32, (Libm.tan x : F32) = faithful 23 8 (Real.tan x.toReal)) :
    CamRegular (F32.lit 3) (F32.lit 1) (F32.lit 1) (F32.lit 1) (F32.lit 1) ∧
    (ThinLensCamera.new .identity (F32.lit 3) (F32.lit 1) (F32.lit 1) (F32.lit 1) (F32.lit 1)).filmWidth.isFin = true := by
  obtain ⟨l1, l2, l3⟩ := toReal_lit_small
  have f1 : (F32.lit 1).isFin = true := by decide +kernel
  have f2 : (F32.lit 2).isFin = true := by decide +kernel
  have ue : etaRnd 23 8 ≤ uRnd 23 * 0.2 := by unfold etaRnd uRnd fK; norm_num
  have u0 := uRnd_pos (mw := 23)
  have u1 := uRnd_small (mw := 23) (by norm_num)
  have e0 := etaRnd_pos (mw := 23) (ew := 8)
  have norm : ∀ {r : ℝ}, 0.2 ≤ r → Normalised 23 8 r := fun {r} hr => .inr (by
    rw [abs_of_nonneg (by linarith)]
    have := mul_le_mul_of_nonneg_left hr u0.le; linarith)
  have big : etaRnd 23 8 ≤ uRnd 23 * (1 / 2) := by linarith
  have hh := half_exact (x := F32.lit 1) f1 (by rw [l1, abs_of_pos (by norm_num)]; exact big)
  have T1 : Real.tan (1 / 2) < 1 := by
    refine lt_of_lt_of_eq ?_ Real.tan_pi_div_four
    exact Real.tan_lt_tan_of_lt_of_lt_pi_div_two (by linarith [Real.pi_pos]) (by linarith [Real.pi_pos]) (by linarith [Real.pi_gt_three])
  have T0 : 1 / 2 < Real.tan (1 / 2) := Real.lt_tan (by norm_num) (by linarith [Real.pi_gt_three])
  have tanFin : (GFloat.nextUp (Libm.tan (F32.lit 1 * GFloat.half) : F32)).isFin = true := by
    rw [ht, hh.2, l1]
    obtain ⟨hn, hk⟩ := faithful_key (mw := 23) (ew := 8) (Real.tan (1 / 2))
    obtain ⟨nu, ku⟩ := nextUp_key hn
    have k1 : rndK 23 8 (Real.tan (1 / 2)) ≤ rndK 23 8 1 := rndK_mono _ _ T1.le
    have k0 : 0 ≤ rndK 23 8 (Real.tan (1 / 2)) := rndK_nonneg (by linarith)
    have k2 : rndK 23 8 1 = (F32.lit 1).key := by rw [← l1]; exact rndK_toReal (notNaN_of_isFin f1)
    have k3 : (F32.lit 1).key + 1 < kInf 23 8 := by decide +kernel
    have := kInf_pos (mw := 23) (ew := 8)
    rw [if_pos (show 0 < Real.tan (1 / 2) by linarith)] at hk
    refine isFin_iff_key.2 ⟨?_, ?_⟩ <;> (rw [ku, hk]; split <;> omega)
  have hpi : (F32.lit 1).toReal < Real.pi := by rw [l1]; linarith [Real.pi_gt_three]
  have T := (tan_rel (by norm_num) f1 (by rw [l1]; norm_num) hpi (by rw [l1]; exact big) (faithful_accurate (ht _)) tanFin).1
  rw [l1] at T
  have hT := T.2
  have ab : |Real.tan (1 / 2)| ≤ 1 := by rw [abs_of_pos (by linarith)]; exact T1.le
  have ub := mul_le_mul_of_nonneg_left ab u0.le
  obtain ⟨t1, t2⟩ := _root_.abs_le.1 (hT.trans (by linarith : _ ≤ (0.01 : ℝ)))
  have tb : etaRnd 23 8 ≤ uRnd 23 * |(Libm.tan (F32.lit 1 * GFloat.half) : F32).toReal / 2| := by
    rw [abs_of_pos (by linarith)]
    have := mul_le_mul_of_nonneg_left (show 0.2 ≤ (Libm.tan (F32.lit 1 * GFloat.half) : F32).toReal / 2 by linarith) u0.le
    linarith
  obtain ⟨hf, hv⟩ := half_exact T.1 tb
  have ifin : (F32.lit 3 * F32.lit 1 / (F32.lit 3 - F32.lit 1)).isFin = true := by decide +kernel
  have i1 : 1 ≤ (F32.lit 3 * F32.lit 1 / (F32.lit 3 - F32.lit 1)).toReal := by rw [← l1]; exact toReal_le_iff.2 (by decide +kernel)
  have i2 : (F32.lit 3 * F32.lit 1 / (F32.lit 3 - F32.lit 1)).toReal ≤ 2 := by rw [← l2]; exact toReal_le_iff.2 (by decide +kernel)
  have p1 : (F32.lit 3 * F32.lit 1).toReal = 3 := by rw [← l3]; exact toReal_eq_iff.2 (by decide +kernel)
  have p2 : (F32.lit 3 - F32.lit 1).toReal = 2 := by rw [← l2]; exact toReal_eq_iff.2 (by decide +kernel)
  have wr : (Libm.tan (F32.lit 1 * GFloat.half) * GFloat.half : F32).toReal * (F32.lit 3 * F32.lit 1 / (F32.lit 3 - F32.lit 1)).toReal ≤ 1.1 ∧
      0.24 ≤ (Libm.tan (F32.lit 1 * GFloat.half) * GFloat.half : F32).toReal * (F32.lit 3 * F32.lit 1 / (F32.lit 3 - F32.lit 1)).toReal := by
    rw [hv]
    constructor <;> nlinarith
  obtain ⟨wf, wb⟩ := rounded_bound (mul_fin hf ifin) f2 (by rw [abs_of_pos (by linarith), l2]; linarith)
  have wl := mul_err' (show (Libm.tan (F32.lit 1 * GFloat.half) * GFloat.half * (F32.lit 3 * F32.lit 1 / (F32.lit 3 - F32.lit 1)) : F32).isFin = true from wf)
  rw [abs_of_pos (show 0 < (Libm.tan (F32.lit 1 * GFloat.half) * GFloat.half : F32).toReal * (F32.lit 3 * F32.lit 1 / (F32.lit 3 - F32.lit 1)).toReal by linarith)] at wl
  have uw := mul_le_mul_of_nonneg_right u1 (show 0 ≤ (Libm.tan (F32.lit 1 * GFloat.half) * GFloat.half : F32).toReal * (F32.lit 3 * F32.lit 1 / (F32.lit 3 - F32.lit 1)).toReal by linarith)
  have wl2 := (_root_.abs_le.1 wl).1
  have w3 : 0.2 ≤ (Libm.tan (F32.lit 1 * GFloat.half) * GFloat.half * (F32.lit 3 * F32.lit 1 / (F32.lit 3 - F32.lit 1)) : F32).toReal := by
    linarith
  have hfin := (rounded_bound (div_fin wf f1 (by decide +kernel)) f2 (by rw [l1, div_one]; exact wb)).1
  have comm : (GFloat.half * Libm.tan (F32.lit 1 * GFloat.half) : F32) = Libm.tan (F32.lit 1 * GFloat.half) * GFloat.half := Flt.mul_comm' _ _
  have eW : (ThinLensCamera.new .identity (F32.lit 3) (F32.lit 1) (F32.lit 1) (F32.lit 1) (F32.lit 1)).filmWidth =
    Libm.tan (F32.lit 1 * GFloat.half) * GFloat.half * (F32.lit 3 * F32.lit 1 / (F32.lit 3 - F32.lit 1)) := by rw [← comm]; rfl
  have eH : (ThinLensCamera.new .identity (F32.lit 3) (F32.lit 1) (F32.lit 1) (F32.lit 1) (F32.lit 1)).filmHeight =
    Libm.tan (F32.lit 1 * GFloat.half) * GFloat.half * (F32.lit 3 * F32.lit 1 / (F32.lit 3 - F32.lit 1)) / F32.lit 1 := by rw [← eW]; rfl
  refine ⟨⟨by decide +kernel, f1, by rw [l3]; norm_num, by rw [l1]; norm_num, f1, by rw [l1]; norm_num, hpi, by rw [l1]; exact big,
    faithful_accurate (ht _), tanFin, tb, ?_, norm (by rw [l3, l1]; norm_num), norm (by rw [p1, p2]; norm_num), ?_, ?_⟩, ?_⟩
  · rw [eH]; exact hfin
  · exact norm (by refine le_trans ?_ wr.2; norm_num)
  · rw [eW, l1, div_one]; exact norm w3
  · rw [eW]; exact wf

/-- The hypotheses of C113 are met by that camera for the middle of the film and the middle of the lens, with any libm whose
tangent is the correctly rounded one. -/
theorem c113_example (ht : ∀ x : F32, (Libm.tan x : F32) = faithful 23 8 (Real.tan x.toReal)) :
    let s : CameraSample F32 := ⟨new2 GFloat.half GFloat.half, new2 GFloat.half GFloat.half⟩
    let cam := ThinLensCamera.new .identity (F32.lit 3) (F32.lit 1) (F32.lit 1) (F32.lit 1) (F32.lit 1)
    InSquareF s.pFilm ∧ InSquareF s.pLens ∧ (F32.lit 3).toReal ≠ 2 * (F32.lit 1).toReal ∧
    15 * etaRnd 23 8 ≤ uRnd 23 * |(exactCam (F32.lit 3) (F32.lit 1) (F32.lit 1) (F32.lit 1) (F32.lit 1)).filmDistance| ∧
    Normalised 23 8 ((F32.lit 3).toReal / cam.filmDistance.toReal) ∧ (cam.toFocus s).squareNorm.isFin = true ∧
    3 * etaRnd 23 8 ≤ uRnd 23 * ∑ i, ((cam.toFocus s).vec i).toReal ^ 2 := by
  obtain ⟨l1, l2, l3⟩ := toReal_lit_small
  obtain ⟨R, wf⟩ := camRegular_example ht
  have hf := R.heightFin
  obtain ⟨hF, hV⟩ := half_spec (mw := 23) (ew := 8)
  have u0 := uRnd_pos (mw := 23)
  have ue : 15 * etaRnd 23 8 ≤ uRnd 23 * 0.2 := by unfold etaRnd uRnd fK; norm_num
  have sq : InSquareF (new2 GFloat.half GFloat.half) := by
    refine ⟨⟨hF, ?_, ?_⟩, hF, ?_, ?_⟩ <;> (first | rw [x_new2, hV] | rw [y_new2, hV]) <;> norm_num
  intro s cam
  have eI : (exactCam (F32.lit 3) (F32.lit 1) (F32.lit 1) (F32.lit 1) (F32.lit 1)).filmDistance = 3 / 2 := by
    change (F32.lit 3).toReal * (F32.lit 1).toReal / ((F32.lit 3).toReal - (F32.lit 1).toReal) = _
    rw [l1, l3]; norm_num
  have i1 : 1 ≤ (F32.lit 3 * F32.lit 1 / (F32.lit 3 - F32.lit 1)).toReal := by rw [← l1]; exact toReal_le_iff.2 (by decide +kernel)
  have i2 : (F32.lit 3 * F32.lit 1 / (F32.lit 3 - F32.lit 1)).toReal ≤ 2 := by rw [← l2]; exact toReal_le_iff.2 (by decide +kernel)
  change 1 ≤ cam.filmDistance.toReal at i1
  change cam.filmDistance.toReal ≤ 2 at i2
  have ofin : (-F32.lit 3 / (Scalar.zero - F32.lit 3 * F32.lit 1 / (F32.lit 3 - F32.lit 1)) : F32).isFin = true := by decide +kernel
  have conc : concentricSampleDisk s.pLens = new2 Scalar.zero Scalar.zero := by
    unfold concentricSampleDisk
    rw [if_pos (by decide +kernel)]
  have co : ∀ {y l : F32}, y.isFin = true → l.isFin = true →
      (y - y + (Scalar.zero - (y - y)) * (-F32.lit 3 / (Scalar.zero - F32.lit 3 * F32.lit 1 / (F32.lit 3 - F32.lit 1))) - Scalar.zero * l).key = 0 := by
    intro y l hy hl
    have a : (y - y).key = 0 := by
      have := sub_fin hy hy
      rw [sub_self, rndK_zero] at this
      exact this.2
    exact sub_zero_key (add_zero_key a (zero_mul_key ofin (sub_zero_key key_szero a))) (zero_mul_key hl key_szero)
  have hm : ∀ {w : F32}, w.isFin = true → (GFloat.half * w : F32).isFin = true := by
    intro w hw
    refine (rounded_bound (mul_fin hF hw) (c := iabs w) (by rw [isFin_iabs]; exact hw) ?_).1
    rw [hV, abs_mul, toReal_iabs, abs_of_pos (by norm_num)]
    linarith [abs_nonneg w.toReal]
  have f1 : (F32.lit 1).isFin = true := by decide +kernel
  have v0 : ((cam.toFocus s).vec 0).key = 0 := by
    change (_ - (concentricSampleDisk s.pLens).x * F32.lit 1).key = 0
    rw [conc]
    exact co (hm wf) f1
  have v1 : ((cam.toFocus s).vec 1).key = 0 := by
    change (_ - (concentricSampleDisk s.pLens).y * F32.lit 1).key = 0
    rw [conc]
    exact co (hm hf) f1
  have v2 : (cam.toFocus s).vec 2 = F32.lit 3 * F32.lit 1 / (F32.lit 3 - F32.lit 1) + (Scalar.zero - F32.lit 3 * F32.lit 1 / (F32.lit 3 - F32.lit 1)) *
    (-F32.lit 3 / (Scalar.zero - F32.lit 3 * F32.lit 1 / (F32.lit 3 - F32.lit 1))) - Scalar.zero := rfl
  have v2r : ((cam.toFocus s).vec 2).toReal ≤ -1 := by
    rw [v2, ← l1, ← toReal_negop]
    exact toReal_le_iff.2 (by decide +kernel)
  refine ⟨sq, sq, by rw [l1, l3]; norm_num, ?_, .inr ?_, ?_, ?_⟩
  · rw [eI, abs_of_pos (by norm_num)]; linarith
  · rw [l3, abs_of_pos (by positivity)]
    have : 1 ≤ 3 / cam.filmDistance.toReal := by rw [le_div_iff₀ (by linarith)]; linarith
    have := mul_le_mul_of_nonneg_left this u0.le
    have := etaRnd_pos (mw := 23) (ew := 8)
    linarith
  · change (Scalar.zero + Scalar.square ((cam.toFocus s).vec 0) + Scalar.square ((cam.toFocus s).vec 1) + Scalar.square ((cam.toFocus s).vec 2) : F32).isFin = true
    have k : ∀ {x : F32}, x.key = 0 → (Scalar.square x : F32).key = 0 := fun {x} hx =>
      mul_zero_key (isFin_of_key_zero hx) (toReal_eq_zero_iff.2 hx)
    have z := add_zero_key (add_zero_key key_szero (k v0)) (k v1)
    have f := isFin_of_key_zero z
    have g : (Scalar.square ((cam.toFocus s).vec 2) : F32).isFin = true := by rw [v2]; decide +kernel
    have a := add_fin f g
    rw [toReal_eq_zero_iff.2 z, zero_add, rndK_toReal (notNaN_of_isFin g)] at a
    rw [isFin_iff_key] at g ⊢
    have e : (Scalar.zero + Scalar.square ((cam.toFocus s).vec 0) + Scalar.square ((cam.toFocus s).vec 1) + Scalar.square ((cam.toFocus s).vec 2) : F32).key = _ := a.2
    rw [e]; exact g
  · rw [Fin.sum_univ_three]
    have : 1 ≤ ((cam.toFocus s).vec 2).toReal ^ 2 := by nlinarith
    have := mul_le_mul_of_nonneg_left (show 1 ≤ ((cam.toFocus s).vec 0).toReal ^ 2 + ((cam.toFocus s).vec 1).toReal ^ 2 + ((cam.toFocus s).vec 2).toReal ^ 2 by
      nlinarith [sq_nonneg ((cam.toFocus s).vec 0).toReal, sq_nonneg ((cam.toFocus s).vec 1).toReal]) u0.le
    have := etaRnd_pos (mw := 23) (ew := 8)
    linarith

end

/-- There is such a libm, and a lawful one. -/
example : ∃ L : Libm 23 8, @LawfulLibm 23 8 _ L ∧ ∀ x : F32, (L.tan x : F32) = faithful 23 8 (Real.tan x.toReal) := by
  obtain ⟨L, hL⟩ := lawfulLibm_exists 23 8
  let L' : Libm 23 8 := { L with tan := fun x => faithful 23 8 (Real.tan x.toReal) }
  exact ⟨L', @LawfulLibm.mk 23 8 _ L' hL.sin hL.cos hL.asin hL.acos hL.atan hL.atan_bot hL.atan_top, fun _ => rfl⟩

end Scarlet
