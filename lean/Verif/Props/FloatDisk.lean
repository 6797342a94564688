import Verif.Props.Camera4
import Verif.Props.Camera1
import Verif.Theory.Rel
import Mathlib.Analysis.SpecialFunctions.Trigonometric.Bounds

/-! C112: the disk sampling functions on floats: as accurate as the arithmetic allows. -/

set_option linter.unusedSectionVars false

namespace Scarlet
open Flt GVec

/-! ### the error analysis, on reals -/

/-- a radius times a sine or cosine accurate to one float -/
theorem disk_polar_core {u η a c C z : ℝ} (hu : 0 < u) (hu1 : u ≤ 1 / 1024) (hC : |C| ≤ 1) (hc : |c - C| ≤ 2.1 * u)
    (hz : |z - a * c| ≤ u * |a * c| + η) : |z - a * C| ≤ 3.13 * u * |a| + η := by
  have a0 := abs_nonneg a
  have c1 : |c| ≤ 1.01 := by
    have := abs_add_le (c - C) C; rw [sub_add_cancel] at this; linarith
  have e1 : |a * c| ≤ 1.01 * |a| := by
    rw [abs_mul]; have := mul_le_mul_of_nonneg_left c1 a0; linarith
  have e2 : |a * c - a * C| ≤ 2.1 * u * |a| := by
    rw [← mul_sub, abs_mul]; have := mul_le_mul_of_nonneg_left hc a0; linarith
  have e3 := mul_le_mul_of_nonneg_left e1 hu.le
  have e4 := abs_sub_le z (a * c) (a * C)
  have : 0 ≤ u * |a| := by positivity
  linarith

/-- the angle of the first branch -/
theorem disk_theta1_core {u η a b q P m t : ℝ} (hu : 0 < u) (hu1 : u ≤ 1 / 1024) (he : 0 < η) (hP : 0 < P) (hP1 : P ≤ 0.79)
    (hq : |q - P| ≤ u * P) (ha : a ≠ 0) (ha1 : |a| ≤ 1) (hb : |b| ≤ |a|) (hm : |m - q * b| ≤ u * |q * b| + η)
    (ht : |t - m / a| ≤ u * |m / a| + η) : |a| * |t - P * b / a| ≤ 2.5 * u * |a| + 2.1 * η := by
  have a0 := abs_pos.2 ha
  have b0 := abs_nonneg b
  have q1 : |q * b - P * b| ≤ u * (0.79 * |a|) := by
    rw [← sub_mul, abs_mul]
    have := mul_le_mul hq hb b0 (by positivity)
    have := mul_le_mul_of_nonneg_left (mul_le_mul_of_nonneg_right hP1 a0.le) hu.le
    linarith
  have q2 : |P * b| ≤ 0.79 * |a| := by
    rw [abs_mul, abs_of_pos hP]; exact mul_le_mul hP1 hb b0 (by norm_num)
  have q3 : |q * b| ≤ 0.8 * |a| := by
    have := abs_add_le (q * b - P * b) (P * b)
    rw [sub_add_cancel] at this
    have := mul_le_mul_of_nonneg_right hu1 (show 0 ≤ 0.79 * |a| by positivity)
    linarith
  have m1 : |m - P * b| ≤ 1.59 * u * |a| + η := by
    have := abs_sub_le m (q * b) (P * b)
    have := mul_le_mul_of_nonneg_left q3 hu.le
    linarith
  have m2 : |m| ≤ 0.8 * |a| + η := by
    have := abs_add_le (m - P * b) (P * b)
    rw [sub_add_cancel] at this
    have := mul_le_mul_of_nonneg_right hu1 a0.le
    linarith
  have e1 : |a| * |t - m / a| ≤ u * |m| + η * |a| := by
    have := mul_le_mul_of_nonneg_left ht a0.le
    have e : |a| * (u * |m / a| + η) = u * |m| + η * |a| := by rw [abs_div]; field_simp
    linarith
  have e2 : |a| * |m / a - P * b / a| = |m - P * b| := by
    rw [← sub_div, abs_div]; field_simp
  have e3 := mul_le_mul_of_nonneg_left (abs_sub_le t (m / a) (P * b / a)) a0.le
  have e4 := mul_le_mul_of_nonneg_left m2 hu.le
  have e5 := mul_le_mul_of_nonneg_left ha1 he.le
  have e6 := mul_le_mul_of_nonneg_right hu1 he.le
  have : 0 ≤ u * |a| := by positivity
  linarith

/-- the angle of the second branch -/
theorem disk_theta2_core {u η v q P h H d e t : ℝ} (hu : 0 < u) (hu1 : u ≤ 1 / 1024) (he : 0 < η) (he1 : η ≤ 1 / 1024) (hP : 0 < P)
    (hP1 : P ≤ 0.79) (hH : 0 < H) (hH1 : H ≤ 1.58) (hq : |q - P| ≤ u * P) (hh : |h - H| ≤ u * H) (hv : |v| ≤ 1)
    (hd : |d - v| ≤ u * |v| + η) (hee : |e - d * q| ≤ u * |d * q| + η) (ht : |t - (h - e)| ≤ u * |h - e|) :
    |t - (H - v * P)| ≤ 6.5 * u + 2.1 * η := by
  have d1 : |d - v| ≤ u + η := by
    have := mul_le_mul_of_nonneg_left hv hu.le; linarith
  have d2 : |d| ≤ 1.01 := by
    have := abs_add_le (d - v) v; rw [sub_add_cancel] at this; linarith
  have q1 : |q - P| ≤ 0.79 * u := by
    have := mul_le_mul_of_nonneg_left hP1 hu.le; linarith
  have q2 : |q| ≤ 0.8 := by
    have := abs_add_le (q - P) P; rw [sub_add_cancel, abs_of_pos hP] at this; linarith
  have e1 : |d * q - v * P| ≤ 1.59 * u + 0.8 * η := by
    rw [show d * q - v * P = (d - v) * q + v * (q - P) by ring]
    refine (abs_add_le _ _).trans ?_
    rw [abs_mul, abs_mul]
    have a1 := mul_le_mul d1 q2 (abs_nonneg _) (by positivity)
    have a2 := mul_le_mul hv q1 (abs_nonneg _) (by norm_num)
    linarith
  have e2 : |d * q| ≤ 0.81 := by
    rw [abs_mul]; have := mul_le_mul d2 q2 (abs_nonneg _) (by norm_num); linarith
  have e3 : |e - v * P| ≤ 2.41 * u + 1.8 * η := by
    have := abs_sub_le e (d * q) (v * P)
    have := mul_le_mul_of_nonneg_left e2 hu.le
    linarith
  have v1 : |v * P| ≤ 0.79 := by
    rw [abs_mul, abs_of_pos hP]; have := mul_le_mul hv hP1 hP.le (by norm_num); linarith
  have h1 : |h - H| ≤ 1.58 * u := by
    have := mul_le_mul_of_nonneg_left hH1 hu.le; linarith
  have e4 : |h - e - (H - v * P)| ≤ 3.99 * u + 1.8 * η := by
    rw [show h - e - (H - v * P) = (h - H) - (e - v * P) by ring]
    have := abs_sub (h - H) (e - v * P)
    linarith
  have e5 : |h - e| ≤ 2.4 := by
    have a := abs_add_le (h - e - (H - v * P)) (H - v * P)
    rw [sub_add_cancel] at a
    have b := abs_sub H (v * P)
    rw [abs_of_pos hH] at b
    linarith
  have e6 := mul_le_mul_of_nonneg_left e5 hu.le
  have := abs_sub_le t (h - e) (H - v * P)
  linarith

/-- moving the point by a relative error -/
theorem disk_shift_core {u x y X Y P c : ℝ} {f : ℝ → ℝ} (hu : 0 < u) (hu1 : u ≤ 1 / 1024) (hP : 0 < P) (hP1 : P ≤ 0.79) (hX : X ≠ 0)
    (hYX : |Y| ≤ |X|) (hx : |x - X| ≤ u * |X|) (hy : |y - Y| ≤ u * |Y|) (hf : ∀ s t, |f s - f t| ≤ |s - t|) (hf1 : ∀ s, |f s| ≤ 1) :
    |x * f (c + P * (y / x)) - X * f (c + P * (Y / X))| ≤ 2.7 * u * |X| ∧ |x * f (c - P * (y / x)) - X * f (c - P * (Y / X))| ≤ 2.7 * u * |X| := by
  have X0 := abs_pos.2 hX
  have x1 : 0.999 * |X| ≤ |x| := by
    have := abs_sub_abs_le_abs_sub X x
    rw [abs_sub_comm] at this
    have := mul_le_mul_of_nonneg_right hu1 X0.le
    linarith
  have x0 : 0 < |x| := lt_of_lt_of_le (by positivity) x1
  have xn : x ≠ 0 := abs_pos.1 x0
  have d : |y / x - Y / X| ≤ 2.1 * u := by
    have e : y / x - Y / X = ((y - Y) - Y / X * (x - X)) / x := by field_simp; ring
    rw [e, abs_div, div_le_iff₀ x0]
    have a := abs_sub (y - Y) (Y / X * (x - X))
    have r : |Y / X| ≤ 1 := by rw [abs_div, div_le_one X0]; exact hYX
    rw [abs_mul] at a
    have b := mul_le_mul r hx (abs_nonneg _) (by norm_num)
    have c := mul_le_mul_of_nonneg_left hYX hu.le
    have e := mul_le_mul_of_nonneg_left x1 (show 0 ≤ 2.1 * u by positivity)
    have : 0 ≤ u * |X| := by positivity
    linarith
  have main : ∀ α β, |α - β| ≤ 0.79 * (2.1 * u) → |x * f α - X * f β| ≤ 2.7 * u * |X| := by
    intro α β h
    rw [show x * f α - X * f β = (x - X) * f α + X * (f α - f β) by ring]
    refine (abs_add_le _ _).trans ?_
    rw [abs_mul, abs_mul]
    have a := mul_le_mul hx (hf1 α) (abs_nonneg _) (by positivity)
    have b := mul_le_mul_of_nonneg_left ((hf α β).trans h) X0.le
    have : 0 ≤ u * |X| := by positivity
    linarith
  have dP : P * |y / x - Y / X| ≤ 0.79 * (2.1 * u) := mul_le_mul hP1 d (abs_nonneg _) (by norm_num)
  refine ⟨main _ _ ?_, main _ _ ?_⟩
  · rw [show c + P * (y / x) - (c + P * (Y / X)) = P * (y / x - Y / X) by ring, abs_mul, abs_of_pos hP]; exact dP
  · rw [show c - P * (y / x) - (c - P * (Y / X)) = -(P * (y / x - Y / X)) by ring, abs_neg, abs_mul, abs_of_pos hP]; exact dP

/-- on the diagonals the two branches agree -/
theorem disk_diagonal {x y : ℝ} (hx : x ≠ 0) (h : |x| = |y|) :
    x * Real.cos (Real.pi / 4 * y / x) = y * Real.cos (Real.pi / 2 - x / y * (Real.pi / 4)) ∧
    x * Real.sin (Real.pi / 4 * y / x) = y * Real.sin (Real.pi / 2 - x / y * (Real.pi / 4)) := by
  rcases abs_eq_abs.1 h with e | e
  · subst e
    rw [mul_div_assoc, div_self hx, show Real.pi / 2 - 1 * (Real.pi / 4) = Real.pi / 4 * 1 by ring]
    exact ⟨rfl, rfl⟩
  · have hy : y ≠ 0 := by rintro rfl; simp at e; exact hx e
    subst e
    rw [mul_div_assoc, show y / -y = -1 by field_simp, show -y / y = -1 by field_simp,
      show Real.pi / 2 - -1 * (Real.pi / 4) = Real.pi / 4 + Real.pi / 2 by ring, mul_neg_one, Real.cos_neg, Real.sin_neg,
      Real.cos_add_pi_div_two, Real.sin_add_pi_div_two, Real.cos_pi_div_four, Real.sin_pi_div_four]
    constructor <;> ring

/-! ### floats -/

/-- doubling is exact -/
theorem double_exact {x : F32} (hx : x.isFin = true) (h0 : 0 ≤ x.toReal) (h1 : x.toReal ≤ 1) :
    (F32.lit 2 * x).isFin = true ∧ (F32.lit 2 * x).toReal = 2 * x.toReal := by
  have hk := (mul_fin (x := F32.lit 2) (y := x) (by decide +kernel) hx).2
  rw [toReal_lit_small.2.1] at hk
  refine exact_of_repr ?_ hk
  have k0 := toReal_nonneg_iff.1 h0
  obtain ⟨j, hj⟩ := magN_double (mw := 23) x.key.natAbs
  have hv := toReal_eq_key x
  rw [valZ_nonneg_eq k0] at hv
  have e : x.toReal * 2 ^ fK 23 8 = magN 23 x.key.natAbs := by rw [hv]; field_simp
  have hlt : j < infIdx 23 8 := by
    refine (magN_strictMono 23).lt_iff_lt.1 ?_
    have : (magN 23 x.key.natAbs : ℝ) ≤ 2 ^ fK 23 8 := by
      rw [← e]; have := mul_le_mul_of_nonneg_right h1 (show (0 : ℝ) ≤ 2 ^ fK 23 8 by positivity); linarith
    have : magN 23 x.key.natAbs ≤ 2 ^ fK 23 8 := by exact_mod_cast this
    have b : 2 * 2 ^ fK 23 8 < magN 23 (infIdx 23 8) := by decide +kernel
    omega
  refine ⟨(j : ℤ), ?_, ?_, ?_⟩
  · unfold kInf; omega
  · unfold kInf; omega
  · rw [valZ_nat, div_eq_iff (by positivity), hj]; push_cast; rw [← e]; ring

section
variable [Libm 23 8] [LawfulLibm 23 8]

/-- the centred coordinate is correctly rounded -/
theorem centred_rel {x : F32} (h : x.isFin = true ∧ 0 ≤ x.toReal ∧ x.toReal ≤ 1) :
    Rel ((Scalar.one : F32) - GFloat.fromF32 (F32.lit 2) * x) (1 - 2 * x.toReal) 1 ∧
    ((Scalar.one : F32) - GFloat.fromF32 (F32.lit 2) * x).key = rndK 23 8 (1 - 2 * x.toReal) := by
  have c := (centred h).1
  obtain ⟨f2, v2⟩ := double_exact h.1 h.2.1 h.2.2
  rw [lit_two_cast] at c ⊢
  have o := sone_spec (mw := 23) (ew := 8)
  have r := rel_sub_exact o.1 f2 c
  have k := (sub_fin o.1 f2).2
  rw [o.2, v2] at r k
  exact ⟨r, k⟩

theorem pi_consts : (GFloat.fracPi4 : F32).isFin = true ∧ |(GFloat.fracPi4 : F32).toReal - Real.pi / 4| ≤ uRnd 23 * (Real.pi / 4) ∧
    (GFloat.fracPi2 : F32).isFin = true ∧ |(GFloat.fracPi2 : F32).toReal - Real.pi / 2| ≤ uRnd 23 * (Real.pi / 2) ∧
    (F32.lit 2 * GFloat.pi : F32).isFin = true ∧ |(F32.lit 2 * GFloat.pi : F32).toReal - 2 * Real.pi| ≤ uRnd 23 * (2 * Real.pi) := by
  have hlo := Real.pi_gt_d20
  have hhi := Real.pi_lt_d20
  have sv : ∀ {x : F32} {n : ℤ} {r : ℝ}, x.sval = n → (n : ℝ) = r * 2 ^ fK 23 8 → x.toReal = r := by
    intro x n r h1 h2
    have := sval_cast x
    rw [h1, h2] at this
    exact (mul_right_cancel₀ (by positivity) this).symm
  have v4 : (GFloat.fracPi4 : F32).toReal = 13176795 / 2 ^ 24 := sv (n := 13176795 * 2 ^ 125) (by decide +kernel) (by unfold fK; norm_num)
  have v2 : (GFloat.fracPi2 : F32).toReal = 13176795 / 2 ^ 23 := sv (n := 13176795 * 2 ^ 126) (by decide +kernel) (by unfold fK; norm_num)
  have v1 : (F32.lit 2 * GFloat.pi : F32).toReal = 13176795 / 2 ^ 21 := sv (n := 13176795 * 2 ^ 128) (by decide +kernel) (by unfold fK; norm_num)
  rw [v4, v2, v1]
  unfold uRnd
  refine ⟨by decide +kernel, ?_, by decide +kernel, ?_, by decide +kernel, ?_⟩ <;>
  · rw [abs_le]; constructor <;> norm_num <;> linarith

/-- the real point that a float point is -/
noncomputable def realPt2 (p : Point F32 2) : Point ℝ 2 := new2 p.x.toReal p.y.toReal

theorem disk_polar {r θ : F32} (hr : r.isFin = true ∧ |r.toReal| ≤ 1) (hθ : θ.isFin = true) :
    |(r * GTrig.cos θ).toReal - r.toReal * Real.cos θ.toReal| ≤ 3.13 * uRnd 23 * |r.toReal| + etaRnd 23 8 ∧
    |(r * GTrig.sin θ).toReal - r.toReal * Real.sin θ.toReal| ≤ 3.13 * uRnd 23 * |r.toReal| + etaRnd 23 8 := by
  have u1 := uRnd_small (mw := 23) (by norm_num)
  obtain ⟨ns, nc⟩ := near_trig (mw := 23) (ew := 8) (by norm_num) (by norm_num) hθ
  obtain ⟨⟨f1, -⟩, f2, -⟩ := polar_unit hr hθ
  exact ⟨disk_polar_core uRnd_pos u1 (Real.abs_cos_le_one _) (nc.2.trans (by linarith [uRnd_pos (mw := 23)])) (mul_err' f1),
    disk_polar_core uRnd_pos u1 (Real.abs_sin_le_one _) (ns.2.trans (by linarith [uRnd_pos (mw := 23)])) (mul_err' f2)⟩

/-- both float branches, against the exact formula at the centred float coordinates -/
theorem concentric_form (p : Point F32 2) (hp : InSquareF p) : ∃ x y : F32,
    Rel x (1 - 2 * p.x.toReal) 1 ∧ x.key = rndK 23 8 (1 - 2 * p.x.toReal) ∧ |x.toReal| ≤ 1 ∧
    Rel y (1 - 2 * p.y.toReal) 1 ∧ y.key = rndK 23 8 (1 - 2 * p.y.toReal) ∧ |y.toReal| ≤ 1 ∧
    ((x.toReal = 0 ∧ y.toReal = 0 ∧ (concentricSampleDisk p).x.toReal = 0 ∧ (concentricSampleDisk p).y.toReal = 0) ∨
     (|y.toReal| < |x.toReal| ∧ ∃ θ : F32, θ.isFin = true ∧ concentricSampleDisk p = new2 (x * GTrig.cos θ) (x * GTrig.sin θ) ∧
       |x.toReal| * |θ.toReal - Real.pi / 4 * y.toReal / x.toReal| ≤ 2.5 * uRnd 23 * |x.toReal| + 2.1 * etaRnd 23 8) ∨
     (y.toReal ≠ 0 ∧ |x.toReal| ≤ |y.toReal| ∧ ∃ θ : F32, θ.isFin = true ∧ concentricSampleDisk p = new2 (y * GTrig.cos θ) (y * GTrig.sin θ) ∧
       |θ.toReal - (Real.pi / 2 - x.toReal / y.toReal * (Real.pi / 4))| ≤ 6.5 * uRnd 23 + 2.1 * etaRnd 23 8)) := by
  have hx := centred hp.1
  have hy := centred hp.2
  obtain ⟨rx, kx⟩ := centred_rel hp.1
  obtain ⟨ry, ky⟩ := centred_rel hp.2
  have form : ∀ x y : F32, x = (Scalar.one : F32) - GFloat.fromF32 (F32.lit 2) * p.x → y = (Scalar.one : F32) - GFloat.fromF32 (F32.lit 2) * p.y →
      concentricSampleDisk p = (if Scalar.isZero x && Scalar.isZero y then GVec.new2 Scalar.zero Scalar.zero
      else
        if Scalar.gt (Inherent.abs x) (Inherent.abs y) then GVec.new2 (x * GTrig.cos (GFloat.fracPi4 * y / x)) (x * GTrig.sin (GFloat.fracPi4 * y / x))
        else GVec.new2 (y * GTrig.cos (GFloat.fracPi2 - x / y * GFloat.fracPi4)) (y * GTrig.sin (GFloat.fracPi2 - x / y * GFloat.fracPi4))) := by
    rintro x y rfl rfl
    unfold concentricSampleDisk
    dsimp only
    split
    · rfl
    · split <;> rfl
  have form := form _ _ rfl rfl
  refine ⟨_, _, rx, kx, hx.2, ry, ky, hy.2, ?_⟩
  rw [form]
  clear form rx ry kx ky
  generalize (Scalar.one : F32) - GFloat.fromF32 (F32.lit 2) * p.x = x at *
  generalize (Scalar.one : F32) - GFloat.fromF32 (F32.lit 2) * p.y = y at *
  have o := sone_spec (mw := 23) (ew := 8)
  have u0 := uRnd_pos (mw := 23)
  have u1 := uRnd_small (mw := 23) (by norm_num)
  have e0 := etaRnd_pos (mw := 23) (ew := 8)
  obtain ⟨f4, v4, f2, v2, -, -⟩ := pi_consts
  have pp := Real.pi_pos
  have p79 : Real.pi / 4 ≤ 0.79 := by linarith [Real.pi_lt_d2]
  have p158 : Real.pi / 2 ≤ 1.58 := by linarith [Real.pi_lt_d2]
  have dv : ∀ {a b : F32}, b.toReal ≠ 0 → (a / b).isFin = true → b.isFin = true →
      |(a / b).toReal - a.toReal / b.toReal| ≤ uRnd 23 * |a.toReal / b.toReal| + etaRnd 23 8 := fun {a b} hb hf fb => by
    exact (div_err (isFin_of_div hf).1 fb hb hf).trans (max_le (by
      have := mul_nonneg u0.le (abs_nonneg (a.toReal / b.toReal)); linarith) (by linarith))
  have q4 : 0 ≤ (GFloat.fracPi4 : F32).toReal ∧ (GFloat.fracPi4 : F32).toReal ≤ 1 := by
    refine ⟨toReal_nonneg_iff.2 (by decide +kernel), ?_⟩
    rw [← (sone_spec (mw := 23) (ew := 8)).2]
    exact toReal_le_iff.2 (by decide +kernel)
  have q2 : 0 ≤ (GFloat.fracPi2 : F32).toReal ∧ (GFloat.fracPi2 : F32).toReal ≤ 2 := by
    refine ⟨toReal_nonneg_iff.2 (by decide +kernel), ?_⟩
    rw [← toReal_lit_small.2.1]
    exact toReal_le_iff.2 (by decide +kernel)
  by_cases h0 : (Scalar.isZero x && Scalar.isZero y) = true
  · left
    rw [Bool.and_eq_true] at h0
    have z : ∀ {w : F32}, Scalar.isZero w = true → w.toReal = 0 := fun {w} h => by
      have := (seq_iff.1 h).2.2
      rw [key_szero] at this
      exact toReal_eq_zero_iff.2 this
    rw [if_pos (by rw [h0.1, h0.2]; rfl)]
    exact ⟨z h0.1, z h0.2, toReal_szero, toReal_szero⟩
  · right
    rw [if_neg h0]
    by_cases hc : Scalar.gt (Inherent.abs x) (Inherent.abs y) = true
    · left
      rw [if_pos hc]
      have hlt : |y.toReal| < |x.toReal| := by
        have := (sgt_iff.1 hc).2.2
        rw [← toReal_iabs, ← toReal_iabs]
        exact toReal_lt_iff.2 this
      have hx0 : x.toReal ≠ 0 := fun h0 => by rw [h0, abs_zero] at hlt; exact absurd hlt (not_lt.2 (abs_nonneg _))
      have h1 := rounded_bound (mul_fin f4 hy.1) (c := x.iabs) ((isFin_iabs x).trans hx.1) (by
        rw [toReal_iabs, abs_mul, abs_of_nonneg q4.1]
        nlinarith [abs_nonneg y.toReal])
      rw [toReal_iabs] at h1
      have ft := (rounded_bound (div_fin h1.1 hx.1 (fun h0 => hx0 (toReal_eq_zero_iff.2 h0))) (c := (Scalar.one : F32)) o.1 (by
        rw [o.2, abs_div, div_le_one (abs_pos.2 hx0)]; exact h1.2)).1
      refine ⟨hlt, _, ft, rfl, ?_⟩
      exact disk_theta1_core u0 u1 e0 (by positivity) p79 v4 hx0 hx.2 hlt.le (mul_err' h1.1) (dv hx0 ft hx.1)
    · right
      rw [if_neg hc]
      have hle : |x.toReal| ≤ |y.toReal| := by
        rw [← toReal_iabs, ← toReal_iabs]
        refine toReal_le_iff.2 (not_lt.1 fun h => hc (sgt_iff.2 ⟨?_, ?_, h⟩))
        · exact (isNaN_iabs x).trans (notNaN_of_isFin hx.1)
        · exact (isNaN_iabs y).trans (notNaN_of_isFin hy.1)
      have hy0 : y.toReal ≠ 0 := fun hz => by
        rw [hz, abs_zero] at hle
        refine h0 ?_
        have hz' : ∀ u : F32, u.isFin = true → u.toReal = 0 → Scalar.isZero u = true := fun u hu h =>
          seq_iff.2 ⟨notNaN_of_isFin hu, notNaN_of_isFin isFin_szero, by rw [key_szero]; exact toReal_eq_zero_iff.1 h⟩
        rw [Bool.and_eq_true]
        exact ⟨hz' x hx.1 (abs_nonpos_iff.1 hle), hz' y hy.1 hz⟩
      have vb : |x.toReal / y.toReal| ≤ 1 := by rw [abs_div, div_le_one (abs_pos.2 hy0)]; exact hle
      have h1 := rounded_bound (div_fin hx.1 hy.1 (fun h0 => hy0 (toReal_eq_zero_iff.2 h0))) (c := (Scalar.one : F32)) o.1 (by
        rw [o.2]; exact vb)
      rw [o.2] at h1
      have h2 := rounded_bound (mul_fin h1.1 f4) (c := (Scalar.one : F32)) o.1 (by
        rw [o.2, abs_mul, abs_of_nonneg q4.1]
        nlinarith [abs_nonneg (x.div y).toReal])
      rw [o.2] at h2
      have hb := abs_le.1 h2.2
      have ft := (rounded_bound (sub_fin f2 h2.1) (c := F32.lit 3) (by decide +kernel) (by
        rw [toReal_lit_small.2.2, abs_le]; constructor <;> linarith)).1
      refine ⟨hy0, hle, _, ft, rfl, ?_⟩
      have he : etaRnd 23 8 ≤ 1 / 1024 := by unfold etaRnd fK; norm_num
      exact disk_theta2_core u0 u1 e0 he (by positivity) p79 (by positivity) p158 v4 v2 vb (dv hy0 h1.1 hy.1) (mul_err' h2.1)
        (sub_err f2 h2.1 ft)

/-- the float computation of the uniform sample -/
theorem uniform_form (p : Point F32 2) (hp : InSquareF p) : ∃ r θ : F32, r.isFin = true ∧ |r.toReal| ≤ 1 ∧
    |r.toReal - Real.sqrt p.y.toReal| ≤ uRnd 23 * Real.sqrt p.y.toReal + etaRnd 23 8 ∧ θ.isFin = true ∧
    |θ.toReal - 2 * Real.pi * p.x.toReal| ≤ 12.7 * uRnd 23 + etaRnd 23 8 ∧
    uniformSampleDisk p = new2 (r * GTrig.cos θ) (r * GTrig.sin θ) := by
  obtain ⟨⟨hx, hx0, hx1⟩, hy, hy0, hy1⟩ := hp
  have u0 := uRnd_pos (mw := 23)
  have u1 := uRnd_small (mw := 23) (by norm_num)
  have e0 := etaRnd_pos (mw := 23) (ew := 8)
  have o := sone_spec (mw := 23) (ew := 8)
  have hr := rounded_bound (sqrt_fin hy (toReal_nonneg_iff.1 hy0)) (c := (Scalar.one : F32)) o.1 (by
    rw [o.2, abs_of_nonneg (Real.sqrt_nonneg _)]; exact Real.sqrt_le_one.2 hy1)
  rw [o.2] at hr
  obtain ⟨-, -, -, -, fpi, vpi⟩ := pi_consts
  have hpi0 : 0 ≤ (F32.lit 2 * GFloat.pi : F32).toReal := toReal_nonneg_iff.2 (by decide +kernel)
  have ht := rounded_bound (mul_fin fpi hx) (c := F32.lit 2 * GFloat.pi) fpi (by
    rw [abs_of_nonneg (mul_nonneg hpi0 hx0)]; nlinarith)
  refine ⟨GFloat.sqrt p.y, F32.lit 2 * GFloat.pi * p.x, hr.1, hr.2, ?_, ht.1, ?_, ?_⟩
  · refine (sqrt_err hy hy0).2.trans (max_le ?_ ?_)
    · have := mul_nonneg u0.le (Real.sqrt_nonneg p.y.toReal); linarith
    · linarith
  · have m := mul_err' ht.1
    generalize (F32.lit 2 * GFloat.pi : F32).toReal = q at *
    have pl := Real.pi_lt_d2
    have q1 : |q - 2 * Real.pi| ≤ 6.3 * uRnd 23 := by
      have := mul_le_mul_of_nonneg_left (show 2 * Real.pi ≤ 6.3 by linarith) u0.le; linarith
    have q2 : q ≤ 6.31 := by have := (_root_.abs_le.1 q1).2; linarith
    have d : |q * p.x.toReal - 2 * Real.pi * p.x.toReal| ≤ 6.3 * uRnd 23 := by
      rw [← sub_mul, abs_mul, abs_of_nonneg hx0]
      have := mul_le_mul q1 hx1 hx0 (by positivity); linarith
    have b : |q * p.x.toReal| ≤ 6.31 := by
      rw [abs_of_nonneg (mul_nonneg hpi0 hx0)]; have := mul_le_mul q2 hx1 hx0 (by norm_num); linarith
    have := mul_le_mul_of_nonneg_left b u0.le
    have := abs_sub_le (F32.lit 2 * GFloat.pi * p.x).toReal (q * p.x.toReal) (2 * Real.pi * p.x.toReal)
    linarith
  · unfold uniformSampleDisk
    rw [lit_two64_cast]
    rfl

/-- the exact map in terms of the centred coordinates -/
theorem concentric_real (p : Point ℝ 2) :
    concentricSampleDisk p = if 1 - 2 * p.x = 0 ∧ 1 - 2 * p.y = 0 then new2 0 0 else
      if |1 - 2 * p.y| < |1 - 2 * p.x| then
        new2 ((1 - 2 * p.x) * Real.cos (Real.pi / 4 * (1 - 2 * p.y) / (1 - 2 * p.x)))
          ((1 - 2 * p.x) * Real.sin (Real.pi / 4 * (1 - 2 * p.y) / (1 - 2 * p.x)))
      else new2 ((1 - 2 * p.y) * Real.cos (Real.pi / 2 - (1 - 2 * p.x) / (1 - 2 * p.y) * (Real.pi / 4)))
        ((1 - 2 * p.y) * Real.sin (Real.pi / 2 - (1 - 2 * p.x) / (1 - 2 * p.y) * (Real.pi / 4))) := by
  unfold concentricSampleDisk
  simp only [rone, lit2_f32, riabs, rfracPi4, rfracPi2, rcos, rsin]
  generalize 1 - 2 * p.x = x at *
  generalize 1 - 2 * p.y = y at *
  by_cases h : x = 0 ∧ y = 0
  · rw [if_pos h, if_pos (by simp only [Bool.and_eq_true, risZero]; exact h)]; rfl
  · rw [if_neg h, if_neg (by simp only [Bool.and_eq_true, risZero]; exact h)]
    by_cases hc : |y| < |x|
    · rw [if_pos hc, if_pos (rgt_iff.2 hc)]
    · rw [if_neg hc, if_neg (fun h' => hc (rgt_iff.1 h'))]

theorem rnd_abs_mono {x y : F32} {X Y : ℝ} (kx : x.key = rndK 23 8 X) (ky : y.key = rndK 23 8 Y) (h : |X| ≤ |Y|) :
    |x.toReal| ≤ |y.toReal| := by
  have e : ∀ r : ℝ, |rndK 23 8 r| = rndK 23 8 |r| := fun r => by
    rcases le_total 0 r with h | h
    · rw [abs_of_nonneg h, abs_of_nonneg]
      have := rndK_mono 23 8 h; rwa [rndK_zero] at this
    · rw [abs_of_nonpos h, rndK_neg, abs_of_nonpos]
      have := rndK_mono 23 8 h; rwa [rndK_zero] at this
  rw [← toReal_iabs, ← toReal_iabs]
  refine toReal_le_iff.2 ?_
  rw [key_iabs, key_iabs, kx, ky, e, e]
  exact rndK_mono 23 8 h

/-- the three error terms together -/
theorem disk_sum_core {u η r R θ α z w W k : ℝ} {f : ℝ → ℝ} (hu : 0 < u) (hu1 : u ≤ 1 / 1024) (hk : k ≤ 6.5) (r1 : |r| ≤ 1.01 * |R|)
    (hf : ∀ s t, |f s - f t| ≤ |s - t|) (hz : |z - r * f θ| ≤ 3.13 * u * |r| + η) (ht : |r| * |θ - α| ≤ k * u * |r| + 2.1 * η)
    (hw : w = r * f α) (hW : |w - W| ≤ 2.7 * u * |R|) (he : 0 < η) : |z - W| ≤ 13 * u * |R| + 4 * η := by
  have e1 : |r * f θ - w| ≤ k * u * |r| + 2.1 * η := by
    rw [hw, ← mul_sub, abs_mul]
    exact (mul_le_mul_of_nonneg_left (hf θ α) (abs_nonneg _)).trans ht
  have e2 := abs_sub_le z (r * f θ) W
  have e3 := abs_sub_le (r * f θ) w W
  have e4 := mul_le_mul_of_nonneg_left r1 hu.le
  have e5 := mul_le_mul_of_nonneg_right hk (mul_nonneg hu.le (abs_nonneg r))
  have : 0 ≤ u * |R| := by positivity
  linarith

theorem lip_cos (s t : ℝ) : |Real.cos s - Real.cos t| ≤ |s - t| := Real.abs_cos_sub_cos_le s t
theorem lip_sin (s t : ℝ) : |Real.sin s - Real.sin t| ≤ |s - t| := Real.abs_sin_sub_sin_le s t

/-- the specification: `q` is within `e` of the real point `r` in each coordinate -/
def Within2 (q : Point F32 2) (r : Point ℝ 2) (e : ℝ) : Prop :=
  |q.x.toReal - r.x| ≤ e ∧ |q.y.toReal - r.y| ≤ e

/-- C112: for every sample of the unit square the float version of `concentric_sample_disk` returns the exact image up to 13
roundings of the distance from the middle of the square, whichever branches the float and the exact computation take. -/
theorem C112_concentric (p : Point F32 2) (hp : InSquareF p) :
    Within2 (concentricSampleDisk p) (concentricSampleDisk (realPt2 p))
      (13 * uRnd 23 * Max.max |1 - 2 * p.x.toReal| |1 - 2 * p.y.toReal| + 4 * etaRnd 23 8) := by
  obtain ⟨x, y, rx, kx, x1, ry, ky, y1, hform⟩ := concentric_form p hp
  have hreal := concentric_real (realPt2 p)
  have ex : (realPt2 p).x = p.x.toReal := x_new2 _ _
  have ey : (realPt2 p).y = p.y.toReal := y_new2 _ _
  rw [ex, ey] at hreal
  rw [hreal]
  clear hreal ex ey
  generalize 1 - 2 * p.x.toReal = X at *
  generalize 1 - 2 * p.y.toReal = Y at *
  have u0 := uRnd_pos (mw := 23)
  have u1 := uRnd_small (mw := 23) (by norm_num)
  have e0 := etaRnd_pos (mw := 23) (ew := 8)
  have pp := Real.pi_pos
  have P0 : 0 < Real.pi / 4 := by positivity
  have p79 : Real.pi / 4 ≤ 0.79 := by linarith [Real.pi_lt_d2]
  have hx : |x.toReal - X| ≤ uRnd 23 * |X| := by have := rx.2; rwa [one_mul] at this
  have hy : |y.toReal - Y| ≤ uRnd 23 * |Y| := by have := ry.2; rwa [one_mul] at this
  have zero : ∀ {w W : ℝ}, |w - W| ≤ uRnd 23 * |W| → (w = 0 ↔ W = 0) := fun {w W} h => by
    constructor
    · rintro rfl
      rw [zero_sub, abs_neg] at h
      have := mul_le_mul_of_nonneg_right u1 (abs_nonneg W)
      exact abs_nonpos_iff.1 (by linarith)
    · rintro rfl
      rw [sub_zero, abs_zero, mul_zero] at h
      exact abs_nonpos_iff.1 h
  have grow : ∀ {w W : ℝ}, |w - W| ≤ uRnd 23 * |W| → |w| ≤ 1.01 * |W| := fun {w W} h => by
    have := abs_add_le (w - W) W
    rw [sub_add_cancel] at this
    have := mul_le_mul_of_nonneg_right u1 (abs_nonneg W)
    linarith [abs_nonneg W]
  have zx := zero hx
  have zy := zero hy
  -- the exact branches at the exact point
  have real1 : X ≠ 0 → |Y| ≤ |X| → (if X = 0 ∧ Y = 0 then new2 0 0 else if |Y| < |X| then
        new2 (X * Real.cos (Real.pi / 4 * Y / X)) (X * Real.sin (Real.pi / 4 * Y / X))
      else new2 (Y * Real.cos (Real.pi / 2 - X / Y * (Real.pi / 4))) (Y * Real.sin (Real.pi / 2 - X / Y * (Real.pi / 4))) : Point ℝ 2) =
      new2 (X * Real.cos (Real.pi / 4 * Y / X)) (X * Real.sin (Real.pi / 4 * Y / X)) := by
    intro hX h
    rw [if_neg (fun h => hX h.1)]
    rcases h.lt_or_eq with h | h
    · rw [if_pos h]
    · rw [if_neg (by rw [h]; exact lt_irrefl _), ← (disk_diagonal hX h.symm).1, ← (disk_diagonal hX h.symm).2]
  have real2 : Y ≠ 0 → |X| ≤ |Y| → (if X = 0 ∧ Y = 0 then new2 0 0 else if |Y| < |X| then
        new2 (X * Real.cos (Real.pi / 4 * Y / X)) (X * Real.sin (Real.pi / 4 * Y / X))
      else new2 (Y * Real.cos (Real.pi / 2 - X / Y * (Real.pi / 4))) (Y * Real.sin (Real.pi / 2 - X / Y * (Real.pi / 4))) : Point ℝ 2) =
      new2 (Y * Real.cos (Real.pi / 2 - X / Y * (Real.pi / 4))) (Y * Real.sin (Real.pi / 2 - X / Y * (Real.pi / 4))) := by
    intro hY h
    rw [if_neg (fun h => hY h.2), if_neg (not_lt.2 h)]
  -- moving from the float to the exact coordinates
  have sh1 : ∀ {f : ℝ → ℝ}, (∀ s t, |f s - f t| ≤ |s - t|) → (∀ s, |f s| ≤ 1) → X ≠ 0 → |Y| ≤ |X| →
      |x.toReal * f (Real.pi / 4 * y.toReal / x.toReal) - X * f (Real.pi / 4 * Y / X)| ≤ 2.7 * uRnd 23 * |X| := by
    intro f h1 h2 hX h
    have := (disk_shift_core (c := 0) u0 u1 P0 p79 hX h hx hy h1 h2).1
    simpa only [zero_add, mul_div_assoc] using this
  have sh2 : ∀ {f : ℝ → ℝ}, (∀ s t, |f s - f t| ≤ |s - t|) → (∀ s, |f s| ≤ 1) → Y ≠ 0 → |X| ≤ |Y| →
      |y.toReal * f (Real.pi / 2 - x.toReal / y.toReal * (Real.pi / 4)) - Y * f (Real.pi / 2 - X / Y * (Real.pi / 4))| ≤
      2.7 * uRnd 23 * |Y| := by
    intro f h1 h2 hY h
    have := (disk_shift_core (c := Real.pi / 2) u0 u1 P0 p79 hY h hy hx h1 h2).2
    simpa only [mul_comm (Real.pi / 4)] using this
  have lM : ∀ {z W : ℝ}, |z - W| ≤ 13 * uRnd 23 * |X| + 4 * etaRnd 23 8 → |z - W| ≤ 13 * uRnd 23 * Max.max |X| |Y| + 4 * etaRnd 23 8 := fun h =>
    h.trans (by have := mul_le_mul_of_nonneg_left (le_max_left |X| |Y|) (show 0 ≤ 13 * uRnd 23 by positivity); linarith)
  have rM : ∀ {z W : ℝ}, |z - W| ≤ 13 * uRnd 23 * |Y| + 4 * etaRnd 23 8 → |z - W| ≤ 13 * uRnd 23 * Max.max |X| |Y| + 4 * etaRnd 23 8 := fun h =>
    h.trans (by have := mul_le_mul_of_nonneg_left (le_max_right |X| |Y|) (show 0 ≤ 13 * uRnd 23 by positivity); linarith)
  rcases hform with ⟨h1, h2, h3, h4⟩ | ⟨hlt, θ, fθ, e, ht⟩ | ⟨hy0, hle, θ, fθ, e, ht⟩
  · rw [if_pos ⟨zx.1 h1, zy.1 h2⟩]
    unfold Within2
    rw [h3, h4, x_new2, y_new2, sub_zero, abs_zero]
    have : 0 ≤ Max.max |X| |Y| := (abs_nonneg X).trans (le_max_left _ _)
    exact ⟨by positivity, by positivity⟩
  · have hX : X ≠ 0 := fun h => by
      rw [zx.2 h, abs_zero] at hlt; exact absurd hlt (not_lt.2 (abs_nonneg _))
    have hYX : |Y| ≤ |X| := not_lt.1 fun h => absurd hlt (not_lt.2 (rnd_abs_mono kx ky h.le))
    rw [real1 hX hYX, e]
    have hp := disk_polar ⟨rx.1, x1⟩ fθ
    refine ⟨?_, ?_⟩
    · rw [x_new2, x_new2]
      exact lM (disk_sum_core u0 u1 (by norm_num) (grow hx) lip_cos hp.1 ht rfl (sh1 lip_cos Real.abs_cos_le_one hX hYX) e0)
    · rw [y_new2, y_new2]
      exact lM (disk_sum_core u0 u1 (by norm_num) (grow hx) lip_sin hp.2 ht rfl (sh1 lip_sin Real.abs_sin_le_one hX hYX) e0)
  · have hY : Y ≠ 0 := fun h => hy0 (zy.2 h)
    have hp := disk_polar ⟨ry.1, y1⟩ fθ
    have ht' : |y.toReal| * |θ.toReal - (Real.pi / 2 - x.toReal / y.toReal * (Real.pi / 4))| ≤
        6.5 * uRnd 23 * |y.toReal| + 2.1 * etaRnd 23 8 := by
      have := mul_le_mul_of_nonneg_left ht (abs_nonneg y.toReal)
      have := mul_le_mul_of_nonneg_right y1 e0.le
      linarith
    rw [e]
    rcases le_or_gt |X| |Y| with h | h
    · rw [real2 hY h]
      refine ⟨?_, ?_⟩
      · rw [x_new2, x_new2]
        exact rM (disk_sum_core u0 u1 le_rfl (grow hy) lip_cos hp.1 ht' rfl (sh2 lip_cos Real.abs_cos_le_one hY h) e0)
      · rw [y_new2, y_new2]
        exact rM (disk_sum_core u0 u1 le_rfl (grow hy) lip_sin hp.2 ht' rfl (sh2 lip_sin Real.abs_sin_le_one hY h) e0)
    · have heq : |x.toReal| = |y.toReal| := le_antisymm hle (rnd_abs_mono ky kx h.le)
      have hX : X ≠ 0 := fun h0 => by rw [h0, abs_zero] at h; exact absurd h (not_lt.2 (abs_nonneg _))
      have hx0 : x.toReal ≠ 0 := fun h => hX (zx.1 h)
      have dg := disk_diagonal hx0 heq
      rw [real1 hX h.le]
      have g : |y.toReal| ≤ 1.01 * |X| := heq ▸ grow hx
      refine ⟨?_, ?_⟩
      · rw [x_new2, x_new2]
        exact lM (disk_sum_core u0 u1 le_rfl g lip_cos hp.1 ht' dg.1 (sh1 lip_cos Real.abs_cos_le_one hX h.le) e0)
      · rw [y_new2, y_new2]
        exact lM (disk_sum_core u0 u1 le_rfl g lip_sin hp.2 ht' dg.2 (sh1 lip_sin Real.abs_sin_le_one hX h.le) e0)

/-- a point in polar form is in the disk up to rounding -/
theorem disk_norm_core {u η r C S x y : ℝ} (hu : 0 < u) (hu1 : u ≤ 1 / 1024) (he : 0 < η) (he1 : η ≤ u * 0.001) (hr : |r| ≤ 1)
    (hcs : C ^ 2 + S ^ 2 = 1) (hx : |x - r * C| ≤ 3.13 * u * |r| + η) (hy : |y - r * S| ≤ 3.13 * u * |r| + η) :
    x ^ 2 + y ^ 2 ≤ (1 + 5 * u) ^ 2 := by
  have ur : u * |r| ≤ u := by have := mul_le_mul_of_nonneg_left hr hu.le; linarith
  have h1 : |x - r * C| ≤ 3.14 * u := by linarith
  have h2 : |y - r * S| ≤ 3.14 * u := by linarith
  generalize ea : x - r * C = a at *
  generalize eb : y - r * S = b at *
  have e1 : x = r * C + a := by linarith
  have e2 : y = r * S + b := by linarith
  have ab : a ^ 2 + b ^ 2 ≤ (4.45 * u) ^ 2 := by
    have := sq_le_sq' (by linarith [(_root_.abs_le.1 h1).1]) (_root_.abs_le.1 h1).2
    have := sq_le_sq' (by linarith [(_root_.abs_le.1 h2).1]) (_root_.abs_le.1 h2).2
    nlinarith
  have r2 : r ^ 2 ≤ 1 := by rw [← sq_abs]; exact pow_le_one₀ (abs_nonneg _) hr
  have cr : (r * C * a + r * S * b) ^ 2 ≤ (4.45 * u) ^ 2 := by
    have l : (C * a + S * b) ^ 2 ≤ a ^ 2 + b ^ 2 := by
      have : (a ^ 2 + b ^ 2) * (C ^ 2 + S ^ 2) = (C * a + S * b) ^ 2 + (C * b - S * a) ^ 2 := by ring
      rw [hcs] at this
      linarith [sq_nonneg (C * b - S * a)]
    have e : (r * C * a + r * S * b) ^ 2 = r ^ 2 * (C * a + S * b) ^ 2 := by ring
    rw [e]
    have := mul_le_mul r2 l (sq_nonneg _) (by norm_num)
    linarith
  have cr' := (abs_le_of_sq_le_sq' cr (by positivity)).2
  have : x ^ 2 + y ^ 2 = r ^ 2 * (C ^ 2 + S ^ 2) + 2 * (r * C * a + r * S * b) + (a ^ 2 + b ^ 2) := by rw [e1, e2]; ring
  rw [this, hcs]
  nlinarith

theorem eta_tiny : etaRnd 23 8 ≤ uRnd 23 * 0.001 := by unfold etaRnd uRnd fK; norm_num

/-- C112: the sample lies in the unit disk up to five roundings. -/
theorem C112_disk (p : Point F32 2) (hp : InSquareF p) :
    (concentricSampleDisk p).x.toReal ^ 2 + (concentricSampleDisk p).y.toReal ^ 2 ≤ (1 + 5 * uRnd 23) ^ 2 ∧
    (uniformSampleDisk p).x.toReal ^ 2 + (uniformSampleDisk p).y.toReal ^ 2 ≤ (1 + 5 * uRnd 23) ^ 2 := by
  have u0 := uRnd_pos (mw := 23)
  have u1 := uRnd_small (mw := 23) (by norm_num)
  have e0 := etaRnd_pos (mw := 23) (ew := 8)
  have pol : ∀ {r θ : F32}, r.isFin = true ∧ |r.toReal| ≤ 1 → θ.isFin = true →
      (new2 (r * GTrig.cos θ) (r * GTrig.sin θ) : Point F32 2).x.toReal ^ 2 +
      (new2 (r * GTrig.cos θ) (r * GTrig.sin θ) : Point F32 2).y.toReal ^ 2 ≤ (1 + 5 * uRnd 23) ^ 2 := fun {r θ} hr hθ => by
    have h := disk_polar hr hθ
    exact disk_norm_core u0 u1 e0 eta_tiny hr.2 (Real.cos_sq_add_sin_sq θ.toReal) h.1 h.2
  constructor
  · obtain ⟨x, y, rx, -, x1, ry, -, y1, ⟨h1, h2, h3, h4⟩ | ⟨hlt, θ, fθ, e, -⟩ | ⟨hy0, hle, θ, fθ, e, -⟩⟩ := concentric_form p hp
    · rw [h3, h4]; have := sq_nonneg (1 + 5 * uRnd 23); linarith
    · rw [e]; exact pol ⟨rx.1, x1⟩ fθ
    · rw [e]; exact pol ⟨ry.1, y1⟩ fθ
  · obtain ⟨r, θ, fr, r1, -, fθ, -, e⟩ := uniform_form p hp
    rw [e]; exact pol ⟨fr, r1⟩ fθ

/-- the last step of the uniform sample -/
theorem disk_uniform_core {u η r R θ α z : ℝ} {f : ℝ → ℝ} (hu : 0 < u) (hu1 : u ≤ 1 / 1024) (he : 0 < η) (he1 : η ≤ u * 0.001)
    (hR : 0 ≤ R) (hR1 : R ≤ 1) (hr1 : |r| ≤ 1)
    (hr : |r - R| ≤ u * R + η) (hf : ∀ s t, |f s - f t| ≤ |s - t|) (hf1 : ∀ s, |f s| ≤ 1)
    (hz : |z - r * f θ| ≤ 3.13 * u * |r| + η) (ht : |θ - α| ≤ 12.7 * u + η) : |z - R * f α| ≤ 18 * u * R + 4 * η := by
  have r1 : |r| ≤ 1.001 * R + η := by
    have := abs_add_le (r - R) R
    rw [sub_add_cancel, abs_of_nonneg hR] at this
    have := mul_le_mul_of_nonneg_right hu1 hR
    linarith
  have e1 : |r * f θ - r * f α| ≤ 12.7 * u * |r| + η := by
    rw [← mul_sub, abs_mul]
    have := mul_le_mul_of_nonneg_left ((hf θ α).trans ht) (abs_nonneg r)
    have := mul_le_mul_of_nonneg_right hr1 he.le
    linarith
  have e2 : |r * f α - R * f α| ≤ u * R + η := by
    rw [← sub_mul, abs_mul]
    have := mul_le_mul hr (hf1 α) (abs_nonneg _) (by positivity)
    linarith
  have e3 := abs_sub_le z (r * f θ) (R * f α)
  have e4 := abs_sub_le (r * f θ) (r * f α) (R * f α)
  have e5 := mul_le_mul_of_nonneg_left r1 hu.le
  have e6 := mul_le_mul_of_nonneg_right hu1 he.le
  have : 0 ≤ u * R := by positivity
  linarith

/-- C112: the same for `uniform_sample_disk`: exact up to 18 roundings of the radius. -/
theorem C112_uniform (p : Point F32 2) (hp : InSquareF p) :
    Within2 (uniformSampleDisk p) (uniformSampleDisk (realPt2 p)) (18 * uRnd 23 * Real.sqrt p.y.toReal + 4 * etaRnd 23 8) := by
  obtain ⟨r, θ, fr, r1, hr, fθ, ht, e⟩ := uniform_form p hp
  have u0 := uRnd_pos (mw := 23)
  have u1 := uRnd_small (mw := 23) (by norm_num)
  have e0 := etaRnd_pos (mw := 23) (ew := 8)
  have h := disk_polar ⟨fr, r1⟩ fθ
  have ex : (realPt2 p).x = p.x.toReal := x_new2 _ _
  have ey : (realPt2 p).y = p.y.toReal := y_new2 _ _
  rw [uniform_eq, ex, ey, e]
  have s0 := Real.sqrt_nonneg p.y.toReal
  have s1 := Real.sqrt_le_one.2 hp.2.2.2
  exact ⟨disk_uniform_core u0 u1 e0 eta_tiny s0 s1 r1 hr lip_cos Real.abs_cos_le_one h.1 ht,
    disk_uniform_core u0 u1 e0 eta_tiny s0 s1 r1 hr lip_sin Real.abs_sin_le_one h.2 ht⟩

/-- scaling the sample by the lens radius -/
theorem disk_lens_core {u η d D R m z : ℝ} (hu : 0 < u) (hu1 : u ≤ 1 / 1024) (he : 0 < η) (he1 : η ≤ u * 0.001)
    (hm : m ≤ 1) (hD : |D| ≤ m) (hd : |d - D| ≤ 13 * u * m + 4 * η) (hz : |z - d * R| ≤ u * |d * R| + η) :
    |z - D * R| ≤ |R| * (15 * u * m + 5 * η) + η := by
  have R0 := abs_nonneg R
  have m0 : 0 ≤ m := (abs_nonneg D).trans hD
  have d1 : |d| ≤ 1.1 * m + 4 * η := by
    have := abs_add_le (d - D) D
    rw [sub_add_cancel] at this
    have := mul_le_mul_of_nonneg_right hu1 m0
    linarith
  have e1 : |d * R - D * R| ≤ |R| * (13 * u * m + 4 * η) := by
    rw [← sub_mul, abs_mul]
    have := mul_le_mul_of_nonneg_right hd R0; linarith
  have e2 : u * |d * R| ≤ |R| * (1.1 * u * m + 0.1 * η) := by
    rw [abs_mul]
    have a := mul_le_mul_of_nonneg_left d1 hu.le
    have b := mul_le_mul_of_nonneg_right hu1 he.le
    have c : u * |d| ≤ 1.1 * u * m + 0.1 * η := by linarith
    have := mul_le_mul_of_nonneg_right c R0
    linarith
  have e3 := abs_sub_le z (d * R) (D * R)
  have e4 : |R| * (13 * u * m + 4 * η) + |R| * (1.1 * u * m + 0.1 * η) ≤ |R| * (15 * u * m + 5 * η) := by
    rw [← mul_add]
    refine mul_le_mul_of_nonneg_left ?_ R0
    have : 0 ≤ u * m := by positivity
    linarith
  linarith

theorem disk_lens_norm_core {u η a b N x y : ℝ} (hu : 0 < u) (he : 0 < η) (hN : 0 ≤ N) (hab : a ^ 2 + b ^ 2 ≤ N ^ 2)
    (hx : |x - a| ≤ u * |a| + η) (hy : |y - b| ≤ u * |b| + η) : x ^ 2 + y ^ 2 ≤ ((1 + u) * N + 2 * η) ^ 2 := by
  have g : ∀ {w v : ℝ}, |w - v| ≤ u * |v| + η → |w| ≤ (1 + u) * |v| + η := fun {w v} h => by
    have := abs_add_le (w - v) v
    rw [sub_add_cancel] at this
    linarith
  have gx := g hx
  have gy := g hy
  have aN : |a| ≤ N := abs_le_of_sq_le_sq (by linarith [sq_nonneg b]) hN
  have bN : |b| ≤ N := abs_le_of_sq_le_sq (by linarith [sq_nonneg a]) hN
  have sx := pow_le_pow_left₀ (abs_nonneg x) gx 2
  have sy := pow_le_pow_left₀ (abs_nonneg y) gy 2
  rw [sq_abs] at sx sy
  have ea := sq_abs a
  have eb := sq_abs b
  have u' : 0 ≤ (1 + u) * η := by positivity
  have k1 := mul_le_mul_of_nonneg_left aN u'
  have k2 := mul_le_mul_of_nonneg_left bN u'
  have k3 := mul_le_mul_of_nonneg_left hab (sq_nonneg (1 + u))
  nlinarith [sq_nonneg η]

/-- C112: the origin of the camera ray: the exact lens point for the sample up to 15 roundings of the radius, in the plane
`z = 0`, and on the lens up to 7 roundings. -/
theorem C112_lens (cam : ThinLensCamera F32) (s : CameraSample F32) (hs : InSquareF s.pLens)
    (hf : (cam.cameraRay s).origin.Fin) :
    |(cam.cameraRay s).origin.x.toReal - (concentricSampleDisk (realPt2 s.pLens)).x * cam.lensRadius.toReal| ≤
      |cam.lensRadius.toReal| * (15 * uRnd 23 * Max.max |1 - 2 * s.pLens.x.toReal| |1 - 2 * s.pLens.y.toReal| + 5 * etaRnd 23 8) + etaRnd 23 8 ∧
    |(cam.cameraRay s).origin.y.toReal - (concentricSampleDisk (realPt2 s.pLens)).y * cam.lensRadius.toReal| ≤
      |cam.lensRadius.toReal| * (15 * uRnd 23 * Max.max |1 - 2 * s.pLens.x.toReal| |1 - 2 * s.pLens.y.toReal| + 5 * etaRnd 23 8) + etaRnd 23 8 ∧
    (cam.cameraRay s).origin.z.toReal = 0 ∧
    (cam.cameraRay s).origin.x.toReal ^ 2 + (cam.cameraRay s).origin.y.toReal ^ 2 ≤
      ((1 + 7 * uRnd 23) * |cam.lensRadius.toReal| + 2 * etaRnd 23 8) ^ 2 := by
  have u0 := uRnd_pos (mw := 23)
  have u1 := uRnd_small (mw := 23) (by norm_num)
  have e0 := etaRnd_pos (mw := 23) (ew := 8)
  have ho : (cam.cameraRay s).origin = new3 ((concentricSampleDisk s.pLens).x * cam.lensRadius)
      ((concentricSampleDisk s.pLens).y * cam.lensRadius) Scalar.zero := rfl
  rw [ho] at hf ⊢
  have fx : ((concentricSampleDisk s.pLens).x * cam.lensRadius).isFin = true := hf 0
  have fy : ((concentricSampleDisk s.pLens).y * cam.lensRadius).isFin = true := hf 1
  have C := C112_concentric s.pLens hs
  have D := (C112_disk s.pLens hs).1
  have hr := C69_radius (realPt2 s.pLens)
  have ex : (realPt2 s.pLens).x = s.pLens.x.toReal := x_new2 _ _
  have ey : (realPt2 s.pLens).y = s.pLens.y.toReal := y_new2 _ _
  rw [ex, ey] at hr
  have hM : Max.max |1 - 2 * s.pLens.x.toReal| |1 - 2 * s.pLens.y.toReal| ≤ 1 :=
    max_le (_root_.abs_le.2 ⟨by linarith [hs.1.2.2], by linarith [hs.1.2.1]⟩) (_root_.abs_le.2 ⟨by linarith [hs.2.2.2], by linarith [hs.2.2.1]⟩)
  have hM0 : 0 ≤ Max.max |1 - 2 * s.pLens.x.toReal| |1 - 2 * s.pLens.y.toReal| := (abs_nonneg _).trans (le_max_left _ _)
  unfold Within2 at C
  generalize Max.max |1 - 2 * s.pLens.x.toReal| |1 - 2 * s.pLens.y.toReal| = M at *
  have bx : |(concentricSampleDisk (realPt2 s.pLens)).x| ≤ M :=
    abs_le_of_sq_le_sq (by linarith [sq_nonneg (concentricSampleDisk (realPt2 s.pLens)).y]) hM0
  have by' : |(concentricSampleDisk (realPt2 s.pLens)).y| ≤ M :=
    abs_le_of_sq_le_sq (by linarith [sq_nonneg (concentricSampleDisk (realPt2 s.pLens)).x]) hM0
  refine ⟨disk_lens_core u0 u1 e0 eta_tiny hM bx C.1 (mul_err' fx), disk_lens_core u0 u1 e0 eta_tiny hM by' C.2 (mul_err' fy),
    toReal_szero, ?_⟩
  have k := disk_lens_norm_core (N := (1 + 5 * uRnd 23) * |cam.lensRadius.toReal|) u0 e0 (by positivity) (by
    rw [mul_pow, mul_pow, mul_pow, sq_abs, ← add_mul]
    exact mul_le_mul_of_nonneg_right D (sq_nonneg _)) (mul_err' fx) (mul_err' fy)
  refine k.trans (pow_le_pow_left₀ (by positivity) ?_ 2)
  have : (1 + uRnd 23) * (1 + 5 * uRnd 23) ≤ 1 + 7 * uRnd 23 := by nlinarith
  have := mul_le_mul_of_nonneg_right this (abs_nonneg cam.lensRadius.toReal)
  linarith

/-- Non-vacuity. -/
example : InSquareF (let n : Int → F32 := GFloat.fromI64; new2 (n 1 / n 4) (n 1)) := by
  have one := (sone_spec (mw := 23) (ew := 8)).2
  refine ⟨⟨by decide +kernel, toReal_nonneg_iff.2 (by decide +kernel), ?_⟩, by decide +kernel, toReal_nonneg_iff.2 (by decide +kernel), ?_⟩
  · rw [← one]; exact toReal_le_iff.2 (by decide +kernel)
  · rw [← one]; exact toReal_le_iff.2 (by decide +kernel)

/-- Non-vacuity: with lens radius 1 the origin is finite for every sample of the square, whatever the rest of the camera. -/
example (cam : ThinLensCamera F32) (s : CameraSample F32) (hs : InSquareF s.pLens) (h : cam.lensRadius = Scalar.one) :
    (cam.cameraRay s).origin.Fin := by
  have o := sone_spec (mw := 23) (ew := 8)
  have ho : (cam.cameraRay s).origin = new3 ((concentricSampleDisk s.pLens).x * cam.lensRadius)
      ((concentricSampleDisk s.pLens).y * cam.lensRadius) Scalar.zero := rfl
  have f : ∀ {d : F32}, NearUnit d → (d * (Scalar.one : F32)).isFin = true := fun {d} hd =>
    (rounded_bound (mul_fin hd.1 o.1) (c := GFloat.nextUp (Scalar.one : F32)) (by decide +kernel) (by rw [o.2, mul_one]; exact hd.2)).1
  have hd := C69_float s.pLens hs
  rw [ho, h]
  intro i
  fin_cases i
  · exact f hd.1
  · exact f hd.2
  · exact isFin_szero

end
end Scarlet
