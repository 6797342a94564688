import Verif.Props.Camera1
import Mathlib.Analysis.Convex.SpecificFunctions.Deriv

/-! C159: `concentric_sample_disk` keeps distances up to a factor. -/

set_option linter.unusedSectionVars false

namespace Scarlet
open GVec Real

/-! ### Specification -/

/-- Distance of two points of the plane. -/
noncomputable def planeDist (p q : Point ℝ 2) : ℝ := √((p.x - q.x) ^ 2 + (p.y - q.y) ^ 2)

/-! ### the map around the centre, in the complex plane -/

/-- the formula of the first branch -/
noncomputable def wedge (a b : ℝ) : ℂ := ⟨a * cos (π / 4 * (b / a)), a * sin (π / 4 * (b / a))⟩

/-- the map in coordinates about the centre of the square -/
noncomputable def diskC (z : ℂ) : ℂ :=
  ⟨(concentricSampleDisk (new2 ((1 - z.re) / 2) ((1 - z.im) / 2) : Point ℝ 2)).x,
   (concentricSampleDisk (new2 ((1 - z.re) / 2) ((1 - z.im) / 2) : Point ℝ 2)).y⟩

theorem wedge_diag {a b : ℝ} (h : |a| = |b|) : (⟨(wedge b a).im, (wedge b a).re⟩ : ℂ) = wedge a b := by
  by_cases ha : a = 0
  · subst ha
    have : b = 0 := by rw [abs_zero] at h; exact abs_eq_zero.1 h.symm
    subst this
    simp [wedge]
  have c := cos_pi_div_four
  have s := sin_pi_div_four
  unfold wedge
  rcases abs_eq_abs.1 h with rfl | h
  · rw [div_self ha, mul_one, c, s]
  · subst h
    have hb : b ≠ 0 := fun e => ha (by rw [e, neg_zero])
    rw [neg_div, div_neg, div_self hb, mul_neg, mul_one, cos_neg, sin_neg, c, s]
    apply Complex.ext <;> simp

theorem diskC_cases (z : ℂ) : (|z.im| ≤ |z.re| → diskC z = wedge z.re z.im) ∧
    (|z.re| ≤ |z.im| → diskC z = ⟨(wedge z.im z.re).im, (wedge z.im z.re).re⟩) := by
  have ex : 1 - 2 * ((1 - z.re) / 2) = z.re := by ring
  have ey : 1 - 2 * ((1 - z.im) / 2) = z.im := by ring
  have main : (|z.im| < |z.re| → diskC z = wedge z.re z.im) ∧ (|z.re| ≤ |z.im| → diskC z = ⟨(wedge z.im z.re).im, (wedge z.im z.re).re⟩) := by
    unfold diskC concentricSampleDisk
    simp only [rone, lit2_f32, riabs, rfracPi4, rfracPi2, rcos, rsin, rzero, x_new2, y_new2, ex, ey]
    by_cases h0 : (Scalar.isZero z.re && Scalar.isZero z.im) = true
    · rw [if_pos h0]
      simp only [Bool.and_eq_true, risZero] at h0
      rw [h0.1, h0.2]
      simp [wedge]
    · rw [if_neg h0]
      constructor
      · intro hc
        rw [if_pos (rgt_iff.2 hc)]
        unfold wedge
        rw [← mul_div_assoc]
        rfl
      · intro hc
        rw [if_neg (fun h' => absurd (rgt_iff.1 h') (not_lt.2 hc))]
        unfold wedge
        dsimp only
        rw [cos_pi_div_two_sub, sin_pi_div_two_sub, mul_comm (z.re / z.im)]
        rfl
  refine ⟨fun h => ?_, main.2⟩
  rcases h.lt_or_eq with h | h
  · exact main.1 h
  · rw [main.2 h.ge]; exact wedge_diag h.symm

theorem wedge_neg (a b : ℝ) : wedge (-a) (-b) = -wedge a b := by
  unfold wedge
  rw [neg_div_neg_eq]
  apply Complex.ext <;> simp

theorem wedge_conj (a b : ℝ) : wedge a (-b) = ⟨(wedge a b).re, -(wedge a b).im⟩ := by
  unfold wedge
  rw [neg_div, mul_neg, cos_neg, sin_neg]
  apply Complex.ext <;> simp

theorem wedge_smul (c a b : ℝ) : wedge (c * a) (c * b) = c * wedge a b := by
  by_cases hc : c = 0
  · subst hc; simp [wedge]; rfl
  · unfold wedge
    rw [mul_div_mul_left _ _ hc]
    apply Complex.ext <;> simp [mul_assoc]

theorem diskC_I (z : ℂ) : diskC (Complex.I * z) = Complex.I * diskC z := by
  have e1 : (Complex.I * z).re = -z.im := by simp
  have e2 : (Complex.I * z).im = z.re := by simp
  rcases le_total |z.im| |z.re| with h | h
  · rw [(diskC_cases z).1 h, (diskC_cases _).2 (by rw [e1, e2, abs_neg]; exact h), e1, e2, wedge_conj]
    apply Complex.ext <;> simp
  · rw [(diskC_cases z).2 h, (diskC_cases _).1 (by rw [e1, e2, abs_neg]; exact h), e1, e2]
    have := wedge_neg z.im (-z.re)
    rw [neg_neg] at this
    rw [this, wedge_conj]
    apply Complex.ext <;> simp

theorem diskC_neg (z : ℂ) : diskC (-z) = -diskC z := by
  have := diskC_I (Complex.I * z)
  rw [diskC_I z, ← mul_assoc, ← mul_assoc, Complex.I_mul_I] at this
  simpa using this

theorem diskC_smul (c : ℝ) (z : ℂ) : diskC (c * z) = c * diskC z := by
  have e1 : ((c : ℂ) * z).re = c * z.re := by simp
  have e2 : ((c : ℂ) * z).im = c * z.im := by simp
  rcases le_total |z.im| |z.re| with h | h
  · rw [(diskC_cases z).1 h, (diskC_cases _).1 (by rw [e1, e2, abs_mul, abs_mul]; exact mul_le_mul_of_nonneg_left h (abs_nonneg c)), e1, e2,
      wedge_smul]
  · rw [(diskC_cases z).2 h, (diskC_cases _).2 (by rw [e1, e2, abs_mul, abs_mul]; exact mul_le_mul_of_nonneg_left h (abs_nonneg c)), e1, e2,
      wedge_smul]
    apply Complex.ext <;> simp

theorem diskC_surj (w : ℂ) : ∃ z, diskC z = w := by
  have hn := norm_nonneg w
  obtain ⟨p, -, hp⟩ := C69_onto (new2 (w.re / (‖w‖ + 1)) (w.im / (‖w‖ + 1))) (by
    change (w.re / (‖w‖ + 1)) ^ 2 + (w.im / (‖w‖ + 1)) ^ 2 ≤ 1
    rw [div_pow, div_pow, ← add_div, div_le_one (by positivity)]
    have := Complex.sq_norm w
    rw [Complex.normSq_apply] at this
    nlinarith)
  refine ⟨((‖w‖ + 1 : ℝ) : ℂ) * ⟨1 - 2 * p.x, 1 - 2 * p.y⟩, ?_⟩
  rw [diskC_smul]
  have : (new2 ((1 - (1 - 2 * p.x)) / 2) ((1 - (1 - 2 * p.y)) / 2) : Point ℝ 2) = p := ext2 (by change _ / 2 = _; ring) (by change _ / 2 = _; ring)
  have e : diskC ⟨1 - 2 * p.x, 1 - 2 * p.y⟩ = ⟨w.re / (‖w‖ + 1), w.im / (‖w‖ + 1)⟩ := by
    unfold diskC
    rw [this, hp]; rfl
  rw [e]
  have h1 : ‖w‖ + 1 ≠ 0 := by positivity
  apply Complex.ext
  · simp; field_simp
  · simp; field_simp

/-! ### within one quarter -/

theorem chord_lower {x : ℝ} (h : |x| ≤ π / 2) : 4 / π ^ 2 * x ^ 2 ≤ 1 - cos x := by
  have hpi := pi_pos
  have e : 1 - cos x = 2 * sin (|x| / 2) ^ 2 := by
    have h1 := cos_sq (|x| / 2)
    have h2 := sin_sq_add_cos_sq (|x| / 2)
    rw [show 2 * (|x| / 2) = |x| by ring, cos_abs] at h1
    linarith
  have hs : 2 * √2 / π * (|x| / 2) ≤ sin (|x| / 2) := by
    have c := strictConcaveOn_sin_Icc.concaveOn.2
    have := @c 0 ⟨le_rfl, hpi.le⟩ (π / 4) ⟨by positivity, by linarith⟩ (1 - 2 * |x| / π) (2 * |x| / π) (by
        rw [sub_nonneg, div_le_one hpi]; linarith) (by positivity) (by ring)
    simp only [smul_eq_mul, mul_zero, zero_add, sin_zero, sin_pi_div_four] at this
    have e1 : 2 * |x| / π * (π / 4) = |x| / 2 := by field_simp; ring
    rw [e1] at this
    refine le_trans (le_of_eq ?_) this
    field_simp
  have h0 : 0 ≤ 2 * √2 / π * (|x| / 2) := by positivity
  have : (2 * √2 / π * (|x| / 2)) ^ 2 ≤ sin (|x| / 2) ^ 2 := pow_le_pow_left₀ h0 hs 2
  rw [e]
  have e2 : (2 * √2 / π * (|x| / 2)) ^ 2 = 2 / π ^ 2 * x ^ 2 := by
    have := sq_sqrt (show (0 : ℝ) ≤ 2 by norm_num)
    rw [mul_pow, div_pow, mul_pow, this, div_pow, sq_abs]; field_simp
  rw [e2] at this
  have e3 : 4 / π ^ 2 * x ^ 2 = 2 * (2 / π ^ 2 * x ^ 2) := by ring
  rw [e3]; linarith

theorem quad_lo {u v s t : ℝ} (h1 : -1 ≤ s) (h2 : s ≤ 1) (h3 : -1 ≤ t) (h4 : t ≤ 1) :
    (1 / 2) ^ 2 * (u ^ 2 + v ^ 2) ≤ u ^ 2 + (v ^ 2 - (s + t) * u * v + s * t * u ^ 2) / 2 := by
  have k : 0 ≤ 3 / 4 - (s ^ 2 + t ^ 2) / 4 := by nlinarith
  have := mul_nonneg k (sq_nonneg u)
  nlinarith [sq_nonneg (v / 2 - (s + t) / 2 * u)]

theorem quad_hi {u v s t : ℝ} (h1 : -1 ≤ s) (h2 : s ≤ 1) (h3 : -1 ≤ t) (h4 : t ≤ 1) :
    u ^ 2 + 5 / 8 * (v ^ 2 - (s + t) * u * v + s * t * u ^ 2) ≤ 2 * (u ^ 2 + v ^ 2) := by
  have a1 : s * t * u ^ 2 ≤ u ^ 2 := by
    have : s * t ≤ 1 := by nlinarith
    nlinarith [sq_nonneg u]
  have a2 : -((s + t) * u * v) ≤ 5 / 3 * v ^ 2 + 3 / 5 * u ^ 2 := by
    have t1 : 0 ≤ s + t + 2 := by linarith
    have t2 : 0 ≤ 2 - s - t := by linarith
    nlinarith [mul_nonneg t1 (sq_nonneg (5 * v + 3 * u)), mul_nonneg t2 (sq_nonneg (5 * v - 3 * u))]
  nlinarith [sq_nonneg v]

theorem wedge_metric {a b a' b' : ℝ} (h : |b| ≤ a) (h' : |b'| ≤ a') :
    (1 / 2) * ‖(⟨a, b⟩ : ℂ) - ⟨a', b'⟩‖ ≤ ‖wedge a b - wedge a' b'‖ ∧
    ‖wedge a b - wedge a' b'‖ ≤ √2 * ‖(⟨a, b⟩ : ℂ) - ⟨a', b'⟩‖ := by
  have hpi := pi_pos
  have ha := (abs_nonneg b).trans h
  have ha' := (abs_nonneg b').trans h'
  have ratio : ∀ {a b : ℝ}, |b| ≤ a → b = b / a * a ∧ |b / a| ≤ 1 := by
    intro a b h
    have h0 := (abs_nonneg b).trans h
    rcases h0.eq_or_lt with e | e
    · subst e
      have : b = 0 := abs_nonpos_iff.1 h
      subst this; simp
    · exact ⟨(div_mul_cancel₀ _ e.ne').symm, by rw [abs_div, abs_of_pos e, div_le_one e]; exact h⟩
  obtain ⟨e, hs⟩ := ratio h
  obtain ⟨e', hs'⟩ := ratio h'
  have n1 : ‖wedge a b - wedge a' b'‖ ^ 2 = (a - a') ^ 2 + 2 * (a * a') * (1 - cos (π / 4 * (b / a) - π / 4 * (b' / a'))) := by
    rw [Complex.sq_norm, Complex.normSq_apply, cos_sub]
    unfold wedge
    simp only [Complex.sub_re, Complex.sub_im]
    have i1 := sin_sq_add_cos_sq (π / 4 * (b / a))
    have i2 := sin_sq_add_cos_sq (π / 4 * (b' / a'))
    linear_combination a ^ 2 * i1 + a' ^ 2 * i2
  have n2 : ‖(⟨a, b⟩ : ℂ) - ⟨a', b'⟩‖ ^ 2 = (a - a') ^ 2 + (b - b') ^ 2 := by
    rw [Complex.sq_norm, Complex.normSq_apply]
    simp only [Complex.sub_re, Complex.sub_im]; ring
  generalize hS : b / a = s at *
  generalize hS' : b' / a' = s' at *
  obtain ⟨s1, s2⟩ := _root_.abs_le.1 hs
  obtain ⟨s1', s2'⟩ := _root_.abs_le.1 hs'
  have ax : π / 4 * s - π / 4 * s' = π / 4 * (s - s') := by ring
  have lo := chord_lower (x := π / 4 * s - π / 4 * s') (by
    rw [ax, abs_mul, abs_of_pos (by positivity)]
    have : |s - s'| ≤ 2 := _root_.abs_le.2 ⟨by linarith, by linarith⟩
    nlinarith)
  have hi := one_sub_sq_div_two_le_cos (x := π / 4 * s - π / 4 * s')
  rw [ax] at lo hi
  have lo' : 1 / 4 * (s - s') ^ 2 ≤ 1 - cos (π / 4 * (s - s')) := by
    refine le_trans (le_of_eq ?_) lo
    field_simp
    try ring
  have hpi2 : π ^ 2 ≤ 10 := by nlinarith [pi_lt_d2]
  have hi' : 1 - cos (π / 4 * (s - s')) ≤ 5 / 16 * (s - s') ^ 2 := by
    have : (π / 4 * (s - s')) ^ 2 / 2 = π ^ 2 / 32 * (s - s') ^ 2 := by ring
    nlinarith [sq_nonneg (s - s')]
  rw [ax] at n1
  have haa := mul_nonneg ha ha'
  set X := a * a' * (s - s') ^ 2 with hX
  have eX : X = (b - b') ^ 2 - (s + s') * (a - a') * (b - b') + s * s' * (a - a') ^ 2 := by
    rw [hX, e, e']; ring
  set u := a - a'
  set v := b - b'
  have k1 : X / 2 ≤ 2 * (a * a') * (1 - cos (π / 4 * (s - s'))) := by
    have := mul_le_mul_of_nonneg_left lo' (mul_nonneg two_pos.le haa)
    rw [hX]; nlinarith
  have k2 : 2 * (a * a') * (1 - cos (π / 4 * (s - s'))) ≤ 5 / 8 * X := by
    have := mul_le_mul_of_nonneg_left hi' (mul_nonneg two_pos.le haa)
    rw [hX]; nlinarith
  constructor
  · refine (abs_le_of_sq_le_sq' ?_ (norm_nonneg _)).2
    rw [mul_pow, n1, n2]
    have := quad_lo (u := u) (v := v) s1 s2 s1' s2'
    rw [← eX] at this
    linarith
  · refine (abs_le_of_sq_le_sq' ?_ (by positivity)).2
    rw [mul_pow, n1, n2, sq_sqrt two_pos.le]
    have := quad_hi (u := u) (v := v) s1 s2 s1' s2'
    rw [← eX] at this
    linarith

/-! ### across the quarters -/

/-- A bound on two halves of a convex set is a bound on the whole: cut the segment where it crosses. -/
theorem glue {φ ψ : ℂ → ℂ} {L : ℝ} (S : Set ℂ) (hS : Convex ℝ S) (hφ : ∀ m, ∃ x, φ x = m) (ℓ : ℂ →ₗ[ℝ] ℝ)
    (h1 : ∀ x y, φ x ∈ S → φ y ∈ S → 0 ≤ ℓ (φ x) → 0 ≤ ℓ (φ y) → ‖ψ x - ψ y‖ ≤ L * ‖φ x - φ y‖)
    (h2 : ∀ x y, φ x ∈ S → φ y ∈ S → ℓ (φ x) ≤ 0 → ℓ (φ y) ≤ 0 → ‖ψ x - ψ y‖ ≤ L * ‖φ x - φ y‖) (x y : ℂ)
    (hx : φ x ∈ S) (hy : φ y ∈ S) : ‖ψ x - ψ y‖ ≤ L * ‖φ x - φ y‖ := by
  have key : ∀ x y, φ x ∈ S → φ y ∈ S → 0 ≤ ℓ (φ x) → ℓ (φ y) < 0 → ‖ψ x - ψ y‖ ≤ L * ‖φ x - φ y‖ := by
    intro x y hx hy h3 h4
    set τ := ℓ (φ x) / (ℓ (φ x) - ℓ (φ y)) with hτ
    have hd : 0 < ℓ (φ x) - ℓ (φ y) := by linarith
    have τ0 : 0 ≤ τ := div_nonneg h3 hd.le
    have τ1 : τ ≤ 1 := by rw [hτ, div_le_one hd]; linarith
    obtain ⟨m, hm⟩ := hφ ((1 - τ) • φ x + τ • φ y)
    have mS : φ m ∈ S := by rw [hm]; exact hS hx hy (by linarith) τ0 (by ring)
    have m0 : ℓ (φ m) = 0 := by
      rw [hm, map_add, map_smul, map_smul, smul_eq_mul, smul_eq_mul, hτ]
      field_simp; ring
    have a := h1 x m hx mS h3 m0.ge
    have b := h2 m y mS hy m0.le h4.le
    have e1 : φ x - φ m = τ • (φ x - φ y) := by rw [hm]; module
    have e2 : φ m - φ y = (1 - τ) • (φ x - φ y) := by rw [hm]; module
    rw [e1, norm_smul, Real.norm_of_nonneg τ0] at a
    rw [e2, norm_smul, Real.norm_of_nonneg (by linarith)] at b
    have := norm_sub_le_norm_sub_add_norm_sub (ψ x) (ψ m) (ψ y)
    nlinarith
  rcases le_or_gt 0 (ℓ (φ x)) with a | a <;> rcases le_or_gt 0 (ℓ (φ y)) with b | b
  · exact h1 x y hx hy a b
  · exact key x y hx hy a b
  · have := key y x hy hx b a
    rwa [norm_sub_rev, norm_sub_rev (φ x)]
  · exact h2 x y hx hy a.le b.le

/-- the diagonals -/
noncomputable def diag1 : ℂ →ₗ[ℝ] ℝ := Complex.reLm - Complex.imLm
noncomputable def diag2 : ℂ →ₗ[ℝ] ℝ := Complex.reLm + Complex.imLm

theorem diag1_apply (z : ℂ) : diag1 z = z.re - z.im := rfl
theorem diag2_apply (z : ℂ) : diag2 z = z.re + z.im := rfl

/-- from the four quarters to the plane -/
theorem glue4 {φ ψ : ℂ → ℂ} {L : ℝ} (hφ : ∀ m, ∃ x, φ x = m)
    (h1 : ∀ x y, 0 ≤ diag1 (φ x) → 0 ≤ diag1 (φ y) → 0 ≤ diag2 (φ x) → 0 ≤ diag2 (φ y) → ‖ψ x - ψ y‖ ≤ L * ‖φ x - φ y‖)
    (h2 : ∀ x y, diag1 (φ x) ≤ 0 → diag1 (φ y) ≤ 0 → 0 ≤ diag2 (φ x) → 0 ≤ diag2 (φ y) → ‖ψ x - ψ y‖ ≤ L * ‖φ x - φ y‖)
    (h3 : ∀ x y, 0 ≤ diag1 (φ x) → 0 ≤ diag1 (φ y) → diag2 (φ x) ≤ 0 → diag2 (φ y) ≤ 0 → ‖ψ x - ψ y‖ ≤ L * ‖φ x - φ y‖)
    (h4 : ∀ x y, diag1 (φ x) ≤ 0 → diag1 (φ y) ≤ 0 → diag2 (φ x) ≤ 0 → diag2 (φ y) ≤ 0 → ‖ψ x - ψ y‖ ≤ L * ‖φ x - φ y‖)
    (x y : ℂ) : ‖ψ x - ψ y‖ ≤ L * ‖φ x - φ y‖ := by
  have c1 : Convex ℝ {z : ℂ | 0 ≤ diag2 z} := convex_halfSpace_ge diag2.isLinear 0
  have c2 : Convex ℝ {z : ℂ | diag2 z ≤ 0} := convex_halfSpace_le diag2.isLinear 0
  refine glue Set.univ convex_univ hφ diag2 (fun x y _ _ a b => ?_) (fun x y _ _ a b => ?_) x y trivial trivial
  · exact glue _ c1 hφ diag1 (fun x y p q r s => h1 x y r s p q) (fun x y p q r s => h2 x y r s p q) x y a b
  · exact glue _ c2 hφ diag1 (fun x y p q r s => h3 x y r s p q) (fun x y p q r s => h4 x y r s p q) x y a b

theorem diag_I (z : ℂ) : diag1 (Complex.I * z) = -diag2 z ∧ diag2 (Complex.I * z) = diag1 z := by
  constructor <;> simp [diag1_apply, diag2_apply] <;> ring

theorem diag_neg (z : ℂ) : diag1 (-z) = -diag1 z ∧ diag2 (-z) = -diag2 z := ⟨map_neg _ _, map_neg _ _⟩

/-- within a quarter -/
theorem quarter (z w : ℂ) (h1 : 0 ≤ diag1 z) (h2 : 0 ≤ diag1 w) (h3 : 0 ≤ diag2 z) (h4 : 0 ≤ diag2 w) :
    (1 / 2) * ‖z - w‖ ≤ ‖diskC z - diskC w‖ ∧ ‖diskC z - diskC w‖ ≤ √2 * ‖z - w‖ := by
  rw [diag1_apply] at h1 h2
  rw [diag2_apply] at h3 h4
  have hz : |z.im| ≤ z.re := _root_.abs_le.2 ⟨by linarith, by linarith⟩
  have hw : |w.im| ≤ w.re := _root_.abs_le.2 ⟨by linarith, by linarith⟩
  rw [(diskC_cases z).1 (hz.trans (le_abs_self _)), (diskC_cases w).1 (hw.trans (le_abs_self _))]
  exact wedge_metric hz hw

theorem quarters (z w : ℂ) (h : (0 ≤ diag1 z ∧ 0 ≤ diag1 w) ∨ (diag1 z ≤ 0 ∧ diag1 w ≤ 0))
    (h' : (0 ≤ diag2 z ∧ 0 ≤ diag2 w) ∨ (diag2 z ≤ 0 ∧ diag2 w ≤ 0)) :
    (1 / 2) * ‖z - w‖ ≤ ‖diskC z - diskC w‖ ∧ ‖diskC z - diskC w‖ ≤ √2 * ‖z - w‖ := by
  have nI : ∀ a b : ℂ, ‖Complex.I * a - Complex.I * b‖ = ‖a - b‖ := by
    intro a b; rw [← mul_sub, norm_mul, Complex.norm_I, one_mul]
  have nN : ∀ a b : ℂ, ‖-a - -b‖ = ‖a - b‖ := by
    intro a b; rw [← neg_sub', norm_neg]
  rcases h with ⟨a, b⟩ | ⟨a, b⟩ <;> rcases h' with ⟨c, d⟩ | ⟨c, d⟩
  · exact quarter z w a b c d
  · have := quarter (Complex.I * z) (Complex.I * w) (by rw [(diag_I z).1]; linarith) (by rw [(diag_I w).1]; linarith)
      (by rw [(diag_I z).2]; exact a) (by rw [(diag_I w).2]; exact b)
    rwa [diskC_I, diskC_I, nI, nI] at this
  · have := quarter (-(Complex.I * z)) (-(Complex.I * w)) (by rw [(diag_neg _).1, (diag_I z).1]; linarith)
      (by rw [(diag_neg _).1, (diag_I w).1]; linarith) (by rw [(diag_neg _).2, (diag_I z).2]; linarith)
      (by rw [(diag_neg _).2, (diag_I w).2]; linarith)
    rwa [diskC_neg, diskC_neg, diskC_I, diskC_I, nN, nN, nI, nI] at this
  · have := quarter (-z) (-w) (by rw [(diag_neg _).1]; linarith) (by rw [(diag_neg _).1]; linarith)
      (by rw [(diag_neg _).2]; linarith) (by rw [(diag_neg _).2]; linarith)
    rwa [diskC_neg, diskC_neg, nN, nN] at this

/-- the quarters are mapped to themselves -/
theorem disk_diag1_lt (z : ℂ) (h : diag1 z < 0) : diag1 (diskC z) < 0 := by
  have hpi := pi_pos
  have lt : ∀ s : ℝ, -1 ≤ s → s < 1 → sin (π / 4 * s) < cos (π / 4 * s) := by
    intro s h1 h2
    rcases le_or_gt s 0 with hs | hs
    · exact (sin_nonpos_of_nonpos_of_neg_pi_le (by nlinarith) (by nlinarith)).trans_lt (cos_pos_of_mem_Ioo ⟨by nlinarith, by nlinarith⟩)
    rw [← sin_pi_div_two_sub]
    exact sin_lt_sin_of_lt_of_le_pi_div_two (by nlinarith) (by nlinarith) (by nlinarith)
  rw [diag1_apply] at h ⊢
  rcases le_total |z.im| |z.re| with hc | hc
  · have hneg : z.re < 0 := by
      by_contra hn
      rw [abs_of_nonneg (not_lt.1 hn)] at hc
      have := (_root_.abs_le.1 hc).2
      linarith
    rw [(diskC_cases z).1 hc]
    have := lt (z.im / z.re) (by
      rw [abs_of_neg hneg] at hc
      rw [le_div_iff_of_neg hneg]; linarith [(_root_.abs_le.1 hc).2]) (by rw [div_lt_one_of_neg hneg]; linarith)
    change z.re * _ - z.re * _ < 0
    nlinarith
  · have hpos : 0 < z.im := by
      by_contra hn
      rw [abs_of_nonpos (not_lt.1 hn)] at hc
      have := (_root_.abs_le.1 hc).1
      linarith
    rw [(diskC_cases z).2 hc]
    have := lt (z.re / z.im) (by
      rw [abs_of_pos hpos] at hc
      rw [le_div_iff₀ hpos]; linarith [(_root_.abs_le.1 hc).1]) (by rw [div_lt_one hpos]; linarith)
    change z.im * _ - z.im * _ < 0
    nlinarith

theorem diskC_diag (z : ℂ) : (0 ≤ diag1 (diskC z) → 0 ≤ diag1 z) ∧ (diag1 (diskC z) ≤ 0 → diag1 z ≤ 0) ∧
    (0 ≤ diag2 (diskC z) → 0 ≤ diag2 z) ∧ (diag2 (diskC z) ≤ 0 → diag2 z ≤ 0) := by
  have a : ∀ z, 0 ≤ diag1 (diskC z) → 0 ≤ diag1 z := fun z h => by
    by_contra hn
    exact absurd (disk_diag1_lt z (not_le.1 hn)) (not_lt.2 h)
  have b : ∀ z, diag1 (diskC z) ≤ 0 → diag1 z ≤ 0 := fun z h => by
    have := a (-z) (by rw [diskC_neg, (diag_neg _).1]; linarith)
    rw [(diag_neg _).1] at this; linarith
  refine ⟨a z, b z, fun h => ?_, fun h => ?_⟩
  · have := b (Complex.I * z) (by rw [diskC_I, (diag_I _).1]; linarith)
    rw [(diag_I _).1] at this; linarith
  · have := a (Complex.I * z) (by rw [diskC_I, (diag_I _).1]; linarith)
    rw [(diag_I _).1] at this; linarith

theorem diskC_metric (z w : ℂ) : (1 / 2) * ‖z - w‖ ≤ ‖diskC z - diskC w‖ ∧ ‖diskC z - diskC w‖ ≤ √2 * ‖z - w‖ := by
  constructor
  · have : ‖id z - id w‖ ≤ 2 * ‖diskC z - diskC w‖ := by
      have conv : ∀ x y : ℂ, (1 / 2) * ‖x - y‖ ≤ ‖diskC x - diskC y‖ → ‖id x - id y‖ ≤ 2 * ‖diskC x - diskC y‖ := by
        intro x y h; simp only [id]; linarith
      refine glue4 (φ := diskC) (ψ := id) diskC_surj ?_ ?_ ?_ ?_ z w
      · exact fun x y a b c d => conv x y (quarters x y (.inl ⟨(diskC_diag x).1 a, (diskC_diag y).1 b⟩)
          (.inl ⟨(diskC_diag x).2.2.1 c, (diskC_diag y).2.2.1 d⟩)).1
      · exact fun x y a b c d => conv x y (quarters x y (.inr ⟨(diskC_diag x).2.1 a, (diskC_diag y).2.1 b⟩)
          (.inl ⟨(diskC_diag x).2.2.1 c, (diskC_diag y).2.2.1 d⟩)).1
      · exact fun x y a b c d => conv x y (quarters x y (.inl ⟨(diskC_diag x).1 a, (diskC_diag y).1 b⟩)
          (.inr ⟨(diskC_diag x).2.2.2 c, (diskC_diag y).2.2.2 d⟩)).1
      · exact fun x y a b c d => conv x y (quarters x y (.inr ⟨(diskC_diag x).2.1 a, (diskC_diag y).2.1 b⟩)
          (.inr ⟨(diskC_diag x).2.2.2 c, (diskC_diag y).2.2.2 d⟩)).1
    simp only [id] at this
    linarith
  · refine glue4 (φ := id) (ψ := diskC) (fun m => ⟨m, rfl⟩) ?_ ?_ ?_ ?_ z w
    · exact fun x y a b c d => (quarters x y (.inl ⟨a, b⟩) (.inl ⟨c, d⟩)).2
    · exact fun x y a b c d => (quarters x y (.inr ⟨a, b⟩) (.inl ⟨c, d⟩)).2
    · exact fun x y a b c d => (quarters x y (.inl ⟨a, b⟩) (.inr ⟨c, d⟩)).2
    · exact fun x y a b c d => (quarters x y (.inr ⟨a, b⟩) (.inr ⟨c, d⟩)).2

/-! ### C159 -/

/-- C159: `concentric_sample_disk` never brings samples nearer together, and never moves them apart by more than `2√2`. -/
theorem C159_distance (p q : Point ℝ 2) :
    planeDist p q ≤ planeDist (concentricSampleDisk p) (concentricSampleDisk q) ∧
    planeDist (concentricSampleDisk p) (concentricSampleDisk q) ≤ 2 * √2 * planeDist p q := by
  have e : ∀ p : Point ℝ 2, diskC ⟨1 - 2 * p.x, 1 - 2 * p.y⟩ = ⟨(concentricSampleDisk p).x, (concentricSampleDisk p).y⟩ := by
    intro p
    have : (new2 ((1 - (1 - 2 * p.x)) / 2) ((1 - (1 - 2 * p.y)) / 2) : Point ℝ 2) = p :=
      ext2 (by change _ / 2 = _; ring) (by change _ / 2 = _; ring)
    unfold diskC
    rw [this]
  have n : ∀ a b c d : ℝ, ‖(⟨a, b⟩ : ℂ) - ⟨c, d⟩‖ = √((a - c) ^ 2 + (b - d) ^ 2) := by
    intro a b c d
    rw [Complex.norm_def, Complex.normSq_apply]
    simp only [Complex.sub_re, Complex.sub_im, sq]
  have h := diskC_metric ⟨1 - 2 * p.x, 1 - 2 * p.y⟩ ⟨1 - 2 * q.x, 1 - 2 * q.y⟩
  rw [e, e, n, n] at h
  have s : √((1 - 2 * p.x - (1 - 2 * q.x)) ^ 2 + (1 - 2 * p.y - (1 - 2 * q.y)) ^ 2) = 2 * planeDist p q := by
    unfold planeDist
    rw [show (1 - 2 * p.x - (1 - 2 * q.x)) ^ 2 + (1 - 2 * p.y - (1 - 2 * q.y)) ^ 2 = 2 ^ 2 * ((p.x - q.x) ^ 2 + (p.y - q.y) ^ 2) by ring,
      sqrt_mul (by norm_num), sqrt_sq (by norm_num)]
  rw [s] at h
  unfold planeDist at h ⊢
  constructor <;> linarith [h.1, h.2]

/-- C159: so stratified samples stay stratified: samples from the same cell of side `δ` land within `4 δ` of each other. -/
theorem C159_cells (p q : Point ℝ 2) (δ : ℝ) (hx : |p.x - q.x| ≤ δ) (hy : |p.y - q.y| ≤ δ) :
    planeDist (concentricSampleDisk p) (concentricSampleDisk q) ≤ 4 * δ := by
  have h0 := (abs_nonneg _).trans hx
  refine (C159_distance p q).2.trans ?_
  have : planeDist p q ≤ √2 * δ := by
    unfold planeDist
    refine (sqrt_le_sqrt (show _ ≤ 2 * δ ^ 2 from ?_)).trans (le_of_eq ?_)
    · have a := sq_le_sq' (by linarith [(_root_.abs_le.1 hx).1]) (_root_.abs_le.1 hx).2
      have b := sq_le_sq' (by linarith [(_root_.abs_le.1 hy).1]) (_root_.abs_le.1 hy).2
      linarith
    · rw [sqrt_mul two_pos.le, sqrt_sq h0]
  have h2 := sq_sqrt (show (0 : ℝ) ≤ 2 by norm_num)
  have := mul_le_mul_of_nonneg_left this (show 0 ≤ 2 * √2 by positivity)
  nlinarith

/-- C159: the origins of camera rays on the lens: as the samples are spread, up to the factor. -/
theorem C159_lens (cam : ThinLensCamera ℝ) (s s' : CameraSample ℝ) :
    |cam.lensRadius| * planeDist s.pLens s'.pLens ≤
      planeDist (new2 (cam.cameraRay s).origin.x (cam.cameraRay s).origin.y) (new2 (cam.cameraRay s').origin.x (cam.cameraRay s').origin.y) ∧
    planeDist (new2 (cam.cameraRay s).origin.x (cam.cameraRay s).origin.y) (new2 (cam.cameraRay s').origin.x (cam.cameraRay s').origin.y) ≤
      2 * √2 * |cam.lensRadius| * planeDist s.pLens s'.pLens := by
  obtain ⟨h1, h2⟩ := C159_distance s.pLens s'.pLens
  have e : planeDist (new2 (cam.cameraRay s).origin.x (cam.cameraRay s).origin.y) (new2 (cam.cameraRay s').origin.x (cam.cameraRay s').origin.y) =
      |cam.lensRadius| * planeDist (concentricSampleDisk s.pLens) (concentricSampleDisk s'.pLens) := by
    generalize hu : concentricSampleDisk s.pLens = u
    generalize hv : concentricSampleDisk s'.pLens = v
    have e1 : (cam.cameraRay s).origin.x = u.x * cam.lensRadius ∧ (cam.cameraRay s).origin.y = u.y * cam.lensRadius := by
      rw [← hu]; exact ⟨rfl, rfl⟩
    have e2 : (cam.cameraRay s').origin.x = v.x * cam.lensRadius ∧ (cam.cameraRay s').origin.y = v.y * cam.lensRadius := by
      rw [← hv]; exact ⟨rfl, rfl⟩
    rw [e1.1, e1.2, e2.1, e2.2]
    unfold planeDist
    change √((u.x * cam.lensRadius - v.x * cam.lensRadius) ^ 2 + (u.y * cam.lensRadius - v.y * cam.lensRadius) ^ 2) = _
    rw [show (u.x * cam.lensRadius - v.x * cam.lensRadius) ^ 2 + (u.y * cam.lensRadius - v.y * cam.lensRadius) ^ 2 =
      cam.lensRadius ^ 2 * ((u.x - v.x) ^ 2 + (u.y - v.y) ^ 2) by ring, sqrt_mul (sq_nonneg _), sqrt_sq_eq_abs]
  rw [e]
  constructor
  · exact mul_le_mul_of_nonneg_left h1 (abs_nonneg _)
  · have := mul_le_mul_of_nonneg_left h2 (abs_nonneg cam.lensRadius)
    linarith

/-- C159 is a property of the concentric map only: `uniform_sample_disk`, which is uniform as well (C70), takes samples at distance 1 to
the same point, and moves others apart by any factor. -/
theorem C159_uniform_refuted :
    (∃ p q : Point ℝ 2, InSquare p ∧ InSquare q ∧ planeDist p q = 1 ∧ uniformSampleDisk p = uniformSampleDisk q) ∧
    ∀ L : ℝ, ∃ p q : Point ℝ 2, InSquare p ∧ InSquare q ∧ L * planeDist p q < planeDist (uniformSampleDisk p) (uniformSampleDisk q) := by
  have val : ∀ p : Point ℝ 2, 0 ≤ p.y → (uniformSampleDisk p).x = √p.y * cos (2 * π * p.x) ∧ (uniformSampleDisk p).y = √p.y * sin (2 * π * p.x) :=
    fun p h => (C70_polar p h).2
  constructor
  · refine ⟨new2 0 1, new2 1 1, ⟨⟨le_rfl, zero_le_one⟩, zero_le_one, le_rfl⟩, ⟨⟨zero_le_one, le_rfl⟩, zero_le_one, le_rfl⟩, ?_, ?_⟩
    · unfold planeDist
      change √((0 - 1) ^ 2 + (1 - 1) ^ 2) = 1
      norm_num
    · obtain ⟨a, b⟩ := val (new2 0 1) zero_le_one
      obtain ⟨c, d⟩ := val (new2 1 1) zero_le_one
      refine ext2 ?_ ?_
      · rw [a, c]
        change √1 * cos (2 * π * 0) = √1 * cos (2 * π * 1)
        simp
      · rw [b, d]
        change √1 * sin (2 * π * 0) = √1 * sin (2 * π * 1)
        simp
  · intro L
    set k := 1 + |L| with hk
    have k1 : 1 ≤ k := by rw [hk]; linarith [abs_nonneg L]
    have hL : L < k := by rw [hk]; linarith [le_abs_self L]
    have i0 : 0 < 1 / k := by positivity
    have i1 : 1 / k ≤ 1 := by rw [div_le_one (by linarith)]; exact k1
    have y0 : 0 ≤ (1 / k) ^ 2 := by positivity
    refine ⟨new2 0 ((1 / k) ^ 2), new2 0 0, ⟨⟨le_rfl, zero_le_one⟩, y0, pow_le_one₀ i0.le i1⟩, ⟨⟨le_rfl, zero_le_one⟩, le_rfl, zero_le_one⟩, ?_⟩
    obtain ⟨a, b⟩ := val (new2 0 ((1 / k) ^ 2)) y0
    obtain ⟨c, d⟩ := val (new2 0 0) le_rfl
    unfold planeDist
    rw [a, b, c, d]
    change L * √((0 - 0) ^ 2 + ((1 / k) ^ 2 - 0) ^ 2) < √((√((1 / k) ^ 2) * cos (2 * π * 0) - √0 * cos (2 * π * 0)) ^ 2 +
      (√((1 / k) ^ 2) * sin (2 * π * 0) - √0 * sin (2 * π * 0)) ^ 2)
    have e1 : √((0 - 0) ^ 2 + ((1 / k) ^ 2 - 0) ^ 2) = (1 / k) ^ 2 := by
      rw [sub_zero, sub_zero, zero_pow two_ne_zero, zero_add, sqrt_sq y0]
    have e2 : √((√((1 / k) ^ 2) * cos (2 * π * 0) - √0 * cos (2 * π * 0)) ^ 2 +
      (√((1 / k) ^ 2) * sin (2 * π * 0) - √0 * sin (2 * π * 0)) ^ 2) = 1 / k := by
      rw [sqrt_sq i0.le]; simp [sqrt_sq (show 0 ≤ k by linarith)]
    rw [e1, e2, sq]
    have : L * (1 / k) < 1 := by rw [mul_one_div, div_lt_one (by linarith)]; exact hL
    nlinarith

/-- Concrete case: the corners of the square are at distance 1; their images are at distance `√2`, which is within the bounds. -/
example : planeDist (new2 0 0) (new2 1 0) = 1 ∧
    planeDist (concentricSampleDisk (new2 0 0)) (concentricSampleDisk (new2 1 0)) = √2 := by
  constructor
  · unfold planeDist
    change √((0 - 1) ^ 2 + (0 - 0) ^ 2) = 1
    norm_num
  · have h : ∀ a : ℝ, |a| = 1 → diskC ⟨a, 1⟩ = ⟨a * (√2 / 2), √2 / 2⟩ := by
      intro a ha
      rw [(diskC_cases _).2 (by simp [ha])]
      unfold wedge
      rcases abs_eq (zero_le_one) |>.1 ha with rfl | rfl
      · norm_num [sin_pi_div_four, cos_pi_div_four]
      · norm_num [sin_pi_div_four, cos_pi_div_four]
    have e1 := h 1 abs_one
    have e2 := h (-1) (by simp)
    unfold diskC at e1 e2
    norm_num at e1 e2
    unfold planeDist
    rw [e1.1, e1.2, e2.1, e2.2]
    congr 1
    have := sq_sqrt (show (0 : ℝ) ≤ 2 by norm_num)
    nlinarith

end Scarlet
