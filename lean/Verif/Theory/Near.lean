import Verif.Props.FloatTrip

/-!
A small calculus for absolute errors measured in units of `u`: `Near x X k` says that the float `x` is finite and within
`k·u` of the real `X`.  For operands of magnitude of order one the operations neither overflow nor lose accuracy to
underflow.
-/

namespace Scarlet
open Flt
variable {mw ew : Nat} [FltImpl mw ew] [LawfulFlt mw ew]

/-- the float `x` is finite and within `k·u` of `X` -/
def Near (x : Flt mw ew) (X k : ℝ) : Prop := x.isFin = true ∧ |x.toReal - X| ≤ k * uRnd mw

theorem Near.mono {x : Flt mw ew} {X k l : ℝ} (h : Near x X k) (hkl : k ≤ l) : Near x X l :=
  ⟨h.1, h.2.trans (mul_le_mul_of_nonneg_right hkl uRnd_pos.le)⟩

theorem Near.congr {x y : Flt mw ew} {X k : ℝ} (h : Near x X k) (e : Same y x) : Near y X k :=
  ⟨e.isFin h.1, by rw [e.toReal]; exact h.2⟩

theorem Near.eq {x : Flt mw ew} {X Y k : ℝ} (h : Near x X k) (e : X = Y) : Near x Y k := e ▸ h

theorem near_exact {x : Flt mw ew} (h : x.isFin = true) : Near x x.toReal 0 := ⟨h, by simp⟩

theorem near_zero : Near (Scalar.zero : Flt mw ew) 0 0 := ⟨isFin_szero, by rw [toReal_szero]; simp⟩
theorem near_one : Near (Scalar.one : Flt mw ew) 1 0 := ⟨sone_spec.1, by rw [sone_spec.2]; simp⟩

theorem Near.neg {x : Flt mw ew} {X k : ℝ} (h : Near x X k) : Near (-x) (-X) k :=
  ⟨by rw [isFin_negop]; exact h.1, by rw [toReal_negop, neg_sub_neg, abs_sub_comm]; exact h.2⟩

theorem Near.abs_le {x : Flt mw ew} {X k B : ℝ} (h : Near x X k) (hB : |X| ≤ B) : |x.toReal| ≤ B + k * uRnd mw := by
  have h1 := abs_add_le (x.toReal - X) X
  rw [sub_add_cancel] at h1
  linarith [h.2]

/-- no overflow below a finite bound -/
theorem fin_below {z B : Flt mw ew} {r : ℝ} (hB : B.isFin = true) (hk : z.key = rndK mw ew r)
    (h : |r| ≤ B.toReal) : z.isFin = true := by
  obtain ⟨h1, h2⟩ := _root_.abs_le.1 h
  have u1 := rndK_mono mw ew h2
  have u2 := rndK_mono mw ew h1
  rw [rndK_neg, rndK_toReal (notNaN_of_isFin hB), ← hk] at u2
  rw [rndK_toReal (notNaN_of_isFin hB), ← hk] at u1
  have kb := isFin_iff_key.1 hB
  exact isFin_iff_key.2 ⟨by omega, by omega⟩

theorem near_core {u z r R k m B : ℝ} (hu : 0 < u) (hu1 : u ≤ 1 / 1024) (hz : |z - r| ≤ u * |r| + u / 1024)
    (hr : |r - R| ≤ k * u) (hR : |R| ≤ B) (hk : 0 ≤ k) (hm : k + B + k / 1024 + 1 / 1024 ≤ m) : |z - R| ≤ m * u := by
  have h1 : |r| ≤ B + k * u := by
    have := abs_add_le (r - R) R; rw [sub_add_cancel] at this; linarith
  have h2 : k * u ≤ k / 1024 := by
    have := mul_le_mul_of_nonneg_left hu1 hk; linarith
  have h3 := mul_le_mul_of_nonneg_left (h1.trans (show B + k * u ≤ B + k / 1024 by linarith)) hu.le
  have h4 := abs_sub_le z r R
  have h5 := mul_le_mul_of_nonneg_right hm hu.le
  nlinarith

theorem near_add (hm : 9 ≤ mw) {x y : Flt mw ew} {X Y k l m B : ℝ} (hx : Near x X k) (hy : Near y Y l)
    (hB : |X + Y| ≤ B) (hk : 0 ≤ k) (hl : 0 ≤ l) (hf : B + (k + l) / 1024 ≤ 4)
    (h : (k + l) + B + (k + l) / 1024 + 1 / 1024 ≤ m) : Near (x + y) (X + Y) m := by
  have u0 := uRnd_pos (mw := mw)
  have u1 := uRnd_small hm
  obtain ⟨f4, v4⟩ := four_spec (mw := mw) (ew := ew)
  have hr : |x.toReal + y.toReal - (X + Y)| ≤ (k + l) * uRnd mw := by
    rw [show x.toReal + y.toReal - (X + Y) = (x.toReal - X) + (y.toReal - Y) by ring]
    have := abs_add_le (x.toReal - X) (y.toReal - Y)
    linarith [hx.2, hy.2]
  have hs : |x.toReal + y.toReal| ≤ 4 := by
    have h1 := abs_add_le (x.toReal + y.toReal - (X + Y)) (X + Y)
    rw [sub_add_cancel] at h1
    have h2 := mul_le_mul_of_nonneg_left u1 (add_nonneg hk hl)
    linarith
  have fz : (x + y).isFin = true := fin_below f4 (add_fin hx.1 hy.1).2 (by rw [v4]; exact hs)
  refine ⟨fz, near_core u0 u1 ?_ hr hB (add_nonneg hk hl) h⟩
  have := add_err hx.1 hy.1 fz
  linarith

theorem near_sub (hm : 9 ≤ mw) {x y : Flt mw ew} {X Y k l m B : ℝ} (hx : Near x X k) (hy : Near y Y l)
    (hB : |X - Y| ≤ B) (hk : 0 ≤ k) (hl : 0 ≤ l) (hf : B + (k + l) / 1024 ≤ 4)
    (h : (k + l) + B + (k + l) / 1024 + 1 / 1024 ≤ m) : Near (x - y) (X - Y) m := by
  rw [show X - Y = X + -Y by ring] at hB ⊢
  exact near_add hm hx hy.neg hB hk hl hf h

theorem near_mul (hm : 9 ≤ mw) (hw : mw + 3 ≤ 2 ^ (ew - 1)) {x y : Flt mw ew} {X Y k l m A B C : ℝ} (hx : Near x X k)
    (hy : Near y Y l) (hA : |X| ≤ A) (hB : |Y| ≤ B) (hC : |X * Y| ≤ C) (hk : 0 ≤ k) (hl : 0 ≤ l)
    (hf : C + (A * l + B * k + k * l / 1024) / 1024 ≤ 4)
    (h : (A * l + B * k + k * l / 1024) + C + (A * l + B * k + k * l / 1024) / 1024 + 1 / 1024 ≤ m) :
    Near (x * y) (X * Y) m := by
  have u0 := uRnd_pos (mw := mw)
  have u1 := uRnd_small hm
  have A0 := (abs_nonneg X).trans hA
  have B0 := (abs_nonneg Y).trans hB
  obtain ⟨f4, v4⟩ := four_spec (mw := mw) (ew := ew)
  have hE : 0 ≤ A * l + B * k + k * l / 1024 := by positivity
  have hr : |x.toReal * y.toReal - X * Y| ≤ (A * l + B * k + k * l / 1024) * uRnd mw := by
    rw [show x.toReal * y.toReal - X * Y =
      X * (y.toReal - Y) + Y * (x.toReal - X) + (x.toReal - X) * (y.toReal - Y) by ring]
    refine (abs_add_le _ _).trans ((add_le_add_left (abs_add_le _ _) _).trans ?_)
    rw [abs_mul, abs_mul, abs_mul]
    have h1 := mul_le_mul hA hy.2 (abs_nonneg _) A0
    have h2 := mul_le_mul hB hx.2 (abs_nonneg _) B0
    have h3 := mul_le_mul hx.2 hy.2 (abs_nonneg _) (by positivity)
    have h4 : k * uRnd mw * (l * uRnd mw) ≤ k * l / 1024 * uRnd mw := by
      have := mul_le_mul_of_nonneg_left u1 (show 0 ≤ k * l * uRnd mw by positivity)
      linarith
    linarith
  have hs : |x.toReal * y.toReal| ≤ 4 := by
    have h1 := abs_add_le (x.toReal * y.toReal - X * Y) (X * Y)
    rw [sub_add_cancel] at h1
    have h2 := mul_le_mul_of_nonneg_left u1 hE
    linarith
  have fz : (x * y).isFin = true := fin_below f4 (mul_fin hx.1 hy.1).2 (by rw [v4]; exact hs)
  refine ⟨fz, near_core u0 u1 ?_ hr hC hE h⟩
  have := mul_err' fz
  have h5 := eta_le_sq (mw := mw) (ew := ew) hw
  have h6 := mul_le_mul_of_nonneg_left u1 u0.le
  rw [sq] at h5
  linarith

theorem near_same {x y : Flt mw ew} {X k : ℝ} (e : Same y x) (h : Near x X k) : Near y X k := h.congr e

/-- a float whose value is zero -/
theorem near_zero_iff {z : Flt mw ew} (h : Near z 0 0) : Same z (Scalar.zero : Flt mw ew) := by
  have h2 := h.2
  rw [zero_mul, sub_zero, abs_nonpos_iff] at h2
  exact ⟨notNaN_of_isFin h.1, szero_notNaN, by rw [← toReal_eq_iff, h2, toReal_szero]⟩

theorem near_mul_zero {x : Flt mw ew} (h : x.isFin = true) : Near (x * Scalar.zero) 0 0 := near_zero.congr (mul_zero_same h)
theorem near_zero_mul {x : Flt mw ew} (h : x.isFin = true) : Near (Scalar.zero * x) 0 0 := by
  rw [Flt.mul_comm']; exact near_mul_zero h
theorem near_mul_one {x : Flt mw ew} {X k : ℝ} (h : Near x X k) : Near (x * Scalar.one) X k := h.congr (mul_one_same h.1)
theorem near_one_mul {x : Flt mw ew} {X k : ℝ} (h : Near x X k) : Near (Scalar.one * x) X k := by
  rw [Flt.mul_comm']; exact near_mul_one h
theorem near_add_zero {x z : Flt mw ew} {X k : ℝ} (h : Near x X k) (hz : Near z 0 0) : Near (x + z) X k :=
  h.congr (add_zero_same (Same.refl (notNaN_of_isFin h.1)) (near_zero_iff hz))
theorem near_zero_add {x z : Flt mw ew} {X k : ℝ} (hz : Near z 0 0) (h : Near x X k) : Near (z + x) X k := by
  rw [Flt.add_comm']; exact near_add_zero h hz
theorem near_sub_zero {x z : Flt mw ew} {X k : ℝ} (h : Near x X k) (hz : Near z 0 0) : Near (x - z) X k :=
  near_add_zero h (hz.neg.eq neg_zero)
theorem near_zero_sub {x z : Flt mw ew} {X k : ℝ} (hz : Near z 0 0) (h : Near x X k) : Near (z - x) (-X) k :=
  near_zero_add hz h.neg

/-- sine and cosine of a finite angle are near the exact ones -/
theorem near_trig [Libm mw ew] [LawfulLibm mw ew] (hm : 9 ≤ mw) (hw : mw + 3 ≤ 2 ^ (ew - 1)) {θ : Flt mw ew} (hθ : θ.isFin = true) :
    Near (Libm.sin θ) (Real.sin θ.toReal) (21 / 10) ∧ Near (Libm.cos θ) (Real.cos θ.toReal) (21 / 10) := by
  have u0 := uRnd_pos (mw := mw)
  have e0 := etaRnd_pos (mw := mw) (ew := ew)
  have u1 := uRnd_small hm
  have he := eta_le_sq (mw := mw) (ew := ew) hw
  have husq : uRnd mw ^ 2 ≤ 1 / 1024 * uRnd mw := by rw [sq]; exact mul_le_mul_of_nonneg_right u1 u0.le
  have main : ∀ {a A : ℝ}, |a - A| ≤ Max.max (2 * etaRnd mw ew) (2 * uRnd mw * |a|) → |A| ≤ 1 → |a - A| ≤ 21 / 10 * uRnd mw := by
    intro a A ha hA
    have h0 : 0 ≤ 2 * uRnd mw * |a| := by positivity
    have h1 : |a - A| ≤ 2 * etaRnd mw ew + 2 * uRnd mw * |a| := ha.trans (max_le (by linarith) (by linarith))
    have h2 : |a| ≤ |a - A| + |A| := by have := abs_add_le (a - A) A; rwa [sub_add_cancel] at this
    have h3 := mul_le_mul_of_nonneg_right u1 (abs_nonneg a)
    have h4 : |a| ≤ 1.01 := by linarith
    have h5 := mul_le_mul_of_nonneg_left h4 u0.le
    linarith
  have hs := accurate_err (LawfulLibm.sin θ hθ) (Real.abs_sin_le_one _)
  have hc := accurate_err (LawfulLibm.cos θ hθ) (Real.abs_cos_le_one _)
  exact ⟨⟨hs.1, main hs.2 (Real.abs_sin_le_one _)⟩, ⟨hc.1, main hc.2 (Real.abs_cos_le_one _)⟩⟩

end Scarlet
