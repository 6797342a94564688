import Verif.Props.FloatNorm
import Verif.Props.Interval3
import Verif.Props.Scene

/-! C101: the quadratic solver of the sphere on floats is backward stable. -/

set_option linter.unusedSectionVars false

namespace Scarlet
open Flt

/-- Specification: the exact value `r` does not underflow when rounded: it is zero, or at least the smallest normal number
`η/u` (`2^-126` for `f32`). -/
def Normalised (mw ew : Nat) (r : ℝ) : Prop := r = 0 ∨ etaRnd mw ew ≤ uRnd mw * |r|

/-! ### The real-number core -/

section core
variable {u η : ℝ}

theorem sqrt_rel {u x y e : ℝ} (hu : 0 < u) (hu1 : u ≤ 1 / 1024) (hx : 0 ≤ x) (he : |e| ≤ u) (h : y ^ 2 = x ^ 2 * (1 + e)) (hy : 0 ≤ y) :
    |y - x| ≤ u * x ∧ |x - y| ≤ u * y := by
  obtain ⟨e1, e2⟩ := abs_le.1 he
  have a1 : y ≤ x * (1 + u) := by
    apply le_of_sq_le _ (by positivity)
    rw [h, mul_pow]
    apply mul_le_mul_of_nonneg_left _ (sq_nonneg x)
    nlinarith
  have a2 : x * (1 - u) ≤ y := by
    apply le_of_sq_le _ hy
    rw [h, mul_pow]
    apply mul_le_mul_of_nonneg_left _ (sq_nonneg x)
    nlinarith
  have a3 : x ≤ y * (1 + u) := by
    apply le_of_sq_le _ (by positivity)
    rw [mul_pow, h, mul_assoc]
    have : 1 ≤ (1 + e) * (1 + u) ^ 2 := by
      have : (1 - u) * (1 + u) ^ 2 ≤ (1 + e) * (1 + u) ^ 2 := mul_le_mul_of_nonneg_right (by linarith) (sq_nonneg _)
      have h3 : 0 ≤ u * (1 - u - u * u) := mul_nonneg hu.le (by nlinarith)
      nlinarith
    nlinarith [sq_nonneg x]
  have a4 : y * (1 - u) ≤ x := by
    apply le_of_sq_le _ hx
    rw [mul_pow, h, mul_assoc]
    have : (1 + e) * (1 - u) ^ 2 ≤ 1 := by
      have : (1 + e) * (1 - u) ^ 2 ≤ (1 + u) * (1 - u) ^ 2 := mul_le_mul_of_nonneg_right (by linarith) (sq_nonneg _)
      have h3 : 0 ≤ u * (1 + u - u * u) := mul_nonneg hu.le (by nlinarith)
      nlinarith
    nlinarith [sq_nonneg x]
  constructor <;> rw [abs_le] <;> constructor <;> linarith

theorem w_core {b b' D d s w : ℝ} (hu : 0 < u) (hu1 : u ≤ 1 / 1024) (hb : 0 ≤ b) (hb' : 0 ≤ b') (hD : 0 ≤ D)
    (h1 : |b - b'| ≤ u * b') (hd : |Real.sqrt d - Real.sqrt D| ≤ u * Real.sqrt D)
    (hs : |s - Real.sqrt d| ≤ u * Real.sqrt d) (hw : |w - (b + s)| ≤ u * |b + s|) :
    |w - (b' + Real.sqrt D)| ≤ 4 * u * (b' + Real.sqrt D) := by
  have hS := Real.sqrt_nonneg D
  generalize Real.sqrt D = S at *
  generalize Real.sqrt d = q at *
  obtain ⟨a1, a2⟩ := abs_le.1 h1
  obtain ⟨a3, a4⟩ := abs_le.1 hd
  obtain ⟨a5, a6⟩ := abs_le.1 hs
  have uS : u * u * S ≤ u * S * (1 / 1024) := by nlinarith [mul_nonneg hu.le hS]
  have ub : u * u * b' ≤ u * b' * (1 / 1024) := by nlinarith [mul_nonneg hu.le hb']
  have a7 : u * q ≤ u * S + u * u * S := by nlinarith
  have a8 : 0 ≤ s := by nlinarith
  rw [abs_of_nonneg (show 0 ≤ b + s by linarith)] at hw
  obtain ⟨a9, b1⟩ := abs_le.1 hw
  have b2 : b + s ≤ 1.01 * (b' + S) := by nlinarith
  have b3 : u * (b + s) ≤ u * (1.01 * (b' + S)) := mul_le_mul_of_nonneg_left b2 hu.le
  rw [abs_le]
  constructor <;> nlinarith [mul_nonneg hu.le hS, mul_nonneg hu.le hb']

/-- the root computed as `(b + √d)/2 / a` -/
theorem rootA_core {a W w hw t : ℝ} (hu : 0 < u) (hu1 : u ≤ 1 / 1024) (hW : 0 < W) 
    (h1 : |w - W| ≤ 4 * u * W) (h2 : |hw - w / 2| ≤ u * |w / 2|) (h3 : |t - hw / a| ≤ max η (u * |hw / a|)) (hη : 0 < η) :
    |t - W / (2 * a)| ≤ 11 * u * |W / (2 * a)| + η := by
  obtain ⟨a1, a2⟩ := abs_le.1 h1
  have uW : 0 < u * W := mul_pos hu hW
  have w0 : 0 < w := by nlinarith
  rw [abs_of_pos (show 0 < w / 2 by linarith)] at h2
  obtain ⟨a3, a4⟩ := abs_le.1 h2
  have a5 : |hw - W / 2| ≤ 6 * u * (W / 2) := by
    have : u * w ≤ 1.01 * u * W := by nlinarith
    rw [abs_le]; constructor <;> linarith
  have a6 : |hw / a - W / (2 * a)| ≤ 6 * u * |W / (2 * a)| := by
    have e : hw / a - W / (2 * a) = (hw - W / 2) / a := by rw [sub_div, div_div]
    have e2 : |W / (2 * a)| = (W / 2) / |a| := by rw [← div_div, abs_div, abs_of_pos (by linarith)]
    rw [e, abs_div, e2, ← mul_div_assoc]
    exact div_le_div_of_nonneg_right a5 (abs_nonneg _)
  generalize W / (2 * a) = A at *
  generalize hw / a = r at *
  have a7 : |r| ≤ |A| + 6 * u * |A| := by
    have := abs_sub_abs_le_abs_sub r A; linarith
  have uA : 0 ≤ u * |A| := mul_nonneg hu.le (abs_nonneg _)
  have a8 : u * |r| ≤ 1.01 * u * |A| := by
    have := mul_le_mul_of_nonneg_left a7 hu.le
    nlinarith [abs_nonneg A]
  have a9 : |t - r| ≤ η + u * |r| := h3.trans (max_le (by nlinarith [abs_nonneg r]) (by linarith))
  have := abs_sub_le t r A
  linarith

/-- the root computed as `2c / (b + √d)` -/
theorem rootB_core {c c' c2 W w t e : ℝ} (hu : 0 < u) (hu1 : u ≤ 1 / 1024) (hW : 0 < W)
    (h1 : |w - W| ≤ 4 * u * W) (he : |e| ≤ 2.01 * u) (hc : c' = c * (1 + e)) (hc2 : |c2 - 2 * c| ≤ u * |2 * c|)
    (h3 : |t - c2 / w| ≤ max η (u * |c2 / w|)) (hη : 0 < η) :
    |t - 2 * c' / W| ≤ 11 * u * |2 * c' / W| + η := by
  obtain ⟨a1, a2⟩ := abs_le.1 h1
  obtain ⟨e1, e2⟩ := abs_le.1 he
  have uW : 0 < u * W := mul_pos hu hW
  have w0 : 0.996 * W ≤ w := by nlinarith
  have w1 : 0 < w := by nlinarith
  have c0 : |c'| = |c| * (1 + e) := by rw [hc, abs_mul, abs_of_pos (show 0 < 1 + e by linarith)]
  have c1 : 0.99 * |c| ≤ |c'| := by rw [c0]; nlinarith [abs_nonneg c]
  have c3 : |c2 - 2 * c'| ≤ 3.1 * u * |2 * c'| := by
    have : c2 - 2 * c' = (c2 - 2 * c) - 2 * c * e := by rw [hc]; ring
    rw [this]
    have g1 := abs_sub (c2 - 2 * c) (2 * c * e)
    have g2 : |2 * c * e| ≤ 2 * |c| * (2.01 * u) := by
      rw [abs_mul, abs_mul, abs_two]
      exact mul_le_mul_of_nonneg_left he (by positivity)
    rw [abs_mul, abs_two] at hc2 ⊢
    have g3 : u * (0.99 * |c|) ≤ u * |c'| := mul_le_mul_of_nonneg_left c1 hu.le
    nlinarith [mul_nonneg hu.le (abs_nonneg c)]
  generalize 2 * c' = C at *
  have uC : 0 ≤ u * |C| := mul_nonneg hu.le (abs_nonneg _)
  have a3 : |c2 / w - C / W| ≤ 8 * u * |C / W| := by
    have e3 : c2 / w - C / W = (c2 * W - C * w) / (w * W) := by field_simp
    have e4 : |c2 * W - C * w| ≤ 7.1 * u * |C| * W := by
      have : c2 * W - C * w = (c2 - C) * W - C * (w - W) := by ring
      rw [this]
      refine (abs_sub _ _).trans ?_
      rw [abs_mul, abs_mul, abs_of_pos hW]
      have g1 := mul_le_mul_of_nonneg_right c3 hW.le
      have g2 := mul_le_mul_of_nonneg_left h1 (abs_nonneg C)
      linarith
    rw [e3, abs_div, abs_div, abs_of_pos (mul_pos w1 hW), abs_of_pos hW, div_le_iff₀ (mul_pos w1 hW)]
    have e5 : 8 * u * (|C| / W) * (w * W) = 8 * u * |C| * w := by field_simp
    rw [e5]
    have := mul_le_mul_of_nonneg_left w0 uC
    nlinarith
  generalize C / W = B at *
  generalize c2 / w = r at *
  have a7 : |r| ≤ |B| + 8 * u * |B| := by
    have := abs_sub_abs_le_abs_sub r B; linarith
  have uA : 0 ≤ u * |B| := mul_nonneg hu.le (abs_nonneg _)
  have a8 : u * |r| ≤ 1.01 * u * |B| := by
    have := mul_le_mul_of_nonneg_left a7 hu.le
    nlinarith [abs_nonneg B]
  have a9 : |t - r| ≤ η + u * |r| := h3.trans (max_le (by nlinarith [abs_nonneg r]) (by linarith))
  have := abs_sub_le t r B
  linarith

theorem normal_core {bb ac e1 e2 b' D w : ℝ} (hu : 0 < u) (hu1 : u ≤ 1 / 1024) (hη : 0 < η) (hηu : η ≤ u ^ 2)
    (h1 : -u ≤ e1) (h1' : e1 ≤ u) (h2 : -(2.01 * u) ≤ e2) (b'2 : b' ^ 2 = bb ^ 2 * (1 + e1)) (b'0 : 0 ≤ b') (D0 : 0 ≤ D)
    (hW0 : 0 < b' + Real.sqrt D) (hD : D = bb ^ 2 * (1 + e1) - 4 * ac * (1 + e2))
    (hb : bb ^ 2 = 0 ∨ η ≤ u * |bb ^ 2|) (hc : ac = 0 ∨ η ≤ u * |ac|) (wpos : 0.99 * (b' + Real.sqrt D) ≤ w) :
    η ≤ u * |w / 2| := by
  have hsq := Real.sqrt_nonneg D
  have w0 : 0 < w := lt_of_lt_of_le (by positivity) wpos
  rw [abs_of_pos (show 0 < w / 2 by linarith)]
  apply le_of_sq_le _ (by positivity)
  have g1 : 0.98 * (b' ^ 2 + D) ≤ w ^ 2 := by
    have h5 : (0.99 * (b' + Real.sqrt D)) ^ 2 ≤ w ^ 2 := pow_le_pow_left₀ (by positivity) wpos 2
    have h6 := Real.sq_sqrt D0
    have h7 := mul_nonneg b'0 hsq
    have h8 : (0.99 * (b' + Real.sqrt D)) ^ 2 = 0.9801 * (b' ^ 2 + Real.sqrt D ^ 2) + 1.9602 * (b' * Real.sqrt D) := by ring
    rw [h8, h6] at h5
    have := sq_nonneg b'
    linarith
  have g2 : η ^ 2 ≤ η * (u * (1 / 1024)) := by
    rw [sq]
    apply mul_le_mul_of_nonneg_left _ hη.le
    refine hηu.trans ?_
    rw [sq]
    exact mul_le_mul_of_nonneg_left hu1 hu.le
  have g3 : η ≤ 2 * (u * (b' ^ 2 + D)) := by
    rcases hb with hb | hb
    · have hb0 : b' ^ 2 = 0 := by rw [b'2, hb]; ring
      have hD2 : D = -(4 * ac * (1 + e2)) := by rw [hD, hb]; ring
      rcases hc with hc | hc
      · exfalso
        rw [hc] at hD2
        have : D = 0 := by rw [hD2]; ring
        rw [this, Real.sqrt_zero, add_zero] at hW0
        have := pow_pos hW0 2
        linarith
      · rw [hb0, zero_add]
        have hneg : |ac| * (1 + e2) * 4 = D := by
          have : |D| = D := abs_of_nonneg D0
          rw [← this, hD2, abs_neg, abs_mul, abs_mul, abs_of_pos (show 0 < 1 + e2 by linarith), abs_of_pos (show (0:ℝ) < 4 by norm_num)]
          ring
        have : |ac| ≤ D := by
          rw [← hneg]; nlinarith [abs_nonneg ac]
        have := mul_le_mul_of_nonneg_left this hu.le
        have := mul_nonneg hu.le D0
        linarith
    · rw [abs_of_nonneg (sq_nonneg _)] at hb
      have : bb ^ 2 ≤ 2 * (b' ^ 2 + D) := by rw [b'2]; nlinarith [sq_nonneg bb]
      have := mul_le_mul_of_nonneg_left this hu.le
      linarith
  rw [mul_pow, div_pow]
  have g4 : 0.98 * (u ^ 2 * (b' ^ 2 + D)) ≤ u ^ 2 * w ^ 2 := by
    have := mul_le_mul_of_nonneg_left g1 (sq_nonneg u); linarith
  have g5 : u * η ≤ 2 * (u ^ 2 * (b' ^ 2 + D)) := by
    have := mul_le_mul_of_nonneg_left g3 hu.le
    have e : u * (2 * (u * (b' ^ 2 + D))) = 2 * (u ^ 2 * (b' ^ 2 + D)) := by ring
    linarith
  have := mul_pos hu hη
  linarith

/-- the two exact roots, for a positive linear coefficient -/
theorem roots_exact {a b c : ℝ} (ha : a ≠ 0) (hb : 0 ≤ b) (hD : 0 ≤ b ^ 2 - 4 * a * c) (hW : 0 < b + Real.sqrt (b ^ 2 - 4 * a * c))
    (x : ℝ) : a * x ^ 2 + b * x + c = 0 ↔
      x = -((b + Real.sqrt (b ^ 2 - 4 * a * c)) / (2 * a)) ∨ x = -(2 * c / (b + Real.sqrt (b ^ 2 - 4 * a * c))) := by
  have hS := Real.sq_sqrt hD
  generalize Real.sqrt (b ^ 2 - 4 * a * c) = S at *
  have e : a * x ^ 2 + b * x + c = (a / (b + S)) * (x + (b + S) / (2 * a)) * ((b + S) * x + 2 * c) := by
    have hW' := hW.ne'
    field_simp
    have : c = (b ^ 2 - S ^ 2) / (4 * a) := by rw [hS]; field_simp; ring
    rw [this]
    field_simp
    ring
  rw [e, mul_eq_zero, mul_eq_zero]
  have h0 : a / (b + S) ≠ 0 := div_ne_zero ha hW.ne'
  have h1 : (b + S) * x + 2 * c = 0 ↔ x = -(2 * c / (b + S)) := by
    rw [eq_neg_iff_add_eq_zero]
    constructor
    · intro h; field_simp; linarith
    · intro h; field_simp at h; linarith
  rw [h1, eq_neg_iff_add_eq_zero (b := (b + S) / (2 * a))]
  tauto
end core

/-! ### Floats -/

variable {mw ew : Nat} [FltImpl mw ew] [LawfulFlt mw ew]

theorem four_spec : (GFloat.fromI64 4 : Flt mw ew).isFin = true ∧ (GFloat.fromI64 4 : Flt mw ew).toReal = 4 := by
  have hF : Fmt mw ew := inferInstance
  have hmw := hF.hmw
  have hew := hF.hew
  have h1 : 2 ^ ew = 2 * 2 ^ (ew - 1) := by rw [← pow_succ']; congr 1; omega
  have h2 : 2 ^ 2 ≤ 2 ^ (ew - 1) := Nat.pow_le_pow_right (by decide) (by omega)
  refine exact_of_repr ?_ ?_
  · refine repr_of_mul_pow 1 (fK mw ew + 2) (Nat.one_le_two_pow) ?_ ?_
    · rw [magN_infIdx, ← pow_add, one_mul]
      apply Nat.pow_lt_pow_right (by decide)
      unfold fK; omega
    · rw [pow_add]; push_cast; ring
  · change (ofInt mw ew 4).key = _
    rw [(ofInt_key 4).2]; norm_num

theorem uRnd_small (hm : 9 ≤ mw) : uRnd mw ≤ 1 / 1024 := by
  unfold uRnd
  rw [show (1024 : ℝ) = 2 ^ 10 by norm_num]
  exact one_div_le_one_div_of_le (by positivity) (pow_le_pow_right₀ (by norm_num) (by omega))

theorem eta_le_sq (hw : mw + 3 ≤ 2 ^ (ew - 1)) : etaRnd mw ew ≤ uRnd mw ^ 2 := by
  unfold uRnd etaRnd
  rw [div_pow, one_pow, ← pow_mul]
  refine one_div_le_one_div_of_le (by positivity) (pow_le_pow_right₀ (by norm_num) ?_)
  unfold fK; omega

theorem rel_of_err {z r : ℝ} (h : |z - r| ≤ max (etaRnd mw ew) (uRnd mw * |r|)) (hn : Normalised mw ew r)
    (h0 : r = 0 → z = 0) : |z - r| ≤ uRnd mw * |r| := by
  rcases hn with hn | hn
  · rw [hn, h0 hn]; simp
  · rwa [max_eq_right hn] at h

theorem delta_of_rel {u z r : ℝ} (hu : 0 < u) (h : |z - r| ≤ u * |r|) : ∃ e, |e| ≤ u ∧ z = r * (1 + e) := by
  by_cases h0 : r = 0
  · refine ⟨0, by simpa using hu.le, ?_⟩
    rw [h0] at h ⊢; simp at h; rw [h]; ring
  · refine ⟨(z - r) / r, ?_, by field_simp; ring⟩
    rw [abs_div, div_le_iff₀ (abs_pos.2 h0)]; exact h

theorem mul_rel {x y : Flt mw ew} (hx : x.isFin = true) (hy : y.isFin = true) (hz : (x * y).isFin = true)
    (hn : Normalised mw ew (x.toReal * y.toReal)) :
    |(x * y).toReal - x.toReal * y.toReal| ≤ uRnd mw * |x.toReal * y.toReal| := by
  refine rel_of_err (mul_err hx hy hz) hn fun h => ?_
  have := (mul_fin hx hy).2
  rw [h, rndK_zero, ← mul_def] at this
  exact toReal_eq_zero_iff.2 this

theorem sqrt_rel_fl (hw : mw + 3 ≤ 2 ^ (ew - 1)) {x : Flt mw ew} (hx : x.isFin = true) (h0 : 0 ≤ x.toReal) :
    |(GFloat.sqrt x).toReal - Real.sqrt x.toReal| ≤ uRnd mw * Real.sqrt x.toReal := by
  have hu := uRnd_pos (mw := mw)
  have hη := etaRnd_pos (mw := mw) (ew := ew)
  have h1 := (sqrt_err hx h0).2
  rcases h0.eq_or_lt with h | h
  · have e : (GFloat.sqrt x).toReal = 0 := by
      have hk0 : 0 ≤ x.key := (val_nonneg_iff (notNaN_of_isFin hx)).1 (by rw [val_of_isFin hx]; exact_mod_cast h0)
      have := (sqrt_fin hx hk0).2
      rw [← h, Real.sqrt_zero, rndK_zero] at this
      exact toReal_eq_zero_iff.2 this
    rw [e, ← h]; simp
  · refine h1.trans (max_le ?_ le_rfl)
    have h2 : 2 * etaRnd mw ew ≤ x.toReal := by
      obtain ⟨n, hn⟩ := toReal_int x
      have hp : (0 : ℝ) < 2 ^ fK mw ew := by positivity
      have : (0 : ℝ) < n := by rw [← hn]; positivity
      have : (1 : ℝ) ≤ n := by exact_mod_cast (by exact_mod_cast this : (0 : ℤ) < n)
      unfold etaRnd
      rw [pow_succ, show 2 * (1 / ((2 : ℝ) ^ fK mw ew * 2)) = 1 / 2 ^ fK mw ew by field_simp, div_le_iff₀ hp]
      linarith
    apply le_of_sq_le _ (by positivity)
    rw [mul_pow, Real.sq_sqrt h0]
    have := eta_le_sq hw
    nlinarith

theorem sqrt_fin_inv {x : Flt mw ew} (h : (GFloat.sqrt x).isFin = true) (hn : Scalar.isNonnegative x = true) : x.isFin = true := by
  have hn' := (sge_iff.1 hn).1
  rcases isFin_or_isInf hn' with h1 | h1
  · exact h1
  · exfalso
    have hk : 0 ≤ x.key := by have := (sge_iff.1 hn).2.2; rwa [show (Scalar.zero : Flt mw ew).key = 0 from key_szero] at this
    have hz : x.isZero = false := by
      rw [Bool.eq_false_iff]; intro h2
      rw [isZero_iff_key] at h2
      have := isInf_iff_key.1 h1
      have := kInf_pos (mw := mw) (ew := ew)
      omega
    have hs : x.sgn = false := by
      rw [Bool.eq_false_iff]; intro h2
      have := isInf_iff_key.1 h1
      have := kInf_pos (mw := mw) (ew := ew)
      have := sgn_of_key_pos (x := x) (by omega)
      rw [this] at h2; cases h2
    have e : GFloat.sqrt x = x := by
      change x.sqrt = x
      unfold sqrt
      rw [hn', hz, hs, h1]; simp
    rw [e] at h
    rw [notInf_of_isFin h] at h1; cases h1

/-- The computed discriminant is `(b²(1+e₁) − 4ac(1+e₂))(1+e₃)`. -/
theorem disc_err (hm : 9 ≤ mw) {a b c : Flt mw ew} (hd : (Scalar.square b - a * c * GFloat.fromI64 4).isFin = true)
    (hb : Normalised mw ew (b.toReal ^ 2)) (hc : Normalised mw ew (a.toReal * c.toReal)) :
    a.isFin = true ∧ b.isFin = true ∧ c.isFin = true ∧ ∃ e1 e2 e3 : ℝ, |e1| ≤ uRnd mw ∧ |e2| ≤ 2.01 * uRnd mw ∧ |e3| ≤ uRnd mw ∧
      (Scalar.square b - a * c * GFloat.fromI64 4).toReal =
        (b.toReal ^ 2 * (1 + e1) - 4 * a.toReal * (c.toReal * (1 + e2))) * (1 + e3) := by
  have hu := uRnd_pos (mw := mw)
  have hu1 := uRnd_small hm
  change (b * b - a * c * GFloat.fromI64 4).isFin = true at hd
  change _ ∧ _ ∧ _ ∧ ∃ e1 e2 e3 : ℝ, _ ∧ _ ∧ _ ∧ (b * b - a * c * GFloat.fromI64 4).toReal = _
  obtain ⟨f1, f2⟩ := isFin_of_sub hd
  obtain ⟨f3, -⟩ := isFin_of_mul f1
  obtain ⟨f4, f5⟩ := isFin_of_mul f2
  obtain ⟨f6, f7⟩ := isFin_of_mul f4
  refine ⟨f6, f3, f7, ?_⟩
  obtain ⟨e1, h1, k1⟩ := delta_of_rel hu (mul_rel f3 f3 f1 (by rwa [← sq]))
  obtain ⟨e2, h2, k2⟩ := delta_of_rel hu (mul_rel f6 f7 f4 hc)
  obtain ⟨l2, u2⟩ := abs_le.1 h2
  have h4 := (four_spec (mw := mw) (ew := ew)).2
  obtain ⟨e4, h5, k4⟩ := delta_of_rel hu (mul_rel f4 f5 f2 (by
    rw [h4, k2]
    rcases hc with hc | hc
    · left; rw [hc]; ring
    · right
      refine hc.trans (mul_le_mul_of_nonneg_left ?_ hu.le)
      rw [abs_mul _ (4 : ℝ), abs_mul _ (1 + e2), abs_of_pos (show 0 < 1 + e2 by linarith), abs_of_pos (show (0 : ℝ) < 4 by norm_num)]
      nlinarith [abs_nonneg (a.toReal * c.toReal)]))
  obtain ⟨l4, u4⟩ := abs_le.1 h5
  obtain ⟨e3, h3, k3⟩ := delta_of_rel hu (sub_err f1 f2 hd)
  refine ⟨e1, (1 + e2) * (1 + e4) - 1, e3, h1, ?_, h3, ?_⟩
  · have : |e2 * e4| ≤ uRnd mw * uRnd mw := by rw [abs_mul]; exact mul_le_mul h2 h5 (abs_nonneg _) hu.le
    obtain ⟨l6, u6⟩ := abs_le.1 this
    have : uRnd mw * uRnd mw ≤ uRnd mw * (1 / 1024) := mul_le_mul_of_nonneg_left hu1 hu.le
    rw [abs_le]; constructor <;> nlinarith
  · rw [k3, k1, k4, k2, h4]; ring

/-- What the solver computes up to the two divisions: `p` is `|b|`. -/
theorem quad_w (hm : 9 ≤ mw) (hw : mw + 3 ≤ 2 ^ (ew - 1)) {a b c p : Flt mw ew} (hp : p.toReal = |b.toReal|) 
    (hd : (Scalar.square b - a * c * GFloat.fromI64 4).isFin = true)
    (h0 : 0 ≤ (Scalar.square b - a * c * GFloat.fromI64 4).toReal)
    (fw : (p + GFloat.sqrt (Scalar.square b - a * c * GFloat.fromI64 4)).isFin = true)
    (w0 : (p + GFloat.sqrt (Scalar.square b - a * c * GFloat.fromI64 4)).toReal ≠ 0)
    (hb : Normalised mw ew (b.toReal ^ 2)) (hc : Normalised mw ew (a.toReal * c.toReal)) :
    ∃ b' e : ℝ, 0 ≤ b' ∧ abs (b' - |b.toReal|) ≤ uRnd mw * |b.toReal| ∧ |e| ≤ 2.01 * uRnd mw ∧
      0 ≤ b' ^ 2 - 4 * a.toReal * (c.toReal * (1 + e)) ∧
      0 < b' + Real.sqrt (b' ^ 2 - 4 * a.toReal * (c.toReal * (1 + e))) ∧
      |(p + GFloat.sqrt (Scalar.square b - a * c * GFloat.fromI64 4)).toReal -
        (b' + Real.sqrt (b' ^ 2 - 4 * a.toReal * (c.toReal * (1 + e))))| ≤
        4 * uRnd mw * (b' + Real.sqrt (b' ^ 2 - 4 * a.toReal * (c.toReal * (1 + e)))) ∧
      Normalised mw ew ((p + GFloat.sqrt (Scalar.square b - a * c * GFloat.fromI64 4)).toReal / 2) := by
  have hu := uRnd_pos (mw := mw)
  have hη := etaRnd_pos (mw := mw) (ew := ew)
  have hu1 := uRnd_small hm
  have hηu := eta_le_sq hw
  obtain ⟨fa, fb, fc, e1, e2, e3, h1, h2, h3, k⟩ := disc_err hm hd hb hc
  obtain ⟨fp, fs⟩ := isFin_of_add fw
  have es := sqrt_rel_fl hw hd h0
  have ew' := add_err fp fs fw
  generalize hdd : (Scalar.square b - a * c * GFloat.fromI64 4) = d at *
  obtain ⟨l1, u1⟩ := abs_le.1 h1
  obtain ⟨l2, u2⟩ := abs_le.1 h2
  obtain ⟨l3, u3⟩ := abs_le.1 h3
  set D := b.toReal ^ 2 * (1 + e1) - 4 * a.toReal * (c.toReal * (1 + e2)) with hD
  have D0 : 0 ≤ D := by
    by_contra hc
    push Not at hc
    nlinarith
  set b' := Real.sqrt (b.toReal ^ 2 * (1 + e1)) with hb'
  have b'2 : b' ^ 2 = b.toReal ^ 2 * (1 + e1) := Real.sq_sqrt (mul_nonneg (sq_nonneg _) (by linarith))
  have b'0 : 0 ≤ b' := Real.sqrt_nonneg _
  have hbb := sqrt_rel hu hu1 (abs_nonneg b.toReal) h1 (by rw [sq_abs]; exact b'2) b'0
  have hS := sqrt_rel hu hu1 (Real.sqrt_nonneg D) h3 (y := Real.sqrt d.toReal)
    (by rw [Real.sq_sqrt h0, Real.sq_sqrt D0]; exact k) (Real.sqrt_nonneg _)
  have hW := w_core hu hu1 (abs_nonneg b.toReal) b'0 D0 hbb.2 hS.1 es (by rw [← hp]; exact ew')
  have hDe : b' ^ 2 - 4 * a.toReal * (c.toReal * (1 + e2)) = D := by rw [b'2]
  have hsq := Real.sqrt_nonneg D
  have hW0 : 0 < b' + Real.sqrt D := by
    rcases (add_nonneg b'0 hsq).eq_or_lt with h | h
    · rw [← h] at hW; simp at hW; exact absurd hW w0
    · exact h
  refine ⟨b', e2, b'0, hbb.1, h2, by rw [hDe]; exact D0, by rw [hDe]; exact hW0, by rw [hDe]; exact hW, ?_⟩
  have wpos : 0.99 * (b' + Real.sqrt D) ≤ (p + GFloat.sqrt d).toReal := by
    have := (abs_le.1 hW).1; nlinarith
  right
  refine normal_core hu hu1 hη hηu l1 u1 l2 b'2 b'0 D0 hW0 ?_ hb hc wpos
  rw [hD]; ring

theorem nonneg_toReal {x : Flt mw ew} (hx : x.isFin = true) : Scalar.isNonnegative x = true ↔ 0 ≤ x.toReal := by
  rw [toReal_nonneg_iff]
  unfold Scalar.isNonnegative
  rw [sge_iff, show (Scalar.zero : Flt mw ew).key = 0 from key_szero]
  have := notNaN_of_isFin hx
  have := notNaN_of_isFin (isFin_szero (mw := mw) (ew := ew))
  tauto

/-- One branch of the solver, up to the common sign `σ` of the two roots: `nA` is `±(|b|+√d)/2`, `nB` is `±2c`. -/
theorem quad_branch (hm : 9 ≤ mw) (hw : mw + 3 ≤ 2 ^ (ew - 1)) {a b c p nA nB w : Flt mw ew} {σ : ℝ} (hσ : σ = 1 ∨ σ = -1)
    (hp : p.toReal = |b.toReal|) (hbσ : b.toReal = -σ * |b.toReal|)
    (hw' : w = p + GFloat.sqrt (Scalar.square b - a * c * GFloat.fromI64 4))
    (hd : Scalar.isNonnegative (Scalar.square b - a * c * GFloat.fromI64 4) = true)
    (hnA : w.isFin = true → |w.toReal / 2| * uRnd mw ≥ etaRnd mw ew → |σ * nA.toReal - w.toReal / 2| ≤ uRnd mw * |w.toReal / 2|)
    (hnB : c.isFin = true → |σ * nB.toReal - 2 * c.toReal| ≤ uRnd mw * |2 * c.toReal|)
    (fw : w.isFin = true) (fA : (nA / a).isFin = true) (fB : (nB / w).isFin = true)
    (hb : Normalised mw ew (b.toReal ^ 2)) (hc : Normalised mw ew (a.toReal * c.toReal)) :
    ∃ b' c' rA rB : ℝ, |b' - b.toReal| ≤ uRnd mw * |b.toReal| ∧ |c' - c.toReal| ≤ 3 * uRnd mw * |c.toReal| ∧
      (∀ x, a.toReal * x ^ 2 + b' * x + c' = 0 ↔ x = rA ∨ x = rB) ∧
      |(nA / a).toReal - rA| ≤ 11 * uRnd mw * |rA| + etaRnd mw ew ∧
      |(nB / w).toReal - rB| ≤ 11 * uRnd mw * |rB| + etaRnd mw ew := by
  have hu := uRnd_pos (mw := mw)
  have hη := etaRnd_pos (mw := mw) (ew := ew)
  have hu1 := uRnd_small hm
  obtain ⟨gA1, gA2, gA3⟩ := isFin_of_div fA
  obtain ⟨gB1, gB2, gB3⟩ := isFin_of_div fB
  have w0 : w.toReal ≠ 0 := fun h => gB3 (toReal_eq_zero_iff.1 h)
  have a0 : a.toReal ≠ 0 := fun h => gA3 (toReal_eq_zero_iff.1 h)
  subst hw'
  obtain ⟨fp, fs⟩ := isFin_of_add fw
  have fd := sqrt_fin_inv fs hd
  obtain ⟨fa, fb, fc, -⟩ := disc_err hm fd hb hc
  obtain ⟨b', e, b'0, k1, k2, D0, W0, k3, k4⟩ := quad_w hm hw hp fd ((nonneg_toReal fd).1 hd) fw w0 hb hc
  have k4' : etaRnd mw ew ≤ uRnd mw * |(p + GFloat.sqrt (Scalar.square b - a * c * GFloat.fromI64 4)).toReal / 2| := by
    rcases k4 with h | h
    · exact absurd (by linarith) w0
    · exact h
  have eA := hnA fw (by rw [ge_iff_le, mul_comm]; exact k4')
  have eB := hnB fc
  have dA := div_err gA1 fa a0 fA
  have dB := div_err gB1 fw w0 fB
  have hσ2 : σ * σ = 1 := by rcases hσ with h | h <;> rw [h] <;> norm_num
  have hσa : |σ| = 1 := by rcases hσ with h | h <;> rw [h] <;> simp
  have sg : ∀ x : ℝ, |σ * x| = |x| := fun x => by rw [abs_mul, hσa, one_mul]
  have sg2 : ∀ x y : ℝ, |x - σ * y| = |σ * x - y| := fun x y => by
    rw [← sg (x - σ * y)]; congr 1; rw [mul_sub, ← mul_assoc, hσ2, one_mul]
  have rA := rootA_core (t := σ * (nA / a).toReal) (a := a.toReal) hu hu1 W0 k3 eA (by
    rw [mul_div_assoc, ← mul_sub, sg, sg]; exact dA) hη
  have rB := rootB_core (t := σ * (nB / _).toReal) (c := c.toReal) hu hu1 W0 k3 k2 rfl eB (by
    rw [mul_div_assoc, ← mul_sub, sg, sg]; exact dB) hη
  refine ⟨-σ * b', c.toReal * (1 + e), σ * ((b' + Real.sqrt (b' ^ 2 - 4 * a.toReal * (c.toReal * (1 + e)))) / (2 * a.toReal)),
    σ * (2 * (c.toReal * (1 + e)) / (b' + Real.sqrt (b' ^ 2 - 4 * a.toReal * (c.toReal * (1 + e))))), ?_, ?_, ?_, ?_, ?_⟩
  · rw [hbσ, ← mul_sub, abs_mul, abs_neg, hσa, one_mul, abs_mul, abs_neg, hσa, one_mul, abs_abs]
    exact k1
  · have : c.toReal * (1 + e) - c.toReal = c.toReal * e := by ring
    rw [this, abs_mul]
    nlinarith [abs_nonneg c.toReal, mul_nonneg hu.le (abs_nonneg c.toReal)]
  · intro x
    have := roots_exact a0 b'0 D0 W0 (-σ * x)
    have e1 : a.toReal * x ^ 2 + -σ * b' * x + c.toReal * (1 + e) =
        a.toReal * (-σ * x) ^ 2 + b' * (-σ * x) + c.toReal * (1 + e) := by
      linear_combination (-(a.toReal * x ^ 2)) * hσ2
    rw [e1, this]
    have e2 : ∀ y, -σ * x = -y ↔ x = σ * y := fun y => by
      constructor
      · intro h; linear_combination (-σ) * h - x * hσ2
      · intro h; linear_combination (-σ) * h - y * hσ2
    rw [e2, e2]
  · rw [sg2, sg]; exact rA
  · rw [sg2, sg]; exact rB

/-- C101: the quadratic solver on floats is backward stable.  Whenever it answers with two finite numbers, these are, to
within `11u` relative error (and half a smallest float), the two roots of an equation whose coefficients differ from the
given ones by at most `u|b|` and `3u|c|`; `b²` and `ac` must not underflow.  Formats with at least 9 bits of fraction and a
wide enough exponent (`f32`, `f64`). -/
theorem C101_backward_partial (hm : 9 ≤ mw) (hw : mw + 3 ≤ 2 ^ (ew - 1)) (a b c t0 t1 : Flt mw ew)
    (h : solveQuadratic a b c = some (t0, t1)) (f0 : t0.isFin = true) (f1 : t1.isFin = true)
    (hb : Normalised mw ew (b.toReal ^ 2)) (hc : Normalised mw ew (a.toReal * c.toReal)) :
    t0.toReal ≤ t1.toReal ∧
    ∃ b' c' r0 r1 : ℝ, |b' - b.toReal| ≤ uRnd mw * |b.toReal| ∧ |c' - c.toReal| ≤ 3 * uRnd mw * |c.toReal| ∧
      (∀ x, a.toReal * x ^ 2 + b' * x + c' = 0 ↔ x = r0 ∨ x = r1) ∧
      |t0.toReal - r0| ≤ 11 * uRnd mw * |r0| + etaRnd mw ew ∧
      |t1.toReal - r1| ≤ 11 * uRnd mw * |r1| + etaRnd mw ew := by
  have hu := uRnd_pos (mw := mw)
  have hη := etaRnd_pos (mw := mw) (ew := ew)
  have hh := half_spec (mw := mw) (ew := ew)
  -- reduce to the unsorted pair
  have red : ∀ tA tB : Flt mw ew, Scalar.minMax tA tB = (t0, t1) →
      (tA.isFin = true → tB.isFin = true → ∃ b' c' rA rB : ℝ, |b' - b.toReal| ≤ uRnd mw * |b.toReal| ∧
        |c' - c.toReal| ≤ 3 * uRnd mw * |c.toReal| ∧
        (∀ x, a.toReal * x ^ 2 + b' * x + c' = 0 ↔ x = rA ∨ x = rB) ∧
        |tA.toReal - rA| ≤ 11 * uRnd mw * |rA| + etaRnd mw ew ∧
        |tB.toReal - rB| ≤ 11 * uRnd mw * |rB| + etaRnd mw ew) → 
      t0.toReal ≤ t1.toReal ∧ ∃ b' c' r0 r1 : ℝ, |b' - b.toReal| ≤ uRnd mw * |b.toReal| ∧
        |c' - c.toReal| ≤ 3 * uRnd mw * |c.toReal| ∧
        (∀ x, a.toReal * x ^ 2 + b' * x + c' = 0 ↔ x = r0 ∨ x = r1) ∧
        |t0.toReal - r0| ≤ 11 * uRnd mw * |r0| + etaRnd mw ew ∧
        |t1.toReal - r1| ≤ 11 * uRnd mw * |r1| + etaRnd mw ew := by
    intro tA tB hmm hAB
    unfold Scalar.minMax at hmm
    cases hlt : Scalar.lt tA tB
    · rw [hlt] at hmm
      simp only [Bool.false_eq_true, if_false, Prod.mk.injEq] at hmm
      obtain ⟨rfl, rfl⟩ := hmm
      obtain ⟨b', c', rA, rB, g1, g2, g3, g4, g5⟩ := hAB f1 f0
      refine ⟨?_, b', c', rB, rA, g1, g2, fun x => (g3 x).trans or_comm, g5, g4⟩
      by_contra hcon
      push Not at hcon
      have := slt_iff.2 ⟨notNaN_of_isFin f1, notNaN_of_isFin f0, toReal_lt_iff.1 hcon⟩
      rw [hlt] at this; cases this
    · rw [hlt] at hmm
      simp only [if_true, Prod.mk.injEq] at hmm
      obtain ⟨rfl, rfl⟩ := hmm
      exact ⟨(toReal_lt_iff.2 (slt_iff.1 hlt).2.2).le, hAB f0 f1⟩
  unfold solveQuadratic at h
  dsimp only at h
  split at h
  · rename_i hd
    split at h
    · rename_i hb0
      simp only [Option.some.injEq] at h
      refine red _ _ h fun fA fB => ?_
      have fw : (b + GFloat.sqrt (Scalar.square b - a * c * GFloat.fromI64 4)).isFin = true := by
        have := (isFin_of_mul (isFin_of_div fA).1).1
        rwa [isFin_negop] at this
      have fb := (isFin_of_add fw).1
      have b0 := (nonneg_toReal fb).1 hb0
      have fcc : (c + c).isFin = true := by
        have := (isFin_of_div fB).1
        rwa [isFin_negop] at this
      refine quad_branch hm hw (σ := -1) (p := b) (w := b + GFloat.sqrt (Scalar.square b - a * c * GFloat.fromI64 4))
        (Or.inr rfl) (abs_of_nonneg b0).symm (by rw [abs_of_nonneg b0]; ring) rfl hd ?_ ?_ fw fA fB hb hc
      · intro _ hn
        have := mul_rel (isFin_of_mul (isFin_of_div fA).1).1 hh.1 (isFin_of_div fA).1 (by
          right; rw [hh.2, toReal_negop, ← mul_comm (uRnd mw)] at *
          rw [show |-(b + GFloat.sqrt (Scalar.square b - a * c * GFloat.fromI64 4)).toReal * (1 / 2)| =
            |(b + GFloat.sqrt (Scalar.square b - a * c * GFloat.fromI64 4)).toReal / 2| by
              rw [← abs_neg]; congr 1; ring]
          exact hn)
        rw [hh.2, toReal_negop] at this
        generalize (b + GFloat.sqrt (Scalar.square b - a * c * GFloat.fromI64 4)).toReal = w at *
        rw [show -w * (1 / 2) = -(w / 2) by ring, abs_neg] at this
        rw [← abs_neg]
        convert this using 2
        ring
      · intro fc
        have := add_err fc fc fcc
        rw [toReal_negop, two_mul]
        convert this using 2
        ring
    · rename_i hb0
      simp only [Option.some.injEq] at h
      refine red _ _ h fun fA fB => ?_
      have fw : (-b + GFloat.sqrt (Scalar.square b - a * c * GFloat.fromI64 4)).isFin = true := 
        (isFin_of_mul (isFin_of_div fA).1).1
      have fb := (isFin_of_add fw).1
      rw [isFin_negop] at fb
      have b0 : b.toReal < 0 := by
        by_contra hcon
        exact hb0 ((nonneg_toReal fb).2 (not_lt.1 hcon))
      have fcc : (c + c).isFin = true := (isFin_of_div fB).1
      refine quad_branch hm hw (σ := 1) (p := -b) (w := -b + GFloat.sqrt (Scalar.square b - a * c * GFloat.fromI64 4))
        (Or.inl rfl) (by rw [abs_of_neg b0, toReal_negop]) (by rw [abs_of_neg b0]; ring) rfl hd ?_ ?_ fw fA fB hb hc
      · intro _ hn
        have := mul_rel (isFin_of_mul (isFin_of_div fA).1).1 hh.1 (isFin_of_div fA).1 (by
          right; rw [hh.2, ← mul_comm (uRnd mw)] at *
          rw [mul_one_div]
          exact hn)
        rw [hh.2, mul_one_div] at this
        rwa [one_mul]
      · intro fc
        have := add_err fc fc fcc
        rwa [one_mul, two_mul]
  · cases h

/-- C101: when the solver answers `none` (and nothing overflowed), an equation within the same distance of the given one has
no real root. -/
theorem C101_none_partial (hm : 9 ≤ mw) (a b c : Flt mw ew) (h : solveQuadratic a b c = none)
    (f : (Scalar.square b - a * c * GFloat.fromI64 4).isFin = true)
    (hb : Normalised mw ew (b.toReal ^ 2)) (hc : Normalised mw ew (a.toReal * c.toReal)) :
    ∃ b' c' : ℝ, |b' - b.toReal| ≤ uRnd mw * |b.toReal| ∧ |c' - c.toReal| ≤ 3 * uRnd mw * |c.toReal| ∧
      ∀ x, a.toReal * x ^ 2 + b' * x + c' ≠ 0 := by
  have hu := uRnd_pos (mw := mw)
  have hu1 := uRnd_small hm
  obtain ⟨fa, fb, fc, e1, e2, e3, h1, h2, h3, k⟩ := disc_err hm f hb hc
  have hd : (Scalar.square b - a * c * GFloat.fromI64 4).toReal < 0 := by
    by_contra hcon
    have := (nonneg_toReal f).2 (not_lt.1 hcon)
    unfold solveQuadratic at h
    dsimp only at h
    rw [this, if_pos rfl] at h
    split at h <;> cases h
  have l3 := (abs_le.1 h3).1
  have l1 := (abs_le.1 h1).1
  rw [k] at hd
  have D0 : b.toReal ^ 2 * (1 + e1) - 4 * a.toReal * (c.toReal * (1 + e2)) < 0 := by
    by_contra hcon
    have := mul_nonneg (not_lt.1 hcon) (show 0 ≤ 1 + e3 by linarith)
    linarith
  have hs := Real.sq_sqrt (show (0 : ℝ) ≤ 1 + e1 by linarith)
  have hs0 := Real.sqrt_nonneg (1 + e1)
  have hr := (sqrt_rel (x := 1) hu hu1 (by norm_num) h1 (by rw [hs]; ring) hs0).1
  refine ⟨b.toReal * Real.sqrt (1 + e1), c.toReal * (1 + e2), ?_, ?_, ?_⟩
  · have : b.toReal * Real.sqrt (1 + e1) - b.toReal = b.toReal * (Real.sqrt (1 + e1) - 1) := by ring
    rw [this, abs_mul, mul_comm]
    exact mul_le_mul_of_nonneg_right (by linarith) (abs_nonneg _)
  · have : c.toReal * (1 + e2) - c.toReal = c.toReal * e2 := by ring
    rw [this, abs_mul]
    nlinarith [abs_nonneg c.toReal, mul_nonneg hu.le (abs_nonneg c.toReal)]
  · intro x hx
    have e : (b.toReal * Real.sqrt (1 + e1)) ^ 2 = b.toReal ^ 2 * (1 + e1) := by rw [mul_pow, hs]
    generalize b.toReal * Real.sqrt (1 + e1) = b' at *
    rw [← e] at D0
    have h5 : (2 * a.toReal * x + b') ^ 2 = b' ^ 2 - 4 * a.toReal * (c.toReal * (1 + e2)) := by
      linear_combination 4 * a.toReal * hx
    have := sq_nonneg (2 * a.toReal * x + b')
    linarith

theorem toReal_pow2 (e : Nat) (he : e ≤ 149) : (ofRat 23 8 false 1 (2 ^ e)).toReal = 1 / 2 ^ e := by
  refine (exact_of_repr ?_ ?_).2
  · refine repr_of_mul_pow 1 (149 - e) (Nat.one_le_two_pow) ?_ ?_
    · rw [magN_infIdx, ← pow_add, one_mul]
      apply Nat.pow_lt_pow_right (by decide)
      norm_num
      omega
    · have : fK 23 8 = (149 - e) + e := by
        have : fK 23 8 = 149 := by decide
        omega
      rw [this, pow_add]; push_cast; field_simp
  · rw [(ofRat_key false 1 (2 ^ e) (by positivity)).2]; simp

/-- C101 is false of the code when `b²` and `ac` underflow (the roots come out wrong by a factor of two: both exact roots are
at a distance of more than 15 from the computed −16) ... -/
theorem C101_refuted_underflow :
    solveQuadratic (ofRat 23 8 false 1 (2 ^ 80)) (ofRat 23 8 false 1 (2 ^ 75)) (ofRat 23 8 false 1 (2 ^ 80)) =
      some (-F32.lit 16, -(ofRat 23 8 false 1 (2 ^ 4))) ∧
    ∀ x : ℝ, (ofRat 23 8 false 1 (2 ^ 80)).toReal * x ^ 2 + (ofRat 23 8 false 1 (2 ^ 75)).toReal * x +
      (ofRat 23 8 false 1 (2 ^ 80)).toReal = 0 → 15 < |x - (-F32.lit 16).toReal| := by
  refine ⟨by decide +kernel, fun x hx => ?_⟩
  rw [toReal_pow2 80 (by decide), toReal_pow2 75 (by decide)] at hx
  rw [toReal_negop, toReal_lit (by decide)]
  have h1 : (x + 16) ^ 2 = 255 := by
    have e : (1 : ℝ) / 2 ^ 75 = 32 * (1 / 2 ^ 80) := by norm_num
    rw [e] at hx
    have h2 : (1 : ℝ) / 2 ^ 80 * (x ^ 2 + 32 * x + 1) = 0 := by linear_combination hx
    rcases mul_eq_zero.1 h2 with h3 | h3
    · norm_num at h3
    · linear_combination h3
  push_cast
  rw [sub_neg_eq_add]
  by_contra hcon
  push Not at hcon
  have := pow_le_pow_left₀ (abs_nonneg _) hcon 2
  rw [sq_abs, h1] at this
  norm_num at this

/-- ... and when they overflow: `t² + 4t + 1 = 0`, scaled by `2^70`, has two real roots, but none is found. -/
theorem C101_refuted_overflow :
    solveQuadratic (F32.lit (2 ^ 70)) (F32.lit (2 ^ 72)) (F32.lit (2 ^ 70)) = none ∧
    ∃ x : ℝ, (2 : ℝ) ^ 70 * x ^ 2 + 2 ^ 72 * x + 2 ^ 70 = 0 := by
  refine ⟨by decide +kernel, Real.sqrt 3 - 2, ?_⟩
  have := Real.sq_sqrt (show (0 : ℝ) ≤ 3 by norm_num)
  linear_combination (2 : ℝ) ^ 70 * this

theorem normal_f32 {r : ℝ} (h : 1 ≤ |r|) : Normalised 23 8 r := by
  right
  have : etaRnd 23 8 ≤ uRnd 23 * 1 := by unfold etaRnd uRnd fK; norm_num
  exact this.trans (mul_le_mul_of_nonneg_left h uRnd_pos.le)

/-- Non-vacuity: `t² − 3t + 2` meets the hypotheses on `f32`, and is solved. -/
example : solveQuadratic (F32.lit 1) (-F32.lit 3) (F32.lit 2) = some (F32.lit 1, F32.lit 2) ∧
    (F32.lit 1).isFin = true ∧ (F32.lit 2).isFin = true ∧
    Normalised 23 8 ((-F32.lit 3).toReal ^ 2) ∧ Normalised 23 8 ((F32.lit 1).toReal * (F32.lit 2).toReal) ∧
    9 ≤ 23 ∧ 23 + 3 ≤ 2 ^ (8 - 1) ∧ 52 + 3 ≤ 2 ^ (11 - 1) := by
  refine ⟨by decide +kernel, by decide +kernel, by decide +kernel, normal_f32 ?_, normal_f32 ?_, by decide, by decide, by decide⟩
  · rw [toReal_negop, toReal_lit_small.2.2]; norm_num
  · rw [toReal_lit_small.1, toReal_lit_small.2.1]; norm_num

/-- Non-vacuity: `t² + t + 1` is reported to have no root, without overflow or underflow. -/
example : solveQuadratic (F32.lit 1) (F32.lit 1) (F32.lit 1) = none ∧
    (Scalar.square (F32.lit 1) - F32.lit 1 * F32.lit 1 * GFloat.fromI64 4).isFin = true ∧
    Normalised 23 8 ((F32.lit 1).toReal ^ 2) ∧ Normalised 23 8 ((F32.lit 1).toReal * (F32.lit 1).toReal) := by
  refine ⟨by decide +kernel, by decide +kernel, normal_f32 ?_, normal_f32 ?_⟩ <;> rw [toReal_lit_small.1] <;> norm_num
end Scarlet
