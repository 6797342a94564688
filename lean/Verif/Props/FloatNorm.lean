import Verif.Props.FloatVec
import Verif.Props.FloatBox

/-! C84: rounding error of `normalize` on floats. -/

set_option linter.unusedSectionVars false

namespace Scarlet
open Flt GVec

variable {mw ew : Nat} [FltImpl mw ew] [LawfulFlt mw ew]

/-- A nonnegative finite float has a finite square root within one rounding error. -/
theorem sqrt_err {x : Flt mw ew} (hx : x.isFin = true) (h0 : 0 ≤ x.toReal) :
    (GFloat.sqrt x).isFin = true ∧
    |(GFloat.sqrt x).toReal - Real.sqrt x.toReal| ≤ Max.max (etaRnd mw ew) (uRnd mw * Real.sqrt x.toReal) := by
  have hk0 : 0 ≤ x.key := by
    have := (val_nonneg_iff (notNaN_of_isFin hx)).1 (by rw [val_of_isFin hx]; exact_mod_cast h0)
    exact this
  obtain ⟨hn, hk⟩ := sqrt_fin hx hk0
  have hf : x.sqrt.isFin = true := by
    rw [isFin_iff_key]
    have h1 : 0 ≤ rndK mw ew (Real.sqrt x.toReal) := rndK_nonneg (Real.sqrt_nonneg _)
    have ho := sone_spec (mw := mw) (ew := ew)
    have hof := isFin_iff_key.1 ho.1
    have hxf := isFin_iff_key.1 hx
    have h2 : rndK mw ew (Real.sqrt x.toReal) ≤ Max.max x.key (Scalar.one : Flt mw ew).key := by
      rcases le_total 1 x.toReal with h | h
      · have : Real.sqrt x.toReal ≤ x.toReal := Real.sqrt_le_iff.2 ⟨h0, by nlinarith⟩
        have := rndK_mono mw ew this
        rw [rndK_toReal (notNaN_of_isFin hx)] at this
        exact this.trans (le_max_left _ _)
      · have : Real.sqrt x.toReal ≤ (Scalar.one : Flt mw ew).toReal := by
          rw [ho.2]; exact Real.sqrt_le_one.2 h
        have := rndK_mono mw ew this
        rw [rndK_toReal (notNaN_of_isFin ho.1)] at this
        exact this.trans (le_max_right _ _)
    have := kInf_pos (mw := mw) (ew := ew)
    omega
  refine ⟨hf, ?_⟩
  have := err_of_key hf hk
  rwa [abs_of_nonneg (Real.sqrt_nonneg _)] at this

/-- A quotient that is exactly at most 2 in size does not overflow. -/
theorem div_isFin {x y : Flt mw ew} (hx : x.isFin = true) (hy : y.isFin = true) (h0 : y.toReal ≠ 0)
    (h : |x.toReal / y.toReal| ≤ 2) : (x / y).isFin = true := by
  have hk := (div_fin hx hy (fun h => h0 (toReal_eq_zero_iff.2 h))).2
  rw [← div_def] at hk
  obtain ⟨k, k1, k2, k3⟩ := repr_two (mw := mw) (ew := ew)
  have e : rndK mw ew 2 = k := by rw [← k3]; exact rndK_valZ k1.le k2.le
  have h1 := rndK_mono mw ew (abs_le.1 h).1
  have h2 := rndK_mono mw ew (abs_le.1 h).2
  rw [rndK_neg, e] at h1
  rw [e] at h2
  rw [isFin_iff_key, hk]
  omega

theorem le_of_sq_le {a b : ℝ} (h : a ^ 2 ≤ b ^ 2) (hb : 0 ≤ b) : a ≤ b := le_of_abs_le (abs_le_of_sq_le_sq h hb)

/-- The real-number core of the error analysis. -/
theorem norm_core {u η S S' N' : ℝ} (hu : 0 < u) (hu1 : u ≤ 1 / 1024) (hη : 0 < η) (hηu : η ≤ u)
    (hS : 3 * η ≤ u * S)
    (h1 : |S' - S| ≤ ((1 + u) ^ 3 - 1) * S + 3 * η * (1 + u) ^ 2)
    (h2 : |N' - Real.sqrt S'| ≤ Max.max η (u * Real.sqrt S')) :
    0 < S ∧ 0 ≤ S' ∧ N' ≤ Real.sqrt S * (1 + 3.11 * u) ∧ Real.sqrt S * (1 - 3.11 * u) ≤ N' := by
  have hS0 : 0 < S := by
    by_contra hc
    push Not at hc
    nlinarith
  have hN := Real.sqrt_pos.2 hS0
  have hN2 := Real.sq_sqrt hS0.le
  have a1 : |S' - S| ≤ 4.1 * u * S := by
    refine h1.trans ?_
    have b1 : (1 + u) ^ 3 - 1 ≤ 3.01 * u := by
      have : (1 + u) ^ 3 - 1 = u * (3 + 3 * u + u * u) := by ring
      rw [this]
      nlinarith
    have b2 : (1 + u) ^ 2 ≤ 1.01 := by nlinarith
    have b3 : 3 * η * (1 + u) ^ 2 ≤ u * S * 1.01 := by
      apply mul_le_mul hS b2 (by positivity) (by positivity)
    have b4 : ((1 + u) ^ 3 - 1) * S ≤ 3.01 * u * S := mul_le_mul_of_nonneg_right b1 hS0.le
    nlinarith [mul_pos hu hS0]
  obtain ⟨a2, a3⟩ := abs_le.1 a1
  have hS'0 : 0 < S' := by nlinarith
  have hM := Real.sqrt_pos.2 hS'0
  have hM2 := Real.sq_sqrt hS'0.le
  generalize Real.sqrt S = N at *
  generalize Real.sqrt S' = M at *
  have m1 : M ≤ N * (1 + 2.1 * u) := by
    apply le_of_sq_le _ (by positivity)
    rw [hM2, mul_pow, hN2]
    nlinarith [mul_pos hu hS0]
  have m2 : N * (1 - 2.1 * u) ≤ M := by
    apply le_of_sq_le _ hM.le
    rw [hM2, mul_pow, hN2]
    have : (1 - 2.1 * u) ^ 2 ≤ 1 - 4.1 * u := by nlinarith
    nlinarith
  have hηN : η ≤ u * N := by
    apply le_of_sq_le _ (by positivity)
    rw [mul_pow, hN2]
    nlinarith
  have m3 : |N' - M| ≤ 1.01 * u * N := by
    refine h2.trans (max_le ?_ ?_)
    · nlinarith [mul_pos hu hN]
    · have : M ≤ 1.01 * N := by nlinarith
      nlinarith
  obtain ⟨m4, m5⟩ := abs_le.1 m3
  exact ⟨hS0, hS'0.le, by linarith, by linarith⟩

theorem normalize_core {u η N N' v q : ℝ} (hu : 0 < u) (hu1 : u ≤ 1 / 1024) (hηu : η ≤ u) (hN : 0 < N) (hvN : |v| ≤ N)
    (n1 : N' ≤ N * (1 + 3.11 * u)) (n2 : N * (1 - 3.11 * u) ≤ N') :
    0 < N' ∧ |v / N'| ≤ 1.01 ∧
    (|q - v / N'| ≤ Max.max η (u * |v / N'|) → |q - v / N| ≤ 5 * u) := by
  have n3 : N * 0.996 ≤ N' := by nlinarith
  have hN' : 0 < N' := by nlinarith
  have w1 : |v / N'| ≤ 1.01 := by
    rw [abs_div, abs_of_pos hN', div_le_iff₀ hN']
    nlinarith
  refine ⟨hN', w1, fun hq => ?_⟩
  have w2 : |v / N' - v / N| ≤ 3.2 * u := by
    have e : v / N' - v / N = (v / N) * ((N - N') / N') := by field_simp
    rw [e, abs_mul]
    have c1 : |v / N| ≤ 1 := by rw [abs_div, abs_of_pos hN, div_le_one hN]; exact hvN
    have c2 : |(N - N') / N'| ≤ 3.2 * u := by
      rw [abs_div, abs_of_pos hN', div_le_iff₀ hN', abs_le]
      have c3 : 3.11 * (u * N) ≤ 3.2 * u * N' := by
        have := mul_le_mul_of_nonneg_left n3 hu.le
        linarith [mul_pos hu hN]
      constructor <;> linarith
    calc |v / N| * |(N - N') / N'| ≤ 1 * (3.2 * u) := mul_le_mul c1 c2 (abs_nonneg _) zero_le_one
      _ = _ := one_mul _
  have w3 : |q - v / N'| ≤ 1.01 * u := hq.trans (max_le (by linarith) (by nlinarith))
  have := abs_sub_le q (v / N') (v / N)
  linarith

/-- C84: `normalize` on floats: every component of the result is within `5u` of the exactly normalized vector, and it does
not overflow, provided the computed `square_norm` does not overflow and the exact one is at least `3η/u` (three times the
smallest normal number, so that the squares lose nothing to underflow).  Formats with at least 9 bits of fraction;
`u = 2^-24`, `η/u = 2^-126` for `f32`. -/
theorem C84_normalize_partial (hm : 9 ≤ mw) (v : GVec (Flt mw ew) 3 U) (h : v.squareNorm.isFin = true)
    (hS : 3 * etaRnd mw ew ≤ uRnd mw * ∑ i, (v.vec i).toReal ^ 2) (i : _root_.Fin 3) :
    (v.normalize.vec i).isFin = true ∧
    |(v.normalize.vec i).toReal - (v.vec i).toReal / Real.sqrt (∑ j, (v.vec j).toReal ^ 2)| ≤ 5 * uRnd mw := by
  have hu := uRnd_pos (mw := mw)
  have hη := etaRnd_pos (mw := mw) (ew := ew)
  have hu1 : uRnd mw ≤ 1 / 1024 := by
    unfold uRnd
    rw [show (1024 : ℝ) = 2 ^ 10 by norm_num]
    exact one_div_le_one_div_of_le (by positivity) (pow_le_pow_right₀ (by norm_num) (by omega))
  have hηu : etaRnd mw ew ≤ uRnd mw := by
    unfold uRnd etaRnd
    have hF : Fmt mw ew := inferInstance
    have h2 : 2 ^ 1 ≤ 2 ^ (ew - 1) := Nat.pow_le_pow_right (by decide) (by have := hF.hew; omega)
    refine one_div_le_one_div_of_le (by positivity) (pow_le_pow_right₀ (by norm_num) ?_)
    unfold fK; omega
  have e1 := C83_squareNorm v h
  have hvf : ∀ i, (v.vec i).isFin = true := fun i => (isFin_of_mul (sumLoop_fin h i)).1
  push_cast at e1
  have hn0 : 0 ≤ v.squareNorm.toReal :=
    (norm_core (N' := Real.sqrt v.squareNorm.toReal) hu hu1 hη hηu hS e1 (by
      rw [sub_self, abs_zero]; exact hη.le.trans (le_max_left _ _))).2.1
  obtain ⟨f, e2⟩ := sqrt_err h hn0
  obtain ⟨S0, -, n1, n2⟩ := norm_core hu hu1 hη hηu hS e1 e2
  have hv : |(v.vec i).toReal| ≤ Real.sqrt (∑ j, (v.vec j).toReal ^ 2) :=
    Real.abs_le_sqrt (Finset.single_le_sum (f := fun j => (v.vec j).toReal ^ 2) (fun j _ => sq_nonneg _) (Finset.mem_univ i))
  obtain ⟨p1, p2, p3⟩ := normalize_core (η := etaRnd mw ew) (q := (v.normalize.vec i).toReal) hu hu1 hηu (Real.sqrt_pos.2 S0) hv n1 n2
  have hfin := div_isFin (hvf i) f p1.ne' (by linarith)
  exact ⟨hfin, p3 (div_err (hvf i) f p1.ne' hfin)⟩

theorem unit_core {u a b c x y z : ℝ} (hu : 0 < u) (hu1 : u ≤ 1 / 1024) (hw : a ^ 2 + b ^ 2 + c ^ 2 = 1)
    (h0 : |x - a| ≤ 5 * u) (h1 : |y - b| ≤ 5 * u) (h2 : |z - c| ≤ 5 * u) : |x ^ 2 + y ^ 2 + z ^ 2 - 1| ≤ 18 * u := by
  have hs : |a| + |b| + |c| ≤ 1.7321 := by
    apply le_of_sq_le _ (by norm_num)
    nlinarith [sq_abs a, sq_abs b, sq_abs c, sq_nonneg (|a| - |b|), sq_nonneg (|b| - |c|), sq_nonneg (|a| - |c|)]
  have key : ∀ p w : ℝ, |p - w| ≤ 5 * u → |p ^ 2 - w ^ 2| ≤ 10 * u * |w| + 25 * u ^ 2 := by
    intro p w h
    have e : p ^ 2 - w ^ 2 = (p - w) * (2 * w + (p - w)) := by ring
    rw [e, abs_mul]
    have h3 : |2 * w + (p - w)| ≤ 2 * |w| + 5 * u := by
      refine (abs_add_le _ _).trans ?_
      rw [abs_mul, abs_two]; linarith
    calc |p - w| * |2 * w + (p - w)| ≤ (5 * u) * (2 * |w| + 5 * u) := mul_le_mul h h3 (abs_nonneg _) (by positivity)
      _ = _ := by ring
  have k0 := abs_le.1 (key x a h0)
  have k1 := abs_le.1 (key y b h1)
  have k2 := abs_le.1 (key z c h2)
  have g1 : u * (|a| + |b| + |c|) ≤ u * 1.7321 := mul_le_mul_of_nonneg_left hs hu.le
  have g2 : u ^ 2 ≤ u * (1 / 1024) := by rw [sq]; exact mul_le_mul_of_nonneg_left hu1 hu.le
  rw [abs_le]
  constructor <;> linarith [k0.1, k0.2, k1.1, k1.2, k2.1, k2.2]

/-- C84: the result of `normalize` is a unit vector to within `18u`. -/
theorem C84_unit_partial (hm : 9 ≤ mw) (v : GVec (Flt mw ew) 3 U) (h : v.squareNorm.isFin = true)
    (hS : 3 * etaRnd mw ew ≤ uRnd mw * ∑ i, (v.vec i).toReal ^ 2) :
    |∑ i, (v.normalize.vec i).toReal ^ 2 - 1| ≤ 18 * uRnd mw := by
  have hu := uRnd_pos (mw := mw)
  have hη := etaRnd_pos (mw := mw) (ew := ew)
  have hu1 : uRnd mw ≤ 1 / 1024 := by
    unfold uRnd
    rw [show (1024 : ℝ) = 2 ^ 10 by norm_num]
    exact one_div_le_one_div_of_le (by positivity) (pow_le_pow_right₀ (by norm_num) (by omega))
  have hq := fun i => (C84_normalize_partial hm v h hS i).2
  have S0 : 0 < ∑ i, (v.vec i).toReal ^ 2 := by
    by_contra hc
    nlinarith
  have hN2 := Real.sq_sqrt S0.le
  have hN := Real.sqrt_pos.2 S0
  have hw : ((v.vec 0).toReal / Real.sqrt (∑ j, (v.vec j).toReal ^ 2)) ^ 2 +
      ((v.vec 1).toReal / Real.sqrt (∑ j, (v.vec j).toReal ^ 2)) ^ 2 +
      ((v.vec 2).toReal / Real.sqrt (∑ j, (v.vec j).toReal ^ 2)) ^ 2 = 1 := by
    rw [div_pow, div_pow, div_pow, hN2, ← add_div, ← add_div, div_eq_one_iff_eq S0.ne', Fin.sum_univ_three]
  rw [Fin.sum_univ_three]
  exact unit_core hu hu1 hw (hq 0) (hq 1) (hq 2)

/-- C84 is false of the code without the two hypotheses: a short vector is normalized to an infinite one, a long one to the
zero vector. -/
theorem C84_refuted :
    (new3 (ofRat 23 8 false 1 (2 ^ 80)) (F32.lit 0) (F32.lit 0) : Vec F32 3).normalize.x = GFloat.infinity ∧
    (new3 (F32.lit (2 ^ 70)) (F32.lit 0) (F32.lit 0) : Vec F32 3).normalize.x = Scalar.zero ∧
    (ofRat 23 8 false 1 (2 ^ 80) : F32).isFin = true ∧ 0 < (ofRat 23 8 false 1 (2 ^ 80) : F32).key ∧
    (F32.lit (2 ^ 70)).isFin = true ∧ 0 < (F32.lit (2 ^ 70)).key := by
  decide +kernel

/-- Non-vacuity: (1, 2, 3) meets the hypotheses on `f32`. -/
example : (new3 (F32.lit 1) (F32.lit 2) (F32.lit 3) : Vec F32 3).squareNorm.isFin = true ∧
    3 * etaRnd 23 8 ≤ uRnd 23 * ∑ i, ((new3 (F32.lit 1) (F32.lit 2) (F32.lit 3) : Vec F32 3).vec i).toReal ^ 2 := by
  refine ⟨by decide +kernel, ?_⟩
  rw [Fin.sum_univ_three]
  change _ ≤ uRnd 23 * ((F32.lit 1).toReal ^ 2 + (F32.lit 2).toReal ^ 2 + (F32.lit 3).toReal ^ 2)
  rw [toReal_lit_small.1, toReal_lit_small.2.1, toReal_lit_small.2.2]
  unfold etaRnd uRnd fK
  norm_num
end Scarlet
