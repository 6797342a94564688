import Verif.Theory.Enclose

/-! Rounding error: the rounded result is nearest, and the standard model `|fl r - r| ≤ u |r| + η`. -/

set_option linter.unusedSimpArgs false
set_option linter.unusedSectionVars false

namespace Scarlet
namespace Flt
variable {mw ew : Nat}

/-- unit roundoff, `2^-(mw+1)`: `2^-24` for `f32`, `2^-53` for `f64` -/
noncomputable def uRnd (mw : Nat) : ℝ := 1 / 2 ^ (mw + 1)
/-- half the smallest positive float: `2^-150` for `f32` -/
noncomputable def etaRnd (mw ew : Nat) : ℝ := 1 / 2 ^ (fK mw ew + 1)

theorem uRnd_pos : 0 < uRnd mw := by unfold uRnd; positivity
theorem etaRnd_pos : 0 < etaRnd mw ew := by unfold etaRnd; positivity

/-- distance between neighbouring magnitudes -/
theorem magN_gap (mw i : Nat) : magN mw (i + 1) = magN mw i + 1 ∨
    2 ^ mw * (magN mw (i + 1) - magN mw i : ℝ) ≤ magN mw i := by
  rcases idx_cases mw i with h | ⟨e, m, hm, hi⟩
  · left
    rcases Nat.lt_or_ge (i + 1) (2 ^ mw) with h1 | h1
    · rw [magN_of_lt h, magN_of_lt h1]
    · have h2 := magN_block mw 0 0 (Nat.zero_le _)
      rw [magN_of_lt h, show i + 1 = (0 + 1) * 2 ^ mw + 0 by omega, h2]; omega
  · right
    rw [hi, magN_block mw e m hm.le, show (e + 1) * 2 ^ mw + m + 1 = (e + 1) * 2 ^ mw + (m + 1) by omega,
      magN_block mw e (m + 1) hm]
    push_cast
    have : (0 : ℝ) ≤ 2 ^ e * m := by positivity
    nlinarith

theorem rndIdx_err (mw : Nat) {x : ℝ} (hx : 0 ≤ x) :
    |x - magN mw (rndIdx mw x)| ≤ max (1 / 2) (uRnd mw * x) ∧
    ((∃ n : ℕ, x = n) → |x - magN mw (rndIdx mw x)| ≤ uRnd mw * x) := by
  obtain ⟨h1, h2⟩ := floor_bounds mw hx
  have n1 := (rndIdx_nearest mw hx (floorIdx mw ⌊x⌋₊)).1
  have n2 := (rndIdx_nearest mw hx (floorIdx mw ⌊x⌋₊ + 1)).1
  have g := magN_gap mw (floorIdx mw ⌊x⌋₊)
  generalize floorIdx mw ⌊x⌋₊ = i at *
  rw [abs_of_nonneg (by linarith : 0 ≤ x - magN mw i)] at n1
  rw [abs_of_neg (by linarith : x - magN mw (i + 1) < 0)] at n2
  have hu : (0 : ℝ) ≤ uRnd mw * x := mul_nonneg uRnd_pos.le hx
  rcases g with g | g
  · have g' : (magN mw (i + 1) : ℝ) = magN mw i + 1 := by exact_mod_cast g
    refine ⟨le_max_of_le_left (by linarith), ?_⟩
    rintro ⟨n, rfl⟩
    have a1 : magN mw i ≤ n := by exact_mod_cast h1
    have a2 : n < magN mw (i + 1) := by exact_mod_cast h2
    have a3 : magN mw i = n := by omega
    rw [a3, sub_self] at n1; linarith
  · have hu2 : (magN mw (i + 1) - magN mw i : ℝ) ≤ 2 * (uRnd mw * x) := by
      unfold uRnd
      rw [pow_succ]
      have hp : (0 : ℝ) < 2 ^ mw := by positivity
      rw [show 2 * (1 / (2 ^ mw * 2) * x) = x / 2 ^ mw by field_simp, le_div_iff₀ hp]
      linarith
    have : |x - magN mw (rndIdx mw x)| ≤ uRnd mw * x := by linarith
    exact ⟨le_max_of_le_right this, fun _ => this⟩

/-- The rounded result is at least as near to the exact one as every other float. -/
theorem nearest_of_key {z : Flt mw ew} {r : ℝ} (hz : z.isFin = true) (hk : z.key = rndK mw ew r) (y : Flt mw ew) :
    |z.toReal - r| ≤ |y.toReal - r| := by
  have hp : (0 : ℝ) < 2 ^ fK mw ew := by positivity
  have hf := isFin_iff_key.1 hz
  have hkz : z.key = rndZ mw (r * 2 ^ fK mw ew) := by
    have hk0 : (0 : ℤ) ≤ kInf mw ew := Int.natCast_nonneg _
    unfold rndK at hk; omega
  have core : ∀ s : ℝ, 0 ≤ s → ∀ k : ℤ, |valZ mw (rndZ mw s) - s| ≤ |valZ mw k - s| := by
    intro s hs k
    have hn := (rndIdx_nearest mw hs k.natAbs).1
    rw [rndZ_of_nonneg hs, valZ_nat, abs_sub_comm]
    refine hn.trans ?_
    rcases le_or_gt 0 k with h | h
    · rw [valZ_nonneg_eq h, abs_sub_comm]
    · have : valZ mw k = -(magN mw k.natAbs : ℝ) := by unfold valZ; rw [if_pos h]
      rw [this]
      have hm : (0 : ℝ) ≤ magN mw k.natAbs := by positivity
      rw [abs_of_nonpos (by linarith : -(magN mw k.natAbs : ℝ) - s ≤ 0)]
      exact abs_le.2 ⟨by linarith, by linarith⟩
  have core' : ∀ s : ℝ, ∀ k : ℤ, |valZ mw (rndZ mw s) - s| ≤ |valZ mw k - s| := by
    intro s k
    rcases le_or_gt 0 s with h | h
    · exact core s h k
    · have := core (-s) (by linarith) (-k)
      rw [rndZ_neg, valZ_neg, valZ_neg, ← abs_neg, ← abs_neg (-valZ mw k - -s)] at this
      convert this using 2 <;> ring
  have := core' (r * 2 ^ fK mw ew) y.key
  rw [← hkz] at this
  have e : ∀ x : Flt mw ew, x.toReal - r = (valZ mw x.key - r * 2 ^ fK mw ew) / 2 ^ fK mw ew := by
    intro x; rw [toReal_eq_key]; field_simp
  rw [e, e, abs_div, abs_div]
  exact div_le_div_of_nonneg_right this (abs_nonneg _)

private theorem err_aux {z : Flt mw ew} {r : ℝ} (hz : z.isFin = true) (hk : z.key = rndK mw ew r) (hr : 0 ≤ r) :
    |z.toReal - r| ≤ max (etaRnd mw ew) (uRnd mw * r) ∧
    ((∃ n : ℤ, r * 2 ^ fK mw ew = n) → |z.toReal - r| ≤ uRnd mw * r) := by
  have hp : (0 : ℝ) < 2 ^ fK mw ew := by positivity
  have hx : 0 ≤ r * 2 ^ fK mw ew := by positivity
  have hf := isFin_iff_key.1 hz
  have hkz : z.key = rndIdx mw (r * 2 ^ fK mw ew) := by
    rw [← rndZ_of_nonneg hx]
    have hk0 : (0 : ℤ) ≤ kInf mw ew := Int.natCast_nonneg _
    unfold rndK at hk; omega
  have e : |z.toReal - r| = |r * 2 ^ fK mw ew - magN mw (rndIdx mw (r * 2 ^ fK mw ew))| / 2 ^ fK mw ew := by
    rw [toReal_eq_key, hkz, valZ_nat, abs_sub_comm, ← abs_of_pos hp, ← abs_div, abs_of_pos hp]
    congr 1; field_simp
  obtain ⟨h1, h2⟩ := rndIdx_err mw hx
  constructor
  · rw [e, div_le_iff₀ hp]
    refine h1.trans (le_of_eq ?_)
    rw [max_mul_of_nonneg _ _ hp.le]
    congr 1
    · unfold etaRnd; rw [pow_succ]; field_simp
    · ring
  · rintro ⟨n, hn⟩
    have hn0 : 0 ≤ n := by exact_mod_cast (hn ▸ hx)
    have := h2 ⟨n.toNat, by rw [hn]; exact_mod_cast (Int.toNat_of_nonneg hn0).symm⟩
    rw [e, div_le_iff₀ hp]; linarith

/-- The standard model of rounding, without overflow. -/
theorem err_of_key {z : Flt mw ew} {r : ℝ} (hz : z.isFin = true) (hk : z.key = rndK mw ew r) :
    |z.toReal - r| ≤ max (etaRnd mw ew) (uRnd mw * |r|) := by
  rcases le_or_gt 0 r with h | h
  · rw [abs_of_nonneg h]; exact (err_aux hz hk h).1
  · have := (err_aux (z := -z) (r := -r) (by rw [isFin_negop]; exact hz) (by rw [key_negop, hk, rndK_neg])
      (by linarith)).1
    rw [toReal_negop, ← abs_neg] at this
    rw [abs_of_neg h]; convert this using 2; ring

/-- ... and when the exact result is a multiple of the smallest float, there is no underflow term. -/
theorem err_of_key_int {z : Flt mw ew} {r : ℝ} (hz : z.isFin = true) (hk : z.key = rndK mw ew r)
    (hi : ∃ n : ℤ, r * 2 ^ fK mw ew = n) : |z.toReal - r| ≤ uRnd mw * |r| := by
  rcases le_or_gt 0 r with h | h
  · rw [abs_of_nonneg h]; exact (err_aux hz hk h).2 hi
  · have := (err_aux (z := -z) (r := -r) (by rw [isFin_negop]; exact hz) (by rw [key_negop, hk, rndK_neg])
      (by linarith)).2 (by obtain ⟨n, hn⟩ := hi; exact ⟨-n, by push_cast; linarith⟩)
    rw [toReal_negop, ← abs_neg] at this
    rw [abs_of_neg h]; convert this using 2; ring

theorem toReal_int (x : Flt mw ew) : ∃ n : ℤ, x.toReal * 2 ^ fK mw ew = n := by
  rw [toReal_eq_key, div_mul_cancel₀ _ (by positivity)]
  rcases le_or_gt 0 x.key with h | h
  · exact ⟨magN mw x.key.natAbs, by rw [valZ_nonneg_eq h]; push_cast; rfl⟩
  · exact ⟨-magN mw x.key.natAbs, by unfold valZ; rw [if_pos h]; push_cast; rfl⟩

section
variable [Fmt mw ew]

/-- `fl(x + y) = (x + y)(1 + δ)`, `|δ| ≤ u`, whenever it does not overflow. -/
theorem add_err {x y : Flt mw ew} (hx : x.isFin = true) (hy : y.isFin = true) (hz : (x + y).isFin = true) :
    |(x + y).toReal - (x.toReal + y.toReal)| ≤ uRnd mw * |x.toReal + y.toReal| := by
  refine err_of_key_int hz ?_ ?_
  · rw [add_def]; exact (add_fin hx hy).2
  · obtain ⟨a, ha⟩ := toReal_int x
    obtain ⟨b, hb⟩ := toReal_int y
    exact ⟨a + b, by push_cast; rw [add_mul, ha, hb]⟩

theorem sub_err {x y : Flt mw ew} (hx : x.isFin = true) (hy : y.isFin = true) (hz : (x - y).isFin = true) :
    |(x - y).toReal - (x.toReal - y.toReal)| ≤ uRnd mw * |x.toReal - y.toReal| := by
  refine err_of_key_int hz ?_ ?_
  · rw [sub_def]; exact (sub_fin hx hy).2
  · obtain ⟨a, ha⟩ := toReal_int x
    obtain ⟨b, hb⟩ := toReal_int y
    exact ⟨a - b, by push_cast; rw [sub_mul, ha, hb]⟩
end

theorem mul_err {x y : Flt mw ew} (hx : x.isFin = true) (hy : y.isFin = true) (hz : (x * y).isFin = true) :
    |(x * y).toReal - x.toReal * y.toReal| ≤ max (etaRnd mw ew) (uRnd mw * |x.toReal * y.toReal|) :=
  err_of_key hz (by rw [mul_def]; exact (mul_fin hx hy).2)

theorem div_err {x y : Flt mw ew} (hx : x.isFin = true) (hy : y.isFin = true) (h0 : y.toReal ≠ 0)
    (hz : (x / y).isFin = true) :
    |(x / y).toReal - x.toReal / y.toReal| ≤ max (etaRnd mw ew) (uRnd mw * |x.toReal / y.toReal|) :=
  err_of_key hz (by rw [div_def]; exact (div_fin hx hy (fun h => h0 (toReal_eq_zero_iff.2 h))).2)

section
variable [Fmt mw ew]

theorem notFin_nan : (nan mw ew).isFin = false := by
  have h := isNaN_nan (mw := mw) (ew := ew)
  rw [isNaN_iff] at h
  rw [Bool.eq_false_iff, ne_eq, isFin_iff]; omega

theorem notFin_inf (s : Bool) : (inf mw ew s).isFin = false := by
  have h := isInf_inf (mw := mw) (ew := ew) s
  rw [isInf_iff] at h
  rw [Bool.eq_false_iff, ne_eq, isFin_iff]; omega

theorem isFin_iff_not {x : Flt mw ew} : x.isFin = true ↔ x.isNaN = false ∧ x.isInf = false := by
  constructor
  · exact fun h => ⟨notNaN_of_isFin h, notInf_of_isFin h⟩
  · rintro ⟨h1, h2⟩
    rcases isFin_or_isInf h1 with h | h
    · exact h
    · rw [h] at h2; cases h2

/-- A finite sum has finite terms. -/
theorem isFin_of_add {x y : Flt mw ew} (h : (x + y).isFin = true) : x.isFin = true ∧ y.isFin = true := by
  rw [add_def] at h
  unfold add at h
  rw [isFin_iff_not, isFin_iff_not]
  cases hx : x.isNaN <;> cases hy : y.isNaN <;> cases hxi : x.isInf <;> cases hyi : y.isInf <;>
    simp only [hx, hy, hxi, hyi, Bool.or_true, Bool.or_false, Bool.true_or, Bool.true_and, Bool.false_and,
      Bool.false_eq_true, if_true, if_false, notFin_nan, and_self, and_true, and_false,
      true_and, false_and, Bool.true_eq_false] at h ⊢
  · rw [notInf_of_isFin h] at hyi; cases hyi
  · rw [notInf_of_isFin h] at hxi; cases hxi
  · split at h
    · rw [notFin_nan] at h; cases h
    · rw [notInf_of_isFin h] at hxi; cases hxi

theorem isFin_of_sub {x y : Flt mw ew} (h : (x - y).isFin = true) : x.isFin = true ∧ y.isFin = true := by
  rw [sub_eq_add_neg] at h
  have := isFin_of_add h
  rwa [isFin_negop] at this

/-- A finite product has finite factors. -/
theorem isFin_of_mul {x y : Flt mw ew} (h : (x * y).isFin = true) : x.isFin = true ∧ y.isFin = true := by
  rw [mul_def] at h
  unfold mul at h
  rw [isFin_iff_not, isFin_iff_not]
  cases hx : x.isNaN <;> cases hy : y.isNaN <;> cases hxi : x.isInf <;> cases hyi : y.isInf <;>
    simp only [hx, hy, hxi, hyi, Bool.or_true, Bool.or_false, Bool.true_or,
      Bool.false_eq_true, if_true, if_false, notFin_nan, and_self, and_true, and_false,
      true_and, false_and, Bool.true_eq_false] at h ⊢
  all_goals
    split at h
    · rw [notFin_nan] at h; cases h
    · rw [notFin_inf] at h; cases h

/-- A finite quotient has a finite, and a non-NaN nonzero, operand. -/
theorem isFin_of_div {x y : Flt mw ew} (h : (x / y).isFin = true) :
    x.isFin = true ∧ y.isNaN = false ∧ y.key ≠ 0 := by
  rw [div_def] at h
  unfold div at h
  rw [isFin_iff_not]
  cases hx : x.isNaN <;> cases hy : y.isNaN <;> cases hxi : x.isInf <;> cases hyi : y.isInf <;>
    simp only [hx, hy, hxi, hyi, Bool.or_true, Bool.or_false, Bool.true_or,
      Bool.false_eq_true, if_true, if_false, notFin_nan, notFin_inf, and_true, and_false,
      true_and, false_and, Bool.true_eq_false] at h ⊢
  · intro h0
    rw [isZero_iff_key.2 h0] at h
    simp only [if_true] at h
    split at h
    · rw [notFin_nan] at h; cases h
    · rw [notFin_inf] at h; cases h
  · rw [isInf_iff_key] at hyi
    have := kInf_pos (mw := mw) (ew := ew)
    omega
end

end Flt
end Scarlet
