import Verif.Props.QuadFloat
import Mathlib.Analysis.SpecialFunctions.Log.Basic

/-! C160: repeated square roots settle at 1 — floats and intervals. -/

set_option linter.unusedSectionVars false

namespace Scarlet
open Flt

/-! ### the iteration on magnitude bits -/

/-- the magnitude bits of the square root of the float with magnitude bits `k` -/
noncomputable def sqIdx (mw ew k : Nat) : Nat := rndIdx mw (Real.sqrt ((magN mw k : ℝ) * 2 ^ fK mw ew))

/-- the magnitude bits of 1 -/
def oneIdx (mw ew : Nat) : Nat := bias ew * 2 ^ mw

section idx
variable {mw ew : Nat}

/-- value of magnitude bits -/
noncomputable def magV (mw ew k : Nat) : ℝ := (magN mw k : ℝ) / 2 ^ fK mw ew

theorem magV_mono {i j : Nat} (h : i ≤ j) : magV mw ew i ≤ magV mw ew j := by
  unfold magV
  have : (magN mw i : ℝ) ≤ magN mw j := by exact_mod_cast (magN_strictMono mw).monotone h
  gcongr

theorem magV_lt {i j : Nat} : magV mw ew i < magV mw ew j ↔ i < j := by
  unfold magV
  rw [div_lt_div_iff_of_pos_right (by positivity)]
  exact_mod_cast (magN_strictMono mw).lt_iff_lt

theorem magV_pos {i : Nat} (h : 0 < i) : 0 < magV mw ew i := by
  unfold magV
  have : (0 : ℝ) < magN mw i := by exact_mod_cast magN_pos h
  positivity

variable (hm : 10 ≤ mw) (hw : mw + 3 ≤ 2 ^ (ew - 1))
include hm hw

theorem magV_up {d : Nat} (hd : d ≤ 8) : magV mw ew (oneIdx mw ew + d) = 1 + 2 * d * uRnd mw := by
  have hP : 8 ≤ 2 ^ mw := (by norm_num : 8 = 2 ^ 3) ▸ Nat.pow_le_pow_right (by norm_num) (by omega)
  obtain ⟨e, he⟩ : ∃ e, bias ew = e + 1 := ⟨bias ew - 1, by unfold bias; omega⟩
  have hK : fK mw ew = mw + e := by
    have : fK mw ew = mw + bias ew - 1 := rfl
    omega
  unfold magV oneIdx uRnd
  rw [he, magN_block mw e d (by omega), hK]
  push_cast
  rw [pow_add, pow_succ]
  have : (0 : ℝ) < 2 ^ mw := by positivity
  have : (0 : ℝ) < 2 ^ e := by positivity
  field_simp

theorem magV_down {j : Nat} (hj : j ≤ 8) : magV mw ew (oneIdx mw ew - j) = 1 - j * uRnd mw := by
  have hP : 8 ≤ 2 ^ mw := (by norm_num : 8 = 2 ^ 3) ▸ Nat.pow_le_pow_right (by norm_num) (by omega)
  obtain ⟨e, he⟩ : ∃ e, bias ew = e + 1 + 1 := ⟨bias ew - 2, by unfold bias; omega⟩
  have hK : fK mw ew = mw + e + 1 := by
    have : fK mw ew = mw + bias ew - 1 := rfl
    omega
  have e1 : oneIdx mw ew - j = (e + 1) * 2 ^ mw + (2 ^ mw - j) := by
    unfold oneIdx; rw [he, Nat.add_mul (e + 1)]; omega
  unfold magV uRnd
  rw [e1, magN_block mw e _ (by omega), hK]
  push_cast [Nat.cast_sub (show j ≤ 2 ^ mw by omega)]
  rw [pow_succ, pow_add, pow_succ]
  have : (0 : ℝ) < 2 ^ mw := by positivity
  have : (0 : ℝ) < 2 ^ e := by positivity
  field_simp
  ring

theorem oneIdx_big : 8 < oneIdx mw ew := by
  have hP : 8 ≤ 2 ^ mw := (by norm_num : 8 = 2 ^ 3) ▸ Nat.pow_le_pow_right (by norm_num) (by omega)
  have : 2 ≤ bias ew := by unfold bias; omega
  unfold oneIdx
  nlinarith

omit hm hw in
/-- the exact square root in units of `magV` -/
theorem sq_arg (k : Nat) : Real.sqrt ((magN mw k : ℝ) * 2 ^ fK mw ew) = Real.sqrt (magV mw ew k) * 2 ^ fK mw ew := by
  have hp : (0 : ℝ) < 2 ^ fK mw ew := by positivity
  have : (magN mw k : ℝ) * 2 ^ fK mw ew = magV mw ew k * (2 ^ fK mw ew) ^ 2 := by
    unfold magV; field_simp
  rw [this, Real.sqrt_mul (by unfold magV; positivity), Real.sqrt_sq hp.le]

omit hm hw in
theorem sqIdx_mono {i j : Nat} (h : i ≤ j) : sqIdx mw ew i ≤ sqIdx mw ew j := by
  unfold sqIdx
  refine rndIdx_mono mw (Real.sqrt_nonneg _) (Real.sqrt_le_sqrt ?_)
  have : (magN mw i : ℝ) ≤ magN mw j := by exact_mod_cast (magN_strictMono mw).monotone h
  gcongr

omit hm hw in
theorem sqIdx_le_of {k i : Nat} (h : 2 * Real.sqrt (magV mw ew k) < magV mw ew i + magV mw ew (i + 1)) : sqIdx mw ew k ≤ i := by
  by_contra hc
  have hp : (0 : ℝ) < 2 ^ fK mw ew := by positivity
  have h0 := Real.sqrt_nonneg ((magN mw k : ℝ) * 2 ^ fK mw ew)
  have n := (rndIdx_nearest mw h0 i).1
  have hlt : 2 * Real.sqrt ((magN mw k : ℝ) * 2 ^ fK mw ew) < (magN mw i : ℝ) + magN mw (i + 1) := by
    rw [sq_arg]
    unfold magV at h ⊢
    rw [← add_div, lt_div_iff₀ hp] at h
    linarith
  have l := lt_rndIdx mw h0 (show i < rndIdx mw _ from not_le.1 hc)
  have m : (magN mw (i + 1) : ℝ) ≤ magN mw (rndIdx mw (Real.sqrt ((magN mw k : ℝ) * 2 ^ fK mw ew))) := by
    exact_mod_cast (magN_strictMono mw).monotone (show i + 1 ≤ rndIdx mw _ from not_le.1 hc)
  rw [abs_of_pos (by linarith : 0 < Real.sqrt ((magN mw k : ℝ) * 2 ^ fK mw ew) - magN mw i)] at n
  have := neg_abs_le (Real.sqrt ((magN mw k : ℝ) * 2 ^ fK mw ew) - magN mw (rndIdx mw (Real.sqrt ((magN mw k : ℝ) * 2 ^ fK mw ew))))
  linarith

omit hm hw in
theorem le_sqIdx_of {k i : Nat} (h : magV mw ew i + magV mw ew (i + 1) < 2 * Real.sqrt (magV mw ew k)) : i + 1 ≤ sqIdx mw ew k := by
  by_contra hc
  have hp : (0 : ℝ) < 2 ^ fK mw ew := by positivity
  have h0 := Real.sqrt_nonneg ((magN mw k : ℝ) * 2 ^ fK mw ew)
  have n := (rndIdx_nearest mw h0 (i + 1)).1
  have hlt : (magN mw i : ℝ) + magN mw (i + 1) < 2 * Real.sqrt ((magN mw k : ℝ) * 2 ^ fK mw ew) := by
    rw [sq_arg]
    unfold magV at h ⊢
    rw [← add_div, div_lt_iff₀ hp] at h
    linarith
  have hc' : rndIdx mw (Real.sqrt ((magN mw k : ℝ) * 2 ^ fK mw ew)) ≤ i := Nat.lt_succ_iff.1 (not_le.1 hc)
  have l := rndIdx_lt_succ mw h0
  have m : (magN mw (rndIdx mw (Real.sqrt ((magN mw k : ℝ) * 2 ^ fK mw ew)) + 1) : ℝ) ≤ magN mw (i + 1) := by
    exact_mod_cast (magN_strictMono mw).monotone (Nat.succ_le_succ hc')
  have m2 : (magN mw (rndIdx mw (Real.sqrt ((magN mw k : ℝ) * 2 ^ fK mw ew))) : ℝ) ≤ magN mw i := by
    exact_mod_cast (magN_strictMono mw).monotone hc'
  rw [abs_of_nonpos (by linarith : Real.sqrt ((magN mw k : ℝ) * 2 ^ fK mw ew) - magN mw (i + 1) ≤ 0)] at n
  have := le_abs_self (Real.sqrt ((magN mw k : ℝ) * 2 ^ fK mw ew) - magN mw (rndIdx mw (Real.sqrt ((magN mw k : ℝ) * 2 ^ fK mw ew))))
  linarith

omit hw in
theorem u_small : uRnd mw ≤ 1 / 2048 := by
  unfold uRnd
  rw [show (2048 : ℝ) = 2 ^ 11 by norm_num]
  exact one_div_le_one_div_of_le (by positivity) (pow_le_pow_right₀ (by norm_num) (by omega))

/-- the square roots next to 1 -/
theorem sq_near : sqIdx mw ew (oneIdx mw ew) = oneIdx mw ew ∧ sqIdx mw ew (oneIdx mw ew + 1) = oneIdx mw ew ∧
    sqIdx mw ew (oneIdx mw ew + 2) = oneIdx mw ew + 1 ∧ sqIdx mw ew (oneIdx mw ew + 3) ≤ oneIdx mw ew + 1 ∧
    sqIdx mw ew (oneIdx mw ew - 1) = oneIdx mw ew - 1 ∧ sqIdx mw ew (oneIdx mw ew - 2) = oneIdx mw ew - 1 ∧
    sqIdx mw ew (oneIdx mw ew - 3) = oneIdx mw ew - 2 ∧ oneIdx mw ew - 2 ≤ sqIdx mw ew (oneIdx mw ew - 4) ∧
    oneIdx mw ew - 3 ≤ sqIdx mw ew (oneIdx mw ew - 6) := by
  have hu := uRnd_pos (mw := mw)
  have hs := u_small hm
  have hb := oneIdx_big hm hw
  have up : ∀ d ≤ 8, magV mw ew (oneIdx mw ew + d) = 1 + 2 * d * uRnd mw := fun d h => magV_up hm hw h
  have dn : ∀ j ≤ 8, magV mw ew (oneIdx mw ew - j) = 1 - j * uRnd mw := fun d h => magV_down hm hw h
  have one := up 0 (by norm_num)
  have a : sqIdx mw ew (oneIdx mw ew) = oneIdx mw ew := by
    have : magV mw ew (oneIdx mw ew) = 1 := by simpa using one
    unfold sqIdx
    rw [sq_arg, this, Real.sqrt_one, one_mul]
    have : ((2 : ℝ) ^ fK mw ew) = magN mw (oneIdx mw ew) := by
      unfold magV at this
      rw [div_eq_one_iff_eq (by positivity)] at this
      exact this.symm
    rw [this, rndIdx_magN]
  -- upper bounds
  have U : ∀ d i : Nat, d ≤ 6 → i ≤ 6 → (1 + 2 * d * uRnd mw) < (1 + (2 * i + 1) * uRnd mw) ^ 2 → sqIdx mw ew (oneIdx mw ew + d) ≤ oneIdx mw ew + i := by
    intro d i h1 h2 h3
    apply sqIdx_le_of
    rw [up d (by omega), up i (by omega), Nat.add_assoc, up (i + 1) (by omega)]
    have : Real.sqrt (1 + 2 * d * uRnd mw) < 1 + (2 * i + 1) * uRnd mw := by
      rw [Real.sqrt_lt' (by positivity)]; exact h3
    push_cast; linarith
  have U' : ∀ d i : Nat, d ≤ 6 → i ≤ 6 → 1 ≤ i → (1 - d * uRnd mw) < (1 - (i - 1 / 2) * uRnd mw) ^ 2 → sqIdx mw ew (oneIdx mw ew - d) ≤ oneIdx mw ew - i := by
    intro d i h1 h2 h4 h3
    apply sqIdx_le_of
    rw [dn d (by omega), dn i (by omega), show oneIdx mw ew - i + 1 = oneIdx mw ew - (i - 1) by omega, dn (i - 1) (by omega)]
    have hi : (i : ℝ) ≤ 6 := by exact_mod_cast h2
    have hi1 : (1 : ℝ) ≤ i := by exact_mod_cast h4
    have : Real.sqrt (1 - d * uRnd mw) < 1 - (i - 1 / 2) * uRnd mw := by
      rw [Real.sqrt_lt' (by nlinarith)]; exact h3
    push_cast [Nat.cast_sub h4]; linarith
  -- lower bounds
  have L : ∀ d i : Nat, d ≤ 6 → i ≤ 6 → (1 - (i + 1 / 2) * uRnd mw) ^ 2 < 1 - d * uRnd mw → oneIdx mw ew - i ≤ sqIdx mw ew (oneIdx mw ew - d) := by
    intro d i h1 h2 h3
    have := le_sqIdx_of (mw := mw) (ew := ew) (k := oneIdx mw ew - d) (i := oneIdx mw ew - (i + 1)) (by
      rw [dn d (by omega), dn (i + 1) (by omega), show oneIdx mw ew - (i + 1) + 1 = oneIdx mw ew - i by omega, dn i (by omega)]
      have : 1 - (i + 1 / 2) * uRnd mw < Real.sqrt (1 - d * uRnd mw) := Real.lt_sqrt_of_sq_lt h3
      push_cast; linarith)
    omega
  have b : sqIdx mw ew (oneIdx mw ew + 1) ≤ oneIdx mw ew := U 1 0 (by norm_num) (by norm_num) (by push_cast; nlinarith)
  have b' : oneIdx mw ew ≤ sqIdx mw ew (oneIdx mw ew + 1) := a.ge.trans (sqIdx_mono (by omega))
  have c : sqIdx mw ew (oneIdx mw ew + 3) ≤ oneIdx mw ew + 1 := U 3 1 (by norm_num) (by norm_num) (by push_cast; nlinarith)
  have c2 : oneIdx mw ew + 1 ≤ sqIdx mw ew (oneIdx mw ew + 2) := by
    apply le_sqIdx_of
    rw [up 2 (by norm_num), up 1 (by norm_num)]
    have : 1 + uRnd mw < Real.sqrt (1 + 2 * (2 : ℕ) * uRnd mw) := Real.lt_sqrt_of_sq_lt (by push_cast; nlinarith)
    have e : magV mw ew (oneIdx mw ew) = 1 := by simpa using one
    rw [e]; push_cast at this ⊢; linarith
  have c3 : sqIdx mw ew (oneIdx mw ew + 2) ≤ oneIdx mw ew + 1 := (sqIdx_mono (by omega)).trans c
  have d1 : sqIdx mw ew (oneIdx mw ew - 1) ≤ oneIdx mw ew - 1 := U' 1 1 (by norm_num) (by norm_num) le_rfl (by push_cast; nlinarith)
  have d2 : oneIdx mw ew - 1 ≤ sqIdx mw ew (oneIdx mw ew - 2) := L 2 1 (by norm_num) (by norm_num) (by push_cast; nlinarith)
  have d3 : sqIdx mw ew (oneIdx mw ew - 3) ≤ oneIdx mw ew - 2 := U' 3 2 (by norm_num) (by norm_num) (by norm_num) (by push_cast; nlinarith)
  have d4 : oneIdx mw ew - 2 ≤ sqIdx mw ew (oneIdx mw ew - 4) := L 4 2 (by norm_num) (by norm_num) (by push_cast; nlinarith)
  have d5 : oneIdx mw ew - 3 ≤ sqIdx mw ew (oneIdx mw ew - 6) := L 6 3 (by norm_num) (by norm_num) (by push_cast; nlinarith)
  have m1 : sqIdx mw ew (oneIdx mw ew - 2) ≤ sqIdx mw ew (oneIdx mw ew - 1) := sqIdx_mono (by omega)
  have m2 : sqIdx mw ew (oneIdx mw ew - 4) ≤ sqIdx mw ew (oneIdx mw ew - 3) := sqIdx_mono (by omega)
  exact ⟨a, by omega, by omega, c, by omega, by omega, by omega, d4, d5⟩

/-- one step changes the value by a square root and a few roundings -/
theorem sq_err {k : Nat} (hk : 0 < k) : 2 ^ mw ≤ sqIdx mw ew k ∧
    (1 - uRnd mw) * Real.sqrt (magV mw ew k) ≤ magV mw ew (sqIdx mw ew k) ∧
    magV mw ew (sqIdx mw ew k) ≤ (1 + uRnd mw) * Real.sqrt (magV mw ew k) := by
  have hp : (0 : ℝ) < 2 ^ fK mw ew := by positivity
  have h0 := Real.sqrt_nonneg ((magN mw k : ℝ) * 2 ^ fK mw ew)
  have hbig : (2 : ℝ) ^ mw ≤ Real.sqrt ((magN mw k : ℝ) * 2 ^ fK mw ew) := by
    apply Real.le_sqrt_of_sq_le
    have h1 : (1 : ℝ) ≤ magN mw k := by exact_mod_cast magN_pos hk
    have h2 : ((2 : ℝ) ^ mw) ^ 2 ≤ 2 ^ fK mw ew := by
      rw [← pow_mul]
      refine pow_le_pow_right₀ (by norm_num) ?_
      have : fK mw ew = mw + (2 ^ (ew - 1) - 1) - 1 := rfl
      omega
    nlinarith
  refine ⟨?_, ?_⟩
  · have := rndIdx_mono mw (by positivity) (show ((magN mw (2 ^ mw) : ℕ) : ℝ) ≤ Real.sqrt ((magN mw k : ℝ) * 2 ^ fK mw ew) by
      have e := magN_block mw 0 0 (Nat.zero_le _)
      rw [show (0 + 1) * 2 ^ mw + 0 = 2 ^ mw by omega] at e
      rw [e]; push_cast; simpa using hbig)
    rwa [rndIdx_magN] at this
  · have e := (rndIdx_err mw h0).1
    rw [max_eq_right (by
      unfold uRnd; rw [pow_succ]
      rw [one_div_mul_eq_div, div_le_div_iff₀ (by norm_num) (by positivity)]
      linarith)] at e
    change |_ - (magN mw (sqIdx mw ew k) : ℝ)| ≤ _ at e
    rw [sq_arg] at e
    have e2 : (magN mw (sqIdx mw ew k) : ℝ) = magV mw ew (sqIdx mw ew k) * 2 ^ fK mw ew := by unfold magV; field_simp
    rw [e2] at e
    obtain ⟨e3, e4⟩ := _root_.abs_le.1 e
    constructor
    · refine le_of_mul_le_mul_right ?_ hp; linarith
    · refine le_of_mul_le_mul_right ?_ hp; linarith

omit hm hw in
theorem step_up {i : Nat} (h : 2 ^ mw ≤ i) : magV mw ew (i + 1) ≤ (1 + 2 * uRnd mw) * magV mw ew i ∧
    (1 - 2 * uRnd mw) * magV mw ew i ≤ magV mw ew (i - 1) := by
  have hP : (0 : ℝ) < 2 ^ mw := by positivity
  have big : (2 : ℝ) ^ mw ≤ magN mw i := by
    have e := magN_block mw 0 0 (Nat.zero_le _)
    rw [show (0 + 1) * 2 ^ mw + 0 = 2 ^ mw by omega] at e
    have : magN mw (2 ^ mw) ≤ magN mw i := (magN_strictMono mw).monotone h
    rw [e] at this
    simpa using (by exact_mod_cast this : ((2 ^ mw + 0) * 2 ^ 0 : ℝ) ≤ magN mw i)
  have hu : 2 * uRnd mw = 1 / 2 ^ mw := by unfold uRnd; rw [pow_succ]; field_simp
  have key : ∀ g m : ℝ, 2 ^ mw * g ≤ m → g ≤ 2 * uRnd mw * m := by
    intro g m h; rw [hu, one_div_mul_eq_div, le_div_iff₀ hP]; linarith
  unfold magV
  constructor
  · rw [← mul_div_assoc]
    refine div_le_div_of_nonneg_right ?_ (by positivity)
    rcases magN_gap mw i with g | g
    · have g' : (magN mw (i + 1) : ℝ) = magN mw i + 1 := by exact_mod_cast g
      have := key 1 (magN mw i) (by linarith)
      rw [g']; linarith
    · have := key _ _ g; linarith
  · rw [← mul_div_assoc]
    refine div_le_div_of_nonneg_right ?_ (by positivity)
    have hi : 1 ≤ i := le_trans Nat.one_le_two_pow h
    have hle : (magN mw (i - 1) : ℝ) ≤ magN mw i := by exact_mod_cast (magN_strictMono mw).monotone (by omega)
    have g := magN_gap mw (i - 1)
    rw [Nat.sub_add_cancel hi] at g
    rcases g with g | g
    · have g' : (magN mw i : ℝ) = magN mw (i - 1) + 1 := by exact_mod_cast g
      have := key 1 (magN mw i) (by linarith)
      linarith
    · have := key _ (magN mw i : ℝ) (g.trans hle); linarith

end idx

/-! ### the two one-sided iterations on reals -/

theorem log_up (a : ℕ → ℝ) (c : ℝ) (h0 : ∀ n, 0 < a n) (hc : 0 ≤ c) (h : ∀ n, a (n + 1) ≤ (1 + c) * Real.sqrt (a n)) (n : ℕ) :
    Real.log (a n) ≤ |Real.log (a 0)| / 2 ^ n + 2 * c := by
  induction n with
  | zero => have := le_abs_self (Real.log (a 0)); simp only [pow_zero, div_one]; linarith
  | succ n ih =>
    have s := Real.sqrt_pos.2 (h0 n)
    have := Real.log_le_log (h0 (n + 1)) (h n)
    rw [Real.log_mul (by positivity) s.ne', Real.log_sqrt (h0 n).le] at this
    have l := Real.log_le_sub_one_of_pos (show 0 < 1 + c by linarith)
    rw [pow_succ, ← div_div]
    linarith

theorem log_down (a : ℕ → ℝ) (c : ℝ) (h0 : ∀ n, 0 < a n) (hc : 0 ≤ c) (hc1 : c < 1)
    (h : ∀ n, (1 - c) * Real.sqrt (a n) ≤ a (n + 1)) (n : ℕ) :
    -(|Real.log (a 0)| / 2 ^ n + 2 * (c / (1 - c))) ≤ Real.log (a n) := by
  have hk : 0 ≤ c / (1 - c) := div_nonneg hc (by linarith)
  induction n with
  | zero => have := neg_abs_le (Real.log (a 0)); simp only [pow_zero, div_one]; linarith
  | succ n ih =>
    have s := Real.sqrt_pos.2 (h0 n)
    have p : 0 < 1 - c := by linarith
    have := Real.log_le_log (by positivity) (h n)
    rw [Real.log_mul p.ne' s.ne', Real.log_sqrt (h0 n).le] at this
    have l := Real.one_sub_inv_le_log_of_pos p
    have e : 1 - (1 - c)⁻¹ = -(c / (1 - c)) := by field_simp; ring
    rw [pow_succ, ← div_div]
    linarith

/-! ### the windows the iteration ends in -/

section seq
variable {mw ew : Nat} (hm : 10 ≤ mw) (hw : mw + 3 ≤ 2 ^ (ew - 1))
include hm hw

/-- magnitude bits of finite positive floats: the logarithm is bounded -/
theorem log_magV {k : Nat} (hk : 0 < k) (hi : k ≤ infIdx mw ew) : |Real.log (magV mw ew k)| ≤ 2 ^ ew := by
  have hew : 1 ≤ ew := by
    by_contra h
    have : ew = 0 := by omega
    subst this; simp at hw
  have hpow : 2 ^ ew = 2 * 2 ^ (ew - 1) := by rw [← pow_succ']; congr 1; omega
  have hK : fK mw ew = mw + (2 ^ (ew - 1) - 1) - 1 := rfl
  have h1 : (1 : ℝ) ≤ magN mw k := by exact_mod_cast magN_pos hk
  have hinf : magN mw (infIdx mw ew) = 2 ^ mw * 2 ^ (2 ^ ew - 2) := by
    unfold infIdx
    have e := magN_block mw (2 ^ ew - 2) 0 (Nat.zero_le _)
    rw [show (2 ^ ew - 2 + 1) * 2 ^ mw + 0 = (2 ^ ew - 1) * 2 ^ mw by rw [Nat.add_zero]; congr 1; omega] at e
    rw [e, Nat.add_zero]
  have h2 : (magN mw k : ℝ) ≤ 2 ^ (mw + (2 ^ ew - 2)) := by
    have : magN mw k ≤ magN mw (infIdx mw ew) := (magN_strictMono mw).monotone hi
    rw [hinf, ← pow_add] at this
    exact_mod_cast this
  have hl2 : Real.log 2 ≤ 1 := by have := Real.log_le_sub_one_of_pos (show (0 : ℝ) < 2 by norm_num); linarith
  have hl0 : 0 ≤ Real.log 2 := Real.log_nonneg (by norm_num)
  have e : Real.log (magV mw ew k) = Real.log (magN mw k) - fK mw ew * Real.log 2 := by
    unfold magV
    rw [Real.log_div (by linarith) (by positivity), Real.log_pow]
  have a1 := Real.log_nonneg h1
  have a2 := Real.log_le_log (by linarith) h2
  rw [Real.log_pow] at a2
  have cast : ((2 ^ ew : ℕ) : ℝ) = 2 ^ ew := by push_cast; rfl
  rw [e, ← cast, _root_.abs_le]
  constructor
  · have : ((fK mw ew : ℕ) : ℝ) ≤ ((2 ^ ew : ℕ) : ℝ) := by exact_mod_cast (by omega)
    have : (fK mw ew : ℝ) * Real.log 2 ≤ fK mw ew * 1 := mul_le_mul_of_nonneg_left hl2 (by positivity)
    linarith
  · have h3 : (((mw + (2 ^ ew - 2) : ℕ) : ℝ)) ≤ ((fK mw ew + 2 ^ ew : ℕ) : ℝ) := by exact_mod_cast (by omega)
    have h4 := mul_le_mul_of_nonneg_right h3 hl0
    have h5 : ((2 ^ ew : ℕ) : ℝ) * Real.log 2 ≤ (2 ^ ew : ℕ) * 1 := mul_le_mul_of_nonneg_left hl2 (by positivity)
    push_cast [Nat.cast_add] at *
    linarith

/-- after `mw + ew + 6` steps only the rounding errors are left -/
theorem small_rest {k n : Nat} (hk : 0 < k) (hi : k ≤ infIdx mw ew) (hn : mw + ew + 6 ≤ n) :
    |Real.log (magV mw ew k)| / 2 ^ n ≤ uRnd mw / 32 := by
  have := log_magV hm hw hk hi
  rw [div_le_iff₀ (by positivity)]
  refine this.trans ?_
  unfold uRnd
  rw [show (1 : ℝ) / 2 ^ (mw + 1) / 32 * 2 ^ n = 2 ^ n / 2 ^ (mw + 6) by rw [show mw + 6 = mw + 1 + 5 by omega, pow_add _ (mw + 1) 5]; norm_num; field_simp,
    le_div_iff₀ (by positivity), ← pow_add]
  exact pow_le_pow_right₀ (by norm_num) (by omega)

variable {k : ℕ → ℕ} (hk0 : 0 < k 0) (hki : k 0 ≤ infIdx mw ew)
include hk0 hki

/-- never more than rounded up once: at most one float above 1 -/
theorem window_up0 (h : ∀ n, 0 < k n ∧ k (n + 1) ≤ sqIdx mw ew (k n)) {n : Nat} (hn : mw + ew + 6 ≤ n) : k n ≤ oneIdx mw ew + 1 := by
  have hu := uRnd_pos (mw := mw)
  have hs := u_small hm
  have l := log_up (fun n => magV mw ew (k n)) (uRnd mw) (fun n => magV_pos (h n).1) hu.le
    (fun n => (magV_mono (h n).2).trans (sq_err hm hw (h n).1).2.2) n
  have r := small_rest hm hw hk0 hki hn
  by_contra hc
  have := magV_mono (mw := mw) (ew := ew) (show oneIdx mw ew + 2 ≤ k n by omega)
  rw [magV_up hm hw (by norm_num)] at this
  have p : 0 < 1 + 2 * ((2 : ℕ) : ℝ) * uRnd mw := by positivity
  have g := Real.log_le_log p this
  have g2 := Real.one_sub_inv_le_log_of_pos p
  have e : 1 - (1 + 2 * ((2 : ℕ) : ℝ) * uRnd mw)⁻¹ = 4 * uRnd mw / (1 + 4 * uRnd mw) := by push_cast; field_simp; ring
  have g3 : 3 * uRnd mw ≤ 4 * uRnd mw / (1 + 4 * uRnd mw) := by rw [le_div_iff₀ (by positivity)]; nlinarith
  rw [e] at g2
  have := g2.trans (g.trans l)
  linarith

theorem window_up1 (h : ∀ n, 0 < k n ∧ k (n + 1) ≤ sqIdx mw ew (k n) + 1) {n : Nat} (hn : mw + ew + 6 ≤ n) : k n ≤ oneIdx mw ew + 3 := by
  have hu := uRnd_pos (mw := mw)
  have hs := u_small hm
  have l := log_up (fun n => magV mw ew (k n)) (3 * uRnd mw + 2 * uRnd mw ^ 2) (fun n => magV_pos (h n).1) (by positivity)
    (fun n => by
      have a := sq_err hm hw (h n).1
      have b := (step_up (ew := ew) a.1).1
      have c := (magV_mono (mw := mw) (ew := ew) (h n).2).trans b
      have d := mul_le_mul_of_nonneg_left a.2.2 (show 0 ≤ 1 + 2 * uRnd mw by positivity)
      linarith) n
  have r := small_rest hm hw hk0 hki hn
  by_contra hc
  have := magV_mono (mw := mw) (ew := ew) (show oneIdx mw ew + 4 ≤ k n by omega)
  rw [magV_up hm hw (by norm_num)] at this
  have p : 0 < 1 + 2 * ((4 : ℕ) : ℝ) * uRnd mw := by positivity
  have g := Real.log_le_log p this
  have g2 := Real.one_sub_inv_le_log_of_pos p
  have e : 1 - (1 + 2 * ((4 : ℕ) : ℝ) * uRnd mw)⁻¹ = 8 * uRnd mw / (1 + 8 * uRnd mw) := by push_cast; field_simp; ring
  have g3 : 7 * uRnd mw ≤ 8 * uRnd mw / (1 + 8 * uRnd mw) := by rw [le_div_iff₀ (by positivity)]; nlinarith
  have g4 : 4 * uRnd mw ^ 2 ≤ uRnd mw / 4 := by nlinarith
  rw [e] at g2
  have := g2.trans (g.trans l)
  linarith

theorem window_down0 (h : ∀ n, 0 < k n ∧ sqIdx mw ew (k n) ≤ k (n + 1)) {n : Nat} (hn : mw + ew + 6 ≤ n) : oneIdx mw ew - 2 ≤ k n := by
  have hu := uRnd_pos (mw := mw)
  have hs := u_small hm
  have hb := oneIdx_big hm hw
  have l := log_down (fun n => magV mw ew (k n)) (uRnd mw) (fun n => magV_pos (h n).1) hu.le (by linarith)
    (fun n => (sq_err hm hw (h n).1).2.1.trans (magV_mono (h n).2)) n
  have r := small_rest hm hw hk0 hki hn
  by_contra hc
  have := magV_mono (mw := mw) (ew := ew) (show k n ≤ oneIdx mw ew - 3 by omega)
  rw [magV_down hm hw (by norm_num)] at this
  have g := Real.log_le_log (magV_pos (h n).1) this
  have g2 := Real.log_le_sub_one_of_pos (show 0 < 1 - ((3 : ℕ) : ℝ) * uRnd mw by push_cast; linarith)
  have g3 : uRnd mw / (1 - uRnd mw) ≤ 5 / 4 * uRnd mw := by rw [div_le_iff₀ (by linarith)]; nlinarith
  push_cast at g g2
  linarith

theorem window_down1 (h : ∀ n, 0 < k n ∧ sqIdx mw ew (k n) ≤ k (n + 1) + 1) {n : Nat} (hn : mw + ew + 6 ≤ n) : oneIdx mw ew - 6 ≤ k n := by
  have hu := uRnd_pos (mw := mw)
  have hs := u_small hm
  have hb := oneIdx_big hm hw
  have l := log_down (fun n => magV mw ew (k n)) (3 * uRnd mw) (fun n => magV_pos (h n).1) (by positivity) (by linarith)
    (fun n => by
      have a := sq_err hm hw (h n).1
      have b := (step_up (ew := ew) a.1).2
      have c := b.trans (magV_mono (mw := mw) (ew := ew) (show sqIdx mw ew (k n) - 1 ≤ k (n + 1) by have := (h n).2; omega))
      have d := mul_le_mul_of_nonneg_left a.2.1 (show 0 ≤ 1 - 2 * uRnd mw by linarith)
      have q := mul_nonneg (sq_nonneg (uRnd mw)) (Real.sqrt_nonneg (magV mw ew (k n)))
      nlinarith) n
  have r := small_rest hm hw hk0 hki hn
  by_contra hc
  have := magV_mono (mw := mw) (ew := ew) (show k n ≤ oneIdx mw ew - 7 by omega)
  rw [magV_down hm hw (by norm_num)] at this
  have g := Real.log_le_log (magV_pos (h n).1) this
  have g2 := Real.log_le_sub_one_of_pos (show 0 < 1 - ((7 : ℕ) : ℝ) * uRnd mw by push_cast; linarith)
  have g3 : 3 * uRnd mw / (1 - 3 * uRnd mw) ≤ 13 / 4 * uRnd mw := by rw [div_le_iff₀ (by linarith)]; nlinarith
  push_cast at g g2
  linarith

/-- where the plain iteration ends -/
theorem settle0 (h : ∀ n, 0 < k n ∧ k (n + 1) = sqIdx mw ew (k n)) {n : Nat} (hn : mw + ew + 9 ≤ n) :
    (oneIdx mw ew ≤ k 0 → k n = oneIdx mw ew) ∧ (k 0 < oneIdx mw ew → k n = oneIdx mw ew - 1) := by
  obtain ⟨a, b, -, -, d1, d2, -⟩ := sq_near (ew := ew) hm hw
  have hb := oneIdx_big hm hw
  have w1 := window_up0 hm hw hk0 hki (fun n => ⟨(h n).1, (h n).2.le⟩) (n := n - 1) (by omega)
  have w2 := window_down0 hm hw hk0 hki (fun n => ⟨(h n).1, (h n).2.ge⟩) (n := n - 1) (by omega)
  have e := (h (n - 1)).2
  rw [show n - 1 + 1 = n by omega] at e
  constructor
  · intro hc
    have inv : ∀ n, oneIdx mw ew ≤ k n := by
      intro n; induction n with
      | zero => exact hc
      | succ n ih => rw [(h n).2]; exact a.ge.trans (sqIdx_mono ih)
    have := inv (n - 1)
    have m1 := sqIdx_mono (mw := mw) (ew := ew) w1
    have := inv n
    omega
  · intro hc
    have inv : ∀ n, k n ≤ oneIdx mw ew - 1 := by
      intro n; induction n with
      | zero => omega
      | succ n ih => rw [(h n).2]; exact (sqIdx_mono ih).trans d1.le
    have := inv n
    have m2 := sqIdx_mono (mw := mw) (ew := ew) w2
    omega

/-- where the iteration with `next_up` ends -/
theorem settle_up (h : ∀ n, 0 < k n ∧ k (n + 1) = sqIdx mw ew (k n) + 1) {n : Nat} (hn : mw + ew + 9 ≤ n) :
    (k n = oneIdx mw ew + 1 ∨ k n = oneIdx mw ew + 2) ∧ k (n + 1) = k n := by
  obtain ⟨a, b, c, c3, d1, d2, -⟩ := sq_near (ew := ew) hm hw
  have hb := oneIdx_big hm hw
  have w1 := window_up1 hm hw hk0 hki (fun n => ⟨(h n).1, (h n).2.le⟩) (n := n - 1) (by omega)
  have w2 := window_down0 hm hw hk0 hki (fun n => ⟨(h n).1, by have := (h n).2; omega⟩) (n := n - 2) (by omega)
  have e1 := (h (n - 1)).2
  have e2 := (h (n - 2)).2
  rw [show n - 1 + 1 = n by omega] at e1
  rw [show n - 2 + 1 = n - 1 by omega] at e2
  have m1 := sqIdx_mono (mw := mw) (ew := ew) w1
  have m2 := sqIdx_mono (mw := mw) (ew := ew) w2
  have m3 := sqIdx_mono (mw := mw) (ew := ew) (show oneIdx mw ew ≤ k (n - 1) by omega)
  have hh : k n = oneIdx mw ew + 1 ∨ k n = oneIdx mw ew + 2 := by omega
  refine ⟨hh, ?_⟩
  rw [(h n).2]
  rcases hh with hh | hh <;> rw [hh] <;> omega

/-- where the iteration with `next_down` ends -/
theorem settle_down (h : ∀ n, 0 < k n ∧ k (n + 1) + 1 = sqIdx mw ew (k n)) {n : Nat} (hn : mw + ew + 9 ≤ n) :
    (k n = oneIdx mw ew - 2 ∨ k n = oneIdx mw ew - 3) ∧ k (n + 1) = k n := by
  obtain ⟨a, b, c, c3, d1, d2, d3, d4, d6⟩ := sq_near (ew := ew) hm hw
  have hb := oneIdx_big hm hw
  have w1 := window_up0 hm hw hk0 hki (fun n => ⟨(h n).1, by have := (h n).2; omega⟩) (n := n - 2) (by omega)
  have w2 := window_down1 hm hw hk0 hki (fun n => ⟨(h n).1, (h n).2.ge⟩) (n := n - 2) (by omega)
  have e1 := (h (n - 1)).2
  have e2 := (h (n - 2)).2
  rw [show n - 1 + 1 = n by omega] at e1
  rw [show n - 2 + 1 = n - 1 by omega] at e2
  have m1 := sqIdx_mono (mw := mw) (ew := ew) w1
  have m2 := sqIdx_mono (mw := mw) (ew := ew) w2
  have m3 := sqIdx_mono (mw := mw) (ew := ew) (show oneIdx mw ew - 4 ≤ k (n - 1) by omega)
  have m4 := sqIdx_mono (mw := mw) (ew := ew) (show k (n - 1) ≤ oneIdx mw ew - 1 by omega)
  have hh : k n = oneIdx mw ew - 2 ∨ k n = oneIdx mw ew - 3 := by omega
  refine ⟨hh, ?_⟩
  have e3 := (h n).2
  rcases hh with hh | hh <;> rw [hh] at e3 ⊢ <;> omega

end seq

/-! ### floats -/

section flt
variable {mw ew : Nat} [FltImpl mw ew] [LawfulFlt mw ew]

theorem one_idx (hm : 10 ≤ mw) (hw : mw + 3 ≤ 2 ^ (ew - 1)) : (Scalar.one : Flt mw ew).key = oneIdx mw ew := by
  have o := sone_spec (mw := mw) (ew := ew)
  have v := magV_up (ew := ew) hm hw (Nat.zero_le 8)
  have h := rndK_toReal (notNaN_of_isFin o.1)
  rw [o.2] at h
  have e : (1 : ℝ) = valZ mw (oneIdx mw ew) / 2 ^ fK mw ew := by
    rw [valZ_nat]
    simp only [Nat.cast_zero, mul_zero, zero_mul, add_zero] at v
    exact v.symm
  have hf := isFin_iff_key.1 o.1
  have hk : ((oneIdx mw ew : ℕ) : ℤ) ≤ kInf mw ew := by
    unfold kInf oneIdx infIdx bias
    have : 2 ^ (ew - 1) - 1 ≤ 2 ^ ew - 1 := Nat.sub_le_sub_right (Nat.pow_le_pow_right (by norm_num) (by omega)) 1
    exact_mod_cast Nat.mul_le_mul_right _ this
  rw [← h, e, rndK_valZ (by have : (0 : ℤ) ≤ kInf mw ew := Int.natCast_nonneg _; omega) hk]

/-- the square root of a positive finite float, by its bits -/
theorem sqrt_idx (hm : 10 ≤ mw) (hw : mw + 3 ≤ 2 ^ (ew - 1)) {x : Flt mw ew} (hx : x.isFin = true) (h0 : 0 < x.key) :
    (GFloat.sqrt x).isFin = true ∧ (GFloat.sqrt x).key = sqIdx mw ew x.key.toNat ∧
    2 ^ mw ≤ sqIdx mw ew x.key.toNat ∧ sqIdx mw ew x.key.toNat + 1 < infIdx mw ew := by
  obtain ⟨k, hk⟩ : ∃ k : ℕ, x.key = k := ⟨x.key.toNat, by omega⟩
  have hk0 : 0 < k := by omega
  have hkn : x.key.toNat = k := by omega
  have hi : k < infIdx mw ew := by
    have := (isFin_iff_key.1 hx).2
    unfold kInf at this; omega
  rw [hkn]
  have se := sq_err (ew := ew) hm hw hk0
  have hb := oneIdx_big (ew := ew) hm hw
  have hu := uRnd_pos (mw := mw)
  have hs := u_small hm
  have hpow : 2 ^ ew = 2 * 2 ^ (ew - 1) := by
    rw [← pow_succ']; congr 1
    by_contra h
    have : ew = 0 := by omega
    subst this; simp at hw
  have lt : sqIdx mw ew k + 1 < infIdx mw ew := by
    by_contra hc
    have big : (2 ^ mw + 0) * 2 ^ (2 ^ ew - 2) = magN mw (infIdx mw ew) := by
      rw [← magN_block mw (2 ^ ew - 2) 0 (Nat.zero_le _)]
      unfold infIdx
      congr 1
      rw [Nat.add_zero]; congr 1; omega
    have hV : (4096 : ℝ) ≤ magV mw ew (infIdx mw ew) := by
      unfold magV
      rw [← big, le_div_iff₀ (by positivity)]
      push_cast
      rw [add_zero, ← pow_add, show (4096 : ℝ) = 2 ^ 12 by norm_num, ← pow_add]
      refine pow_le_pow_right₀ (by norm_num) ?_
      have : fK mw ew = mw + (2 ^ (ew - 1) - 1) - 1 := rfl
      omega
    have h1 := (step_up (ew := ew) se.1).1
    have h2 := (magV_mono (mw := mw) (ew := ew) (show infIdx mw ew ≤ sqIdx mw ew k + 1 by omega)).trans h1
    have h3 : Real.sqrt (magV mw ew k) ≤ Real.sqrt (magV mw ew (infIdx mw ew)) := Real.sqrt_le_sqrt (magV_mono hi.le)
    have h4 : magV mw ew (infIdx mw ew) ≤ 2 * Real.sqrt (magV mw ew (infIdx mw ew)) := by
      have q := Real.sqrt_nonneg (magV mw ew (infIdx mw ew))
      have a1 := se.2.2.trans (mul_le_mul_of_nonneg_left h3 (show 0 ≤ 1 + uRnd mw by positivity))
      have a2 := h2.trans (mul_le_mul_of_nonneg_left a1 (show 0 ≤ 1 + 2 * uRnd mw by positivity))
      nlinarith
    have h5 := Real.sq_sqrt (show 0 ≤ magV mw ew (infIdx mw ew) by linarith)
    have h6 : 64 ≤ Real.sqrt (magV mw ew (infIdx mw ew)) := Real.le_sqrt_of_sq_le (by linarith)
    nlinarith
  have sf := sqrt_fin hx h0.le
  have e : x.toReal = magV mw ew k := by rw [toReal_eq_key, hk, valZ_nat]; rfl
  have kk : x.sqrt.key = sqIdx mw ew k := by
    rw [sf.2, e]
    unfold rndK
    rw [← sq_arg, rndZ_of_nonneg (Real.sqrt_nonneg _)]
    change Max.max _ (Min.min _ ((sqIdx mw ew k : ℕ) : ℤ)) = _
    unfold kInf
    omega
  refine ⟨?_, kk, se.1, lt⟩
  change x.sqrt.isFin = true
  rw [isFin_iff_key, kk]
  unfold kInf
  omega

/-- C160: every positive finite float ends, under repeated `sqrt`, at 1 if it is at least 1, and at the float before 1 if it is less; after
at most `mw + ew + 9` steps (40 for `f32`, 72 for `f64`). -/
theorem C160_float (hm : 10 ≤ mw) (hw : mw + 3 ≤ 2 ^ (ew - 1)) (x : Flt mw ew) (hx : x.isFin = true) (h0 : 0 < x.toReal)
    (n : Nat) (hn : mw + ew + 9 ≤ n) :
    GFloat.sqrt^[n] x = if 1 ≤ x.toReal then Scalar.one else GFloat.nextDown Scalar.one := by
  have ok : ∀ n, (GFloat.sqrt^[n] x).isFin = true ∧ 0 < (GFloat.sqrt^[n] x).key := by
    intro n; induction n with
    | zero => exact ⟨hx, toReal_pos_iff.1 h0⟩
    | succ n ih =>
      rw [Function.iterate_succ_apply']
      obtain ⟨a, b, c, d⟩ := sqrt_idx hm hw ih.1 ih.2
      have := Nat.two_pow_pos mw
      exact ⟨a, by rw [b]; omega⟩
  have st := settle0 hm hw (k := fun n => (GFloat.sqrt^[n] x).key.toNat)
    (by have := (ok 0).2; omega)
    (by have := (isFin_iff_key.1 (ok 0).1).2; unfold kInf at this; omega)
    (fun n => ⟨by have := (ok n).2; omega, by
      have := (sqrt_idx hm hw (ok n).1 (ok n).2).2.1
      simp only [Function.iterate_succ_apply']
      omega⟩) hn
  change (oneIdx mw ew ≤ x.key.toNat → _) ∧ (x.key.toNat < oneIdx mw ew → _) at st
  have o := one_idx (mw := mw) (ew := ew) hm hw
  have os := sone_spec (mw := mw) (ew := ew)
  have hb := oneIdx_big (ew := ew) hm hw
  have pos := (ok n).2
  have iff1 : 1 ≤ x.toReal ↔ oneIdx mw ew ≤ x.key.toNat := by
    rw [← os.2, toReal_le_iff, o]
    have := toReal_pos_iff.1 h0
    omega
  by_cases hc : 1 ≤ x.toReal
  · have st := st.1 (iff1.1 hc)
    rw [if_pos hc]
    exact eq_of_key_eq (by rw [o]; omega) (by omega)
  · have st := st.2 (not_le.1 (fun h => hc (iff1.2 h)))
    rw [if_neg hc]
    refine eq_of_key_eq ?_ (by omega)
    rw [(nextDown_key (notNaN_of_isFin os.1)).2, o]
    have : (0 : ℤ) ≤ kInf mw ew := Int.natCast_nonneg _
    omega

/-- C160: every interval with positive finite bounds ends, under repeated `sqrt`, at an interval around 1 that does not change any more:
from two or three floats below 1 to one or two floats above. -/
theorem C160_interval (hm : 10 ≤ mw) (hw : mw + 3 ≤ 2 ^ (ew - 1)) (A : Interval (Flt mw ew)) (hA : Interval.Finite A)
    (h0 : 0 < A.inf.toReal) (h1 : 0 < A.sup.toReal) (n : Nat) (hn : mw + ew + 9 ≤ n) :
    Interval.sqrt (Interval.sqrt^[n] A) = Interval.sqrt^[n] A ∧
    ((Interval.sqrt^[n] A).inf = GFloat.nextDown (GFloat.nextDown Scalar.one) ∨
      (Interval.sqrt^[n] A).inf = GFloat.nextDown (GFloat.nextDown (GFloat.nextDown Scalar.one))) ∧
    ((Interval.sqrt^[n] A).sup = GFloat.nextUp Scalar.one ∨ (Interval.sqrt^[n] A).sup = GFloat.nextUp (GFloat.nextUp Scalar.one)) := by
  have kp : (0 : ℤ) ≤ kInf mw ew := Int.natCast_nonneg _
  have ok : ∀ n, (Interval.sqrt^[n] A).inf.isFin = true ∧ 0 < (Interval.sqrt^[n] A).inf.key ∧
      (Interval.sqrt^[n] A).sup.isFin = true ∧ 0 < (Interval.sqrt^[n] A).sup.key := by
    intro n; induction n with
    | zero => exact ⟨hA.1, toReal_pos_iff.1 h0, hA.2, toReal_pos_iff.1 h1⟩
    | succ n ih =>
      rw [Function.iterate_succ_apply']
      obtain ⟨a, b, c, d⟩ := sqrt_idx hm hw ih.1 ih.2.1
      obtain ⟨a', b', c', d'⟩ := sqrt_idx hm hw ih.2.2.1 ih.2.2.2
      have e := nextDown_key (notNaN_of_isFin a)
      have e' := nextUp_key (notNaN_of_isFin a')
      have hP : 8 ≤ 2 ^ mw := (by norm_num : 8 = 2 ^ 3) ▸ Nat.pow_le_pow_right (by norm_num) (by omega)
      change (GFloat.nextDown (GFloat.sqrt (Interval.sqrt^[n] A).inf)).isFin = true ∧ 0 < (GFloat.nextDown (GFloat.sqrt (Interval.sqrt^[n] A).inf)).key ∧
        (GFloat.nextUp (GFloat.sqrt (Interval.sqrt^[n] A).sup)).isFin = true ∧ 0 < (GFloat.nextUp (GFloat.sqrt (Interval.sqrt^[n] A).sup)).key
      rw [isFin_iff_key, isFin_iff_key, e.2, e'.2, b, b']
      unfold kInf
      omega
  have sd := settle_down hm hw (k := fun n => (Interval.sqrt^[n] A).inf.key.toNat)
    (by have := (ok 0).2; omega)
    (by have := (isFin_iff_key.1 (ok 0).1).2; unfold kInf at this; omega)
    (fun n => ⟨by have := (ok n).2; omega, by
      obtain ⟨a, b, c, d⟩ := sqrt_idx hm hw (ok n).1 (ok n).2.1
      have e := nextDown_key (notNaN_of_isFin a)
      have hP := Nat.two_pow_pos mw
      simp only [Function.iterate_succ_apply']
      change (GFloat.nextDown (GFloat.sqrt (Interval.sqrt^[n] A).inf)).key.toNat + 1 = _
      rw [e.2, b]
      omega⟩) hn
  have su := settle_up hm hw (k := fun n => (Interval.sqrt^[n] A).sup.key.toNat)
    (by have := (ok 0).2.2; omega)
    (by have := (isFin_iff_key.1 (ok 0).2.2.1).2; unfold kInf at this; omega)
    (fun n => ⟨by have := (ok n).2.2; omega, by
      obtain ⟨a, b, c, d⟩ := sqrt_idx hm hw (ok n).2.2.1 (ok n).2.2.2
      have e := nextUp_key (notNaN_of_isFin a)
      simp only [Function.iterate_succ_apply']
      change (GFloat.nextUp (GFloat.sqrt (Interval.sqrt^[n] A).sup)).key.toNat = _
      rw [e.2, b]
      unfold kInf
      omega⟩) hn
  have o := one_idx (mw := mw) (ew := ew) hm hw
  have os := sone_spec (mw := mw) (ew := ew)
  have of := isFin_iff_key.1 os.1
  have hb := oneIdx_big (ew := ew) hm hw
  obtain ⟨p0, p1, p2, p3⟩ := ok n
  obtain ⟨q0, q1, q2, q3⟩ := ok (n + 1)
  have big : ((oneIdx mw ew : ℕ) : ℤ) + 8 < kInf mw ew := by
    unfold kInf oneIdx infIdx bias
    have hP : 8 ≤ 2 ^ mw := (by norm_num : 8 = 2 ^ 3) ▸ Nat.pow_le_pow_right (by norm_num) (by omega)
    have hpow : 2 ^ ew = 2 * 2 ^ (ew - 1) := by
      rw [← pow_succ']; congr 1
      by_contra h
      have : ew = 0 := by omega
      subst this; simp at hw
    have : (2 ^ (ew - 1) - 1) * 2 ^ mw + 8 < (2 ^ ew - 1) * 2 ^ mw := by
      rw [hpow]
      obtain ⟨c, hc⟩ : ∃ c, 2 ^ (ew - 1) = c + 2 := ⟨2 ^ (ew - 1) - 2, by omega⟩
      rw [hc, show c + 2 - 1 = c + 1 by omega, show 2 * (c + 2) - 1 = (c + 1) + (c + 2) by omega, Nat.add_mul (c + 1)]
      nlinarith
    exact_mod_cast this
  have n1 := nextDown_key (notNaN_of_isFin os.1)
  have n2 := nextDown_key n1.1
  have n3 := nextDown_key n2.1
  have u1 := nextUp_key (notNaN_of_isFin os.1)
  have u2 := nextUp_key u1.1
  refine ⟨?_, ?_, ?_⟩
  · rw [← Function.iterate_succ_apply' Interval.sqrt n A]
    have ei : (Interval.sqrt^[n + 1] A).inf = (Interval.sqrt^[n] A).inf := eq_of_key_eq (by omega) (by omega)
    have es : (Interval.sqrt^[n + 1] A).sup = (Interval.sqrt^[n] A).sup := eq_of_key_eq (by omega) (by omega)
    change Interval.mk (Interval.sqrt^[n + 1] A).inf (Interval.sqrt^[n + 1] A).sup = _
    rw [ei, es]
  · rcases sd.1 with h | h
    · exact .inl (eq_of_key_eq (by rw [n2.2, n1.2, o]; omega) (by omega))
    · exact .inr (eq_of_key_eq (by rw [n3.2, n2.2, n1.2, o]; omega) (by omega))
  · rcases su.1 with h | h
    · exact .inl (eq_of_key_eq (by rw [u1.2, o]; omega) (by omega))
    · exact .inr (eq_of_key_eq (by rw [u2.2, u1.2, o]; omega) (by omega))

/-- C160: generic code, which uses the `sqrt` of the trait, computes the same. -/
theorem C160_trait (hm : 10 ≤ mw) (hw : mw + 3 ≤ 2 ^ (ew - 1)) (A : Interval (Flt mw ew)) (hA : Interval.Finite A)
    (h0 : 0 < A.inf.toReal) (h1 : A.inf.toReal ≤ A.sup.toReal) (n : Nat) :
    (GFloat.sqrt : Interval (Flt mw ew) → Interval (Flt mw ew))^[n] A = Interval.sqrt^[n] A := by
  have step : ∀ B : Interval (Flt mw ew), B.inf.isFin = true → 0 < B.inf.key → B.sup.isFin = true → B.inf.key ≤ B.sup.key →
      (GFloat.sqrt B : Interval (Flt mw ew)) = Interval.sqrt B ∧ (Interval.sqrt B).inf.isFin = true ∧ 0 < (Interval.sqrt B).inf.key ∧
      (Interval.sqrt B).sup.isFin = true ∧ (Interval.sqrt B).inf.key ≤ (Interval.sqrt B).sup.key := by
    intro B f1 k1 f2 k2
    obtain ⟨a, b, c, d⟩ := sqrt_idx hm hw f1 k1
    obtain ⟨a', b', c', d'⟩ := sqrt_idx hm hw f2 (by omega)
    have e := nextDown_key (notNaN_of_isFin a)
    have e' := nextUp_key (notNaN_of_isFin a')
    have hP : 8 ≤ 2 ^ mw := (by norm_num : 8 = 2 ^ 3) ▸ Nat.pow_le_pow_right (by norm_num) (by omega)
    have m := sqIdx_mono (mw := mw) (ew := ew) (show B.inf.key.toNat ≤ B.sup.key.toNat by omega)
    have kl : (GFloat.nextDown (GFloat.sqrt B.inf)).key < (GFloat.nextUp (GFloat.sqrt B.sup)).key := by
      rw [e.2, e'.2, b, b']; unfold kInf; omega
    have ks : (Interval.sqrt B).inf.isFin = true ∧ 0 < (Interval.sqrt B).inf.key ∧
      (Interval.sqrt B).sup.isFin = true ∧ (Interval.sqrt B).inf.key ≤ (Interval.sqrt B).sup.key := by
      change (GFloat.nextDown (GFloat.sqrt B.inf)).isFin = true ∧ 0 < (GFloat.nextDown (GFloat.sqrt B.inf)).key ∧
        (GFloat.nextUp (GFloat.sqrt B.sup)).isFin = true ∧ (GFloat.nextDown (GFloat.sqrt B.inf)).key ≤ (GFloat.nextUp (GFloat.sqrt B.sup)).key
      rw [isFin_iff_key, isFin_iff_key, e.2, e'.2, b, b']
      unfold kInf
      omega
    refine ⟨?_, ks⟩
    change Interval.from2 (Scalar.minMax (GFloat.nextDown (GFloat.sqrt B.inf)) (GFloat.nextUp (GFloat.sqrt B.sup))) = _
    unfold Scalar.minMax
    rw [if_pos (slt_iff.2 ⟨e.1, e'.1, kl⟩)]
    rfl
  have all : (GFloat.sqrt : Interval (Flt mw ew) → Interval (Flt mw ew))^[n] A = Interval.sqrt^[n] A ∧
      (Interval.sqrt^[n] A).inf.isFin = true ∧ 0 < (Interval.sqrt^[n] A).inf.key ∧ (Interval.sqrt^[n] A).sup.isFin = true ∧
      (Interval.sqrt^[n] A).inf.key ≤ (Interval.sqrt^[n] A).sup.key := by
    induction n with
    | zero => exact ⟨rfl, hA.1, toReal_pos_iff.1 h0, hA.2, toReal_le_iff.1 h1⟩
    | succ n ih =>
      rw [Function.iterate_succ_apply', Function.iterate_succ_apply', ih.1]
      exact step _ ih.2.1 ih.2.2.1 ih.2.2.2.1 ih.2.2.2.2
  exact all.1

/-- C160: an interval from 0 does not settle: after two square roots its lower bound is NaN, whatever its upper bound (`f32`). -/
theorem C160_zero_refuted (s : F32) : (Interval.sqrt (Interval.sqrt ⟨F32.lit 0, s⟩)).inf.isNaN = true := by
  change (GFloat.nextDown (GFloat.sqrt (GFloat.nextDown (GFloat.sqrt (F32.lit 0))))).isNaN = true
  decide +kernel

/-- Concrete case: the start of the repository's own test, `[0.5, 1.5]`, settles three floats below and two above 1; `[1, 1]` settles two
below and one above. -/
example (n : Nat) (hn : 40 ≤ n) :
    Interval.sqrt^[n] (⟨F32.lit 1 / F32.lit 2, F32.lit 3 / F32.lit 2⟩ : Interval F32) = ⟨⟨0x3f7ffffd⟩, ⟨0x3f800002⟩⟩ ∧
    Interval.sqrt^[n] (⟨F32.lit 1, F32.lit 1⟩ : Interval F32) = ⟨⟨0x3f7ffffe⟩, ⟨0x3f800001⟩⟩ := by
  have st : ∀ (A B : Interval F32) (m : Nat), Interval.sqrt^[m] A = B → Interval.sqrt B = B → m ≤ n → Interval.sqrt^[n] A = B := by
    intro A B m h1 h2 h3
    obtain ⟨d, rfl⟩ := Nat.exists_eq_add_of_le h3
    rw [Nat.add_comm, Function.iterate_add_apply, h1]
    exact Function.iterate_fixed h2 d
  exact ⟨st _ _ 30 (by decide +kernel) (by decide +kernel) (by omega), st _ _ 30 (by decide +kernel) (by decide +kernel) (by omega)⟩

/-- Concrete case: `f32::MAX` and the smallest positive `f32`. -/
example : GFloat.sqrt^[40] (Flt.maxFin 23 8 false) = (Scalar.one : F32) ∧ GFloat.sqrt^[40] (⟨1⟩ : F32) = GFloat.nextDown Scalar.one := by
  constructor
  · rw [C160_float (by norm_num) (by norm_num) _ (by decide +kernel) (toReal_pos_iff.2 (by decide +kernel)) 40 le_rfl, if_pos]
    rw [← (sone_spec (mw := 23) (ew := 8)).2, toReal_le_iff]
    decide +kernel
  · rw [C160_float (by norm_num) (by norm_num) _ (by decide +kernel) (toReal_pos_iff.2 (by decide +kernel)) 40 le_rfl, if_neg]
    rw [← (sone_spec (mw := 23) (ew := 8)).2, toReal_le_iff]
    decide +kernel

end flt

end Scarlet
