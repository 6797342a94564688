import Verif.Float.Basic
import Mathlib.Analysis.Real.Sqrt
import Mathlib.Tactic.Ring
import Mathlib.Tactic.Linarith
import Mathlib.Tactic.Positivity
import Mathlib.Tactic.NormNum
import Mathlib.Algebra.Order.Floor.Semifield

/-! Rounding theory: `magN` is strictly increasing, `rndIdx`/`rndZ` round a real to nearest-even. -/

namespace Scarlet

/-! ### `magN` -/

theorem magN_of_lt {mw i : Nat} (h : i < 2 ^ mw) : magN mw i = i := by simp [magN, h]

theorem magN_block (mw e m : Nat) (h : m ≤ 2 ^ mw) :
    magN mw ((e + 1) * 2 ^ mw + m) = (2 ^ mw + m) * 2 ^ e := by
  have hp : 0 < 2 ^ mw := Nat.two_pow_pos mw
  have h1 : ¬ ((e + 1) * 2 ^ mw + m < 2 ^ mw) := by
    rw [Nat.add_mul]; omega
  unfold magN
  rw [if_neg h1]
  rcases Nat.lt_or_ge m (2 ^ mw) with h2 | h2
  · have hm : ((e + 1) * 2 ^ mw + m) % 2 ^ mw = m := by
      rw [Nat.mul_comm, Nat.mul_add_mod, Nat.mod_eq_of_lt h2]
    have hd : ((e + 1) * 2 ^ mw + m) / 2 ^ mw = e + 1 := by
      rw [Nat.mul_comm, Nat.mul_add_div hp, Nat.div_eq_of_lt h2, Nat.add_zero]
    rw [hm, hd, Nat.add_sub_cancel]
  · have hm' : m = 2 ^ mw := by omega
    subst hm'
    have hr : (e + 1) * 2 ^ mw + 2 ^ mw = 2 ^ mw * (e + 2) := by ring
    rw [hr, Nat.mul_mod_right, Nat.mul_div_cancel_left _ hp]
    have : e + 2 - 1 = e + 1 := rfl
    rw [this, pow_succ]; ring

theorem idx_cases (mw i : Nat) : i < 2 ^ mw ∨ ∃ e m, m < 2 ^ mw ∧ i = (e + 1) * 2 ^ mw + m := by
  rcases Nat.lt_or_ge i (2 ^ mw) with h | h
  · exact Or.inl h
  · right
    have hp : 0 < 2 ^ mw := Nat.two_pow_pos mw
    have hd : 1 ≤ i / 2 ^ mw := (Nat.one_le_div_iff hp).2 h
    refine ⟨i / 2 ^ mw - 1, i % 2 ^ mw, Nat.mod_lt _ hp, ?_⟩
    rw [Nat.sub_add_cancel hd, Nat.mul_comm]
    exact (Nat.div_add_mod i _).symm

theorem magN_lt_succ (mw i : Nat) : magN mw i < magN mw (i + 1) := by
  have hp : 0 < 2 ^ mw := Nat.two_pow_pos mw
  rcases idx_cases mw i with h | ⟨e, m, hm, rfl⟩
  · rw [magN_of_lt h]
    rcases Nat.lt_or_ge (i + 1) (2 ^ mw) with h2 | h2
    · rw [magN_of_lt h2]; omega
    · have hi : i + 1 = (0 + 1) * 2 ^ mw + 0 := by omega
      rw [hi, magN_block mw 0 0 (Nat.zero_le _)]
      simp; omega
  · rw [magN_block mw e m (Nat.le_of_lt hm), Nat.add_assoc, magN_block mw e (m + 1) hm]
    have : 0 < 2 ^ e := Nat.two_pow_pos e
    nlinarith

theorem magN_strictMono (mw : Nat) : StrictMono (magN mw) := strictMono_nat_of_lt_succ (magN_lt_succ mw)

@[simp] theorem magN_zero (mw : Nat) : magN mw 0 = 0 := magN_of_lt (Nat.two_pow_pos mw)

theorem magN_pos {mw i : Nat} (h : 0 < i) : 0 < magN mw i := by
  have := magN_strictMono mw h
  simpa using this

theorem magN_eq_zero {mw i : Nat} : magN mw i = 0 ↔ i = 0 := by
  constructor
  · intro h
    by_contra hi
    have := magN_pos (mw := mw) (Nat.pos_of_ne_zero hi)
    omega
  · rintro rfl; simp

/-! ### `floorIdx` -/

theorem floorIdx_spec (mw n : Nat) :
    magN mw (floorIdx mw n) ≤ n ∧ n < magN mw (floorIdx mw n + 1) := by
  unfold floorIdx
  split
  · rename_i h
    have h1 := magN_of_lt h
    have := magN_lt_succ mw n
    omega
  · rename_i h
    have hn0 : n ≠ 0 := by have := Nat.two_pow_pos mw; omega
    have hL : 2 ^ Nat.log2 n ≤ n := Nat.log2_self_le hn0
    have hU : n < 2 ^ (Nat.log2 n + 1) := Nat.lt_log2_self
    have hmwL : mw ≤ Nat.log2 n := by
      by_contra hc
      have h1 : Nat.log2 n + 1 ≤ mw := by omega
      have : 2 ^ (Nat.log2 n + 1) ≤ 2 ^ mw := Nat.pow_le_pow_right (by decide) h1
      omega
    obtain ⟨e, he⟩ : ∃ e, Nat.log2 n = mw + e := ⟨Nat.log2 n - mw, by omega⟩
    have hee : Nat.log2 n - mw = e := by omega
    simp only [hee]
    rw [he] at hL hU
    have hpe : 0 < 2 ^ e := Nat.two_pow_pos e
    have hq1 : 2 ^ mw ≤ n / 2 ^ e := by
      rw [Nat.le_div_iff_mul_le hpe, ← pow_add]; exact hL
    have hq2 : n / 2 ^ e < 2 ^ (mw + 1) := by
      rw [Nat.div_lt_iff_lt_mul hpe, ← pow_add]
      have : mw + 1 + e = mw + e + 1 := by omega
      rw [this]; exact hU
    rw [pow_succ] at hq2
    obtain ⟨r, hr⟩ : ∃ r, n / 2 ^ e = 2 ^ mw + r := ⟨n / 2 ^ e - 2 ^ mw, by omega⟩
    have hr' : r + 1 ≤ 2 ^ mw := by omega
    have hidx : e * 2 ^ mw + n / 2 ^ e = (e + 1) * 2 ^ mw + r := by rw [hr]; ring
    rw [hidx, magN_block mw e r (by omega), Nat.add_assoc, magN_block mw e (r + 1) hr', ← hr]
    constructor
    · exact Nat.div_mul_le_self n _
    · rw [← Nat.add_assoc, ← hr]
      have := Nat.lt_div_mul_add (a := n) hpe
      nlinarith

theorem floorIdx_unique {mw n i : Nat} (h1 : magN mw i ≤ n) (h2 : n < magN mw (i + 1)) :
    floorIdx mw n = i := by
  obtain ⟨h3, h4⟩ := floorIdx_spec mw n
  have a := (magN_strictMono mw).lt_iff_lt.1 (lt_of_le_of_lt h3 h2)
  have b := (magN_strictMono mw).lt_iff_lt.1 (lt_of_le_of_lt h1 h4)
  omega

/-! ### integer square root -/

theorem isqrtAux_spec : ∀ f n, n < 4 ^ f → isqrtAux f n * isqrtAux f n ≤ n ∧
    n < (isqrtAux f n + 1) * (isqrtAux f n + 1) := by
  intro f
  induction f with
  | zero => intro n h; simp at h; subst h; simp [isqrtAux]
  | succ f ih =>
    intro n h
    have h4 : n / 4 < 4 ^ f := by
      rw [Nat.div_lt_iff_lt_mul (by decide)]; rw [pow_succ] at h; exact h
    obtain ⟨h1, h2⟩ := ih (n / 4) h4
    simp only [isqrtAux]
    generalize isqrtAux f (n / 4) = s at *
    split
    · rename_i hc
      refine ⟨hc, ?_⟩
      have : n < 4 * (n / 4) + 4 := by omega
      nlinarith
    · rename_i hc
      refine ⟨?_, by omega⟩
      have : 4 * (n / 4) ≤ n := Nat.mul_div_le n 4
      nlinarith

theorem isqrt_spec (n : Nat) : isqrt n * isqrt n ≤ n ∧ n < (isqrt n + 1) * (isqrt n + 1) := by
  apply isqrtAux_spec
  have h1 : n < 2 ^ (Nat.log2 n + 1) := Nat.lt_log2_self
  have h2 : 2 ^ (Nat.log2 n + 1) ≤ 4 ^ (Nat.log2 n + 1) := Nat.pow_le_pow_left (by decide) _
  omega

/-! ### rounding a non-negative real -/

open Classical in
/-- Magnitude bits nearest to the real `x ≥ 0` (in smallest-subnormal units), ties to even. -/
noncomputable def rndIdx (mw : Nat) (x : ℝ) : Nat :=
  let i := floorIdx mw ⌊x⌋₊
  if 2 * x < (magN mw i : ℝ) + magN mw (i + 1) then i
  else if (magN mw i : ℝ) + magN mw (i + 1) < 2 * x then i + 1
  else if i % 2 = 0 then i else i + 1

theorem rneStep_compare_nat (i a b : Nat) :
    rneStep i (compare a b) = if a < b then i else if b < a then i + 1 else if i % 2 = 0 then i else i + 1 := by
  rcases Nat.lt_trichotomy a b with h | h | h
  · rw [Nat.compare_eq_lt.2 h]; simp [rneStep, h]
  · rw [Nat.compare_eq_eq.2 h]; simp [rneStep, h]
  · rw [Nat.compare_eq_gt.2 h]; simp [rneStep, h, Nat.lt_asymm h]

theorem roundRat_eq (mw n d : Nat) (hd : 0 < d) : roundRat mw n d = rndIdx mw ((n : ℝ) / d) := by
  have hd' : (0 : ℝ) < d := by exact_mod_cast hd
  unfold roundRat rndIdx
  rw [Nat.floor_div_eq_div]
  simp only [rneStep_compare_nat]
  have e1 : ∀ S : Nat, (2 * ((n : ℝ) / d) < S) ↔ 2 * n < d * S := by
    intro S
    rw [← mul_div_assoc, div_lt_iff₀ hd', mul_comm (S : ℝ)]
    exact_mod_cast Iff.rfl
  have e2 : ∀ S : Nat, ((S : ℝ) < 2 * ((n : ℝ) / d)) ↔ d * S < 2 * n := by
    intro S
    rw [← mul_div_assoc, lt_div_iff₀ hd', mul_comm (S : ℝ)]
    exact_mod_cast Iff.rfl
  simp only [← Nat.cast_add, e1, e2]

theorem roundSqrt_eq (mw n : Nat) : roundSqrt mw n = rndIdx mw (Real.sqrt n) := by
  have hfl : ⌊Real.sqrt n⌋₊ = isqrt n := by
    obtain ⟨h1, h2⟩ := isqrt_spec n
    rw [Nat.floor_eq_iff (Real.sqrt_nonneg _)]
    constructor
    · apply Real.le_sqrt_of_sq_le
      rw [sq]; exact_mod_cast h1
    · rw [Real.sqrt_lt' (by positivity), sq]
      exact_mod_cast h2
  unfold roundSqrt rndIdx
  rw [hfl]
  simp only [rneStep_compare_nat]
  have hn : (0 : ℝ) ≤ n := Nat.cast_nonneg n
  have h4 : 2 * Real.sqrt n = Real.sqrt ((4 * n : Nat) : ℝ) := by
    rw [Nat.cast_mul, Real.sqrt_mul (by norm_num)]
    congr 1
    rw [show ((4 : Nat) : ℝ) = 2 ^ 2 by norm_num]
    exact (Real.sqrt_sq (by norm_num)).symm
  have e1 : ∀ S : Nat, 0 < S → ((2 * Real.sqrt n < S) ↔ 4 * n < S ^ 2) := by
    intro S hS
    rw [h4, Real.sqrt_lt' (by exact_mod_cast hS)]
    exact_mod_cast Iff.rfl
  have e2 : ∀ S : Nat, (((S : ℝ) < 2 * Real.sqrt n) ↔ S ^ 2 < 4 * n) := by
    intro S
    rw [h4, Real.lt_sqrt (Nat.cast_nonneg S)]
    exact_mod_cast Iff.rfl
  have hpos : 0 < magN mw (floorIdx mw (isqrt n)) + magN mw (floorIdx mw (isqrt n) + 1) := by
    have := magN_lt_succ mw (floorIdx mw (isqrt n)); omega
  simp only [← Nat.cast_add, e1 _ hpos, e2]

theorem floor_bounds (mw : Nat) {x : ℝ} (hx : 0 ≤ x) :
    (magN mw (floorIdx mw ⌊x⌋₊) : ℝ) ≤ x ∧ x < magN mw (floorIdx mw ⌊x⌋₊ + 1) := by
  obtain ⟨h1, h2⟩ := floorIdx_spec mw ⌊x⌋₊
  constructor
  · exact le_trans (by exact_mod_cast h1) (Nat.floor_le hx)
  · exact (Nat.floor_lt hx).1 h2

theorem rndIdx_mem (mw : Nat) (x : ℝ) :
    rndIdx mw x = floorIdx mw ⌊x⌋₊ ∨ rndIdx mw x = floorIdx mw ⌊x⌋₊ + 1 := by
  unfold rndIdx; simp only; split_ifs <;> simp

theorem rndIdx_lt_succ (mw : Nat) {x : ℝ} (hx : 0 ≤ x) : x < magN mw (rndIdx mw x + 1) := by
  obtain ⟨h1, h2⟩ := floor_bounds mw hx
  rcases rndIdx_mem mw x with h | h <;> rw [h]
  · exact h2
  · refine lt_trans h2 ?_
    exact_mod_cast magN_lt_succ mw _

theorem lt_rndIdx (mw : Nat) {x : ℝ} (hx : 0 ≤ x) {j : Nat} (hj : j < rndIdx mw x) : (magN mw j : ℝ) < x := by
  obtain ⟨h1, h2⟩ := floor_bounds mw hx
  rcases rndIdx_mem mw x with h | h
  · rw [h] at hj
    exact lt_of_lt_of_le (by exact_mod_cast magN_strictMono mw hj) h1
  · have hj' : j ≤ floorIdx mw ⌊x⌋₊ := by omega
    have hlt : (magN mw (floorIdx mw ⌊x⌋₊) : ℝ) < x := by
      have hS := magN_lt_succ mw (floorIdx mw ⌊x⌋₊)
      have hS' : (magN mw (floorIdx mw ⌊x⌋₊) : ℝ) < magN mw (floorIdx mw ⌊x⌋₊ + 1) := by exact_mod_cast hS
      unfold rndIdx at h
      simp only at h
      split_ifs at h with c1 c2 c3
      · omega
      · linarith
      · omega
      · linarith
    exact lt_of_le_of_lt (by exact_mod_cast (magN_strictMono mw).monotone hj') hlt

theorem rndIdx_mono (mw : Nat) {x y : ℝ} (hx : 0 ≤ x) (hxy : x ≤ y) : rndIdx mw x ≤ rndIdx mw y := by
  have hy := le_trans hx hxy
  obtain ⟨hx1, hx2⟩ := floor_bounds mw hx
  obtain ⟨hy1, hy2⟩ := floor_bounds mw hy
  have hij : floorIdx mw ⌊x⌋₊ ≤ floorIdx mw ⌊y⌋₊ := by
    have : (magN mw (floorIdx mw ⌊x⌋₊) : ℝ) < magN mw (floorIdx mw ⌊y⌋₊ + 1) := by linarith
    have := (magN_strictMono mw).lt_iff_lt.1 (by exact_mod_cast this)
    omega
  rcases Nat.lt_or_ge (floorIdx mw ⌊x⌋₊) (floorIdx mw ⌊y⌋₊) with h | h
  · rcases rndIdx_mem mw x with hx' | hx' <;> rcases rndIdx_mem mw y with hy' | hy' <;> omega
  · have he : floorIdx mw ⌊x⌋₊ = floorIdx mw ⌊y⌋₊ := by omega
    unfold rndIdx
    simp only [he]
    split_ifs <;> first | omega | (exfalso; linarith)

@[simp] theorem rndIdx_magN (mw i : Nat) : rndIdx mw (magN mw i) = i := by
  have hf : floorIdx mw ⌊((magN mw i : Nat) : ℝ)⌋₊ = i := by
    rw [Nat.floor_natCast]
    exact floorIdx_unique (le_refl _) (magN_lt_succ mw i)
  have hS : (magN mw i : ℝ) < magN mw (i + 1) := by exact_mod_cast magN_lt_succ mw i
  unfold rndIdx
  simp only [hf]
  rw [if_pos]; linarith

/-- `rndIdx` is the IEEE choice: nearest, and among two equally near the one with even last bit. -/
theorem rndIdx_nearest (mw : Nat) {x : ℝ} (hx : 0 ≤ x) (j : Nat) :
    |x - magN mw (rndIdx mw x)| ≤ |x - magN mw j| ∧
    (|x - magN mw (rndIdx mw x)| = |x - magN mw j| → j = rndIdx mw x ∨ rndIdx mw x % 2 = 0) := by
  obtain ⟨h1, h2⟩ := floor_bounds mw hx
  have hS : (magN mw (floorIdx mw ⌊x⌋₊) : ℝ) < magN mw (floorIdx mw ⌊x⌋₊ + 1) := by
    exact_mod_cast magN_lt_succ mw _
  have hlo : ∀ j, j < floorIdx mw ⌊x⌋₊ → (magN mw j : ℝ) < magN mw (floorIdx mw ⌊x⌋₊) := fun j hj => by
    exact_mod_cast magN_strictMono mw hj
  have hhi : ∀ j, floorIdx mw ⌊x⌋₊ + 1 < j → (magN mw (floorIdx mw ⌊x⌋₊ + 1) : ℝ) < magN mw j := fun j hj => by
    exact_mod_cast magN_strictMono mw hj
  have a1 : |x - magN mw (floorIdx mw ⌊x⌋₊)| = x - magN mw (floorIdx mw ⌊x⌋₊) := abs_of_nonneg (by linarith)
  have a2 : |x - magN mw (floorIdx mw ⌊x⌋₊ + 1)| = magN mw (floorIdx mw ⌊x⌋₊ + 1) - x := by
    rw [abs_of_neg (by linarith)]; ring
  have hj : j < floorIdx mw ⌊x⌋₊ ∨ j = floorIdx mw ⌊x⌋₊ ∨ j = floorIdx mw ⌊x⌋₊ + 1 ∨ floorIdx mw ⌊x⌋₊ + 1 < j := by
    omega
  have hcase : ∀ r, rndIdx mw x = r →
      (r = floorIdx mw ⌊x⌋₊ ∧ (2 * x < (magN mw (floorIdx mw ⌊x⌋₊) : ℝ) + magN mw (floorIdx mw ⌊x⌋₊ + 1) ∨
        (2 * x ≤ (magN mw (floorIdx mw ⌊x⌋₊) : ℝ) + magN mw (floorIdx mw ⌊x⌋₊ + 1) ∧ r % 2 = 0))) ∨
      (r = floorIdx mw ⌊x⌋₊ + 1 ∧ ((magN mw (floorIdx mw ⌊x⌋₊) : ℝ) + magN mw (floorIdx mw ⌊x⌋₊ + 1) < 2 * x ∨
        ((magN mw (floorIdx mw ⌊x⌋₊) : ℝ) + magN mw (floorIdx mw ⌊x⌋₊ + 1) ≤ 2 * x ∧ r % 2 = 0))) := by
    intro r hr
    unfold rndIdx at hr
    simp only at hr
    split_ifs at hr with c1 c2 c3
    · exact Or.inl ⟨hr.symm, Or.inl c1⟩
    · exact Or.inr ⟨hr.symm, Or.inl c2⟩
    · exact Or.inl ⟨hr.symm, Or.inr ⟨not_lt.1 c2, by omega⟩⟩
    · exact Or.inr ⟨hr.symm, Or.inr ⟨not_lt.1 c1, by omega⟩⟩
  generalize floorIdx mw ⌊x⌋₊ = i at *
  rcases hcase _ rfl with ⟨hr, hc⟩ | ⟨hr, hc⟩
  · rw [hr, a1]
    rw [hr] at hc
    rcases hj with hj | hj | hj | hj
    · have b : |x - magN mw j| = x - magN mw j := abs_of_nonneg (by linarith [hlo j hj])
      rw [b]; have := hlo j hj
      exact ⟨by linarith, fun h => by exfalso; linarith⟩
    · subst hj; rw [a1]; exact ⟨le_refl _, fun _ => Or.inl rfl⟩
    · subst hj; rw [a2]
      refine ⟨by rcases hc with hc | hc <;> linarith, fun h => ?_⟩
      rcases hc with hc | hc
      · exfalso; linarith
      · exact Or.inr hc.2
    · have b : |x - magN mw j| = magN mw j - x := by rw [abs_of_neg (by linarith [hhi j hj])]; ring
      rw [b]; have := hhi j hj
      refine ⟨by rcases hc with hc | hc <;> linarith, fun h => ?_⟩
      rcases hc with hc | hc <;> exfalso <;> linarith
  · rw [hr, a2]
    rw [hr] at hc
    rcases hj with hj | hj | hj | hj
    · have b : |x - magN mw j| = x - magN mw j := abs_of_nonneg (by linarith [hlo j hj])
      rw [b]; have := hlo j hj
      refine ⟨by rcases hc with hc | hc <;> linarith, fun h => ?_⟩
      rcases hc with hc | hc <;> exfalso <;> linarith
    · subst hj; rw [a1]
      refine ⟨by rcases hc with hc | hc <;> linarith, fun h => ?_⟩
      rcases hc with hc | hc
      · exfalso; linarith
      · exact Or.inr hc.2
    · subst hj; rw [a2]; exact ⟨le_refl _, fun _ => Or.inl rfl⟩
    · have b : |x - magN mw j| = magN mw j - x := by rw [abs_of_neg (by linarith [hhi j hj])]; ring
      rw [b]; have := hhi j hj
      exact ⟨by linarith, fun h => by exfalso; linarith⟩

/-! ### signed version -/

/-- Real value, in smallest-subnormal units, of the float at position `k` of the numeric order. -/
noncomputable def valZ (mw : Nat) (k : ℤ) : ℝ := if k < 0 then -(magN mw k.natAbs : ℝ) else magN mw k.natAbs

theorem valZ_nonneg_eq {mw : Nat} {k : ℤ} (h : 0 ≤ k) : valZ mw k = magN mw k.natAbs := by
  simp [valZ, not_lt.2 h]

theorem valZ_nat (mw n : Nat) : valZ mw (n : ℤ) = magN mw n := by
  simp [valZ]

@[simp] theorem valZ_zero (mw : Nat) : valZ mw 0 = 0 := by simp [valZ]

theorem valZ_neg (mw : Nat) (k : ℤ) : valZ mw (-k) = - valZ mw k := by
  rcases lt_trichotomy k 0 with h | h | h
  · simp only [valZ]; rw [if_neg (by omega), if_pos h]; simp
  · subst h; simp
  · simp only [valZ]; rw [if_pos (by omega), if_neg (by omega)]; simp

theorem valZ_strictMono (mw : Nat) : StrictMono (valZ mw) := by
  apply strictMono_int_of_lt_succ
  intro k
  rcases lt_or_ge k 0 with h | h
  · obtain ⟨n, hn⟩ : ∃ n : Nat, k = -((n : ℤ) + 1) := ⟨(-k - 1).toNat, by omega⟩
    subst hn
    have e : -((n : ℤ) + 1) + 1 = -(n : ℤ) := by ring
    rw [e, valZ_neg, valZ_neg]
    have h2 : ((n : ℤ) + 1) = ((n + 1 : Nat) : ℤ) := by push_cast; rfl
    rw [h2, valZ_nat, valZ_nat]
    have := magN_lt_succ mw n
    have : (magN mw n : ℝ) < magN mw (n + 1) := by exact_mod_cast this
    linarith
  · obtain ⟨n, rfl⟩ := Int.eq_ofNat_of_zero_le h
    have h2 : ((n : ℤ) + 1) = ((n + 1 : Nat) : ℤ) := by push_cast; rfl
    rw [h2, valZ_nat, valZ_nat]
    exact_mod_cast magN_lt_succ mw n

theorem valZ_lt {mw : Nat} {a b : ℤ} : valZ mw a < valZ mw b ↔ a < b := (valZ_strictMono mw).lt_iff_lt
theorem valZ_le {mw : Nat} {a b : ℤ} : valZ mw a ≤ valZ mw b ↔ a ≤ b := (valZ_strictMono mw).le_iff_le

theorem valZ_nonneg {mw : Nat} {k : ℤ} : 0 ≤ valZ mw k ↔ 0 ≤ k := by
  rw [← valZ_zero mw, valZ_le]
theorem valZ_pos {mw : Nat} {k : ℤ} : 0 < valZ mw k ↔ 0 < k := by
  rw [← valZ_zero mw, valZ_lt]

open Classical in
/-- Position of the float nearest to the real `x` (ties to even, unbounded exponent). -/
noncomputable def rndZ (mw : Nat) (x : ℝ) : ℤ :=
  if x < 0 then -(rndIdx mw (-x) : ℤ) else rndIdx mw x

@[simp] theorem rndIdx_zero (mw : Nat) : rndIdx mw 0 = 0 := by
  have := rndIdx_magN mw 0; simpa using this

@[simp] theorem rndZ_zero (mw : Nat) : rndZ mw 0 = 0 := by simp [rndZ]

theorem rndZ_neg (mw : Nat) (x : ℝ) : rndZ mw (-x) = - rndZ mw x := by
  unfold rndZ
  rcases lt_trichotomy x 0 with h | h | h
  · rw [if_neg (by linarith), if_pos h]; simp
  · subst h; simp
  · rw [if_pos (by linarith), if_neg (by linarith)]; simp

theorem rndZ_of_nonneg {mw : Nat} {x : ℝ} (h : 0 ≤ x) : rndZ mw x = rndIdx mw x := by
  simp [rndZ, not_lt.2 h]

theorem rndZ_nonneg {mw : Nat} {x : ℝ} (h : 0 ≤ x) : 0 ≤ rndZ mw x := by
  rw [rndZ_of_nonneg h]; omega

theorem rndZ_mono (mw : Nat) : Monotone (rndZ mw) := by
  intro x y hxy
  rcases le_or_gt 0 x with hx | hx
  · rw [rndZ_of_nonneg hx, rndZ_of_nonneg (le_trans hx hxy)]
    exact_mod_cast rndIdx_mono mw hx hxy
  · rcases le_or_gt 0 y with hy | hy
    · have h1 := rndZ_nonneg (mw := mw) hy
      have h2 := rndZ_nonneg (mw := mw) (x := -x) (by linarith)
      rw [rndZ_neg] at h2; omega
    · have : rndZ mw (-y) ≤ rndZ mw (-x) := by
        rw [rndZ_of_nonneg (by linarith), rndZ_of_nonneg (by linarith)]
        exact_mod_cast rndIdx_mono mw (by linarith) (by linarith)
      rw [rndZ_neg, rndZ_neg] at this; omega

@[simp] theorem rndZ_valZ (mw : Nat) (k : ℤ) : rndZ mw (valZ mw k) = k := by
  have key : ∀ n : Nat, rndZ mw (valZ mw (n : ℤ)) = n := by
    intro n
    rw [valZ_nat, rndZ_of_nonneg (Nat.cast_nonneg _), rndIdx_magN]
  rcases le_or_gt 0 k with h | h
  · obtain ⟨n, rfl⟩ := Int.eq_ofNat_of_zero_le h
    exact key n
  · obtain ⟨n, hn⟩ := Int.eq_ofNat_of_zero_le (a := -k) (by omega)
    have : k = -(n : ℤ) := by omega
    subst this
    rw [valZ_neg, rndZ_neg, key]

private theorem rndZ_faithful_nonneg (mw : Nat) {x : ℝ} (hx : 0 ≤ x) :
    valZ mw (rndZ mw x - 1) < x ∧ x < valZ mw (rndZ mw x + 1) := by
  rw [rndZ_of_nonneg hx]
  constructor
  · rcases Nat.eq_zero_or_pos (rndIdx mw x) with h | h
    · rw [h]
      have : valZ mw (((0 : Nat) : ℤ) - 1) < 0 := by
        have := (valZ_lt (mw := mw) (a := -1) (b := 0)).2 (by omega)
        simpa using this
      linarith
    · have : ((rndIdx mw x : ℤ) - 1) = ((rndIdx mw x - 1 : Nat) : ℤ) := by omega
      rw [this, valZ_nat]
      exact lt_rndIdx mw hx (by omega)
  · have : ((rndIdx mw x : ℤ) + 1) = ((rndIdx mw x + 1 : Nat) : ℤ) := by omega
    rw [this, valZ_nat]
    exact rndIdx_lt_succ mw hx

/-- Rounding moves a real by less than one step of the float grid, in either direction. -/
theorem rndZ_faithful (mw : Nat) (x : ℝ) :
    valZ mw (rndZ mw x - 1) < x ∧ x < valZ mw (rndZ mw x + 1) := by
  rcases le_or_gt 0 x with hx | hx
  · exact rndZ_faithful_nonneg mw hx
  · obtain ⟨h1, h2⟩ := rndZ_faithful_nonneg mw (x := -x) (by linarith)
    rw [rndZ_neg] at h1 h2
    constructor
    · have : rndZ mw x - 1 = -(-rndZ mw x + 1) := by ring
      rw [this, valZ_neg]; linarith
    · have : rndZ mw x + 1 = -(-rndZ mw x - 1) := by ring
      rw [this, valZ_neg]; linarith

/-- A float at or below `x` stays at or below after rounding `x`. -/
theorem le_rndZ {mw : Nat} {k : ℤ} {x : ℝ} (h : valZ mw k ≤ x) : k ≤ rndZ mw x := by
  have := rndZ_mono mw h; simpa using this
theorem rndZ_le {mw : Nat} {k : ℤ} {x : ℝ} (h : x ≤ valZ mw k) : rndZ mw x ≤ k := by
  have := rndZ_mono mw h; simpa using this

end Scarlet
