import Verif.Float.Round

/-! Float operations expressed through the order key: each operation on finite floats yields the float at
position `rndK (exact result)`. -/

namespace Scarlet
namespace Flt

variable {mw ew : Nat}

/-! ### bit-level facts -/

theorem infIdx_add (mw ew : Nat) : infIdx mw ew + 2 ^ mw = 2 ^ (mw + ew) := by
  unfold infIdx
  have : 1 ≤ 2 ^ ew := Nat.one_le_two_pow
  rw [Nat.sub_mul, pow_add, Nat.mul_comm (2 ^ mw)]
  have h2 : 1 * 2 ^ mw ≤ 2 ^ ew * 2 ^ mw := Nat.mul_le_mul_right _ this
  omega

theorem infIdx_lt (mw ew : Nat) : infIdx mw ew < 2 ^ (mw + ew) := by
  have := infIdx_add mw ew
  have := Nat.two_pow_pos mw
  omega

theorem infIdx_pos [h : Fmt mw ew] : 7 * 2 ^ mw ≤ infIdx mw ew := by
  unfold infIdx
  have : 2 ^ 3 ≤ 2 ^ ew := Nat.pow_le_pow_right (by decide) h.hew
  exact Nat.mul_le_mul_right _ (by omega)

theorem four_le_pow [h : Fmt mw ew] : 4 ≤ 2 ^ mw :=
  Nat.pow_le_pow_right (n := 2) (by decide) h.hmw

theorem two_lt_infIdx [h : Fmt mw ew] : 2 < infIdx mw ew := by
  have := infIdx_pos (mw := mw) (ew := ew)
  have := four_le_pow (mw := mw) (ew := ew)
  omega

theorem toNat_lt (x : Flt mw ew) : x.bits.toNat < 2 * 2 ^ (mw + ew) := by
  have := x.bits.isLt
  rw [pow_succ] at this; omega

theorem idx_lt (x : Flt mw ew) : x.idx < 2 ^ (mw + ew) := Nat.mod_lt _ (Nat.two_pow_pos _)

theorem toNat_eq (x : Flt mw ew) : x.bits.toNat = (if x.sgn then 2 ^ (mw + ew) else 0) + x.idx := by
  have h := toNat_lt x
  unfold sgn idx
  rcases Nat.lt_or_ge x.bits.toNat (2 ^ (mw + ew)) with h1 | h1
  · rw [Nat.mod_eq_of_lt h1]; simp [not_le.2 h1]
  · have : x.bits.toNat % 2 ^ (mw + ew) = x.bits.toNat - 2 ^ (mw + ew) := by
      rw [Nat.mod_eq_sub_mod h1, Nat.mod_eq_of_lt (by omega)]
    rw [this]; simp [h1]

theorem ext_sgn_idx {x y : Flt mw ew} (h1 : x.sgn = y.sgn) (h2 : x.idx = y.idx) : x = y := by
  have hx := toNat_eq x
  have hy := toNat_eq y
  rw [h1, h2, ← hy] at hx
  cases x; cases y
  simp only [Flt.mk.injEq]
  exact BitVec.eq_of_toNat_eq hx

theorem toNat_ofIdx {s : Bool} {i : Nat} (h : i < 2 ^ (mw + ew)) :
    (ofIdx mw ew s i).bits.toNat = (if s then 2 ^ (mw + ew) else 0) + i := by
  unfold ofIdx
  simp only [BitVec.toNat_ofNat]
  apply Nat.mod_eq_of_lt
  rw [pow_succ]
  split <;> omega

theorem sgn_ofIdx {s : Bool} {i : Nat} (h : i < 2 ^ (mw + ew)) : (ofIdx mw ew s i).sgn = s := by
  unfold sgn
  rw [toNat_ofIdx h]
  cases s <;> simp [h]

theorem idx_ofIdx {s : Bool} {i : Nat} (h : i < 2 ^ (mw + ew)) : (ofIdx mw ew s i).idx = i := by
  unfold idx
  rw [toNat_ofIdx h]
  cases s
  · simp [Nat.mod_eq_of_lt h]
  · simp [Nat.mod_eq_of_lt h]

theorem ofIdx_sgn_idx (x : Flt mw ew) : ofIdx mw ew x.sgn x.idx = x :=
  ext_sgn_idx (sgn_ofIdx x.idx_lt) (idx_ofIdx x.idx_lt)

/-! ### neg, abs -/

theorem sgn_neg (x : Flt mw ew) : x.neg.sgn = !x.sgn := by
  have h := toNat_lt x
  have hp := Nat.two_pow_pos (mw + ew)
  unfold sgn neg
  simp only [BitVec.toNat_xor, BitVec.toNat_ofNat]
  rw [Nat.mod_eq_of_lt (a := 2 ^ (mw + ew)) (by rw [pow_succ]; omega)]
  have hbit : ∀ n : Nat, n < 2 * 2 ^ (mw + ew) → (decide (2 ^ (mw + ew) ≤ n) = n.testBit (mw + ew)) := by
    intro n hn
    rw [Nat.testBit_eq_decide_div_mod_eq]
    rcases Nat.lt_or_ge n (2 ^ (mw + ew)) with h1 | h1
    · rw [Nat.div_eq_of_lt h1]; simp [not_le.2 h1]
    · have : n / 2 ^ (mw + ew) = 1 := by
        apply Nat.div_eq_of_lt_le <;> omega
      rw [this]; simp [h1]
  have hx : x.bits.toNat ^^^ 2 ^ (mw + ew) < 2 * 2 ^ (mw + ew) := by
    have := Nat.xor_lt_two_pow (x := x.bits.toNat) (y := 2 ^ (mw + ew)) (n := mw + ew + 1)
      (by rw [pow_succ]; omega) (by rw [pow_succ]; omega)
    rw [pow_succ] at this; omega
  rw [hbit _ hx, hbit _ h, Nat.testBit_xor, Nat.testBit_two_pow_self]
  simp

theorem idx_neg (x : Flt mw ew) : x.neg.idx = x.idx := by
  have hp := Nat.two_pow_pos (mw + ew)
  unfold idx neg
  simp only [BitVec.toNat_xor, BitVec.toNat_ofNat]
  rw [Nat.mod_eq_of_lt (a := 2 ^ (mw + ew)) (by rw [pow_succ]; omega)]
  apply Nat.eq_of_testBit_eq
  intro i
  rw [Nat.testBit_mod_two_pow, Nat.testBit_mod_two_pow, Nat.testBit_xor, Nat.testBit_two_pow]
  rcases Nat.lt_or_ge i (mw + ew) with h | h
  · have : ¬ (mw + ew = i) := by omega
    simp [h, this]
  · simp [not_lt.2 h]

@[simp] theorem neg_neg (x : Flt mw ew) : x.neg.neg = x :=
  ext_sgn_idx (by rw [sgn_neg, sgn_neg]; simp) (by rw [idx_neg, idx_neg])

@[simp] theorem isNaN_neg (x : Flt mw ew) : x.neg.isNaN = x.isNaN := by simp [isNaN, idx_neg]
@[simp] theorem isInf_neg (x : Flt mw ew) : x.neg.isInf = x.isInf := by simp [isInf, idx_neg]
@[simp] theorem isFin_neg (x : Flt mw ew) : x.neg.isFin = x.isFin := by simp [isFin, idx_neg]
@[simp] theorem isZero_neg (x : Flt mw ew) : x.neg.isZero = x.isZero := by simp [isZero, idx_neg]

theorem key_neg (x : Flt mw ew) : x.neg.key = - x.key := by
  unfold key; rw [sgn_neg, idx_neg]; cases x.sgn <;> simp

theorem sval_neg (x : Flt mw ew) : x.neg.sval = - x.sval := by
  unfold sval; rw [sgn_neg, idx_neg]; cases x.sgn <;> simp

theorem sgn_iabs (x : Flt mw ew) : x.iabs.sgn = false := sgn_ofIdx x.idx_lt
theorem idx_iabs (x : Flt mw ew) : x.iabs.idx = x.idx := idx_ofIdx x.idx_lt

/-! ### classification -/

theorem isFin_iff {x : Flt mw ew} : x.isFin = true ↔ x.idx < infIdx mw ew := by simp [isFin]
theorem isInf_iff {x : Flt mw ew} : x.isInf = true ↔ x.idx = infIdx mw ew := by simp [isInf]
theorem isNaN_iff {x : Flt mw ew} : x.isNaN = true ↔ infIdx mw ew < x.idx := by simp [isNaN]
theorem notNaN_iff {x : Flt mw ew} : x.isNaN = false ↔ x.idx ≤ infIdx mw ew := by simp [isNaN]
theorem notInf_iff {x : Flt mw ew} : x.isInf = false ↔ x.idx ≠ infIdx mw ew := by simp [isInf]
theorem isZero_iff {x : Flt mw ew} : x.isZero = true ↔ x.idx = 0 := by simp [isZero]
theorem notZero_iff {x : Flt mw ew} : x.isZero = false ↔ x.idx ≠ 0 := by simp [isZero]

theorem notNaN_of_isFin {x : Flt mw ew} (h : x.isFin = true) : x.isNaN = false := by
  rw [isFin_iff] at h; rw [notNaN_iff]; omega
theorem notInf_of_isFin {x : Flt mw ew} (h : x.isFin = true) : x.isInf = false := by
  rw [isFin_iff] at h; rw [notInf_iff]; omega

/-- Position of `+∞` in the order. -/
abbrev kInf (mw ew : Nat) : ℤ := (infIdx mw ew : ℤ)

theorem kInf_pos [Fmt mw ew] : 2 < kInf mw ew := by
  have := two_lt_infIdx (mw := mw) (ew := ew); unfold kInf; omega

theorem key_natAbs (x : Flt mw ew) : x.key.natAbs = x.idx := by
  unfold key; split <;> simp

theorem key_bounds {x : Flt mw ew} (h : x.isNaN = false) : -kInf mw ew ≤ x.key ∧ x.key ≤ kInf mw ew := by
  rw [notNaN_iff] at h
  unfold key kInf; split <;> omega

theorem isFin_iff_key {x : Flt mw ew} : x.isFin = true ↔ -kInf mw ew < x.key ∧ x.key < kInf mw ew := by
  rw [isFin_iff, ← key_natAbs]; unfold kInf; omega

theorem isZero_iff_key {x : Flt mw ew} : x.isZero = true ↔ x.key = 0 := by
  rw [isZero_iff, ← key_natAbs]; omega

theorem isInf_iff_key {x : Flt mw ew} : x.isInf = true ↔ x.key = kInf mw ew ∨ x.key = -kInf mw ew := by
  rw [isInf_iff, ← key_natAbs]; unfold kInf; omega

/-! ### comparisons -/

theorem lt_iff {x y : Flt mw ew} : x.lt y = true ↔ x.isNaN = false ∧ y.isNaN = false ∧ x.key < y.key := by
  simp [lt, and_assoc]
theorem le_iff {x y : Flt mw ew} : x.le y = true ↔ x.isNaN = false ∧ y.isNaN = false ∧ x.key ≤ y.key := by
  simp [le, and_assoc]
theorem feq_iff {x y : Flt mw ew} : x.feq y = true ↔ x.isNaN = false ∧ y.isNaN = false ∧ x.key = y.key := by
  simp [feq, and_assoc]

/-! ### packing -/

theorem isNaN_pack (s : Bool) (i : Nat) : (pack mw ew s i).isNaN = false := by
  rw [notNaN_iff]; unfold pack
  rw [idx_ofIdx (lt_of_le_of_lt (Nat.min_le_right _ _) (infIdx_lt mw ew))]
  exact Nat.min_le_right _ _

theorem idx_pack (s : Bool) (i : Nat) : (pack mw ew s i).idx = min i (infIdx mw ew) :=
  idx_ofIdx (lt_of_le_of_lt (Nat.min_le_right _ _) (infIdx_lt mw ew))

theorem sgn_pack (s : Bool) (i : Nat) : (pack mw ew s i).sgn = s :=
  sgn_ofIdx (lt_of_le_of_lt (Nat.min_le_right _ _) (infIdx_lt mw ew))

theorem key_pack (s : Bool) (i : Nat) :
    (pack mw ew s i).key = if s then -((min i (infIdx mw ew) : Nat) : ℤ) else ((min i (infIdx mw ew) : Nat) : ℤ) := by
  unfold key; rw [sgn_pack, idx_pack]

theorem isNaN_nan [Fmt mw ew] : (nan mw ew).isNaN = true := by
  rw [isNaN_iff]; unfold nan
  have h1 := infIdx_add mw ew
  have h2 : 2 ^ (mw - 1) < 2 ^ mw := Nat.pow_lt_pow_right (by decide) (by have := ‹Fmt mw ew›.hmw; omega)
  have h3 := Nat.two_pow_pos (mw - 1)
  rw [idx_ofIdx (by omega)]; omega

theorem key_inf (s : Bool) : (inf mw ew s).key = if s then -kInf mw ew else kInf mw ew := by
  unfold key inf; rw [sgn_ofIdx (infIdx_lt _ _), idx_ofIdx (infIdx_lt _ _)]
theorem isNaN_inf (s : Bool) : (inf mw ew s).isNaN = false := by
  rw [notNaN_iff]; unfold inf; rw [idx_ofIdx (infIdx_lt _ _)]
theorem isInf_inf (s : Bool) : (inf mw ew s).isInf = true := by
  rw [isInf_iff]; unfold inf; rw [idx_ofIdx (infIdx_lt _ _)]
theorem key_zero (s : Bool) : (zero mw ew s).key = 0 := by
  unfold key zero; rw [idx_ofIdx (Nat.two_pow_pos _)]; split <;> rfl
theorem isFin_zero [Fmt mw ew] (s : Bool) : (zero mw ew s).isFin = true := by
  rw [isFin_iff]; unfold zero; rw [idx_ofIdx (Nat.two_pow_pos _)]
  have := two_lt_infIdx (mw := mw) (ew := ew); omega

/-! ### the real value of a float -/

/-- The real number denoted by a finite float. -/
noncomputable def toReal (x : Flt mw ew) : ℝ :=
  (if x.sgn then -1 else 1) * (magN mw x.idx : ℝ) / 2 ^ fK mw ew

/-- Exponent bias. -/
def bias (ew : Nat) : Nat := 2 ^ (ew - 1) - 1

/-- `toReal` is the IEEE-754 value: normal numbers. -/
theorem toReal_normal [h : Fmt mw ew] (x : Flt mw ew) (hn : 2 ^ mw ≤ x.idx) :
    x.toReal = (if x.sgn then -1 else 1) * (1 + (x.idx % 2 ^ mw : Nat) / 2 ^ mw) *
      (2 : ℝ) ^ (((x.idx / 2 ^ mw : Nat) : ℤ) - (bias ew : ℤ)) := by
  rcases idx_cases mw x.idx with h1 | ⟨e, m, hm, hi⟩
  · omega
  · have hp : 0 < 2 ^ mw := Nat.two_pow_pos mw
    have hmod : x.idx % 2 ^ mw = m := by
      rw [hi, Nat.mul_comm, Nat.mul_add_mod, Nat.mod_eq_of_lt hm]
    have hdiv : x.idx / 2 ^ mw = e + 1 := by
      rw [hi, Nat.mul_comm, Nat.mul_add_div hp, Nat.div_eq_of_lt hm, Nat.add_zero]
    have hK : fK mw ew = mw + bias ew - 1 := rfl
    have hmw := h.hmw
    have hexp : (2 : ℝ) ^ (((e + 1 : Nat) : ℤ) - (bias ew : ℤ)) = 2 ^ e * 2 ^ mw / 2 ^ (fK mw ew) := by
      rw [eq_div_iff (by positivity), ← zpow_natCast, ← zpow_natCast, ← zpow_natCast,
        ← zpow_add₀ (by norm_num), ← zpow_add₀ (by norm_num)]
      congr 1
      rw [hK]; omega
    unfold toReal
    rw [hmod, hdiv, hexp, hi, magN_block mw e m (Nat.le_of_lt hm)]
    push_cast
    field_simp

/-- `toReal` is the IEEE-754 value: subnormal numbers and zero. -/
theorem toReal_subnormal [h : Fmt mw ew] (x : Flt mw ew) (hn : x.idx < 2 ^ mw) :
    x.toReal = (if x.sgn then -1 else 1) * ((x.idx : ℝ) / 2 ^ mw) * (2 : ℝ) ^ (1 - (bias ew : ℤ)) := by
  have hK : fK mw ew = mw + bias ew - 1 := rfl
  have hmw := h.hmw
  have hexp : (2 : ℝ) ^ (1 - (bias ew : ℤ)) = 2 ^ mw / 2 ^ (fK mw ew) := by
    rw [eq_div_iff (by positivity), ← zpow_natCast, ← zpow_natCast, ← zpow_add₀ (by norm_num)]
    congr 1
    rw [hK]; omega
  unfold toReal
  rw [magN_of_lt hn, hexp]
  field_simp

theorem toReal_eq_key (x : Flt mw ew) : x.toReal = valZ mw x.key / 2 ^ fK mw ew := by
  unfold toReal
  have h : valZ mw x.key = (if x.sgn then -1 else 1) * (magN mw x.idx : ℝ) := by
    unfold key
    cases x.sgn
    · simp [valZ_nat]
    · simp [valZ_neg, valZ_nat]
  rw [h]

theorem toReal_neg (x : Flt mw ew) : x.neg.toReal = - x.toReal := by
  rw [toReal_eq_key, toReal_eq_key, key_neg, valZ_neg]; ring

theorem sval_cast (x : Flt mw ew) : (x.sval : ℝ) = x.toReal * 2 ^ fK mw ew := by
  unfold toReal sval
  cases x.sgn <;> simp

theorem toReal_lt_iff {x y : Flt mw ew} : x.toReal < y.toReal ↔ x.key < y.key := by
  rw [toReal_eq_key, toReal_eq_key, div_lt_div_iff_of_pos_right (by positivity), valZ_lt]
theorem toReal_le_iff {x y : Flt mw ew} : x.toReal ≤ y.toReal ↔ x.key ≤ y.key := by
  rw [toReal_eq_key, toReal_eq_key, div_le_div_iff_of_pos_right (by positivity), valZ_le]
theorem toReal_eq_iff {x y : Flt mw ew} : x.toReal = y.toReal ↔ x.key = y.key := by
  rw [le_antisymm_iff, le_antisymm_iff, toReal_le_iff, toReal_le_iff]
theorem toReal_nonneg_iff {x : Flt mw ew} : 0 ≤ x.toReal ↔ 0 ≤ x.key := by
  rw [toReal_eq_key, le_div_iff₀ (by positivity), zero_mul, valZ_nonneg]
theorem toReal_pos_iff {x : Flt mw ew} : 0 < x.toReal ↔ 0 < x.key := by
  rw [toReal_eq_key, lt_div_iff₀ (by positivity), zero_mul, valZ_pos]
theorem toReal_eq_zero_iff {x : Flt mw ew} : x.toReal = 0 ↔ x.key = 0 := by
  rw [← key_zero (mw := mw) (ew := ew) false, ← toReal_eq_iff]
  have : (zero mw ew false).toReal = 0 := by rw [toReal_eq_key, key_zero]; simp
  rw [this]

/-! ### rounding a real to a float position -/

/-- Position of the float nearest to the real `r` (ties to even, overflow to `±∞`). -/
noncomputable def rndK (mw ew : Nat) (r : ℝ) : ℤ :=
  max (-kInf mw ew) (min (kInf mw ew) (rndZ mw (r * 2 ^ fK mw ew)))

theorem rndK_mono (mw ew : Nat) : Monotone (rndK mw ew) := by
  intro a b hab
  have : rndZ mw (a * 2 ^ fK mw ew) ≤ rndZ mw (b * 2 ^ fK mw ew) :=
    rndZ_mono mw (mul_le_mul_of_nonneg_right hab (by positivity))
  unfold rndK; omega

theorem rndK_neg (mw ew : Nat) (r : ℝ) : rndK mw ew (-r) = - rndK mw ew r := by
  unfold rndK
  rw [neg_mul, rndZ_neg]
  unfold kInf; omega

theorem rndK_bounds (mw ew : Nat) (r : ℝ) : -kInf mw ew ≤ rndK mw ew r ∧ rndK mw ew r ≤ kInf mw ew := by
  unfold rndK kInf; omega

theorem rndK_zero (mw ew : Nat) : rndK mw ew 0 = 0 := by
  unfold rndK; rw [zero_mul, rndZ_zero]; unfold kInf; omega

theorem rndK_nonneg {r : ℝ} (h : 0 ≤ r) : 0 ≤ rndK mw ew r := by
  have := rndK_mono mw ew h; rwa [rndK_zero] at this
theorem rndK_nonpos {r : ℝ} (h : r ≤ 0) : rndK mw ew r ≤ 0 := by
  have := rndK_mono mw ew h; rwa [rndK_zero] at this

theorem rndK_toReal {x : Flt mw ew} (h : x.isNaN = false) : rndK mw ew x.toReal = x.key := by
  have := key_bounds h
  unfold rndK
  rw [toReal_eq_key, div_mul_cancel₀ _ (by positivity), rndZ_valZ]
  omega

/-- Anything that rounds like a float value `valZ k / 2^K`. -/
theorem rndK_valZ {k : ℤ} (h1 : -kInf mw ew ≤ k) (h2 : k ≤ kInf mw ew) :
    rndK mw ew (valZ mw k / 2 ^ fK mw ew) = k := by
  unfold rndK
  rw [div_mul_cancel₀ _ (by positivity), rndZ_valZ]; omega

/-- One step below the rounded value is at or below the exact value (unless it ran into `-∞`). -/
theorem rndK_pred_lt {r : ℝ} (h : rndK mw ew r ≠ -kInf mw ew) :
    valZ mw (rndK mw ew r - 1) / 2 ^ fK mw ew < r := by
  rw [div_lt_iff₀ (by positivity)]
  have h1 := (rndZ_faithful mw (r * 2 ^ fK mw ew)).1
  refine lt_of_le_of_lt (valZ_le.2 ?_) h1
  have hp : 0 ≤ kInf mw ew := Int.natCast_nonneg _
  unfold rndK at *; omega

theorem rndK_succ_gt {r : ℝ} (h : rndK mw ew r ≠ kInf mw ew) :
    r < valZ mw (rndK mw ew r + 1) / 2 ^ fK mw ew := by
  rw [lt_div_iff₀ (by positivity)]
  have h1 := (rndZ_faithful mw (r * 2 ^ fK mw ew)).2
  refine lt_of_lt_of_le h1 (valZ_le.2 ?_)
  have hp : 0 ≤ kInf mw ew := Int.natCast_nonneg _
  unfold rndK at *; omega

private theorem key_pack_rnd (s : Bool) {a : ℝ} (ha : 0 ≤ a) :
    (pack mw ew s (rndIdx mw (a * 2 ^ fK mw ew))).key = rndK mw ew (if s then -a else a) := by
  have h0 : 0 ≤ a * 2 ^ fK mw ew := by positivity
  rw [key_pack]
  cases s
  · simp only [Bool.false_eq_true, if_false]
    unfold rndK
    rw [rndZ_of_nonneg h0]; unfold kInf; omega
  · simp only [if_true]
    rw [rndK_neg]
    unfold rndK
    rw [rndZ_of_nonneg h0]; unfold kInf; omega

theorem toReal_abs (x : Flt mw ew) : (magN mw x.idx : ℝ) / 2 ^ fK mw ew = |x.toReal| := by
  unfold toReal
  have : (0 : ℝ) ≤ (magN mw x.idx : ℝ) / 2 ^ fK mw ew := by positivity
  cases x.sgn
  · simp only [Bool.false_eq_true, if_false, one_mul]; rw [abs_of_nonneg this]
  · simp only [if_true]; rw [mul_div_assoc, neg_one_mul, abs_neg, abs_of_nonneg this]

theorem toReal_sign (x : Flt mw ew) : x.toReal = if x.sgn then -|x.toReal| else |x.toReal| := by
  rw [← toReal_abs]; unfold toReal
  cases x.sgn <;> simp [neg_div]

private theorem sign_mul (s t : Bool) (a b : ℝ) :
    (if s then -a else a) * (if t then -b else b) = if (s != t) then -(a * b) else a * b := by
  cases s <;> cases t <;> simp
private theorem sign_div (s t : Bool) (a b : ℝ) :
    (if s then -a else a) / (if t then -b else b) = if (s != t) then -(a / b) else a / b := by
  cases s <;> cases t <;> simp [neg_div, div_neg]

/-! ### the operations -/

theorem add_fin {x y : Flt mw ew} (hx : x.isFin = true) (hy : y.isFin = true) [Fmt mw ew] :
    (x.add y).isNaN = false ∧ (x.add y).key = rndK mw ew (x.toReal + y.toReal) := by
  have hs : ((x.sval + y.sval : ℤ) : ℝ) = (x.toReal + y.toReal) * 2 ^ fK mw ew := by
    push_cast; rw [sval_cast, sval_cast]; ring
  unfold add
  rw [notNaN_of_isFin hx, notNaN_of_isFin hy, notInf_of_isFin hx, notInf_of_isFin hy]
  simp only [Bool.or_self, Bool.false_eq_true, if_false]
  split
  · rename_i h0
    refine ⟨notNaN_of_isFin (isFin_zero _), ?_⟩
    have : x.toReal + y.toReal = 0 := by
      rw [h0] at hs
      have h2 : (2 : ℝ) ^ fK mw ew ≠ 0 := by positivity
      simp only [Int.cast_zero, zero_eq_mul, h2, or_false] at hs
      exact hs
    rw [key_zero, this, rndK_zero]
  · rename_i h0
    refine ⟨isNaN_pack _ _, ?_⟩
    rw [roundRat_eq _ _ _ Nat.one_pos, Nat.cast_one, div_one]
    generalize hr : x.toReal + y.toReal = r at *
    have ha : ((x.sval + y.sval).natAbs : ℝ) = |r| * 2 ^ fK mw ew := by
      rw [Nat.cast_natAbs, Int.cast_abs, hs, abs_mul, abs_of_pos (a := (2 : ℝ) ^ fK mw ew) (by positivity)]
    rw [ha, key_pack_rnd _ (abs_nonneg r)]
    congr 1
    by_cases hneg : x.sval + y.sval < 0
    · have : r < 0 := by
        have : ((x.sval + y.sval : ℤ) : ℝ) < 0 := by exact_mod_cast hneg
        rw [hs] at this
        by_contra hc
        have : 0 ≤ r * 2 ^ fK mw ew := mul_nonneg (not_lt.1 hc) (by positivity)
        linarith
      simp only [hneg, decide_true, if_true]; rw [abs_of_neg this]; ring
    · have : 0 ≤ r := by
        have : (0 : ℝ) ≤ ((x.sval + y.sval : ℤ) : ℝ) := by exact_mod_cast not_lt.1 hneg
        rw [hs] at this
        by_contra hc
        have : r * 2 ^ fK mw ew < 0 := mul_neg_of_neg_of_pos (not_le.1 hc) (by positivity)
        linarith
      simp only [hneg, decide_false, Bool.false_eq_true, if_false]; rw [abs_of_nonneg this]

theorem sub_fin {x y : Flt mw ew} (hx : x.isFin = true) (hy : y.isFin = true) [Fmt mw ew] :
    (x.sub y).isNaN = false ∧ (x.sub y).key = rndK mw ew (x.toReal - y.toReal) := by
  have := add_fin hx (y := y.neg) (by simpa using hy)
  rw [toReal_neg, ← sub_eq_add_neg] at this
  exact this

theorem mul_fin {x y : Flt mw ew} (hx : x.isFin = true) (hy : y.isFin = true) :
    (x.mul y).isNaN = false ∧ (x.mul y).key = rndK mw ew (x.toReal * y.toReal) := by
  unfold mul
  rw [notNaN_of_isFin hx, notNaN_of_isFin hy, notInf_of_isFin hx, notInf_of_isFin hy]
  simp only [Bool.or_self, Bool.false_eq_true, if_false]
  refine ⟨isNaN_pack _ _, ?_⟩
  rw [roundRat_eq _ _ _ (Nat.two_pow_pos _)]
  have : ((magN mw x.idx * magN mw y.idx : Nat) : ℝ) / ((2 ^ fK mw ew : Nat) : ℝ)
      = (|x.toReal| * |y.toReal|) * 2 ^ fK mw ew := by
    rw [← toReal_abs, ← toReal_abs]; push_cast; field_simp
  rw [this, key_pack_rnd _ (by positivity)]
  rw [toReal_sign x, toReal_sign y, sign_mul, ← toReal_sign x, ← toReal_sign y]

theorem div_fin {x y : Flt mw ew} (hx : x.isFin = true) (hy : y.isFin = true) (h0 : y.key ≠ 0) :
    (x.div y).isNaN = false ∧ (x.div y).key = rndK mw ew (x.toReal / y.toReal) := by
  have hz : y.isZero = false := by
    rw [notZero_iff, ← key_natAbs]; omega
  unfold div
  rw [notNaN_of_isFin hx, notNaN_of_isFin hy, notInf_of_isFin hx, notInf_of_isFin hy, hz]
  simp only [Bool.or_self, Bool.false_eq_true, if_false]
  refine ⟨isNaN_pack _ _, ?_⟩
  rw [notZero_iff] at hz
  have hpos := magN_pos (mw := mw) (Nat.pos_of_ne_zero hz)
  rw [roundRat_eq _ _ _ hpos]
  have hpos' : (0 : ℝ) < magN mw y.idx := by exact_mod_cast hpos
  have : ((magN mw x.idx * 2 ^ fK mw ew : Nat) : ℝ) / (magN mw y.idx : ℝ)
      = (|x.toReal| / |y.toReal|) * 2 ^ fK mw ew := by
    rw [← toReal_abs, ← toReal_abs]; push_cast; field_simp
  rw [this, key_pack_rnd _ (by positivity)]
  rw [toReal_sign x, toReal_sign y, sign_div, ← toReal_sign x, ← toReal_sign y]

theorem sqrt_fin {x : Flt mw ew} (hx : x.isFin = true) (h0 : 0 ≤ x.key) :
    x.sqrt.isNaN = false ∧ x.sqrt.key = rndK mw ew (Real.sqrt x.toReal) := by
  unfold sqrt
  rw [notNaN_of_isFin hx, notInf_of_isFin hx]
  simp only [Bool.false_eq_true, if_false]
  split
  · rename_i hz
    refine ⟨notNaN_of_isFin hx, ?_⟩
    rw [isZero_iff_key] at hz
    rw [toReal_eq_zero_iff.2 hz, Real.sqrt_zero, rndK_zero, hz]
  · rename_i hz
    have hs : x.sgn = false := by
      rw [isZero_iff] at hz
      unfold key at h0
      cases hsg : x.sgn
      · rfl
      · rw [hsg] at h0; simp only [if_true] at h0; omega
    rw [hs]
    simp only [Bool.false_eq_true, if_false]
    refine ⟨isNaN_pack _ _, ?_⟩
    rw [roundSqrt_eq]
    have hnn : 0 ≤ x.toReal := toReal_nonneg_iff.2 h0
    have : Real.sqrt ((magN mw x.idx * 2 ^ fK mw ew : Nat) : ℝ) = Real.sqrt x.toReal * 2 ^ fK mw ew := by
      have h1 : ((magN mw x.idx * 2 ^ fK mw ew : Nat) : ℝ) = x.toReal * (2 ^ fK mw ew) ^ 2 := by
        have : (magN mw x.idx : ℝ) / 2 ^ fK mw ew = x.toReal := by rw [toReal_abs, abs_of_nonneg hnn]
        rw [← this]; push_cast; field_simp
      rw [h1, Real.sqrt_mul hnn, Real.sqrt_sq (by positivity)]
    rw [this, key_pack_rnd false (Real.sqrt_nonneg _)]
    simp

theorem ofRat_key (s : Bool) (n d : Nat) (hd : 0 < d) :
    (ofRat mw ew s n d).isNaN = false ∧
    (ofRat mw ew s n d).key = rndK mw ew (if s then -((n : ℝ) / d) else (n : ℝ) / d) := by
  unfold ofRat
  refine ⟨isNaN_pack _ _, ?_⟩
  rw [roundRat_eq _ _ _ hd]
  have : ((n * 2 ^ fK mw ew : Nat) : ℝ) / (d : ℝ) = ((n : ℝ) / d) * 2 ^ fK mw ew := by
    push_cast; ring
  rw [this, key_pack_rnd _ (by positivity)]

theorem ofInt_key (n : ℤ) :
    (ofInt mw ew n).isNaN = false ∧ (ofInt mw ew n).key = rndK mw ew n := by
  unfold ofInt
  obtain ⟨h1, h2⟩ := ofRat_key (mw := mw) (ew := ew) (decide (n < 0)) n.natAbs 1 Nat.one_pos
  refine ⟨h1, h2.trans ?_⟩
  congr 1
  rw [Nat.cast_natAbs, Nat.cast_one, div_one]
  by_cases h : n < 0
  · simp only [h, decide_true, if_true]; rw [abs_of_neg h]; push_cast; ring
  · simp only [h, decide_false, Bool.false_eq_true, if_false]; rw [abs_of_nonneg (not_lt.1 h)]

theorem cast_fin {mw' ew' : Nat} {x : Flt mw ew} (hx : x.isFin = true) :
    (x.cast mw' ew').isNaN = false ∧ (x.cast mw' ew').key = rndK mw' ew' x.toReal := by
  unfold cast
  rw [notNaN_of_isFin hx, notInf_of_isFin hx]
  simp only [Bool.false_eq_true, if_false]
  refine ⟨isNaN_pack _ _, ?_⟩
  rw [roundRat_eq _ _ _ (Nat.two_pow_pos _)]
  have : ((magN mw x.idx * 2 ^ fK mw' ew' : Nat) : ℝ) / ((2 ^ fK mw ew : Nat) : ℝ)
      = |x.toReal| * 2 ^ fK mw' ew' := by
    rw [← toReal_abs]; push_cast; ring
  rw [this, key_pack_rnd _ (abs_nonneg _), ← toReal_sign x]

end Flt
end Scarlet
