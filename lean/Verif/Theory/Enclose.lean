import Verif.Theory.Flt
import Verif.Spec.Float

/-! Outward widening by one float encloses, operations with infinite operands, exactness of representable results. -/

namespace Scarlet
namespace Flt
variable {mw ew : Nat}

section next
variable [FltImpl mw ew] [LawfulFlt mw ew]

theorem nextUp_key {x : Flt mw ew} (h : x.isNaN = false) :
    (GFloat.nextUp x).isNaN = false ∧ (GFloat.nextUp x).key = min (x.key + 1) (kInf mw ew) := by
  have := nextUpG_spec h
  rw [← LawfulFlt.nextUp_eq] at this
  exact this

theorem nextDown_key {x : Flt mw ew} (h : x.isNaN = false) :
    (GFloat.nextDown x).isNaN = false ∧ (GFloat.nextDown x).key = max (x.key - 1) (-kInf mw ew) := by
  have := nextDownG_spec h
  rw [← LawfulFlt.nextDown_eq] at this
  exact this

theorem nextUp_nan {x : Flt mw ew} (h : x.isNaN = true) : GFloat.nextUp x = x :=
  (LawfulFlt.nextUp_eq x).trans (nextUpG_nan h)
theorem nextDown_nan {x : Flt mw ew} (h : x.isNaN = true) : GFloat.nextDown x = x :=
  (LawfulFlt.nextDown_eq x).trans (nextDownG_nan h)

theorem isNaN_nextUp (x : Flt mw ew) : (GFloat.nextUp x).isNaN = x.isNaN := by
  cases h : x.isNaN
  · exact (nextUp_key h).1
  · rw [nextUp_nan h, h]
theorem isNaN_nextDown (x : Flt mw ew) : (GFloat.nextDown x).isNaN = x.isNaN := by
  cases h : x.isNaN
  · exact (nextDown_key h).1
  · rw [nextDown_nan h, h]

/-- Key-level lower bound. -/
theorem lowerOf_of_key {l : Flt mw ew} {r : ℝ} (hn : l.isNaN = false)
    (h : l.key ≤ max (rndK mw ew r - 1) (-kInf mw ew)) : LowerOf l r := by
  rw [lowerOf_iff]
  refine ⟨hn, ?_⟩
  have hb := key_bounds hn
  have hr := rndK_bounds mw ew r
  have hp := kInf_pos (mw := mw) (ew := ew)
  by_cases hk : l.key = -kInf mw ew
  · exact Or.inl hk
  · right
    have hlt : l.key ≤ rndK mw ew r - 1 := by omega
    have hfin : l.isFin = true := isFin_iff_key.2 ⟨by omega, by omega⟩
    refine ⟨hfin, ?_⟩
    have h1 := rndK_pred_lt (mw := mw) (ew := ew) (r := r) (by omega)
    rw [toReal_eq_key]
    refine le_trans ?_ h1.le
    exact div_le_div_of_nonneg_right (valZ_le.2 hlt) (by positivity)

theorem upperOf_of_key {u : Flt mw ew} {r : ℝ} (hn : u.isNaN = false)
    (h : min (rndK mw ew r + 1) (kInf mw ew) ≤ u.key) : UpperOf u r := by
  rw [upperOf_iff]
  refine ⟨hn, ?_⟩
  have hb := key_bounds hn
  have hr := rndK_bounds mw ew r
  have hp := kInf_pos (mw := mw) (ew := ew)
  by_cases hk : u.key = kInf mw ew
  · exact Or.inl hk
  · right
    have hlt : rndK mw ew r + 1 ≤ u.key := by omega
    have hfin : u.isFin = true := isFin_iff_key.2 ⟨by omega, by omega⟩
    refine ⟨hfin, ?_⟩
    have h1 := rndK_succ_gt (mw := mw) (ew := ew) (r := r) (by omega)
    rw [toReal_eq_key]
    refine le_trans h1.le ?_
    exact div_le_div_of_nonneg_right (valZ_le.2 hlt) (by positivity)

/-- If `z` is at or below the rounding of some `r0 ≤ r` then one step down is a lower bound of `r`. -/
theorem lower_step {z : Flt mw ew} {r0 r : ℝ} (hn : z.isNaN = false) (hk : z.key ≤ rndK mw ew r0) (h : r0 ≤ r) :
    LowerOf (GFloat.nextDown z) r := by
  have h1 := nextDown_key hn
  apply lowerOf_of_key h1.1
  have := rndK_mono mw ew h
  omega

theorem upper_step {z : Flt mw ew} {r0 r : ℝ} (hn : z.isNaN = false) (hk : rndK mw ew r0 ≤ z.key) (h : r ≤ r0) :
    UpperOf (GFloat.nextUp z) r := by
  have h1 := nextUp_key hn
  apply upperOf_of_key h1.1
  have := rndK_mono mw ew h
  omega

theorem lower_step_bot {z : Flt mw ew} {r : ℝ} (hn : z.isNaN = false) (hk : z.key = -kInf mw ew) :
    LowerOf (GFloat.nextDown z) r := by
  have h1 := nextDown_key hn
  rw [lowerOf_iff]
  exact ⟨h1.1, Or.inl (by omega)⟩

theorem upper_step_top {z : Flt mw ew} {r : ℝ} (hn : z.isNaN = false) (hk : z.key = kInf mw ew) :
    UpperOf (GFloat.nextUp z) r := by
  have h1 := nextUp_key hn
  rw [upperOf_iff]
  exact ⟨h1.1, Or.inl (by omega)⟩

end next

/-! ### operator notation -/

theorem add_def (x y : Flt mw ew) : x + y = x.add y := rfl
theorem sub_def (x y : Flt mw ew) : x - y = x.sub y := rfl
theorem mul_def (x y : Flt mw ew) : x * y = x.mul y := rfl
theorem div_def (x y : Flt mw ew) : x / y = x.div y := rfl
theorem neg_def (x : Flt mw ew) : -x = x.neg := rfl
theorem key_negop (x : Flt mw ew) : (-x).key = -x.key := key_neg x
theorem isNaN_negop (x : Flt mw ew) : (-x).isNaN = x.isNaN := isNaN_neg x
theorem isFin_negop (x : Flt mw ew) : (-x).isFin = x.isFin := isFin_neg x
theorem toReal_negop (x : Flt mw ew) : (-x).toReal = -x.toReal := toReal_neg x
theorem sqrt_def [FltImpl mw ew] (x : Flt mw ew) : GFloat.sqrt x = x.sqrt := rfl

/-! ### operations with infinities -/

theorem sgn_of_key_pos {x : Flt mw ew} (h : 0 < x.key) : x.sgn = false := by
  unfold key at h; cases hs : x.sgn
  · rfl
  · rw [hs] at h; simp only [if_true] at h; omega
theorem sgn_of_key_neg {x : Flt mw ew} (h : x.key < 0) : x.sgn = true := by
  unfold key at h; cases hs : x.sgn
  · rw [hs] at h; simp only [Bool.false_eq_true, if_false] at h; omega
  · rfl

theorem add_bot_left [Fmt mw ew] {x y : Flt mw ew} (hx : x.isNaN = false) (hy : y.isNaN = false)
    (h : x.key = -kInf mw ew) (h' : y.key ≠ kInf mw ew) :
    (x + y).isNaN = false ∧ (x + y).key = -kInf mw ew := by
  have hp := kInf_pos (mw := mw) (ew := ew)
  have hxi : x.isInf = true := isInf_iff_key.2 (Or.inr h)
  have hxs : x.sgn = true := sgn_of_key_neg (by omega)
  rw [add_def]; unfold add
  rw [hx, hy, hxi]
  simp only [Bool.or_self, Bool.false_eq_true, if_false, if_true]
  have : (y.isInf && (x.sgn != y.sgn)) = false := by
    cases hyi : y.isInf
    · rfl
    · have hy2 : y.key = -kInf mw ew := by
        rcases isInf_iff_key.1 hyi with h1 | h1
        · exact absurd h1 h'
        · exact h1
      rw [hxs, sgn_of_key_neg (x := y) (by omega)]; rfl
  rw [this]
  simp only [Bool.false_eq_true, if_false]
  exact ⟨hx, h⟩

theorem add_bot_right [Fmt mw ew] {x y : Flt mw ew} (hx : x.isNaN = false) (hy : y.isNaN = false)
    (h : y.key = -kInf mw ew) (h' : x.key ≠ kInf mw ew) :
    (x + y).isNaN = false ∧ (x + y).key = -kInf mw ew := by
  have hp := kInf_pos (mw := mw) (ew := ew)
  by_cases hxb : x.key = -kInf mw ew
  · exact add_bot_left hx hy hxb (by omega)
  · have hxi : x.isInf = false := by
      rw [Bool.eq_false_iff, ne_eq, isInf_iff_key]; omega
    have hyi : y.isInf = true := isInf_iff_key.2 (Or.inr h)
    rw [add_def]; unfold add
    rw [hx, hy, hxi, hyi]
    simp only [Bool.or_self, Bool.false_eq_true, if_false, if_true]
    exact ⟨hy, h⟩

theorem add_top_left [Fmt mw ew] {x y : Flt mw ew} (hx : x.isNaN = false) (hy : y.isNaN = false)
    (h : x.key = kInf mw ew) (h' : y.key ≠ -kInf mw ew) :
    (x + y).isNaN = false ∧ (x + y).key = kInf mw ew := by
  have hp := kInf_pos (mw := mw) (ew := ew)
  have hxi : x.isInf = true := isInf_iff_key.2 (Or.inl h)
  have hxs : x.sgn = false := sgn_of_key_pos (by omega)
  rw [add_def]; unfold add
  rw [hx, hy, hxi]
  simp only [Bool.or_self, Bool.false_eq_true, if_false, if_true]
  have : (y.isInf && (x.sgn != y.sgn)) = false := by
    cases hyi : y.isInf
    · rfl
    · have hy2 : y.key = kInf mw ew := by
        rcases isInf_iff_key.1 hyi with h1 | h1
        · exact h1
        · exact absurd h1 h'
      rw [hxs, sgn_of_key_pos (x := y) (by omega)]; rfl
  rw [this]
  simp only [Bool.false_eq_true, if_false]
  exact ⟨hx, h⟩

theorem add_top_right [Fmt mw ew] {x y : Flt mw ew} (hx : x.isNaN = false) (hy : y.isNaN = false)
    (h : y.key = kInf mw ew) (h' : x.key ≠ -kInf mw ew) :
    (x + y).isNaN = false ∧ (x + y).key = kInf mw ew := by
  have hp := kInf_pos (mw := mw) (ew := ew)
  by_cases hxb : x.key = kInf mw ew
  · exact add_top_left hx hy hxb (by omega)
  · have hxi : x.isInf = false := by
      rw [Bool.eq_false_iff, ne_eq, isInf_iff_key]; omega
    have hyi : y.isInf = true := isInf_iff_key.2 (Or.inl h)
    rw [add_def]; unfold add
    rw [hx, hy, hxi, hyi]
    simp only [Bool.or_self, Bool.false_eq_true, if_false, if_true]
    exact ⟨hy, h⟩

theorem sub_eq_add_neg (x y : Flt mw ew) : x - y = x + (-y) := rfl

/-- NaN operands give NaN. -/
theorem isNaN_add_of_left [Fmt mw ew] {x y : Flt mw ew} (h : x.isNaN = true) : (x + y).isNaN = true := by
  rw [add_def]; unfold add; rw [h]; simp only [Bool.true_or, if_true]; exact isNaN_nan
theorem isNaN_add_of_right [Fmt mw ew] {x y : Flt mw ew} (h : y.isNaN = true) : (x + y).isNaN = true := by
  rw [add_def]; unfold add; rw [h]; simp only [Bool.or_true, if_true]; exact isNaN_nan
theorem isNaN_mul_of_left [Fmt mw ew] {x y : Flt mw ew} (h : x.isNaN = true) : (x * y).isNaN = true := by
  rw [mul_def]; unfold mul; rw [h]; simp only [Bool.true_or, if_true]; exact isNaN_nan
theorem isNaN_mul_of_right [Fmt mw ew] {x y : Flt mw ew} (h : y.isNaN = true) : (x * y).isNaN = true := by
  rw [mul_def]; unfold mul; rw [h]; simp only [Bool.or_true, if_true]; exact isNaN_nan
theorem isNaN_div_of_left [Fmt mw ew] {x y : Flt mw ew} (h : x.isNaN = true) : (x / y).isNaN = true := by
  rw [div_def]; unfold div; rw [h]; simp only [Bool.true_or, if_true]; exact isNaN_nan
theorem isNaN_div_of_right [Fmt mw ew] {x y : Flt mw ew} (h : y.isNaN = true) : (x / y).isNaN = true := by
  rw [div_def]; unfold div; rw [h]; simp only [Bool.or_true, if_true]; exact isNaN_nan

/-- Multiplication with an infinite operand. -/
theorem mul_inf [Fmt mw ew] {x y : Flt mw ew} (hx : x.isNaN = false) (hy : y.isNaN = false)
    (hi : x.isInf = true ∨ y.isInf = true) :
    ((x.key = 0 ∨ y.key = 0) → (x * y).isNaN = true) ∧
    ((x.key ≠ 0 ∧ y.key ≠ 0) → (x * y).isNaN = false ∧
      (x * y).key = if (0 < x.key ↔ 0 < y.key) then kInf mw ew else -kInf mw ew) := by
  have hor : (x.isInf || y.isInf) = true := by rcases hi with h | h <;> simp [h]
  rw [mul_def]; unfold mul
  rw [hx, hy, hor]
  simp only [Bool.or_self, Bool.false_eq_true, if_false, if_true]
  constructor
  · intro h
    have : (x.isZero || y.isZero) = true := by
      rcases h with h | h
      · rw [isZero_iff_key.2 h]; rfl
      · rw [isZero_iff_key.2 h]; simp
    rw [this, if_pos rfl]; exact isNaN_nan
  · rintro ⟨h1, h2⟩
    have e1 : x.isZero = false := by rw [Bool.eq_false_iff, ne_eq, isZero_iff_key]; exact h1
    have e2 : y.isZero = false := by rw [Bool.eq_false_iff, ne_eq, isZero_iff_key]; exact h2
    rw [e1, e2]
    simp only [Bool.or_self, Bool.false_eq_true, if_false]
    refine ⟨isNaN_inf _, ?_⟩
    rw [key_inf]
    rcases lt_or_gt_of_ne h1 with h1 | h1 <;> rcases lt_or_gt_of_ne h2 with h2 | h2
    · rw [sgn_of_key_neg h1, sgn_of_key_neg h2]; simp [not_lt.2 h1.le, not_lt.2 h2.le]
    · rw [sgn_of_key_neg h1, sgn_of_key_pos h2]; simp [not_lt.2 h1.le, h2]
    · rw [sgn_of_key_pos h1, sgn_of_key_neg h2]; simp [not_lt.2 h2.le, h1]
    · rw [sgn_of_key_pos h1, sgn_of_key_pos h2]; simp [h1, h2]

/-- Division of a finite float by an infinite one. -/
theorem div_by_inf [Fmt mw ew] {x y : Flt mw ew} (hx : x.isFin = true) (hy : y.isInf = true) :
    (x / y).isNaN = false ∧ (x / y).key = 0 := by
  have hyn : y.isNaN = false := by rw [notNaN_iff]; rw [isInf_iff] at hy; omega
  rw [div_def]; unfold div
  rw [notNaN_of_isFin hx, hyn, notInf_of_isFin hx, hy]
  simp only [Bool.or_self, Bool.false_eq_true, if_false, if_true]
  exact ⟨notNaN_of_isFin (isFin_zero _), key_zero _⟩

/-! ### exact results -/

/-- `r` is the value of a finite float. -/
def Repr (mw ew : Nat) (r : ℝ) : Prop :=
  ∃ k : ℤ, -kInf mw ew < k ∧ k < kInf mw ew ∧ valZ mw k / 2 ^ fK mw ew = r

theorem repr_toReal {x : Flt mw ew} (h : x.isFin = true) : Repr mw ew x.toReal :=
  ⟨x.key, (isFin_iff_key.1 h).1, (isFin_iff_key.1 h).2, (toReal_eq_key x).symm⟩

theorem Repr.neg {r : ℝ} (h : Repr mw ew r) : Repr mw ew (-r) := by
  obtain ⟨k, h1, h2, h3⟩ := h
  exact ⟨-k, by omega, by omega, by rw [valZ_neg, neg_div, h3]⟩

/-- A result at the rounding of a representable value is finite and exact. -/
theorem exact_of_repr {z : Flt mw ew} {r : ℝ} (h : Repr mw ew r) (hk : z.key = rndK mw ew r) :
    z.isFin = true ∧ z.toReal = r := by
  obtain ⟨k, h1, h2, h3⟩ := h
  have : rndK mw ew r = k := by rw [← h3]; exact rndK_valZ h1.le h2.le
  rw [this] at hk
  exact ⟨isFin_iff_key.2 ⟨by omega, by omega⟩, by rw [toReal_eq_key, hk, h3]⟩

theorem magN_double (i : Nat) : ∃ j, magN mw j = 2 * magN mw i := by
  rcases Nat.lt_or_ge i (2 ^ mw) with h | h
  · rcases Nat.lt_or_ge (2 * i) (2 ^ mw) with h2 | h2
    · exact ⟨2 * i, by rw [magN_of_lt h, magN_of_lt h2]⟩
    · refine ⟨2 * i, ?_⟩
      have := magN_block mw 0 (2 * i - 2 ^ mw) (by omega)
      rw [show (0 + 1) * 2 ^ mw + (2 * i - 2 ^ mw) = 2 * i by omega] at this
      rw [this, magN_of_lt h]; simp; omega
  · rcases idx_cases mw i with h1 | ⟨e, m, hm, hi⟩
    · omega
    · refine ⟨(e + 1 + 1) * 2 ^ mw + m, ?_⟩
      rw [magN_block mw (e + 1) m hm.le, hi, magN_block mw e m hm.le, pow_succ]; ring

theorem exists_magN (m e : Nat) (hm : m ≤ 2 ^ (mw + 1)) : ∃ i, magN mw i = m * 2 ^ e := by
  induction e with
  | zero =>
    rcases Nat.lt_or_ge m (2 ^ mw) with h | h
    · exact ⟨m, by rw [magN_of_lt h]; simp⟩
    · refine ⟨m, ?_⟩
      have := magN_block mw 0 (m - 2 ^ mw) (by rw [pow_succ] at hm; omega)
      rw [show (0 + 1) * 2 ^ mw + (m - 2 ^ mw) = m by omega] at this
      rw [this]; simp; omega
  | succ e ih =>
    obtain ⟨i, hi⟩ := ih
    obtain ⟨j, hj⟩ := magN_double (mw := mw) i
    exact ⟨j, by rw [hj, hi, pow_succ]; ring⟩

/-- `m * 2^e / 2^K` with at most `mw+1` significant bits and below the overflow threshold is representable. -/
theorem repr_of_mul_pow {r : ℝ} (m e : Nat) (hm : m ≤ 2 ^ (mw + 1))
    (hlt : m * 2 ^ e < magN mw (infIdx mw ew)) (hr : r * 2 ^ fK mw ew = (m : ℝ) * 2 ^ e) : Repr mw ew r := by
  obtain ⟨i, hi⟩ := exists_magN (mw := mw) m e hm
  have hlt' : i < infIdx mw ew := by
    rw [← hi] at hlt
    exact (magN_strictMono mw).lt_iff_lt.1 hlt
  refine ⟨i, ?_, ?_, ?_⟩
  · unfold kInf; omega
  · unfold kInf; omega
  · rw [valZ_nat, div_eq_iff (by positivity), hr, hi]; push_cast; ring

end Flt
end Scarlet
