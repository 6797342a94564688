import Verif.Theory.Interval
import Verif.Props.Float3

/-! C11 – C16: interval arithmetic over floats encloses the exact real result.

`x ∈ A` means `A.inf ≤ x ≤ A.sup` in the extended reals for a *real* `x` (`Verif/Spec/Interval.lean`).  All theorems hold
for every binary format with lawful `next_up`/`next_down`, in particular f32 and f64. -/

set_option linter.unusedSectionVars false

namespace Scarlet
open Flt Scarlet.Interval
variable {mw ew : Nat} [FltImpl mw ew] [LawfulFlt mw ew]

/-! ### C11 -/

/-- C11: sums, also for infinite or overflowing bounds. -/
theorem C11_add (A B : Interval (Flt mw ew)) (x y : ℝ) (hx : x ∈ A) (hy : y ∈ B) : x + y ∈ A + B :=
  ⟨add_lower hx.1 hy.1, add_upper hx.2 hy.2⟩

/-- C11: differences. -/
theorem C11_sub (A B : Interval (Flt mw ew)) (x y : ℝ) (hx : x ∈ A) (hy : y ∈ B) : x - y ∈ A - B := by
  rw [_root_.sub_eq_add_neg x y]
  exact ⟨add_lower hx.1 hy.2.neg, add_upper hx.2 hy.1.neg⟩

/-- C11: interval plus float. -/
theorem C11_add_scalar (A : Interval (Flt mw ew)) (t : Flt mw ew) (x : ℝ) (hx : x ∈ A) (ht : t.isFin = true) :
    x + t.toReal ∈ A + t :=
  ⟨add_lower hx.1 (LowerOf.of_fin ht), add_upper hx.2 (UpperOf.of_fin ht)⟩

/-- C11: interval minus float. -/
theorem C11_sub_scalar (A : Interval (Flt mw ew)) (t : Flt mw ew) (x : ℝ) (hx : x ∈ A) (ht : t.isFin = true) :
    x - t.toReal ∈ A - t := by
  rw [_root_.sub_eq_add_neg x]
  exact ⟨add_lower hx.1 (UpperOf.of_fin ht).neg, add_upper hx.2 (LowerOf.of_fin ht).neg⟩

/-- The hypotheses of C11 are met, e.g. by the interval `[MAX, +inf]` in f32 (whose sum with itself overflows). -/
example : (Flt.maxFin 23 8 false).toReal ∈ (⟨Flt.maxFin 23 8 false, Flt.inf 23 8 false⟩ : Interval F32) ∧
    (Flt.maxFin 23 8 false + Flt.maxFin 23 8 false : F32) = Flt.inf 23 8 false :=
  ⟨⟨LowerOf.of_fin (by decide +kernel), by rw [upperOf_iff]; exact ⟨by decide +kernel, Or.inl (by decide +kernel)⟩⟩,
   by decide +kernel⟩

/-! ### C12 -/

/-- C12, all sign combinations except "both operands straddle zero"; bounds may be infinite as long as no `0 * inf`
makes a bound of the result NaN.

Missing from the full claim `x ∈ A → y ∈ B → x * y ∈ A * B`: the two excluded cases, for which it is false
(`C12_refuted_straddle`, `C12_refuted_nan`). -/
theorem C12_mul_partial (A B : Interval (Flt mw ew)) (x y : ℝ) (hx : x ∈ A) (hy : y ∈ B)
    (hs : ¬(Straddles A ∧ Straddles B)) (hn : NoNaN (A * B)) : x * y ∈ A * B := by
  obtain ⟨a1, a2, a3, a4, -, -, aO⟩ := mem_facts hx
  obtain ⟨b1, b2, b3, b4, -, -, bO⟩ := mem_facts hy
  have ce : (((x * y : ℝ)) : EReal) = (x : EReal) * (y : EReal) := EReal.coe_mul _ _
  change NoNaN (Interval.mul A B) at hn
  change x * y ∈ Interval.mul A B
  unfold Interval.mul at hn ⊢
  have nn : ∀ {C : Interval (Flt mw ew)}, C.inf.isNaN = false → (isNonnegative C = true ↔ 0 ≤ C.inf.val) := by
    intro C h; rw [isNonnegative_iff, val_nonneg_iff h]; simp [h]
  have np : ∀ {C : Interval (Flt mw ew)}, C.sup.isNaN = false → (isNonpositive C = true ↔ C.sup.val ≤ 0) := by
    intro C h; rw [isNonpositive_iff, val_nonpos_iff h]; simp [h]
  have lo : ∀ {u v : Flt mw ew}, (GFloat.nextDown (u * v)).isNaN = false → u.val * v.val ≤ (x : EReal) * y →
      LowerOf (GFloat.nextDown (u * v)) (x * y) := by
    intro u v h1 h2
    rw [isNaN_nextDown] at h1
    exact mul_lower h1 (by rw [ce]; exact h2)
  have up : ∀ {u v : Flt mw ew}, (GFloat.nextUp (u * v)).isNaN = false → (x : EReal) * y ≤ u.val * v.val →
      UpperOf (GFloat.nextUp (u * v)) (x * y) := by
    intro u v h1 h2
    rw [isNaN_nextUp] at h1
    exact mul_upper h1 (by rw [ce]; exact h2)
  by_cases pA : isNonnegative A = true
  · rw [if_pos pA] at hn ⊢
    rw [nn a1] at pA
    have x0 := le_trans pA a3
    refine ⟨lo hn.1 ?_, up hn.2 ?_⟩
    · by_cases pB : isNonnegative B = true
      · rw [if_pos pB]; rw [nn b1] at pB
        exact ER.lo_PP pA pB a3 b3
      · rw [if_neg pB]; rw [nn b1, not_le] at pB
        exact ER.lo_PM x0 a4 b3 pB.le
    · by_cases pB : isNonpositive B = true
      · rw [if_pos pB]; rw [np b2] at pB
        exact ER.up_PN pA pB a3 b4
      · rw [if_neg pB]; rw [np b2, not_le] at pB
        exact ER.mul_le_mul_up x0 a4 b4 pB.le
  · rw [if_neg pA] at hn ⊢
    rw [nn a1, not_le] at pA
    by_cases nA : isNonpositive A = true
    · rw [if_pos nA] at hn ⊢
      rw [np a2] at nA
      have x0 := le_trans a4 nA
      refine ⟨lo hn.1 ?_, up hn.2 ?_⟩
      · by_cases pB : isNonpositive B = true
        · rw [if_pos pB]; rw [np b2] at pB
          exact ER.lo_NN nA pB a4 b4
        · rw [if_neg pB]; rw [np b2, not_le] at pB
          exact ER.lo_NM x0 a3 b4 pB.le
      · by_cases pB : isNonnegative B = true
        · rw [if_pos pB]; rw [nn b1] at pB
          exact ER.up_NP nA pB a4 b3
        · rw [if_neg pB]; rw [nn b1, not_le] at pB
          exact ER.up_NM x0 a3 b3 pB.le
    · rw [if_neg nA] at hn ⊢
      rw [np a2, not_le] at nA
      by_cases pB : isNonnegative B = true
      · rw [if_pos pB] at hn ⊢; rw [nn b1] at pB
        have y0 := le_trans pB b3
        refine ⟨lo hn.1 ?_, up hn.2 ?_⟩
        · rw [mul_comm A.inf.val, mul_comm (x : EReal)]; exact ER.lo_PM y0 b4 a3 pA.le
        · rw [mul_comm A.sup.val, mul_comm (x : EReal)]; exact ER.mul_le_mul_up y0 b4 a4 nA.le
      · rw [if_neg pB] at hn ⊢; rw [nn b1, not_le] at pB
        by_cases nB : isNonpositive B = true
        · rw [if_pos nB] at hn ⊢; rw [np b2] at nB
          have y0 := le_trans b4 nB
          refine ⟨lo hn.1 ?_, up hn.2 ?_⟩
          · rw [mul_comm A.sup.val, mul_comm (x : EReal)]; exact ER.lo_NM y0 b3 a4 nA.le
          · rw [mul_comm A.inf.val, mul_comm (x : EReal)]; exact ER.up_NM y0 b3 a3 pA.le
        · rw [np b2, not_le] at nB
          exact absurd ⟨⟨a1, a2, pA, nA⟩, ⟨b1, b2, pB, nB⟩⟩ hs

/-- With finite bounds no product of bounds is NaN. -/
theorem noNaN_mul_of_finite {A B : Interval (Flt mw ew)} (hA : Interval.Finite A) (hB : Interval.Finite B) :
    NoNaN (A * B) := by
  have m : ∀ {u v : Flt mw ew}, u.isFin = true → v.isFin = true → (u * v).isNaN = false :=
    fun hu hv => (mul_fin hu hv).1
  have mx : ∀ {u v : Flt mw ew}, u.isNaN = false → v.isNaN = false → (Scalar.max u v).isNaN = false := by
    intro u v hu hv; rw [smax_def]; split <;> assumption
  have mn : ∀ {u v : Flt mw ew}, u.isNaN = false → v.isNaN = false → (Scalar.min u v).isNaN = false := by
    intro u v hu hv; rw [smin_def]; split <;> assumption
  change NoNaN (Interval.mul A B)
  unfold Interval.mul NoNaN
  split
  · refine ⟨?_, ?_⟩ <;> simp only [Interval.new, isNaN_nextDown, isNaN_nextUp] <;>
      split <;> apply m <;> first | exact hA.1 | exact hA.2 | exact hB.1 | exact hB.2
  · split
    · refine ⟨?_, ?_⟩ <;> simp only [Interval.new, isNaN_nextDown, isNaN_nextUp] <;>
        split <;> apply m <;> first | exact hA.1 | exact hA.2 | exact hB.1 | exact hB.2
    · split
      · simp only [Interval.new, isNaN_nextDown, isNaN_nextUp]
        exact ⟨m hA.1 hB.2, m hA.2 hB.2⟩
      · split
        · simp only [Interval.new, isNaN_nextDown, isNaN_nextUp]
          exact ⟨m hA.2 hB.1, m hA.1 hB.1⟩
        · simp only [Interval.new, isNaN_nextDown, isNaN_nextUp]
          exact ⟨mn (m hA.1 hB.2) (m hA.2 hB.1), mx (m hA.1 hA.1) (m hB.2 hB.2)⟩

/-- C12 for finite bounds (the product may overflow), unless both operands straddle zero. -/
theorem C12_mul_finite_partial (A B : Interval (Flt mw ew)) (x y : ℝ) (hx : x ∈ A) (hy : y ∈ B)
    (hA : Interval.Finite A) (hB : Interval.Finite B) (hs : ¬(Straddles A ∧ Straddles B)) : x * y ∈ A * B :=
  C12_mul_partial A B x y hx hy hs (noNaN_mul_of_finite hA hB)

theorem mul_straddle {A B : Interval (Flt mw ew)} (hA : Straddles A) (hB : Straddles B) :
    A * B = ⟨GFloat.nextDown (Scalar.min (A.inf * B.sup) (A.sup * B.inf)),
      GFloat.nextUp (Scalar.max (A.inf * A.inf) (B.sup * B.sup))⟩ := by
  obtain ⟨a1, a2, a3, a4⟩ := hA
  obtain ⟨b1, b2, b3, b4⟩ := hB
  rw [val_lt_zero_iff a1] at a3; rw [val_zero_lt_iff a2] at a4
  rw [val_lt_zero_iff b1] at b3; rw [val_zero_lt_iff b2] at b4
  change Interval.mul A B = _
  unfold Interval.mul
  rw [if_neg (by rw [isNonnegative_iff]; omega), if_neg (by rw [isNonpositive_iff]; omega),
    if_neg (by rw [isNonnegative_iff]; omega), if_neg (by rw [isNonpositive_iff]; omega)]
  rfl

/-- C12, both operands straddling zero: the lower bound is right for every pair of members (finite bounds). -/
theorem C12_straddle_lower_partial (A B : Interval (Flt mw ew)) (x y : ℝ) (hx : x ∈ A) (hy : y ∈ B)
    (hA : Straddles A) (hB : Straddles B) : (A * B).inf.LowerOf (x * y) := by
  obtain ⟨a1, a2, a3, a4, -, -, aO⟩ := mem_facts hx
  obtain ⟨b1, b2, b3, b4, -, -, bO⟩ := mem_facts hy
  have ce : (((x * y : ℝ)) : EReal) = (x : EReal) * (y : EReal) := EReal.coe_mul _ _
  rw [mul_straddle hA hB]
  obtain ⟨-, -, a5, a6⟩ := hA
  obtain ⟨-, -, b5, b6⟩ := hB
  have ka5 := (val_lt_zero_iff a1).1 a5
  have ka6 := (val_zero_lt_iff a2).1 a6
  have kb5 := (val_lt_zero_iff b1).1 b5
  have kb6 := (val_zero_lt_iff b2).1 b6
  have n1 : (A.inf * B.sup).isNaN = false := mul_notNaN a1 b2 (Or.inr ⟨by omega, by omega⟩)
  have n2 : (A.sup * B.inf).isNaN = false := mul_notNaN a2 b1 (Or.inr ⟨by omega, by omega⟩)
  -- the widened minimum lies below the widened candidate that bounds `x * y`
  have key : ∀ {u v : Flt mw ew}, u.isNaN = false → v.isNaN = false →
      (LowerOf (GFloat.nextDown u) (x * y) ∨ LowerOf (GFloat.nextDown v) (x * y)) →
      LowerOf (GFloat.nextDown (Scalar.min u v)) (x * y) := by
    intro u v hu hv h
    have hm : (Scalar.min u v).isNaN = false := by rw [smin_def]; split <;> assumption
    have k1 := nextDown_key hu
    have k2 := nextDown_key hv
    have k3 := nextDown_key hm
    have kmin : (Scalar.min u v).key ≤ u.key ∧ (Scalar.min u v).key ≤ v.key := by
      rw [smin_def]; split
      · next hl => rw [slt_iff] at hl; omega
      · next hl => rw [slt_iff] at hl; have := not_lt.1 (fun h => hl ⟨hu, hv, h⟩); omega
    refine ⟨k3.1, ?_⟩
    rcases h with h | h
    · exact le_trans ((val_le_iff k3.1 k1.1).2 (by omega)) h.2
    · exact le_trans ((val_le_iff k3.1 k2.1).2 (by omega)) h.2
  refine key n1 n2 ?_
  rcases le_total 0 x with h | h
  · right
    exact mul_lower n2 (by rw [ce]; exact ER.lo_PM (by exact_mod_cast h) a4 b3 b5.le)
  · left
    exact mul_lower n1 (by rw [ce]; exact ER.lo_NM (by exact_mod_cast h) a3 b4 b6.le)

/-- The concrete operands of the counterexample: `[-1, 2]` and `[-3, 1]`. -/
def exA : Interval F32 := ⟨-(F32.lit 1), F32.lit 2⟩
def exB : Interval F32 := ⟨-(F32.lit 3), F32.lit 1⟩

theorem toReal_lit {n : Nat} (h : n ≤ 2 ^ 24) : (F32.lit n).toReal = n := by
  refine (exact_of_repr (mw := 23) (ew := 8) (repr_int (n : ℤ) ?_ ?_) ?_).2
  · rw [Int.natAbs_natCast]; exact h
  · decide +kernel
  · unfold F32.lit
    rw [(ofRat_key false _ 1 Nat.one_pos).2]; simp

theorem toReal_lit_small : (F32.lit 1).toReal = 1 ∧ (F32.lit 2).toReal = 2 ∧ (F32.lit 3).toReal = 3 := by
  refine ⟨?_, ?_, ?_⟩
  · rw [toReal_lit (by norm_num)]; norm_num
  · rw [toReal_lit (by norm_num)]; norm_num
  · rw [toReal_lit (by norm_num)]; norm_num

/-- C12 is false: `-1 ∈ [-1,2]`, `-3 ∈ [-3,1]`, but `3` is above the upper bound of `[-1,2] * [-3,1]`
(interval.rs:242 uses `a.inf*a.inf` and `b.sup*b.sup` instead of `a.inf*b.inf` and `a.sup*b.sup`). -/
theorem C12_refuted_straddle :
    ¬ ∀ (A B : Interval F32) (x y : ℝ), Interval.Finite A → Interval.Finite B → x ∈ A → y ∈ B → x * y ∈ A * B := by
  intro h
  obtain ⟨e1, e2, e3⟩ := toReal_lit_small
  have fin : Interval.Finite exA ∧ Interval.Finite exB := by
    unfold Interval.Finite; decide +kernel
  have hx : (-1 : ℝ) ∈ exA := by
    refine ⟨(lowerOf_fin fin.1.1).2 ?_, (upperOf_fin fin.1.2).2 ?_⟩
    · change (-(F32.lit 1)).toReal ≤ _; rw [toReal_negop, e1]
    · change _ ≤ (F32.lit 2).toReal; rw [e2]; norm_num
  have hy : (-3 : ℝ) ∈ exB := by
    refine ⟨(lowerOf_fin fin.2.1).2 ?_, (upperOf_fin fin.2.2).2 ?_⟩
    · change (-(F32.lit 3)).toReal ≤ _; rw [toReal_negop, e3]
    · change _ ≤ (F32.lit 1).toReal; rw [e1]; norm_num
  have hm := (h exA exB _ _ fin.1 fin.2 hx hy).2
  have hf : (exA * exB).sup.isFin = true := by decide +kernel
  have h3 := (upperOf_fin hf).1 hm
  have h4 : (exA * exB).sup.toReal < (F32.lit 3).toReal := toReal_lt_iff.2 (by decide +kernel)
  rw [e3] at h4
  norm_num at h3
  linarith

/-- C12 is also false for unbounded operands: `[0,0] * [1,+inf]` has a NaN bound, hence no members. -/
theorem C12_refuted_nan :
    ∃ (A B : Interval F32) (x y : ℝ), x ∈ A ∧ y ∈ B ∧ ¬ Straddles A ∧ ¬ Straddles B ∧ x * y ∉ A * B := by
  obtain ⟨e1, -, -⟩ := toReal_lit_small
  refine ⟨⟨Scalar.zero, Scalar.zero⟩, ⟨F32.lit 1, Flt.inf 23 8 false⟩, 0, 1, ?_, ?_, ?_, ?_, ?_⟩
  · exact ⟨(lowerOf_fin isFin_szero).2 (by rw [toReal_szero]), (upperOf_fin isFin_szero).2 (by rw [toReal_szero])⟩
  · refine ⟨(lowerOf_fin (by decide +kernel)).2 (by change (F32.lit 1).toReal ≤ _; rw [e1]), ?_⟩
    rw [upperOf_iff]; exact ⟨by decide +kernel, Or.inl (by decide +kernel)⟩
  · rintro ⟨h1, -, h3, -⟩
    rw [val_lt_zero_iff h1] at h3
    exact absurd h3 (by decide +kernel)
  · rintro ⟨h1, -, h3, -⟩
    rw [val_lt_zero_iff h1] at h3
    exact absurd h3 (by decide +kernel)
  · intro h
    have := h.2.1
    exact absurd this (by decide +kernel)

/-- A case meeting the hypotheses of the partial theorem: `[-3,1] * [1,2]` (one operand straddles). -/
example : Interval.Finite exB ∧ Interval.Finite (⟨F32.lit 1, F32.lit 2⟩ : Interval F32) ∧
    ¬ Straddles (⟨F32.lit 1, F32.lit 2⟩ : Interval F32) := by
  refine ⟨by unfold Interval.Finite; decide +kernel, by unfold Interval.Finite; decide +kernel, ?_⟩
  rintro ⟨h1, -, h3, -⟩
  rw [val_lt_zero_iff h1] at h3
  exact absurd h3 (by decide +kernel)

/-! ### C13 -/

theorem mulS_def (A : Interval (Flt mw ew)) (t : Flt mw ew) : A * t = Interval.mulS A t := rfl

/-- C13 for finite intervals and every finite scalar, and for unbounded intervals and nonzero scalars.
Missing: unbounded interval times zero, for which the claim is false (`C13_refuted`). -/
theorem C13_mul_scalar_partial (A : Interval (Flt mw ew)) (t : Flt mw ew) (x : ℝ) (hx : x ∈ A) (ht : t.isFin = true)
    (h0 : Interval.Finite A ∨ t.toReal ≠ 0) : x * t.toReal ∈ A * t := by
  obtain ⟨a1, a2, a3, a4, -, -, aO⟩ := mem_facts hx
  have tn := notNaN_of_isFin ht
  have ce : (((x * t.toReal : ℝ)) : EReal) = (x : EReal) * t.val := by rw [val_of_isFin ht]; exact EReal.coe_mul _ _
  have nn : ∀ {u : Flt mw ew}, u.isNaN = false → (Interval.Finite A → u.isFin = true) →
      (u * t).isNaN = false := by
    intro u hu hf
    rcases h0 with h0 | h0
    · exact (mul_fin (hf h0) ht).1
    · rcases isFin_or_isInf hu with h | h
      · exact (mul_fin h ht).1
      · refine mul_notNaN hu tn (Or.inr ⟨?_, fun h => h0 (toReal_eq_zero_iff.2 h)⟩)
        rw [isInf_iff_key] at h
        have := kInf_pos (mw := mw) (ew := ew)
        omega
  rw [mulS_def]; unfold Interval.mulS
  have hz := notNaN_of_isFin (isFin_szero (mw := mw) (ew := ew))
  split
  · next h =>
    unfold Scalar.isNonnegative at h
    rw [sge_iff, key_szero] at h
    have t0 := (val_nonneg_iff tn).2 h.2.2
    refine ⟨mul_lower (nn a1 (fun h => h.1)) ?_, mul_upper (nn a2 (fun h => h.2)) ?_⟩
    · rw [ce]; exact mul_le_mul_of_nonneg_right a3 t0
    · rw [ce]; exact mul_le_mul_of_nonneg_right a4 t0
  · next h =>
    unfold Scalar.isNonnegative at h
    rw [sge_iff, key_szero] at h
    have t0 : t.val ≤ 0 := (val_nonpos_iff tn).2 (by have := not_le.1 (fun h' => h ⟨tn, hz, h'⟩); omega)
    have neg : ∀ {p q : EReal}, p ≤ q → q * t.val ≤ p * t.val := by
      intro p q hpq
      have := mul_le_mul_of_nonneg_right hpq (ER.neg_nonneg t0)
      rw [mul_neg, mul_neg, EReal.neg_le_neg_iff] at this
      exact this
    refine ⟨mul_lower (nn a2 (fun h => h.2)) ?_, mul_upper (nn a1 (fun h => h.1)) ?_⟩
    · rw [ce]; exact neg a4
    · rw [ce]; exact neg a3

/-- C13 is false for an unbounded interval times zero: `[-inf,+inf] * 0` has NaN bounds. -/
theorem C13_refuted :
    ¬ ∀ (A : Interval F32) (t : F32) (x : ℝ), x ∈ A → t.isFin = true → x * t.toReal ∈ A * t := by
  intro h
  have := (h ⟨Flt.inf 23 8 true, Flt.inf 23 8 false⟩ Scalar.zero 0
    ⟨by rw [lowerOf_iff]; exact ⟨by decide +kernel, Or.inl (by decide +kernel)⟩,
     by rw [upperOf_iff]; exact ⟨by decide +kernel, Or.inl (by decide +kernel)⟩⟩ isFin_szero).1.1
  exact absurd this (by decide +kernel)

/-- Hypotheses of C13 met by a bounded interval and a negative scalar. -/
example : Interval.Finite exA ∧ (-(F32.lit 3)).isFin = true := by unfold Interval.Finite; decide +kernel

/-! ### C14, C15 -/

theorem whole_mem (A : Interval (Flt mw ew)) (h : A = ⟨GFloat.negInfinity, GFloat.infinity⟩) (r : ℝ) : r ∈ A := by
  subst h
  refine ⟨?_, ?_⟩
  · rw [lowerOf_iff]; exact ⟨isNaN_inf true, Or.inl (by rw [show (GFloat.negInfinity : Flt mw ew).key = _ from key_inf true]; simp)⟩
  · rw [upperOf_iff]; exact ⟨isNaN_inf false, Or.inl (by rw [show (GFloat.infinity : Flt mw ew).key = _ from key_inf false]; simp)⟩

theorem whole_isWhole : IsWhole (⟨GFloat.negInfinity, GFloat.infinity⟩ : Interval (Flt mw ew)) := by
  refine ⟨⟨isNaN_inf true, isNaN_inf false⟩, ?_, ?_⟩
  · exact (val_bot_iff (isNaN_inf true)).2 (by rw [key_inf]; simp)
  · exact (val_top_iff (isNaN_inf false)).2 (by rw [key_inf]; simp)

theorem lower_cases {l : Flt mw ew} {x : ℝ} (h : LowerOf l x) : (l.isInf = true ∧ l.key < 0) ∨ (l.isFin = true ∧ l.toReal ≤ x) := by
  have hp := kInf_pos (mw := mw) (ew := ew)
  rcases (lowerOf_iff.1 h).2 with h1 | h1
  · exact Or.inl ⟨isInf_iff_key.2 (Or.inr h1), by omega⟩
  · exact Or.inr h1
theorem upper_cases {u : Flt mw ew} {x : ℝ} (h : UpperOf u x) : (u.isInf = true ∧ 0 < u.key) ∨ (u.isFin = true ∧ x ≤ u.toReal) := by
  have hp := kInf_pos (mw := mw) (ew := ew)
  rcases (upperOf_iff.1 h).2 with h1 | h1
  · exact Or.inl ⟨isInf_iff_key.2 (Or.inl h1), by omega⟩
  · exact Or.inr h1

theorem isFin_of_not_inf {u : Flt mw ew} (hn : u.isNaN = false) (h : u.isInf = true → False) : u.isFin = true :=
  (isFin_or_isInf hn).resolve_right h

theorem not_fin_inf {u : Flt mw ew} (h1 : u.isFin = true) (h2 : u.isInf = true) : False := by
  rw [notInf_of_isFin h1] at h2; exact absurd h2 (by decide)

theorem ddneg {a b c d : ℝ} (hc : c < 0) (hd : d < 0) : a / c ≤ b / d ↔ a * d ≤ b * c := by
  rw [← neg_div_neg_eq a, ← neg_div_neg_eq b, div_le_div_iff₀ (by linarith) (by linarith), neg_mul_neg, neg_mul_neg]

/-- C14: quotients, with finite, infinite or overflowing bounds; the divisor `y` is any nonzero member of `B`. -/
theorem C14_div (A B : Interval (Flt mw ew)) (x y : ℝ) (hx : x ∈ A) (hy : y ∈ B) (_hy0 : y ≠ 0) : x / y ∈ A / B := by
  obtain ⟨a1, a2, a3, a4, a5, a6, aO⟩ := mem_facts hx
  obtain ⟨b1, b2, b3, b4, b5, b6, bO⟩ := mem_facts hy
  have hK := kInf_pos (mw := mw) (ew := ew)
  change x / y ∈ Interval.div A B
  unfold Interval.div
  by_cases hb : isPositive B = true
  · rw [if_pos hb]; rw [isPositive_iff] at hb
    -- the lower bound of `B` is finite and positive
    have fb : B.inf.isFin = true := isFin_of_not_inf b1 (by rw [isInf_iff_key]; omega)
    have pb : 0 < B.inf.toReal := toReal_pos_iff.2 hb.2
    have hyb : B.inf.toReal ≤ y := (lowerOf_fin fb).1 hy.1
    have y0 : 0 < y := lt_of_lt_of_le pb hyb
    refine ⟨?_, ?_⟩
    · by_cases hA : isNonnegative A = true
      · rw [if_pos hA]; rw [isNonnegative_iff] at hA
        have fa : A.inf.isFin = true := isFin_of_not_inf a1 (by rw [isInf_iff_key]; omega)
        have hxa := (lowerOf_fin fa).1 hx.1
        have pa := toReal_nonneg_iff.2 hA.2
        refine div_lower a1 b2 (by omega) (Or.inl fa) (fun _ fv => ?_) (fun _ _ => ?_) (fun h => (not_fin_inf fa h).elim)
        · have := (upperOf_fin fv).1 hy.2
          exact div_le_div₀ (le_trans pa hxa) hxa y0 this
        · exact div_nonneg (le_trans pa hxa) y0.le
      · rw [if_neg hA]; rw [isNonnegative_iff] at hA
        have ka : A.inf.key < 0 := by by_contra h; exact hA ⟨a1, by omega⟩
        refine div_lower a1 b1 (by omega) (Or.inr fb) (fun fa _ => ?_) (fun _ h => (not_fin_inf fb h).elim) (fun _ => by omega)
        have hxa := (lowerOf_fin fa).1 hx.1
        have na : A.inf.toReal < 0 := by
          rw [← not_le, toReal_nonneg_iff]; omega
        calc A.inf.toReal / B.inf.toReal ≤ A.inf.toReal / y := by
              rw [div_le_div_iff₀ pb y0]; nlinarith
          _ ≤ x / y := div_le_div_of_nonneg_right hxa y0.le
    · by_cases hA : isNonpositive A = true
      · rw [if_pos hA]; rw [isNonpositive_iff] at hA
        have fa : A.sup.isFin = true := isFin_of_not_inf a2 (by rw [isInf_iff_key]; omega)
        have hxa := (upperOf_fin fa).1 hx.2
        have pa : A.sup.toReal ≤ 0 := by
          rw [← not_lt, toReal_pos_iff]; omega
        refine div_upper a2 b2 (by omega) (Or.inl fa) (fun _ fv => ?_) (fun _ _ => ?_) (fun h => (not_fin_inf fa h).elim)
        · have hv := (upperOf_fin fv).1 hy.2
          rw [div_le_div_iff₀ y0 (lt_of_lt_of_le y0 hv)]; nlinarith
        · exact div_nonpos_of_nonpos_of_nonneg (le_trans hxa pa) y0.le
      · rw [if_neg hA]; rw [isNonpositive_iff] at hA
        have ka : 0 < A.sup.key := by by_contra h; exact hA ⟨a2, by omega⟩
        refine div_upper a2 b1 (by omega) (Or.inr fb) (fun fa _ => ?_) (fun _ h => (not_fin_inf fb h).elim) (fun _ => by omega)
        have hxa := (upperOf_fin fa).1 hx.2
        have pa : 0 < A.sup.toReal := toReal_pos_iff.2 ka
        calc x / y ≤ A.sup.toReal / y := div_le_div_of_nonneg_right hxa y0.le
          _ ≤ A.sup.toReal / B.inf.toReal := by rw [div_le_div_iff₀ y0 pb]; nlinarith
  · rw [if_neg hb]
    by_cases hb' : isNegative B = true
    · rw [if_pos hb']; rw [isNegative_iff] at hb'
      have fb : B.sup.isFin = true := isFin_of_not_inf b2 (by rw [isInf_iff_key]; omega)
      have pb : B.sup.toReal < 0 := by rw [← not_le, toReal_nonneg_iff]; omega
      have hyb : y ≤ B.sup.toReal := (upperOf_fin fb).1 hy.2
      have y0 : y < 0 := lt_of_le_of_lt hyb pb
      refine ⟨?_, ?_⟩
      · by_cases hA : isNonpositive A = true
        · rw [if_pos hA]; rw [isNonpositive_iff] at hA
          have fa : A.sup.isFin = true := isFin_of_not_inf a2 (by rw [isInf_iff_key]; omega)
          have hxa := (upperOf_fin fa).1 hx.2
          have pa : A.sup.toReal ≤ 0 := by
            rw [← not_lt, toReal_pos_iff]; omega
          refine div_lower a2 b1 (by omega) (Or.inl fa) (fun _ fv => ?_) (fun _ _ => ?_) (fun h => (not_fin_inf fa h).elim)
          · have hv := (lowerOf_fin fv).1 hy.1
            rw [ddneg (by linarith) y0]; nlinarith
          · exact div_nonneg_of_nonpos (le_trans hxa pa) y0.le
        · rw [if_neg hA]; rw [isNonpositive_iff] at hA
          have ka : 0 < A.sup.key := by by_contra h; exact hA ⟨a2, by omega⟩
          refine div_lower a2 b2 (by omega) (Or.inr fb) (fun fa _ => ?_) (fun _ h => (not_fin_inf fb h).elim) (fun _ => by omega)
          have hxa := (upperOf_fin fa).1 hx.2
          have pa : 0 < A.sup.toReal := toReal_pos_iff.2 ka
          calc A.sup.toReal / B.sup.toReal ≤ A.sup.toReal / y := by rw [ddneg pb y0]; nlinarith
            _ ≤ x / y := by rw [div_le_div_right_of_neg y0]; exact hxa
      · by_cases hA : isNonnegative A = true
        · rw [if_pos hA]; rw [isNonnegative_iff] at hA
          have fa : A.inf.isFin = true := isFin_of_not_inf a1 (by rw [isInf_iff_key]; omega)
          have hxa := (lowerOf_fin fa).1 hx.1
          have pa := toReal_nonneg_iff.2 hA.2
          refine div_upper a1 b1 (by omega) (Or.inl fa) (fun _ fv => ?_) (fun _ _ => ?_) (fun h => (not_fin_inf fa h).elim)
          · have hv := (lowerOf_fin fv).1 hy.1
            rw [ddneg y0 (by linarith)]; nlinarith
          · exact div_nonpos_of_nonneg_of_nonpos (le_trans pa hxa) y0.le
        · rw [if_neg hA]; rw [isNonnegative_iff] at hA
          have ka : A.inf.key < 0 := by by_contra h; exact hA ⟨a1, by omega⟩
          refine div_upper a1 b2 (by omega) (Or.inr fb) (fun fa _ => ?_) (fun _ h => (not_fin_inf fb h).elim) (fun _ => by omega)
          have hxa := (lowerOf_fin fa).1 hx.1
          have na : A.inf.toReal < 0 := by rw [← not_le, toReal_nonneg_iff]; omega
          calc x / y ≤ A.inf.toReal / y := by rw [div_le_div_right_of_neg y0]; exact hxa
            _ ≤ A.inf.toReal / B.sup.toReal := by rw [ddneg y0 pb]; nlinarith
    · rw [if_neg hb']; exact whole_mem _ rfl _

/-- C14: dividing by an interval that contains zero gives the whole line. -/
theorem C14_div_by_zero (A B : Interval (Flt mw ew)) (h : (0 : ℝ) ∈ B) : IsWhole (A / B) := by
  obtain ⟨b1, b2, b3, b4, -⟩ := mem_facts h
  have k1 : B.inf.key ≤ 0 := (val_nonpos_iff b1).1 (by simpa using b3)
  have k2 : 0 ≤ B.sup.key := (val_nonneg_iff b2).1 (by simpa using b4)
  change IsWhole (Interval.div A B)
  unfold Interval.div
  rw [if_neg (by rw [isPositive_iff]; omega), if_neg (by rw [isNegative_iff]; omega)]
  exact whole_isWhole

/-- Hypotheses of C14 met: a straddling divisor, and a positive one. -/
example : (0 : ℝ) ∈ exA := by
  obtain ⟨e1, e2, -⟩ := toReal_lit_small
  refine ⟨(lowerOf_fin (by decide +kernel)).2 ?_, (upperOf_fin (by decide +kernel)).2 ?_⟩
  · change (-(F32.lit 1)).toReal ≤ _; rw [toReal_negop, e1]; norm_num
  · change _ ≤ (F32.lit 2).toReal; rw [e2]; norm_num
example : ((exA / (⟨F32.lit 2, F32.lit 3⟩ : Interval F32)).inf, (exA / (⟨F32.lit 2, F32.lit 3⟩ : Interval F32)).sup)
    = (F32.nextDown (-(F32.lit 1) / F32.lit 2), F32.nextUp (F32.lit 1)) := by decide +kernel

/-- C15: quotient by a nonzero finite float. -/
theorem C15_div_scalar (A : Interval (Flt mw ew)) (t : Flt mw ew) (x : ℝ) (hx : x ∈ A) (ht : t.isFin = true)
    (h0 : t.toReal ≠ 0) : x / t.toReal ∈ A / t := by
  obtain ⟨a1, a2, a3, a4, a5, a6, aO⟩ := mem_facts hx
  have hK := kInf_pos (mw := mw) (ew := ew)
  have tn := notNaN_of_isFin ht
  have hz := notNaN_of_isFin (isFin_szero (mw := mw) (ew := ew))
  have k0 : t.key ≠ 0 := fun h => h0 (toReal_eq_zero_iff.2 h)
  have infkey : A.inf.isInf = true → A.inf.key < 0 := by rw [isInf_iff_key]; omega
  have supkey : A.sup.isInf = true → 0 < A.sup.key := by rw [isInf_iff_key]; omega
  change x / t.toReal ∈ Interval.divS A t
  unfold Interval.divS
  rcases lt_or_gt_of_ne k0 with k | k
  · rw [if_neg (by rw [sgt_iff, key_szero]; omega), if_pos (by rw [slt_iff, key_szero]; exact ⟨tn, hz, k⟩)]
    have tneg : t.toReal < 0 := by rw [← not_le, toReal_nonneg_iff]; omega
    refine ⟨div_lower a2 tn k0 (Or.inr ht) (fun fa _ => ?_) (fun _ h => (not_fin_inf ht h).elim) (fun h => ?_),
      div_upper a1 tn k0 (Or.inr ht) (fun fa _ => ?_) (fun _ h => (not_fin_inf ht h).elim) (fun h => ?_)⟩
    · rw [div_le_div_right_of_neg tneg]; exact (upperOf_fin fa).1 hx.2
    · have := supkey h; omega
    · rw [div_le_div_right_of_neg tneg]; exact (lowerOf_fin fa).1 hx.1
    · have := infkey h; omega
  · rw [if_pos (by rw [sgt_iff, key_szero]; exact ⟨tn, hz, k⟩)]
    have tpos : 0 < t.toReal := toReal_pos_iff.2 k
    refine ⟨div_lower a1 tn k0 (Or.inr ht) (fun fa _ => ?_) (fun _ h => (not_fin_inf ht h).elim) (fun h => ?_),
      div_upper a2 tn k0 (Or.inr ht) (fun fa _ => ?_) (fun _ h => (not_fin_inf ht h).elim) (fun h => ?_)⟩
    · exact div_le_div_of_nonneg_right ((lowerOf_fin fa).1 hx.1) tpos.le
    · have := infkey h; omega
    · exact div_le_div_of_nonneg_right ((upperOf_fin fa).1 hx.2) tpos.le
    · have := supkey h; omega

/-- C15: `A / 0` is the whole line (for either zero). -/
theorem C15_div_scalar_zero (A : Interval (Flt mw ew)) (t : Flt mw ew) (_ht : t.isFin = true) (h0 : t.toReal = 0) :
    IsWhole (A / t) := by
  have k0 := toReal_eq_zero_iff.1 h0
  change IsWhole (Interval.divS A t)
  unfold Interval.divS
  rw [if_neg (by rw [sgt_iff, key_szero]; omega), if_neg (by rw [slt_iff, key_szero]; omega)]
  exact whole_isWhole

/-- Both hypotheses occur: `-3` and `-0.0`. -/
example : (-(F32.lit 3)).isFin = true ∧ (-(F32.lit 3)).toReal ≠ 0 ∧
    (-(Scalar.zero : F32)).isFin = true ∧ (-(Scalar.zero : F32)).toReal = 0 := by
  refine ⟨by decide +kernel, ?_, by decide +kernel, ?_⟩
  · rw [toReal_negop, toReal_lit_small.2.2]; norm_num
  · rw [toReal_negop, toReal_szero, neg_zero]

end Scarlet
