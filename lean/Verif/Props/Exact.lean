import Verif.Props.IntervalVec
import Verif.Props.Float4
import Verif.Props.Interval4

/-! Exact (if and only if) forms of claims that hold only in part: C06, C13, C20, C26. -/

set_option linter.unusedSectionVars false

namespace Scarlet
open Flt Interval

variable {mw ew : Nat} [FltImpl mw ew] [LawfulFlt mw ew]

/-! ## C06 -/

/-- C06, exactly: `fequals` is reflexive at precisely the finite floats. -/
theorem C06_exact (a : Flt mw ew) : GFloat.fequals a a = true ↔ a.isFin = true := by
  refine ⟨fun h => ?_, C06_refl_partial a⟩
  by_contra hf
  cases hn : a.isNaN
  · have hi : a.isInf = true := (isFin_or_isInf hn).resolve_left hf
    have hd : (a - a).isNaN = true := by
      change (a.sub a).isNaN = true
      unfold Flt.sub Flt.add
      simp [isNaN_neg, hn, hi, sgn_neg, isNaN_nan]
    have hc : ∀ y : Flt mw ew, Scalar.lt (SignedScalar.abs (a - a)) y = false := by
      intro y
      rw [Bool.eq_false_iff, ne_eq, slt_iff, (sabs_spec (a - a)).1, hd]
      simp
    unfold GFloat.fequals at h
    simp only [hc] at h
    split at h <;> simp_all
  · rw [C06_nan a a (Or.inl hn)] at h; cases h

example : (F32.lit 3).isFin = true ∧ (Flt.inf 23 8 true).isFin = false := by decide +kernel

/-! ## C13 -/

/-- Infinity times zero is NaN. -/
theorem mul_inf_zero_nan {u t : Flt mw ew} (hu : u.isInf = true) (ht : t.key = 0) : (u * t).isNaN = true := by
  have hz : t.isZero = true := isZero_iff_key.2 ht
  change (u.mul t).isNaN = true
  unfold Flt.mul
  simp [hu, hz, isNaN_nan]

/-- C13, exactly: the product of an interval with a finite float encloses unless the interval is unbounded and the float zero. -/
theorem C13_exact (A : Interval (Flt mw ew)) (t : Flt mw ew) (x : ℝ) (hx : x ∈ A) (ht : t.isFin = true) :
    x * t.toReal ∈ A * t ↔ Interval.Finite A ∨ t.toReal ≠ 0 := by
  refine ⟨fun h => ?_, C13_mul_scalar_partial A t x hx ht⟩
  by_contra hc
  rw [not_or, not_not] at hc
  obtain ⟨hA, h0⟩ := hc
  have hk := toReal_eq_zero_iff.1 h0
  obtain ⟨a1, a2, -⟩ := mem_facts hx
  have hp : Scalar.isNonnegative t = true := by
    unfold Scalar.isNonnegative
    rw [sge_iff, key_szero]
    exact ⟨notNaN_of_isFin ht, notNaN_of_isFin isFin_szero, hk.ge⟩
  rw [mulS_def, Interval.mulS, if_pos hp] at h
  obtain ⟨⟨h1, -⟩, ⟨h2, -⟩⟩ := h
  change (GFloat.nextDown (A.inf * t)).isNaN = false at h1
  change (GFloat.nextUp (A.sup * t)).isNaN = false at h2
  rw [isNaN_nextDown] at h1
  rw [isNaN_nextUp] at h2
  refine hA ⟨?_, ?_⟩
  · rcases isFin_or_isInf a1 with h | h
    · exact h
    · rw [mul_inf_zero_nan h hk] at h1; cases h1
  · rcases isFin_or_isInf a2 with h | h
    · exact h
    · rw [mul_inf_zero_nan h hk] at h2; cases h2

/-! ## C20 -/

/-- C20 for unbounded intervals too: no operation except a product or a square root trips the assertion of `Interval::new`
when the operands hold some real number (their bounds may be infinite). -/
theorem C20_unbounded (A B : Interval (Flt mw ew)) (t : Flt mw ew) (hA : ∃ x : ℝ, x ∈ A) (hB : ∃ y : ℝ, y ∈ B)
    (ft : t.isFin = true) :
    (assertHolds (A + B) = true ∧ assertHolds (A - B) = true ∧ assertHolds (A / B) = true) ∧
    (assertHolds (A + t) = true ∧ assertHolds (A - t) = true ∧ assertHolds (A / t) = true) ∧
    (assertHolds (-A) = true ∧ assertHolds (Interval.square A) = true ∧ assertHolds (SignedScalar.abs A) = true) ∧
    (assertHolds (Scalar.min A B) = true ∧ assertHolds (Scalar.max A B) = true ∧ assertHolds (Interval.union A B) = true) := by
  obtain ⟨x, hx⟩ := hA
  obtain ⟨y, hy⟩ := hB
  obtain ⟨a1, a2, -⟩ := mem_facts hx
  obtain ⟨b1, b2, -⟩ := mem_facts hy
  have whole : ∀ {C : Interval (Flt mw ew)}, IsWhole C → assertHolds C = true := fun {C} h => by
    rw [C20_assert_iff]; exact ⟨h.1.1, h.1.2, by rw [h.2.1]; exact bot_le⟩
  refine ⟨⟨?_, ?_, ?_⟩, ⟨?_, ?_, ?_⟩, ⟨?_, ?_, ?_⟩, ⟨?_, ?_, ?_⟩⟩
  · exact assertHolds_of_mem (C11_add A B _ _ hx hy)
  · exact assertHolds_of_mem (C11_sub A B _ _ hx hy)
  · by_cases h0 : y = 0
    · exact whole (C14_div_by_zero A B (by rw [← h0]; exact hy))
    · exact assertHolds_of_mem (C14_div A B _ _ hx hy h0)
  · exact assertHolds_of_mem (C11_add_scalar A t _ hx ft)
  · exact assertHolds_of_mem (C11_sub_scalar A t _ hx ft)
  · by_cases h0 : t.toReal = 0
    · exact whole (C15_div_scalar_zero A t ft h0)
    · exact assertHolds_of_mem (C15_div_scalar A t _ hx ft h0)
  · exact assertHolds_of_mem (C18_neg A _ hx)
  · exact assertHolds_of_mem (C16_square A _ hx)
  · exact assertHolds_of_mem (C18_abs A _ hx)
  · exact assertHolds_of_mem (C18_min A B _ _ hx hy)
  · exact assertHolds_of_mem (C18_max A B _ _ hx hy)
  · exact assertHolds_of_mem ((C18_union A B ⟨a1, a2⟩ ⟨b1, b2⟩).1 _ (Or.inl hx))

/-- The hypotheses of `C20_unbounded` are met by the half line `[0, inf]`. -/
example : ∃ x : ℝ, x ∈ (⟨Scalar.zero, Flt.inf 23 8 false⟩ : Interval F32) :=
  ⟨1, (lowerOf_fin isFin_szero).2 (by rw [toReal_szero]; norm_num),
    by rw [upperOf_iff]; exact ⟨by decide +kernel, Or.inl (by decide +kernel)⟩⟩

/-- C20, exactly, for the square root (inherent and trait method): the assertion holds if and only if the interval does not
reach below zero. -/
theorem C20_sqrt_exact (A : Interval (Flt mw ew)) (hA : ∃ x : ℝ, x ∈ A) :
    (assertHolds (Interval.sqrt A) = true ↔ 0 ≤ A.inf.val) ∧ (assertHolds (GFloat.sqrt A : Interval (Flt mw ew)) = true ↔ 0 ≤ A.inf.val) := by
  obtain ⟨x, hx⟩ := hA
  have hn : ¬ 0 ≤ A.inf.val → (GFloat.nextDown (GFloat.sqrt A.inf) : Flt mw ew).isNaN = true := by
    intro h
    rw [isNaN_nextDown]
    exact sqrt_neg_nan hx.1.1 (by rw [val_nonneg_iff hx.1.1] at h; omega)
  refine ⟨⟨fun h => ?_, fun h => assertHolds_of_mem (C17_sqrt_partial A x hx h)⟩,
    ⟨fun h => ?_, fun h => assertHolds_of_mem (C17_sqrt_trait_partial A x hx h)⟩⟩
  · by_contra hc
    have := ((C20_assert_iff _).1 h).1
    rw [show (Interval.sqrt A).inf = GFloat.nextDown (GFloat.sqrt A.inf) from rfl, hn hc] at this
    cases this
  · by_contra hc
    have e : (GFloat.sqrt A : Interval (Flt mw ew)).sup.isNaN = true := by
      change (Interval.from2 (Scalar.minMax (GFloat.nextDown (GFloat.sqrt A.inf)) (GFloat.nextUp (GFloat.sqrt A.sup)))).sup.isNaN = true
      unfold Scalar.minMax
      rw [if_neg (by rw [slt_iff]; intro h'; rw [hn hc] at h'; cases h'.1)]
      exact hn hc
    have := ((C20_assert_iff _).1 h).2.1
    rw [e] at this
    cases this

/-- C20, exactly, for an interval times a float: the assertion fails precisely for an unbounded interval times zero. -/
theorem C20_mul_scalar_exact (A : Interval (Flt mw ew)) (t : Flt mw ew) (hA : ∃ x : ℝ, x ∈ A) (ht : t.isFin = true) :
    assertHolds (A * t) = true ↔ Interval.Finite A ∨ t.toReal ≠ 0 := by
  obtain ⟨x, hx⟩ := hA
  refine ⟨fun h => ?_, fun h => assertHolds_of_mem (C13_mul_scalar_partial A t x hx ht h)⟩
  by_contra hc
  rw [not_or, not_not] at hc
  obtain ⟨hf, h0⟩ := hc
  have hk := toReal_eq_zero_iff.1 h0
  obtain ⟨a1, a2, -⟩ := mem_facts hx
  have hp : Scalar.isNonnegative t = true := by
    unfold Scalar.isNonnegative
    rw [sge_iff, key_szero]
    exact ⟨notNaN_of_isFin ht, notNaN_of_isFin isFin_szero, hk.ge⟩
  rw [mulS_def, Interval.mulS, if_pos hp, C20_assert_iff] at h
  obtain ⟨h1, h2, -⟩ := h
  change (GFloat.nextDown (A.inf * t)).isNaN = false at h1
  change (GFloat.nextUp (A.sup * t)).isNaN = false at h2
  rw [isNaN_nextDown] at h1
  rw [isNaN_nextUp] at h2
  refine hf ⟨?_, ?_⟩
  · rcases isFin_or_isInf a1 with h | h
    · exact h
    · rw [mul_inf_zero_nan h hk] at h1; cases h1
  · rcases isFin_or_isInf a2 with h | h
    · exact h
    · rw [mul_inf_zero_nan h hk] at h2; cases h2

/-! ## C26 -/

/-- The point interval of a correctly rounded conversion of `r` holds `r` exactly when `r` is a value of the format. -/
theorem from1_round {z : Flt mw ew} {r : ℝ} (hn : z.isNaN = false) (hz : z.key = rndK mw ew r) :
    r ∈ Interval.from1 z ↔ ∃ y : Flt mw ew, y.isFin = true ∧ y.toReal = r := by
  constructor
  · intro h
    rcases isFin_or_isInf hn with hf | hi
    · exact ⟨z, hf, ((C26_from z hf r).1 h).symm⟩
    · obtain ⟨-, -, -, -, k1, k2, -⟩ := mem_facts h
      rw [isInf_iff_key] at hi
      change z.key ≠ _ at k1
      change z.key ≠ _ at k2
      omega
  · rintro ⟨y, hy, rfl⟩
    obtain ⟨f, e⟩ := exact_of_repr (repr_toReal hy) hz
    rw [C26_from z f, e]

/-- C26, exactly: `from_i64(n)` holds `n`, and `from_f64(x)`, `from_f32(x)` hold `x`, if and only if the number
is the value of a finite float of the interval's format. -/
theorem C26_exact (n : ℤ) (x : F64) (hx : x.isFin = true) (y : F32) (hy : y.isFin = true) :
    ((n : ℝ) ∈ (GFloat.fromI64 n : Interval (Flt mw ew)) ↔ ∃ z : Flt mw ew, z.isFin = true ∧ z.toReal = n) ∧
    (x.toReal ∈ (GFloat.fromF64 x : Interval (Flt mw ew)) ↔ ∃ z : Flt mw ew, z.isFin = true ∧ z.toReal = x.toReal) ∧
    (y.toReal ∈ (GFloat.fromF32 y : Interval (Flt mw ew)) ↔ ∃ z : Flt mw ew, z.isFin = true ∧ z.toReal = y.toReal) := by
  obtain ⟨i1, i2⟩ := ofInt_key (mw := mw) (ew := ew) n
  obtain ⟨c1, c2⟩ := cast_fin (mw' := mw) (ew' := ew) hx
  obtain ⟨d1, d2⟩ := cast_fin (mw' := mw) (ew' := ew) hy
  exact ⟨from1_round i1 i2, from1_round c1 c2, from1_round d1 d2⟩

end Scarlet
