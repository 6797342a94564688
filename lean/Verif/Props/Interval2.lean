import Verif.Props.Interval1

/-! C16 – C22: square, square root, neg/abs/min/max/union/intersect, comparisons, ordering, approx, predicates. -/

set_option linter.unusedSectionVars false

namespace Scarlet
open Flt Scarlet.Interval
variable {mw ew : Nat} [FltImpl mw ew] [LawfulFlt mw ew]

theorem szero_notNaN : (Scalar.zero : Flt mw ew).isNaN = false := notNaN_of_isFin isFin_szero
theorem val_szero : (Scalar.zero : Flt mw ew).val = 0 := (val_zero_iff szero_notNaN).2 key_szero

theorem smax_spec {u v : Flt mw ew} (hu : u.isNaN = false) (hv : v.isNaN = false) :
    (Scalar.max u v).isNaN = false ∧ (Scalar.max u v).val = max u.val v.val := by
  rw [smax_def]
  split
  · next h => rw [sgt_iff] at h; exact ⟨hu, (max_eq_left ((val_le_iff hv hu).2 h.2.2.le)).symm⟩
  · next h =>
    rw [sgt_iff] at h
    have := not_lt.1 (fun h' => h ⟨hu, hv, h'⟩)
    exact ⟨hv, (max_eq_right ((val_le_iff hu hv).2 this)).symm⟩
theorem smin_spec {u v : Flt mw ew} (hu : u.isNaN = false) (hv : v.isNaN = false) :
    (Scalar.min u v).isNaN = false ∧ (Scalar.min u v).val = min u.val v.val := by
  rw [smin_def]
  split
  · next h => rw [slt_iff] at h; exact ⟨hu, (min_eq_left ((val_le_iff hu hv).2 h.2.2.le)).symm⟩
  · next h =>
    rw [slt_iff] at h
    have := not_lt.1 (fun h' => h ⟨hu, hv, h'⟩)
    exact ⟨hv, (min_eq_right ((val_le_iff hv hu).2 this)).symm⟩

/-! ### C16 -/

/-- C16: squares; bounds may be infinite or overflow. -/
theorem C16_square (A : Interval (Flt mw ew)) (x : ℝ) (hx : x ∈ A) : x * x ∈ Interval.square A := by
  obtain ⟨a1, a2, a3, a4, -, -, aO⟩ := mem_facts hx
  have ce : (((x * x : ℝ)) : EReal) = (x : EReal) * (x : EReal) := EReal.coe_mul _ _
  have sq : ∀ {u : Flt mw ew}, u.isNaN = false → (u * u).isNaN = false := by
    intro u hu
    rcases isFin_or_isInf hu with h | h
    · exact (mul_fin h h).1
    · have hK := kInf_pos (mw := mw) (ew := ew)
      refine mul_notNaN hu hu (Or.inr ?_)
      rw [isInf_iff_key] at h; omega
  unfold Interval.square
  split
  · next h =>
    rw [isNonnegative_iff, ← val_nonneg_iff a1] at h
    have x0 := le_trans h.2 a3
    exact ⟨mul_lower (sq a1) (by rw [ce]; exact ER.lo_PP h.2 h.2 a3 a3),
      mul_upper (sq a2) (by rw [ce]; exact ER.mul_le_mul_up x0 a4 a4 (le_trans x0 a4))⟩
  · next h1 =>
    split
    · next h =>
      rw [isNonpositive_iff, ← val_nonpos_iff a2] at h
      have x0 := le_trans a4 h.2
      exact ⟨mul_lower (sq a2) (by rw [ce]; exact ER.lo_NN h.2 h.2 a4 a4),
        mul_upper (sq a1) (by rw [ce]; exact ER.up_NM x0 a3 a3 (le_trans a3 x0))⟩
    · next h2 =>
      have hna : (-A.inf).isNaN = false := by rw [isNaN_negop]; exact a1
      obtain ⟨m1, m2⟩ := smax_spec hna a2
      refine ⟨⟨szero_notNaN, ?_⟩, mul_upper (sq m1) ?_⟩
      · change (Scalar.zero : Flt mw ew).val ≤ _
        rw [val_szero]; exact_mod_cast mul_self_nonneg x
      · rw [ce, m2]
        rcases le_total 0 x with h | h
        · have hx0 : (0 : EReal) ≤ x := by exact_mod_cast h
          have hm := le_trans a4 (le_max_right (-A.inf).val A.sup.val)
          exact ER.mul_le_mul_up hx0 hm hm (le_trans hx0 hm)
        · have hx0 : (0 : EReal) ≤ -(x : EReal) := ER.neg_nonneg (by exact_mod_cast h)
          have hm : -(x : EReal) ≤ max (-A.inf).val A.sup.val := by
            refine le_trans ?_ (le_max_left _ _)
            rw [val_neg a1]; exact EReal.neg_le_neg_iff.2 a3
          have := ER.mul_le_mul_up hx0 hm hm (le_trans hx0 hm)
          simpa using this

/-- C16: the square of a straddling interval has lower bound exactly `+0.0` (bit pattern). -/
theorem C16_square_straddle (A : Interval (Flt mw ew)) (h : Straddles A) :
    (Interval.square A).inf = Flt.zero mw ew false := by
  obtain ⟨a1, a2, a3, a4⟩ := h
  rw [val_lt_zero_iff a1] at a3; rw [val_zero_lt_iff a2] at a4
  unfold Interval.square
  rw [if_neg (by rw [isNonnegative_iff]; omega), if_neg (by rw [isNonpositive_iff]; omega)]
  rfl

/-- The trait method (used by generic code) is the inherent method. -/
theorem C16_trait (A : Interval (Flt mw ew)) : Scalar.square A = Interval.square A := rfl

theorem straddles_exA : Straddles exA := by
  refine ⟨by decide +kernel, by decide +kernel, ?_, ?_⟩
  · rw [val_lt_zero_iff (by decide +kernel)]; decide +kernel
  · rw [val_zero_lt_iff (by decide +kernel)]; decide +kernel
/-- `exA = [-1,2]` straddles; its square is `[0, 4+ulp]`. -/
example : Straddles exA ∧ Interval.square exA = ⟨F32.lit 0, F32.nextUp (F32.lit 4)⟩ :=
  ⟨straddles_exA, by decide +kernel⟩

/-! ### C17 -/

theorem sqrt_lower {l : Flt mw ew} {x : ℝ} (hl : LowerOf l x) (h0 : 0 ≤ l.key) :
    LowerOf (GFloat.nextDown (GFloat.sqrt l)) (Real.sqrt x) := by
  have hK := kInf_pos (mw := mw) (ew := ew)
  have hf : l.isFin = true := by
    have := hl.key_ne_top
    have hb := key_bounds hl.1
    exact isFin_iff_key.2 ⟨by omega, by omega⟩
  obtain ⟨h1, h2⟩ := sqrt_fin hf h0
  exact lower_step h1 h2.le (Real.sqrt_le_sqrt ((lowerOf_fin hf).1 hl))

theorem sqrt_inf {u : Flt mw ew} (hn : u.isNaN = false) (h : u.key = kInf mw ew) :
    u.sqrt.isNaN = false ∧ u.sqrt.key = kInf mw ew := by
  have hK := kInf_pos (mw := mw) (ew := ew)
  have hi : u.isInf = true := isInf_iff_key.2 (Or.inl h)
  have hs : u.sgn = false := sgn_of_key_pos (by omega)
  have hz : u.isZero = false := by rw [Bool.eq_false_iff, ne_eq, isZero_iff_key]; omega
  unfold Flt.sqrt
  rw [hn, hi, hs, hz]
  simp only [Bool.false_eq_true, if_false, if_true]
  exact ⟨hn, h⟩

theorem sqrt_upper {u : Flt mw ew} {x : ℝ} (hu : UpperOf u x) (h0 : 0 ≤ u.key) :
    UpperOf (GFloat.nextUp (GFloat.sqrt u)) (Real.sqrt x) := by
  have hb := key_bounds hu.1
  have hK := kInf_pos (mw := mw) (ew := ew)
  by_cases hk : u.key = kInf mw ew
  · obtain ⟨h1, h2⟩ := sqrt_inf hu.1 hk
    exact upper_step_top h1 h2
  · have hf : u.isFin = true := isFin_iff_key.2 ⟨by omega, by omega⟩
    obtain ⟨h1, h2⟩ := sqrt_fin hf h0
    exact upper_step h1 h2.ge (Real.sqrt_le_sqrt ((upperOf_fin hf).1 hu))

/-- C17 for intervals with nonnegative lower bound (`-0.0` included).
Missing: intervals reaching below zero, where the lower bound is NaN (`C17_refuted`). -/
theorem C17_sqrt_partial (A : Interval (Flt mw ew)) (x : ℝ) (hx : x ∈ A) (h0 : 0 ≤ A.inf.val) :
    Real.sqrt x ∈ Interval.sqrt A := by
  obtain ⟨a1, a2, -, -, -, -, aO⟩ := mem_facts hx
  rw [val_nonneg_iff a1] at h0
  exact ⟨sqrt_lower hx.1 h0, sqrt_upper hx.2 (by omega)⟩

/-- C17 for the trait method `GFloat::sqrt`, which generic code uses; same restriction. -/
theorem C17_sqrt_trait_partial (A : Interval (Flt mw ew)) (x : ℝ) (hx : x ∈ A) (h0 : 0 ≤ A.inf.val) :
    Real.sqrt x ∈ (GFloat.sqrt A : Interval (Flt mw ew)) := by
  obtain ⟨h1, h2⟩ := C17_sqrt_partial A x hx h0
  have hle : (GFloat.nextDown (GFloat.sqrt A.inf)).key ≤ (GFloat.nextUp (GFloat.sqrt A.sup)).key :=
    (val_le_iff h1.1 h2.1).1 (le_trans h1.2 h2.2)
  change Real.sqrt x ∈ Interval.from2 (Scalar.minMax (GFloat.nextDown (GFloat.sqrt A.inf)) (GFloat.nextUp (GFloat.sqrt A.sup)))
  unfold Scalar.minMax
  split
  · exact ⟨h1, h2⟩
  · next h =>
    rw [slt_iff] at h
    have := not_lt.1 (fun h' => h ⟨h1.1, h2.1, h'⟩)
    change (GFloat.nextUp (GFloat.sqrt A.sup)).key ≤ (GFloat.nextDown (GFloat.sqrt A.inf)).key at this
    exact ⟨⟨h2.1, le_trans ((val_le_iff h2.1 h1.1).2 this) h1.2⟩,
      ⟨h1.1, le_trans h2.2 ((val_le_iff h2.1 h1.1).2 this)⟩⟩

/-- C17 is false: `1 ∈ [-1,2]` but `sqrt [-1,2]` has a NaN bound (both variants), hence no members. -/
theorem C17_refuted :
    (¬ ∀ (A : Interval F32) (x : ℝ), 0 ≤ x → x ∈ A → Real.sqrt x ∈ Interval.sqrt A) ∧
    (¬ ∀ (A : Interval F32) (x : ℝ), 0 ≤ x → x ∈ A → Real.sqrt x ∈ (GFloat.sqrt A : Interval F32)) := by
  obtain ⟨e1, e2, -⟩ := toReal_lit_small
  have hm : (1 : ℝ) ∈ exA := by
    refine ⟨(lowerOf_fin (by decide +kernel)).2 ?_, (upperOf_fin (by decide +kernel)).2 ?_⟩
    · change (-(F32.lit 1)).toReal ≤ _; rw [toReal_negop, e1]; norm_num
    · change _ ≤ (F32.lit 2).toReal; rw [e2]; norm_num
  constructor
  · intro h
    exact absurd (h exA 1 (by norm_num) hm).1.1 (by decide +kernel)
  · intro h
    exact absurd (h exA 1 (by norm_num) hm).2.1 (by decide +kernel)

/-- Hypotheses of the partial theorems met: `2 ∈ [2,3]`. -/
example : (2 : ℝ) ∈ (⟨F32.lit 2, F32.lit 3⟩ : Interval F32) ∧ 0 ≤ (F32.lit 2).val := by
  obtain ⟨-, e2, e3⟩ := toReal_lit_small
  refine ⟨⟨(lowerOf_fin (by decide +kernel)).2 (by change (F32.lit 2).toReal ≤ _; rw [e2]),
    (upperOf_fin (by decide +kernel)).2 (by change _ ≤ (F32.lit 3).toReal; rw [e3]; norm_num)⟩, ?_⟩
  rw [val_nonneg_iff (by decide +kernel)]; decide +kernel

/-! ### C18 -/

/-- C18: negation. -/
theorem C18_neg (A : Interval (Flt mw ew)) (x : ℝ) (hx : x ∈ A) : -x ∈ -A := ⟨hx.2.neg, hx.1.neg⟩

/-- C18: negation is exact (no widening). -/
theorem C18_neg_exact (A : Interval (Flt mw ew)) (x : ℝ) : -x ∈ -A ↔ x ∈ A := by
  refine ⟨fun h => ?_, C18_neg A x⟩
  have nn : ∀ u : Flt mw ew, -(-u) = u := fun u => Flt.neg_neg u
  have := C18_neg (-A) (-x) h
  rw [_root_.neg_neg] at this
  have e : -(-A) = A := by
    change (⟨-(-A.inf), -(-A.sup)⟩ : Interval (Flt mw ew)) = A
    rw [nn, nn]
  rwa [e] at this

/-- C18: absolute value. -/
theorem C18_abs (A : Interval (Flt mw ew)) (x : ℝ) (hx : x ∈ A) : |x| ∈ (SignedScalar.abs A : Interval (Flt mw ew)) := by
  obtain ⟨a1, a2, a3, a4, -, -, aO⟩ := mem_facts hx
  have habs : ∀ u : Flt mw ew, u.isNaN = false →
      (SignedScalar.abs u).isNaN = false ∧ u.val ≤ (SignedScalar.abs u).val ∧ -u.val ≤ (SignedScalar.abs u).val := by
    intro u hu
    change (Scalar.absDefault u).isNaN = false ∧ u.val ≤ (Scalar.absDefault u).val ∧ -u.val ≤ (Scalar.absDefault u).val
    unfold Scalar.absDefault Scalar.isNegative
    split
    · next h =>
      rw [slt_iff, key_szero] at h
      refine ⟨by rw [isNaN_negop]; exact hu, ?_, by rw [val_neg hu]⟩
      rw [val_le_iff hu (by rw [isNaN_negop]; exact hu), key_negop]; omega
    · next h =>
      rw [slt_iff, key_szero] at h
      have := not_lt.1 (fun h' => h ⟨hu, szero_notNaN, h'⟩)
      refine ⟨hu, le_rfl, ?_⟩
      rw [← val_neg hu, val_le_iff (by rw [isNaN_negop]; exact hu) hu, key_negop]; omega
  change |x| ∈ (if Scalar.isNegative A.inf then
      Interval.new Scalar.zero (Scalar.max (SignedScalar.abs A.inf) (SignedScalar.abs A.sup))
    else Interval.from2 (Scalar.minMax A.inf A.sup))
  obtain ⟨i1, i2, i3⟩ := habs _ a1
  obtain ⟨s1, s2, s3⟩ := habs _ a2
  obtain ⟨m1, m2⟩ := smax_spec i1 s1
  split
  · refine ⟨⟨szero_notNaN, ?_⟩, ⟨m1, ?_⟩⟩
    · change (Scalar.zero : Flt mw ew).val ≤ _
      rw [val_szero]; exact_mod_cast abs_nonneg x
    · change ((|x| : ℝ) : EReal) ≤ (Scalar.max (SignedScalar.abs A.inf) (SignedScalar.abs A.sup)).val
      rw [m2]
      rcases le_total 0 x with h | h
      · rw [abs_of_nonneg h]; exact le_trans (le_trans a4 s2) (le_max_right _ _)
      · rw [abs_of_nonpos h, EReal.coe_neg]
        exact le_trans (le_trans (EReal.neg_le_neg_iff.2 a3) i3) (le_max_left _ _)
  · next h =>
    unfold Scalar.isNegative at h
    rw [slt_iff, key_szero] at h
    have k0 := not_lt.1 (fun h' => h ⟨a1, szero_notNaN, h'⟩)
    have x0 : 0 ≤ x := by
      have := le_trans ((val_nonneg_iff a1).2 k0) a3
      exact_mod_cast this
    rw [abs_of_nonneg x0]
    unfold Scalar.minMax
    split
    · exact hx
    · next h' =>
      rw [slt_iff] at h'
      have hk := not_lt.1 (fun h'' => h' ⟨a1, a2, h''⟩)
      have he : A.inf.val = A.sup.val := (val_eq_iff a1 a2).2 (by omega)
      exact ⟨⟨a2, by change A.sup.val ≤ _; rw [← he]; exact a3⟩, ⟨a1, by change _ ≤ A.inf.val; rw [he]; exact a4⟩⟩

/-- C18: the lower bound of `abs` is never negative. -/
theorem C18_abs_nonneg (A : Interval (Flt mw ew)) (h1 : A.inf.isNaN = false) (h2 : A.sup.isNaN = false)
    (ho : A.inf.val ≤ A.sup.val) : 0 ≤ (SignedScalar.abs A : Interval (Flt mw ew)).inf.val := by
  change 0 ≤ (if Scalar.isNegative A.inf then
      Interval.new Scalar.zero (Scalar.max (SignedScalar.abs A.inf) (SignedScalar.abs A.sup))
    else Interval.from2 (Scalar.minMax A.inf A.sup)).inf.val
  split
  · change 0 ≤ (Scalar.zero : Flt mw ew).val; rw [val_szero]
  · next h =>
    unfold Scalar.isNegative at h
    rw [slt_iff, key_szero] at h
    have k0 := not_lt.1 (fun h' => h ⟨h1, szero_notNaN, h'⟩)
    rw [val_le_iff h1 h2] at ho
    unfold Scalar.minMax
    split
    · exact (val_nonneg_iff h1).2 k0
    · exact (val_nonneg_iff h2).2 (by omega)

/-- C18: pointwise minimum. -/
theorem C18_min (A B : Interval (Flt mw ew)) (x y : ℝ) (hx : x ∈ A) (hy : y ∈ B) :
    min x y ∈ (Scalar.min A B : Interval (Flt mw ew)) := by
  obtain ⟨l1, l2⟩ := smin_spec hx.1.1 hy.1.1
  obtain ⟨u1, u2⟩ := smin_spec hx.2.1 hy.2.1
  refine ⟨⟨l1, ?_⟩, ⟨u1, ?_⟩⟩
  · change (Scalar.min A.inf B.inf).val ≤ _
    rw [l2, EReal.coe_strictMono.monotone.map_min]; exact min_le_min hx.1.2 hy.1.2
  · change _ ≤ (Scalar.min A.sup B.sup).val
    rw [u2, EReal.coe_strictMono.monotone.map_min]; exact min_le_min hx.2.2 hy.2.2

/-- C18: pointwise maximum. -/
theorem C18_max (A B : Interval (Flt mw ew)) (x y : ℝ) (hx : x ∈ A) (hy : y ∈ B) :
    max x y ∈ (Scalar.max A B : Interval (Flt mw ew)) := by
  obtain ⟨l1, l2⟩ := smax_spec hx.1.1 hy.1.1
  obtain ⟨u1, u2⟩ := smax_spec hx.2.1 hy.2.1
  refine ⟨⟨l1, ?_⟩, ⟨u1, ?_⟩⟩
  · change (Scalar.max A.inf B.inf).val ≤ _
    rw [l2, EReal.coe_strictMono.monotone.map_max]; exact max_le_max hx.1.2 hy.1.2
  · change _ ≤ (Scalar.max A.sup B.sup).val
    rw [u2, EReal.coe_strictMono.monotone.map_max]; exact max_le_max hx.2.2 hy.2.2

/-- C18: the union contains both operands, and is the smallest interval doing so: any lower bound of both operands is a
lower bound of the union, likewise above. -/
theorem C18_union (A B : Interval (Flt mw ew)) (hA : NoNaN A) (hB : NoNaN B) :
    (∀ x : ℝ, x ∈ A ∨ x ∈ B → x ∈ Interval.union A B) ∧
    (Interval.union A B).inf.val = min A.inf.val B.inf.val ∧ (Interval.union A B).sup.val = max A.sup.val B.sup.val := by
  obtain ⟨l1, l2⟩ := smin_spec hA.1 hB.1
  obtain ⟨u1, u2⟩ := smax_spec hA.2 hB.2
  refine ⟨?_, l2, u2⟩
  rintro x (h | h)
  · exact ⟨⟨l1, le_trans l2.le (le_trans (min_le_left _ _) h.1.2)⟩, ⟨u1, le_trans (le_trans h.2.2 (le_max_left _ _)) u2.ge⟩⟩
  · exact ⟨⟨l1, le_trans l2.le (le_trans (min_le_right _ _) h.1.2)⟩, ⟨u1, le_trans (le_trans h.2.2 (le_max_right _ _)) u2.ge⟩⟩

/-- C18: the intersection contains exactly the common points. -/
theorem C18_intersect (A B : Interval (Flt mw ew)) (hA : NoNaN A) (hB : NoNaN B) (x : ℝ) :
    x ∈ Interval.intersect A B ↔ x ∈ A ∧ x ∈ B := by
  obtain ⟨l1, l2⟩ := smax_spec hA.1 hB.1
  obtain ⟨u1, u2⟩ := smin_spec hA.2 hB.2
  constructor
  · rintro ⟨⟨-, h1⟩, ⟨-, h2⟩⟩
    change (Scalar.max A.inf B.inf).val ≤ _ at h1
    change _ ≤ (Scalar.min A.sup B.sup).val at h2
    rw [l2, max_le_iff] at h1
    rw [u2, le_min_iff] at h2
    exact ⟨⟨⟨hA.1, h1.1⟩, ⟨hA.2, h2.1⟩⟩, ⟨⟨hB.1, h1.2⟩, ⟨hB.2, h2.2⟩⟩⟩
  · rintro ⟨h1, h2⟩
    exact ⟨⟨l1, le_trans l2.le (max_le h1.1.2 h2.1.2)⟩, ⟨u1, le_trans (le_min h1.2.2 h2.2.2) u2.ge⟩⟩

/-- Hypotheses of C18 met by `[-1,2]` and `[-3,1]`; `|[-1,2]| = [0,2]`, `[-1,2] ∩ [-3,1] = [-1,1]`. -/
example : NoNaN exA ∧ NoNaN exB ∧ (SignedScalar.abs exA : Interval F32) = ⟨F32.lit 0, F32.lit 2⟩ ∧
    Interval.intersect exA exB = ⟨-(F32.lit 1), F32.lit 1⟩ ∧ Interval.union exA exB = ⟨-(F32.lit 3), F32.lit 2⟩ := by
  unfold NoNaN; decide +kernel

end Scarlet
