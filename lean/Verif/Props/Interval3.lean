import Verif.Props.Interval2

/-! C19 – C22: interval comparisons, ordering of results, `approx`, predicates. -/

set_option linter.unusedSectionVars false

namespace Scarlet
open Flt Scarlet.Interval
variable {mw ew : Nat} [FltImpl mw ew] [LawfulFlt mw ew]

/-! ### the bounds of a nonempty interval as infimum and supremum of its members -/

theorem mem_of_inf_fin {A : Interval (Flt mw ew)} {x : ℝ} (hx : x ∈ A) (h : A.inf.isFin = true) : A.inf.toReal ∈ A :=
  ⟨LowerOf.of_fin h, ⟨hx.2.1, le_trans (by rw [EReal.coe_le_coe_iff]; exact (lowerOf_fin h).1 hx.1) hx.2.2⟩⟩
theorem mem_of_sup_fin {A : Interval (Flt mw ew)} {x : ℝ} (hx : x ∈ A) (h : A.sup.isFin = true) : A.sup.toReal ∈ A :=
  ⟨⟨hx.1.1, le_trans hx.1.2 (by rw [EReal.coe_le_coe_iff]; exact (upperOf_fin h).1 hx.2)⟩, UpperOf.of_fin h⟩

theorem mem_below {A : Interval (Flt mw ew)} {x r : ℝ} (hx : x ∈ A) (h : A.inf.key = -kInf mw ew) (hr : r ≤ x) : r ∈ A :=
  ⟨⟨hx.1.1, by rw [(val_bot_iff hx.1.1).2 h]; exact bot_le⟩, ⟨hx.2.1, le_trans (by exact_mod_cast hr) hx.2.2⟩⟩
theorem mem_above {A : Interval (Flt mw ew)} {x r : ℝ} (hx : x ∈ A) (h : A.sup.key = kInf mw ew) (hr : x ≤ r) : r ∈ A :=
  ⟨⟨hx.1.1, le_trans hx.1.2 (by exact_mod_cast hr)⟩, ⟨hx.2.1, by rw [(val_top_iff hx.2.1).2 h]; exact le_top⟩⟩

theorem inf_cases {A : Interval (Flt mw ew)} {x : ℝ} (hx : x ∈ A) : A.inf.key = -kInf mw ew ∨ A.inf.isFin = true := by
  rcases key_cases hx.1.1 with h | h | h
  · exact Or.inl h
  · exact absurd h hx.1.key_ne_top
  · exact Or.inr h
theorem sup_cases {A : Interval (Flt mw ew)} {x : ℝ} (hx : x ∈ A) : A.sup.key = kInf mw ew ∨ A.sup.isFin = true := by
  rcases key_cases hx.2.1 with h | h | h
  · exact absurd h hx.2.key_ne_bot
  · exact Or.inl h
  · exact Or.inr h

theorem le_inf_iff {A : Interval (Flt mw ew)} (hne : ∃ x : ℝ, x ∈ A) (c : ℝ) :
    (c : EReal) ≤ A.inf.val ↔ ∀ x : ℝ, x ∈ A → c ≤ x := by
  obtain ⟨x0, h0⟩ := hne
  constructor
  · intro h x hx
    exact_mod_cast le_trans h hx.1.2
  · intro h
    rcases inf_cases h0 with hk | hf
    · have := h (min x0 (c - 1)) (mem_below h0 hk (min_le_left _ _))
      have h2 := min_le_right x0 (c - 1)
      linarith
    · rw [val_of_isFin hf, EReal.coe_le_coe_iff]; exact h _ (mem_of_inf_fin h0 hf)

theorem lt_inf_iff {A : Interval (Flt mw ew)} (hne : ∃ x : ℝ, x ∈ A) (c : ℝ) :
    (c : EReal) < A.inf.val ↔ ∀ x : ℝ, x ∈ A → c < x := by
  obtain ⟨x0, h0⟩ := hne
  constructor
  · intro h x hx
    exact_mod_cast lt_of_lt_of_le h hx.1.2
  · intro h
    rcases inf_cases h0 with hk | hf
    · have := h (min x0 (c - 1)) (mem_below h0 hk (min_le_left _ _))
      have h2 := min_le_right x0 (c - 1)
      linarith
    · rw [val_of_isFin hf, EReal.coe_lt_coe_iff]; exact h _ (mem_of_inf_fin h0 hf)

theorem sup_le_iff' {A : Interval (Flt mw ew)} (hne : ∃ x : ℝ, x ∈ A) (c : ℝ) :
    A.sup.val ≤ (c : EReal) ↔ ∀ x : ℝ, x ∈ A → x ≤ c := by
  obtain ⟨x0, h0⟩ := hne
  constructor
  · intro h x hx
    exact_mod_cast le_trans hx.2.2 h
  · intro h
    rcases sup_cases h0 with hk | hf
    · have := h (max x0 (c + 1)) (mem_above h0 hk (le_max_left _ _))
      have h2 := le_max_right x0 (c + 1)
      linarith
    · rw [val_of_isFin hf, EReal.coe_le_coe_iff]; exact h _ (mem_of_sup_fin h0 hf)

theorem sup_lt_iff' {A : Interval (Flt mw ew)} (hne : ∃ x : ℝ, x ∈ A) (c : ℝ) :
    A.sup.val < (c : EReal) ↔ ∀ x : ℝ, x ∈ A → x < c := by
  obtain ⟨x0, h0⟩ := hne
  constructor
  · intro h x hx
    exact_mod_cast lt_of_le_of_lt hx.2.2 h
  · intro h
    rcases sup_cases h0 with hk | hf
    · have := h (max x0 (c + 1)) (mem_above h0 hk (le_max_left _ _))
      have h2 := le_max_right x0 (c + 1)
      linarith
    · rw [val_of_isFin hf, EReal.coe_lt_coe_iff]; exact h _ (mem_of_sup_fin h0 hf)

theorem sup_lt_inf_iff {A B : Interval (Flt mw ew)} (hA : ∃ x : ℝ, x ∈ A) (hB : ∃ y : ℝ, y ∈ B) :
    A.sup.val < B.inf.val ↔ ∀ x y : ℝ, x ∈ A → y ∈ B → x < y := by
  constructor
  · intro h x y hx hy
    exact_mod_cast lt_of_le_of_lt hx.2.2 (lt_of_lt_of_le h hy.1.2)
  · intro h
    obtain ⟨x0, h0⟩ := hA
    rcases sup_cases h0 with hk | hf
    · obtain ⟨y, hy⟩ := hB
      have := h (max x0 y) y (mem_above h0 hk (le_max_left _ _)) hy
      exact absurd this (not_lt.2 (le_max_right _ _))
    · rw [val_of_isFin hf]
      exact (lt_inf_iff hB _).2 (fun y hy => h _ y (mem_of_sup_fin h0 hf) hy)

/-! ### C19 -/

theorem ieq_iff {A B : Interval (Flt mw ew)} : Scalar.eq A B = true ↔
    (A.inf.isNaN = false ∧ A.sup.isNaN = false ∧ A.inf.key = A.sup.key) ∧
    (B.inf.isNaN = false ∧ B.sup.isNaN = false ∧ B.inf.key = B.sup.key) ∧ A.inf.key = B.inf.key := by
  change Interval.eq A B = true ↔ _
  unfold Interval.eq isExact
  rw [Bool.and_eq_true, Bool.and_eq_true, seq_iff, seq_iff, seq_iff]
  tauto

theorem ilt_iff {A B : Interval (Flt mw ew)} : Scalar.lt A B = true ↔ Scalar.lt A.sup B.inf = true := by
  unfold Scalar.lt
  change (Interval.pcmp A B == some .lt) = true ↔ _
  unfold Interval.pcmp
  by_cases he : Interval.eq A B = true
  · rw [if_pos he]
    have := ieq_iff.1 he
    rw [show (Scalar.pcmp A.sup B.inf == some .lt) = Scalar.lt A.sup B.inf from rfl, slt_iff]
    simp only [show ((some Ordering.eq : Option Ordering) == some .lt) = false from rfl, Bool.false_eq_true, false_iff]
    omega
  · rw [if_neg he]
    by_cases h : Scalar.lt A.sup B.inf = true
    · rw [if_pos h]; exact ⟨fun _ => h, fun _ => rfl⟩
    · rw [if_neg h]
      refine ⟨fun hc => ?_, fun hc => absurd hc h⟩
      split at hc <;> exact absurd hc (by decide)

theorem igt_iff {A B : Interval (Flt mw ew)} (hA : ∃ x : ℝ, x ∈ A) (hB : ∃ x : ℝ, x ∈ B) :
    Scalar.gt A B = true ↔ Scalar.lt B.sup A.inf = true := by
  obtain ⟨x, hx⟩ := hA
  obtain ⟨y, hy⟩ := hB
  obtain ⟨a1, a2, -, -, -, -, aO⟩ := mem_facts hx
  obtain ⟨b1, b2, -, -, -, -, bO⟩ := mem_facts hy
  unfold Scalar.gt
  change (Interval.pcmp A B == some .gt) = true ↔ _
  unfold Interval.pcmp
  by_cases he : Interval.eq A B = true
  · rw [if_pos he]
    have := ieq_iff.1 he
    rw [slt_iff]
    simp only [show ((some Ordering.eq : Option Ordering) == some .gt) = false from rfl, Bool.false_eq_true, false_iff]
    omega
  · rw [if_neg he]
    by_cases h : Scalar.lt A.sup B.inf = true
    · rw [if_pos h]
      rw [slt_iff] at h ⊢
      simp only [show ((some Ordering.lt : Option Ordering) == some .gt) = false from rfl, Bool.false_eq_true, false_iff]
      omega
    · rw [if_neg h]
      split
      · next h2 => exact ⟨fun _ => h2, fun _ => rfl⟩
      · next h2 => exact ⟨fun hc => absurd hc (by decide), fun hc => absurd hc h2⟩

/-- C19: `A < B` is "every point of A is below every point of B". -/
theorem C19_lt (A B : Interval (Flt mw ew)) (hA : ∃ x : ℝ, x ∈ A) (hB : ∃ y : ℝ, y ∈ B) :
    Scalar.lt A B = true ↔ ∀ x y : ℝ, x ∈ A → y ∈ B → x < y := by
  rw [ilt_iff, ← sup_lt_inf_iff hA hB]
  obtain ⟨x, hx⟩ := hA
  obtain ⟨y, hy⟩ := hB
  rw [slt_iff, val_lt_iff hx.2.1 hy.1.1]
  exact ⟨fun h => h.2.2, fun h => ⟨hx.2.1, hy.1.1, h⟩⟩

/-- C19: `A > B` is "every point of A is above every point of B". -/
theorem C19_gt (A B : Interval (Flt mw ew)) (hA : ∃ x : ℝ, x ∈ A) (hB : ∃ y : ℝ, y ∈ B) :
    Scalar.gt A B = true ↔ ∀ x y : ℝ, x ∈ A → y ∈ B → y < x := by
  rw [igt_iff hA hB, ← ilt_iff, C19_lt B A hB hA]
  exact ⟨fun h x y hx hy => h y x hy hx, fun h x y hx hy => h y x hy hx⟩

/-- C19: `A == B` is "both are the same single point". -/
theorem C19_eq (A B : Interval (Flt mw ew)) (hA : ∃ x : ℝ, x ∈ A) (hB : ∃ y : ℝ, y ∈ B) :
    Scalar.eq A B = true ↔ ∃ r : ℝ, (∀ x, x ∈ A ↔ x = r) ∧ (∀ y, y ∈ B ↔ y = r) := by
  obtain ⟨x, hx⟩ := hA
  obtain ⟨y, hy⟩ := hB
  obtain ⟨a1, a2, -, -, a5, a6, aO⟩ := mem_facts hx
  obtain ⟨b1, b2, -, -, b5, b6, bO⟩ := mem_facts hy
  have kbA := key_bounds a1
  have kbA' := key_bounds a2
  have kbB := key_bounds b1
  have kbB' := key_bounds b2
  have hK := kInf_pos (mw := mw) (ew := ew)
  rw [ieq_iff]
  have single : ∀ (C : Interval (Flt mw ew)) (z : ℝ), z ∈ C → C.inf.isFin = true → C.inf.key = C.sup.key →
      ∀ w : ℝ, w ∈ C ↔ w = C.inf.toReal := by
    intro C z hz hf hk w
    have hf2 : C.sup.isFin = true := by rw [isFin_iff_key] at hf ⊢; omega
    have he : C.sup.toReal = C.inf.toReal := toReal_eq_iff.2 hk.symm
    constructor
    · intro hw
      have h1 := (lowerOf_fin hf).1 hw.1
      have h2 := (upperOf_fin hf2).1 hw.2
      linarith
    · rintro rfl; exact mem_of_inf_fin hz hf
  constructor
  · rintro ⟨⟨-, -, h1⟩, ⟨-, -, h2⟩, h3⟩
    have fA : A.inf.isFin = true := isFin_iff_key.2 ⟨by omega, by omega⟩
    have fB : B.inf.isFin = true := isFin_iff_key.2 ⟨by omega, by omega⟩
    refine ⟨A.inf.toReal, single A x hx fA h1, ?_⟩
    rw [toReal_eq_iff.2 h3]
    exact single B y hy fB h2
  · rintro ⟨r, h1, h2⟩
    have point : ∀ (C : Interval (Flt mw ew)) (z : ℝ), z ∈ C → (∀ w, w ∈ C ↔ w = r) →
        C.inf.isFin = true ∧ C.sup.isFin = true ∧ C.inf.toReal = r ∧ C.sup.toReal = r := by
      intro C z hz h
      have fi : C.inf.isFin = true := by
        rcases inf_cases hz with hk | hf
        · have e1 := (h _).1 hz
          have e2 := (h _).1 (mem_below hz hk (show z - 1 ≤ z by linarith))
          linarith
        · exact hf
      have fs : C.sup.isFin = true := by
        rcases sup_cases hz with hk | hf
        · have e1 := (h _).1 hz
          have e2 := (h _).1 (mem_above hz hk (show z ≤ z + 1 by linarith))
          linarith
        · exact hf
      exact ⟨fi, fs, (h _).1 (mem_of_inf_fin hz fi), (h _).1 (mem_of_sup_fin hz fs)⟩
    obtain ⟨-, -, e1, e2⟩ := point A x hx h1
    obtain ⟨-, -, e3, e4⟩ := point B y hy h2
    exact ⟨⟨a1, a2, toReal_eq_iff.1 (e1.trans e2.symm)⟩, ⟨b1, b2, toReal_eq_iff.1 (e3.trans e4.symm)⟩,
      toReal_eq_iff.1 (e1.trans e3.symm)⟩

/-- C19: comparison with a finite float `t`: `A < t`. -/
theorem C19_lt_scalar (A : Interval (Flt mw ew)) (t : Flt mw ew) (ht : t.isFin = true) (hA : ∃ x : ℝ, x ∈ A) :
    Interval.pcmpS A t = some .lt ↔ ∀ x : ℝ, x ∈ A → x < t.toReal := by
  rw [← sup_lt_iff' hA]
  obtain ⟨x, hx⟩ := hA
  obtain ⟨a1, a2, -, -, a5, a6, aO⟩ := mem_facts hx
  rw [← val_of_isFin ht, val_lt_iff a2 (notNaN_of_isFin ht)]
  unfold Interval.pcmpS
  by_cases he : Interval.eqS A t = true
  · rw [if_pos he]
    unfold Interval.eqS isExact at he
    rw [Bool.and_eq_true, seq_iff, seq_iff] at he
    constructor
    · intro h; exact absurd h (by decide)
    · intro h; omega
  · rw [if_neg he]
    by_cases h : Scalar.lt A.sup t = true
    · rw [if_pos h]; rw [slt_iff] at h; exact ⟨fun _ => h.2.2, fun _ => rfl⟩
    · rw [if_neg h]
      rw [slt_iff] at h
      constructor
      · intro hc; split at hc <;> exact absurd hc (by decide)
      · intro hk; exact absurd ⟨a2, notNaN_of_isFin ht, hk⟩ h

/-- C19, the documented meaning "checks that the two intervals have the same bounds" (interval.rs:352) is false:
`[-1,2]` has the same bounds as itself but is not `==` itself. -/
theorem C19_doc_refuted : ¬ ∀ A B : Interval F32, Scalar.eq A B = true ↔ (Scalar.eq A.inf B.inf = true ∧ Scalar.eq A.sup B.sup = true) := by
  intro h
  have := (h exA exA).2 (by decide +kernel)
  exact absurd this (by decide +kernel)

/-- Nonempty operands exist, and `<` does hold for some: `[-3,1] < [2,3]`. -/
example : (∃ x : ℝ, x ∈ exA) ∧ Scalar.lt exB (⟨F32.lit 2, F32.lit 3⟩ : Interval F32) = true := by
  refine ⟨⟨1, ?_⟩, by decide +kernel⟩
  obtain ⟨e1, e2, -⟩ := toReal_lit_small
  refine ⟨(lowerOf_fin (by decide +kernel)).2 ?_, (upperOf_fin (by decide +kernel)).2 ?_⟩
  · change (-(F32.lit 1)).toReal ≤ _; rw [toReal_negop, e1]; norm_num
  · change _ ≤ (F32.lit 2).toReal; rw [e2]; norm_num

/-! ### C20 -/

theorem assertHolds_of_mem {A : Interval (Flt mw ew)} {x : ℝ} (hx : x ∈ A) : assertHolds A = true := by
  obtain ⟨a1, a2, -, -, -, -, aO⟩ := mem_facts hx
  unfold assertHolds
  rw [sge_iff]; exact ⟨a2, a1, aO⟩

/-- The assertion is exactly `Ordered`. -/
theorem C20_assert_iff (A : Interval (Flt mw ew)) : assertHolds A = true ↔ Ordered A := by
  unfold assertHolds Ordered
  rw [sge_iff]
  constructor
  · rintro ⟨h1, h2, h3⟩; exact ⟨h2, h1, (val_le_iff h2 h1).2 h3⟩
  · rintro ⟨h1, h2, h3⟩; exact ⟨h2, h1, (val_le_iff h1 h2).1 h3⟩

theorem mem_inf_of_ordered {A : Interval (Flt mw ew)} (h : Ordered A) (hf : Interval.Finite A) : A.inf.toReal ∈ A := by
  refine ⟨LowerOf.of_fin hf.1, (upperOf_fin hf.2).2 ?_⟩
  have := h.2.2
  rw [val_of_isFin hf.1, val_of_isFin hf.2, EReal.coe_le_coe_iff] at this
  exact this
theorem mem_sup_of_ordered {A : Interval (Flt mw ew)} (h : Ordered A) (hf : Interval.Finite A) : A.sup.toReal ∈ A := by
  refine ⟨(lowerOf_fin hf.1).2 ?_, UpperOf.of_fin hf.2⟩
  have := h.2.2
  rw [val_of_isFin hf.1, val_of_isFin hf.2, EReal.coe_le_coe_iff] at this
  exact this

/-- C20: no operation on ordered intervals with finite bounds trips the assertion of `Interval::new`.  (Each of these
functions calls `new` once, on its result.)  The result may have infinite bounds after overflow.
Missing: `sqrt` of an interval reaching below zero, which does panic in a debug build (`C20_refuted_sqrt`). -/
theorem C20_no_panic_partial (A B : Interval (Flt mw ew)) (t : Flt mw ew) (hA : Ordered A) (hB : Ordered B)
    (fA : Interval.Finite A) (fB : Interval.Finite B) (ft : t.isFin = true) :
    (assertHolds (A + B) = true ∧ assertHolds (A - B) = true ∧ assertHolds (A * B) = true ∧ assertHolds (A / B) = true) ∧
    (assertHolds (A + t) = true ∧ assertHolds (A - t) = true ∧ assertHolds (A * t) = true ∧ assertHolds (A / t) = true) ∧
    (assertHolds (-A) = true ∧ assertHolds (Interval.square A) = true ∧ assertHolds (SignedScalar.abs A) = true) ∧
    (assertHolds (Scalar.min A B) = true ∧ assertHolds (Scalar.max A B) = true ∧ assertHolds (Interval.union A B) = true) ∧
    (0 ≤ A.inf.val → assertHolds (Interval.sqrt A) = true ∧ assertHolds (GFloat.sqrt A) = true) := by
  have mA := mem_inf_of_ordered hA fA
  have mB := mem_inf_of_ordered hB fB
  refine ⟨⟨?_, ?_, ?_, ?_⟩, ⟨?_, ?_, ?_, ?_⟩, ⟨?_, ?_, ?_⟩, ⟨?_, ?_, ?_⟩, fun h => ⟨?_, ?_⟩⟩
  · exact assertHolds_of_mem (C11_add A B _ _ mA mB)
  · exact assertHolds_of_mem (C11_sub A B _ _ mA mB)
  · by_cases hs : Straddles A ∧ Straddles B
    · rw [mul_straddle hs.1 hs.2]
      obtain ⟨⟨a1, a2, a3, a4⟩, b1, b2, b3, b4⟩ := hs
      rw [val_lt_zero_iff a1] at a3; rw [val_zero_lt_iff a2] at a4
      rw [val_lt_zero_iff b1] at b3; rw [val_zero_lt_iff b2] at b4
      have m1 := mul_fin fA.1 fB.2
      have m2 := mul_fin fA.2 fB.1
      have m3 := mul_fin fA.1 fA.1
      have m4 := mul_fin fB.2 fB.2
      have ra : A.inf.toReal ≤ 0 := by rw [← not_lt, toReal_pos_iff]; omega
      have rb : 0 ≤ B.sup.toReal := toReal_nonneg_iff.2 (by omega)
      have ra' : 0 ≤ A.sup.toReal := toReal_nonneg_iff.2 (by omega)
      have rb' : B.inf.toReal ≤ 0 := by rw [← not_lt, toReal_pos_iff]; omega
      have k1 : (A.inf * B.sup).key ≤ 0 := by rw [Flt.mul_def, m1.2]; exact rndK_nonpos (mul_nonpos_of_nonpos_of_nonneg ra rb)
      have k2 : (A.sup * B.inf).key ≤ 0 := by rw [Flt.mul_def, m2.2]; exact rndK_nonpos (mul_nonpos_of_nonneg_of_nonpos ra' rb')
      have k3 : 0 ≤ (A.inf * A.inf).key := by rw [Flt.mul_def, m3.2]; exact rndK_nonneg (mul_self_nonneg _)
      have k4 : 0 ≤ (B.sup * B.sup).key := by rw [Flt.mul_def, m4.2]; exact rndK_nonneg (mul_self_nonneg _)
      obtain ⟨n1, v1⟩ := smin_spec (u := A.inf * B.sup) (v := A.sup * B.inf) m1.1 m2.1
      obtain ⟨n2, v2⟩ := smax_spec (u := A.inf * A.inf) (v := B.sup * B.sup) m3.1 m4.1
      have k5 : (Scalar.min (A.inf * B.sup) (A.sup * B.inf)).key ≤ 0 := by
        rw [smin_def]; split <;> assumption
      have k6 : 0 ≤ (Scalar.max (A.inf * A.inf) (B.sup * B.sup)).key := by
        rw [smax_def]; split <;> assumption
      have d1 := nextDown_key n1
      have d2 := nextUp_key n2
      have hK := kInf_pos (mw := mw) (ew := ew)
      unfold assertHolds
      rw [sge_iff]
      refine ⟨d2.1, d1.1, ?_⟩
      simp only
      omega
    · exact assertHolds_of_mem (C12_mul_finite_partial A B _ _ mA mB fA fB hs)
  · by_cases h0 : B.inf.toReal = 0
    · have := C14_div_by_zero A B (by rw [← h0]; exact mB)
      rw [C20_assert_iff]
      exact ⟨this.1.1, this.1.2, by rw [this.2.1]; exact bot_le⟩
    · exact assertHolds_of_mem (C14_div A B _ _ mA mB h0)
  · exact assertHolds_of_mem (C11_add_scalar A t _ mA ft)
  · exact assertHolds_of_mem (C11_sub_scalar A t _ mA ft)
  · exact assertHolds_of_mem (C13_mul_scalar_partial A t _ mA ft (Or.inl fA))
  · by_cases h0 : t.toReal = 0
    · have := C15_div_scalar_zero A t ft h0
      rw [C20_assert_iff]
      exact ⟨this.1.1, this.1.2, by rw [this.2.1]; exact bot_le⟩
    · exact assertHolds_of_mem (C15_div_scalar A t _ mA ft h0)
  · exact assertHolds_of_mem (C18_neg A _ mA)
  · exact assertHolds_of_mem (C16_square A _ mA)
  · exact assertHolds_of_mem (C18_abs A _ mA)
  · exact assertHolds_of_mem (C18_min A B _ _ mA mB)
  · exact assertHolds_of_mem (C18_max A B _ _ mA mB)
  · exact assertHolds_of_mem ((C18_union A B ⟨hA.1, hA.2.1⟩ ⟨hB.1, hB.2.1⟩).1 _ (Or.inl mA))
  · exact assertHolds_of_mem (C17_sqrt_partial A _ mA h)
  · exact assertHolds_of_mem (C17_sqrt_trait_partial A _ mA h)

/-- C20 is false for `sqrt`: `[-1,2].sqrt()` trips the assertion (a NaN bound is not `>=`), in both variants. -/
theorem C20_refuted_sqrt : ∃ A : Interval F32, Ordered A ∧ Interval.Finite A ∧
    assertHolds (Interval.sqrt A) = false ∧ assertHolds (GFloat.sqrt A : Interval F32) = false := by
  refine ⟨exA, (C20_assert_iff exA).1 (by decide +kernel), by unfold Interval.Finite; decide +kernel, by decide +kernel, by decide +kernel⟩

/-- The hypotheses of C20 are met by `[-1,2]`, `[-3,1]`. -/
example : Ordered exA ∧ Ordered exB ∧ Interval.Finite exA ∧ Interval.Finite exB :=
  ⟨(C20_assert_iff exA).1 (by decide +kernel), (C20_assert_iff exB).1 (by decide +kernel),
   by unfold Interval.Finite; decide +kernel, by unfold Interval.Finite; decide +kernel⟩

/-! ### C21 -/

theorem magN_infIdx : magN mw (infIdx mw ew) = 2 ^ mw * 2 ^ (2 ^ ew - 2) := by
  have h1 : 2 ^ 3 ≤ 2 ^ ew := Nat.pow_le_pow_right (by decide) (inferInstance : Fmt mw ew).hew
  have := magN_block mw (2 ^ ew - 2) 0 (Nat.zero_le _)
  rw [show (2 ^ ew - 2 + 1) * 2 ^ mw + 0 = infIdx mw ew by unfold infIdx; rw [show 2 ^ ew - 2 + 1 = 2 ^ ew - 1 by omega]; rfl] at this
  rw [this]; rfl

theorem half_spec : (GFloat.half : Flt mw ew).isFin = true ∧ (GFloat.half : Flt mw ew).toReal = 1 / 2 := by
  have hF : Fmt mw ew := inferInstance
  have hmw := hF.hmw
  have hew := hF.hew
  have h1 : 2 ^ ew = 2 * 2 ^ (ew - 1) := by rw [← pow_succ']; congr 1; omega
  have h2 : 2 ^ 2 ≤ 2 ^ (ew - 1) := Nat.pow_le_pow_right (by decide) (by omega)
  refine exact_of_repr ?_ ?_
  · refine repr_of_mul_pow 1 (fK mw ew - 1) (Nat.one_le_two_pow) ?_ ?_
    · rw [magN_infIdx, ← pow_add, one_mul]
      apply Nat.pow_lt_pow_right (by decide)
      unfold fK; omega
    · have : fK mw ew = fK mw ew - 1 + 1 := by unfold fK; omega
      rw [this, pow_succ]; simp; ring
  · change (ofRat mw ew false 1 2).key = _
    rw [(ofRat_key false 1 2 (by decide)).2]; simp

theorem valZ_double (k : ℤ) : ∃ j : ℤ, valZ mw j = 2 * valZ mw k := by
  obtain ⟨i, hi⟩ := magN_double (mw := mw) k.natAbs
  rcases le_total 0 k with h | h
  · refine ⟨i, ?_⟩
    rw [valZ_nat, valZ_nonneg_eq h, hi]; push_cast; ring
  · refine ⟨-i, ?_⟩
    have : k = -(k.natAbs : ℤ) := by omega
    rw [valZ_neg, valZ_nat, hi]; conv_rhs => rw [this, valZ_neg, valZ_nat]
    push_cast; ring

/-- Rounding does not fall below an exactly doubled float. -/
theorem double_le {x z : Flt mw ew} {r : ℝ} (hz : z.isFin = true) (hk : z.key = rndK mw ew r)
    (h : 2 * x.toReal ≤ r) : 2 * x.toReal ≤ z.toReal := by
  obtain ⟨j, hj⟩ := valZ_double (mw := mw) x.key
  have e : 2 * x.toReal = valZ mw j / 2 ^ fK mw ew := by rw [toReal_eq_key, hj]; ring
  have hz' := isFin_iff_key.1 hz
  have mono : ∀ {a b : ℤ}, a ≤ b → valZ mw a / 2 ^ fK mw ew ≤ valZ mw b / 2 ^ fK mw ew :=
    fun hab => div_le_div_of_nonneg_right (valZ_le.2 hab) (by positivity)
  rw [e, toReal_eq_key]
  apply mono
  by_contra hlt
  rw [not_le] at hlt
  have h1 := rndK_mono mw ew h
  rw [← hk, e] at h1
  rcases le_or_gt j (kInf mw ew) with hj2 | hj2
  · rw [rndK_valZ (by omega) hj2] at h1; omega
  · have h2 := rndK_mono mw ew (mono (show kInf mw ew ≤ j by omega))
    rw [rndK_valZ (by have hK := kInf_pos (mw := mw) (ew := ew); omega) le_rfl] at h2
    omega

theorem le_double {x z : Flt mw ew} {r : ℝ} (hz : z.isFin = true) (hk : z.key = rndK mw ew r)
    (h : r ≤ 2 * x.toReal) : z.toReal ≤ 2 * x.toReal := by
  have := double_le (x := -x) (z := -z) (r := -r) (by rw [isFin_negop]; exact hz)
    (by rw [key_negop, hk, rndK_neg]) (by rw [toReal_negop]; linarith)
  rw [toReal_negop, toReal_negop] at this
  linarith

/-- C21: `approx` lies inside the interval. -/
theorem C21_approx (A : Interval (Flt mw ew)) (hO : Ordered A) (hF : Interval.Finite A)
    (hover : (A.inf + A.sup).isFin = true) :
    (Interval.approx A).isFin = true ∧ (Interval.approx A).toReal ∈ A := by
  have hle : A.inf.toReal ≤ A.sup.toReal := by
    have := hO.2.2
    rwa [val_of_isFin hF.1, val_of_isFin hF.2, EReal.coe_le_coe_iff] at this
  obtain ⟨-, hk⟩ := add_fin hF.1 hF.2
  obtain ⟨hf, hv⟩ := half_spec (mw := mw) (ew := ew)
  obtain ⟨m1, m2⟩ := mul_fin hover hf
  have lo := double_le (x := A.inf) hover hk (by linarith)
  have hi := le_double (x := A.sup) hover hk (by linarith)
  have k1 : A.inf.key ≤ (Interval.approx A).key := by
    change _ ≤ ((A.inf + A.sup) * GFloat.half).key
    rw [Flt.mul_def, m2, hv, ← rndK_toReal (notNaN_of_isFin hF.1)]
    exact rndK_mono mw ew (by linarith)
  have k2 : (Interval.approx A).key ≤ A.sup.key := by
    change ((A.inf + A.sup) * GFloat.half).key ≤ _
    rw [Flt.mul_def, m2, hv, ← rndK_toReal (notNaN_of_isFin hF.2)]
    exact rndK_mono mw ew (by linarith)
  have f1 := isFin_iff_key.1 hF.1
  have f2 := isFin_iff_key.1 hF.2
  refine ⟨isFin_iff_key.2 ⟨by omega, by omega⟩, ?_⟩
  exact ⟨(lowerOf_fin hF.1).2 (toReal_le_iff.2 k1), (upperOf_fin hF.2).2 (toReal_le_iff.2 k2)⟩

/-- C21: `approx` of `from(t)` is `t` (unless `t + t` overflows). -/
theorem C21_approx_from (t : Flt mw ew) (ht : t.isFin = true) (hover : (t + t).isFin = true) :
    (Interval.approx (Interval.from1 t)).toReal = t.toReal := by
  obtain ⟨-, h⟩ := C21_approx (Interval.from1 t) ⟨notNaN_of_isFin ht, notNaN_of_isFin ht, le_rfl⟩ ⟨ht, ht⟩ hover
  exact le_antisymm ((upperOf_fin ht).1 h.2) ((lowerOf_fin ht).1 h.1)

/-- The hypotheses of C21 are met by `[-1,2]`; without the overflow hypothesis the claim fails for `[MAX,MAX]`. -/
example : Ordered exA ∧ Interval.Finite exA ∧ (exA.inf + exA.sup).isFin = true ∧
    (Interval.approx (Interval.from1 (Flt.maxFin 23 8 false)) : F32) = Flt.inf 23 8 false :=
  ⟨(C20_assert_iff exA).1 (by decide +kernel), by unfold Interval.Finite; decide +kernel, by decide +kernel, by decide +kernel⟩

/-! ### C22 -/

/-- C22: `contains(t)` is membership (every finite float `t`, every interval, also NaN or empty ones). -/
theorem C22_contains (A : Interval (Flt mw ew)) (t : Flt mw ew) (ht : t.isFin = true) :
    Interval.contains A t = true ↔ t.toReal ∈ A := by
  unfold Interval.contains
  have tn := notNaN_of_isFin ht
  rw [Bool.and_eq_true, sge_iff, sle_iff]
  change _ ↔ (A.inf.isNaN = false ∧ _) ∧ (A.sup.isNaN = false ∧ _)
  rw [← val_of_isFin ht]
  constructor
  · rintro ⟨⟨h1, -, h3⟩, h4, -, h6⟩
    exact ⟨⟨h4, (val_le_iff h4 tn).2 h6⟩, ⟨h1, (val_le_iff tn h1).2 h3⟩⟩
  · rintro ⟨⟨h1, h2⟩, h3, h4⟩
    exact ⟨⟨h3, tn, (val_le_iff tn h3).1 h4⟩, h1, tn, (val_le_iff h1 tn).1 h2⟩

/-- C22: `in_range(t0,t1)` is containment in `[t0,t1]` (finite `t0`, `t1`). -/
theorem C22_in_range (A : Interval (Flt mw ew)) (t0 t1 : Flt mw ew) (h0 : t0.isFin = true) (h1 : t1.isFin = true)
    (hA : ∃ x : ℝ, x ∈ A) : Interval.inRange A t0 t1 = true ↔ ∀ x : ℝ, x ∈ A → t0.toReal ≤ x ∧ x ≤ t1.toReal := by
  have n0 := notNaN_of_isFin h0
  have n1 := notNaN_of_isFin h1
  have e1 := le_inf_iff hA t0.toReal
  have e2 := sup_le_iff' hA t1.toReal
  obtain ⟨x, hx⟩ := hA
  rw [← val_of_isFin h0, val_le_iff n0 hx.1.1] at e1
  rw [← val_of_isFin h1, val_le_iff hx.2.1 n1] at e2
  unfold Interval.inRange
  rw [Bool.and_eq_true, sge_iff, sle_iff]
  constructor
  · rintro ⟨⟨-, -, h⟩, -, -, h'⟩ y hy
    exact ⟨e1.1 h y hy, e2.1 h' y hy⟩
  · intro h
    exact ⟨⟨hx.1.1, n0, e1.2 fun y hy => (h y hy).1⟩, hx.2.1, n1, e2.2 fun y hy => (h y hy).2⟩

/-- C22: the sign predicates of a nonempty interval say that all its points have that sign. -/
theorem C22_signs (A : Interval (Flt mw ew)) (hA : ∃ x : ℝ, x ∈ A) :
    (Interval.isPositive A = true ↔ ∀ x : ℝ, x ∈ A → 0 < x) ∧
    (Interval.isNegative A = true ↔ ∀ x : ℝ, x ∈ A → x < 0) ∧
    (Interval.isNonpositive A = true ↔ ∀ x : ℝ, x ∈ A → x ≤ 0) ∧
    (Interval.isNonnegative A = true ↔ ∀ x : ℝ, x ∈ A → 0 ≤ x) := by
  have e1 := lt_inf_iff hA 0
  have e2 := sup_lt_iff' hA 0
  have e3 := sup_le_iff' hA 0
  have e4 := le_inf_iff hA 0
  obtain ⟨x, hx⟩ := hA
  obtain ⟨a1, a2, -⟩ := mem_facts hx
  rw [EReal.coe_zero] at e1 e2 e3 e4
  refine ⟨?_, ?_, ?_, ?_⟩
  · rw [isPositive_iff, ← e1, val_zero_lt_iff a1]; simp [a1]
  · rw [isNegative_iff, ← e2, val_lt_zero_iff a2]; simp [a2]
  · rw [isNonpositive_iff, ← e3, val_nonpos_iff a2]; simp [a2]
  · rw [isNonnegative_iff, ← e4, val_nonneg_iff a1]; simp [a1]

/-- C22: `is_same` is equality of the bounds, i.e. of the sets for nonempty intervals. -/
theorem C22_is_same (A B : Interval (Flt mw ew)) (hA : ∃ x : ℝ, x ∈ A) (hB : ∃ x : ℝ, x ∈ B) :
    Interval.isSame A B = true ↔ ∀ x : ℝ, x ∈ A ↔ x ∈ B := by
  obtain ⟨x, hx⟩ := hA
  obtain ⟨y, hy⟩ := hB
  obtain ⟨a1, a2, -, -, -⟩ := mem_facts hx
  obtain ⟨b1, b2, -, -, -⟩ := mem_facts hy
  have e : Interval.isSame A B = true ↔ A.inf.val = B.inf.val ∧ A.sup.val = B.sup.val := by
    unfold Interval.isSame
    rw [Bool.and_eq_true, seq_iff, seq_iff, val_eq_iff a1 b1, val_eq_iff a2 b2]
    tauto
  rw [e]
  constructor
  · rintro ⟨h1, h2⟩ z
    constructor
    · rintro ⟨⟨-, i⟩, -, s⟩; exact ⟨⟨b1, h1 ▸ i⟩, b2, h2 ▸ s⟩
    · rintro ⟨⟨-, i⟩, -, s⟩; exact ⟨⟨a1, h1 ▸ i⟩, a2, h2 ▸ s⟩
  · intro h
    have sub : ∀ {C D : Interval (Flt mw ew)} {c : ℝ}, c ∈ C → (∀ z : ℝ, z ∈ C → z ∈ D) → D.inf.val ≤ C.inf.val ∧ C.sup.val ≤ D.sup.val := by
      intro C D c hc hs
      constructor
      · rcases inf_cases hc with hk | hf
        · rcases inf_cases (hs c hc) with hk' | hf'
          · rw [(val_bot_iff (hs c hc).1.1).2 hk']; exact bot_le
          · have := (lowerOf_fin hf').1 (hs _ (mem_below hc hk (min_le_left c (D.inf.toReal - 1)))).1
            have h2 := min_le_right c (D.inf.toReal - 1)
            linarith
        · rw [val_of_isFin hf]; exact (hs _ (mem_of_inf_fin hc hf)).1.2
      · rcases sup_cases hc with hk | hf
        · rcases sup_cases (hs c hc) with hk' | hf'
          · rw [(val_top_iff (hs c hc).2.1).2 hk']; exact le_top
          · have := (upperOf_fin hf').1 (hs _ (mem_above hc hk (le_max_left c (D.sup.toReal + 1)))).2
            have h2 := le_max_right c (D.sup.toReal + 1)
            linarith
        · rw [val_of_isFin hf]; exact (hs _ (mem_of_sup_fin hc hf)).2.2
    have s1 := sub hx (fun z => (h z).1)
    have s2 := sub hy (fun z => (h z).2)
    exact ⟨le_antisymm s2.1 s1.1, le_antisymm s1.2 s2.2⟩

/-- C22: `is_exact` says that the interval is a single point. -/
theorem C22_is_exact (A : Interval (Flt mw ew)) (hA : ∃ x : ℝ, x ∈ A) :
    Interval.isExact A = true ↔ ∃ r : ℝ, ∀ x, x ∈ A ↔ x = r := by
  have := C19_eq A A hA hA
  rw [ieq_iff] at this
  have e : Interval.isExact A = true ↔ A.inf.isNaN = false ∧ A.sup.isNaN = false ∧ A.inf.key = A.sup.key := by
    unfold Interval.isExact; rw [seq_iff]
  rw [e]
  constructor
  · intro h
    obtain ⟨r, h1, -⟩ := this.1 ⟨h, h, rfl⟩
    exact ⟨r, h1⟩
  · rintro ⟨r, h⟩
    exact (this.2 ⟨r, h, h⟩).1

/-- Each predicate takes both values on concrete intervals. -/
example : Interval.contains exA (F32.lit 1) = true ∧ Interval.contains exA (F32.lit 3) = false ∧
    Interval.inRange exA (-(F32.lit 3)) (F32.lit 3) = true ∧ Interval.isPositive exA = false ∧
    Interval.isExact exA = false ∧ Interval.isExact (Interval.from1 (F32.lit 3)) = true ∧
    Interval.isSame exA exA = true ∧ Interval.isSame exA exB = false := by decide +kernel

end Scarlet
