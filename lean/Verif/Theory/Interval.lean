import Verif.Theory.Enclose
import Verif.Spec.Interval
import Mathlib.Data.EReal.Inv

/-! Enclosure lemmas for interval arithmetic over floats. -/

set_option linter.unusedSectionVars false

namespace Scarlet
open Flt
variable {mw ew : Nat}

/-! ### order facts in the extended reals -/
namespace ER

theorem mul_le_mul_nonneg {p q x y : EReal} (hp : 0 ≤ p) (hq : 0 ≤ q) (h1 : p ≤ x) (h2 : q ≤ y) : p * q ≤ x * y :=
  le_trans (mul_le_mul_of_nonneg_left h2 hp) (mul_le_mul_of_nonneg_right h1 (le_trans hq h2))

/-- `0 ≤ x ≤ p`, `y ≤ q`, `0 ≤ q`. -/
theorem mul_le_mul_up {p q x y : EReal} (hx : 0 ≤ x) (h1 : x ≤ p) (h2 : y ≤ q) (hq : 0 ≤ q) : x * y ≤ p * q :=
  le_trans (mul_le_mul_of_nonneg_left h2 hx) (mul_le_mul_of_nonneg_right h1 hq)

theorem neg_nonneg {x : EReal} (h : x ≤ 0) : 0 ≤ -x := by
  have := EReal.neg_le_neg_iff.2 h; simpa using this

/-- the four corner lemmas used by multiplication (`P` = nonnegative, `N` = nonpositive factor) -/
theorem lo_PP {p q x y : EReal} (hp : 0 ≤ p) (hq : 0 ≤ q) (h1 : p ≤ x) (h2 : q ≤ y) : p * q ≤ x * y :=
  mul_le_mul_nonneg hp hq h1 h2
theorem lo_NN {p q x y : EReal} (hp : p ≤ 0) (hq : q ≤ 0) (h1 : x ≤ p) (h2 : y ≤ q) : p * q ≤ x * y := by
  have := mul_le_mul_nonneg (neg_nonneg hp) (neg_nonneg hq) (EReal.neg_le_neg_iff.2 h1) (EReal.neg_le_neg_iff.2 h2)
  simpa using this
theorem up_PN {p q x y : EReal} (hp : 0 ≤ p) (hq : q ≤ 0) (h1 : p ≤ x) (h2 : y ≤ q) : x * y ≤ p * q := by
  have := mul_le_mul_nonneg hp (neg_nonneg hq) h1 (EReal.neg_le_neg_iff.2 h2)
  rw [mul_neg, mul_neg, EReal.neg_le_neg_iff] at this
  exact this
theorem up_NP {p q x y : EReal} (hp : p ≤ 0) (hq : 0 ≤ q) (h1 : x ≤ p) (h2 : q ≤ y) : x * y ≤ p * q := by
  rw [mul_comm x, mul_comm p]; exact up_PN hq hp h2 h1
/-- `0 ≤ x ≤ p`, `q ≤ y`, `q ≤ 0` -/
theorem lo_PM {p q x y : EReal} (hx : 0 ≤ x) (h1 : x ≤ p) (h2 : q ≤ y) (hq : q ≤ 0) : p * q ≤ x * y := by
  have := mul_le_mul_up hx h1 (EReal.neg_le_neg_iff.2 h2) (neg_nonneg hq)
  rw [mul_neg, mul_neg, EReal.neg_le_neg_iff] at this
  exact this
/-- `p ≤ x ≤ 0`, `y ≤ q`, `0 ≤ q` -/
theorem lo_NM {p q x y : EReal} (hx : x ≤ 0) (h1 : p ≤ x) (h2 : y ≤ q) (hq : 0 ≤ q) : p * q ≤ x * y := by
  have := mul_le_mul_up (neg_nonneg hx) (EReal.neg_le_neg_iff.2 h1) h2 hq
  rw [neg_mul, neg_mul, EReal.neg_le_neg_iff] at this
  exact this
/-- `p ≤ x ≤ 0`, `q ≤ y`, `q ≤ 0` -/
theorem up_NM {p q x y : EReal} (hx : x ≤ 0) (h1 : p ≤ x) (h2 : q ≤ y) (hq : q ≤ 0) : x * y ≤ p * q := by
  have := mul_le_mul_up (neg_nonneg hx) (EReal.neg_le_neg_iff.2 h1) (EReal.neg_le_neg_iff.2 h2) (neg_nonneg hq)
  simpa using this

end ER

namespace Flt
section
variable [FltImpl mw ew] [LawfulFlt mw ew]

theorem val_zero_lt_iff {x : Flt mw ew} (h : x.isNaN = false) : 0 < x.val ↔ 0 < x.key := by
  have h0 : (Scalar.zero : Flt mw ew).val = 0 := by
    rw [val_of_isFin isFin_szero, toReal_szero]; rfl
  rw [← h0, val_lt_iff (notNaN_of_isFin isFin_szero) h, key_szero]
theorem val_lt_zero_iff {x : Flt mw ew} (h : x.isNaN = false) : x.val < 0 ↔ x.key < 0 := by
  have h0 : (Scalar.zero : Flt mw ew).val = 0 := by
    rw [val_of_isFin isFin_szero, toReal_szero]; rfl
  rw [← h0, val_lt_iff h (notNaN_of_isFin isFin_szero), key_szero]
theorem val_nonneg_iff {x : Flt mw ew} (h : x.isNaN = false) : 0 ≤ x.val ↔ 0 ≤ x.key := by
  rw [← not_lt, val_lt_zero_iff h, not_lt]
theorem val_nonpos_iff {x : Flt mw ew} (h : x.isNaN = false) : x.val ≤ 0 ↔ x.key ≤ 0 := by
  rw [← not_lt, val_zero_lt_iff h, not_lt]
theorem val_zero_iff {x : Flt mw ew} (h : x.isNaN = false) : x.val = 0 ↔ x.key = 0 := by
  rw [le_antisymm_iff, val_nonneg_iff h, val_nonpos_iff h, le_antisymm_iff]

theorem val_neg {x : Flt mw ew} (h : x.isNaN = false) : (-x).val = -x.val := by
  have hn : (-x).isNaN = false := by rw [isNaN_negop, h]
  rcases key_cases h with h1 | h1 | h1
  · rw [(val_bot_iff h).2 h1, (val_top_iff hn).2 (by rw [key_negop]; omega)]; rfl
  · rw [(val_top_iff h).2 h1, (val_bot_iff hn).2 (by rw [key_negop]; omega)]; rfl
  · rw [val_of_isFin h1, val_of_isFin (by rw [isFin_negop]; exact h1), toReal_negop]; rfl

/-- The sign of a product of floats with an infinite factor, as extended reals. -/
theorem val_mul_inf {u v : Flt mw ew} (hu : u.isNaN = false) (hv : v.isNaN = false)
    (hi : u.isInf = true ∨ v.isInf = true) (hp : (u * v).isNaN = false) :
    (u * v).val = u.val * v.val := by
  obtain ⟨h1, h2⟩ := mul_inf hu hv hi
  have hz : u.key ≠ 0 ∧ v.key ≠ 0 := by
    by_contra hc
    rw [h1 (by omega)] at hp; exact absurd hp (by decide)
  obtain ⟨-, hk⟩ := h2 hz
  rw [isInf_iff_key, isInf_iff_key] at hi
  have hK := kInf_pos (mw := mw) (ew := ew)
  rcases lt_or_gt_of_ne hz.1 with su | su <;> rcases lt_or_gt_of_ne hz.2 with sv | sv
  · rw [if_pos (by omega)] at hk
    rw [(val_top_iff hp).2 hk]
    rcases hi with (hi | hi) | (hi | hi)
    · omega
    · rw [(val_bot_iff hu).2 hi, EReal.bot_mul_of_neg ((val_lt_zero_iff hv).2 sv)]
    · omega
    · rw [(val_bot_iff hv).2 hi, EReal.mul_bot_of_neg ((val_lt_zero_iff hu).2 su)]
  · rw [if_neg (by omega)] at hk
    rw [(val_bot_iff hp).2 hk]
    rcases hi with (hi | hi) | (hi | hi)
    · omega
    · rw [(val_bot_iff hu).2 hi, EReal.bot_mul_of_pos ((val_zero_lt_iff hv).2 sv)]
    · rw [(val_top_iff hv).2 hi, EReal.mul_top_of_neg ((val_lt_zero_iff hu).2 su)]
    · omega
  · rw [if_neg (by omega)] at hk
    rw [(val_bot_iff hp).2 hk]
    rcases hi with (hi | hi) | (hi | hi)
    · rw [(val_top_iff hu).2 hi, EReal.top_mul_of_neg ((val_lt_zero_iff hv).2 sv)]
    · omega
    · omega
    · rw [(val_bot_iff hv).2 hi, EReal.mul_bot_of_pos ((val_zero_lt_iff hu).2 su)]
  · rw [if_pos (by omega)] at hk
    rw [(val_top_iff hp).2 hk]
    rcases hi with (hi | hi) | (hi | hi)
    · rw [(val_top_iff hu).2 hi, EReal.top_mul_of_pos ((val_zero_lt_iff hv).2 sv)]
    · omega
    · rw [(val_top_iff hv).2 hi, EReal.mul_top_of_pos ((val_zero_lt_iff hu).2 su)]
    · omega

theorem notNaN_of_mul {u v : Flt mw ew} (hp : (u * v).isNaN = false) : u.isNaN = false ∧ v.isNaN = false := by
  constructor
  · by_contra h
    rw [isNaN_mul_of_left (by simpa using h)] at hp; exact absurd hp (by decide)
  · by_contra h
    rw [isNaN_mul_of_right (by simpa using h)] at hp; exact absurd hp (by decide)

theorem step_lower_of_val {z : Flt mw ew} {r : ℝ} (hn : z.isNaN = false) (h : z.val ≤ (r : EReal)) :
    LowerOf (GFloat.nextDown z) r := by
  have h1 := nextDown_key hn
  refine ⟨h1.1, le_trans ((val_le_iff h1.1 hn).2 ?_) h⟩
  have := key_bounds hn
  omega
theorem step_upper_of_val {z : Flt mw ew} {r : ℝ} (hn : z.isNaN = false) (h : (r : EReal) ≤ z.val) :
    UpperOf (GFloat.nextUp z) r := by
  have h1 := nextUp_key hn
  refine ⟨h1.1, le_trans h ((val_le_iff hn h1.1).2 ?_)⟩
  have := key_bounds hn
  omega

theorem mul_lower {u v : Flt mw ew} {r : ℝ} (hp : (u * v).isNaN = false) (h : u.val * v.val ≤ (r : EReal)) :
    LowerOf (GFloat.nextDown (u * v)) r := by
  obtain ⟨hu, hv⟩ := notNaN_of_mul hp
  by_cases hi : u.isInf = true ∨ v.isInf = true
  · exact step_lower_of_val hp (by rw [val_mul_inf hu hv hi hp]; exact h)
  · have fu := (isFin_or_isInf hu).resolve_right (fun h => hi (Or.inl h))
    have fv := (isFin_or_isInf hv).resolve_right (fun h => hi (Or.inr h))
    rw [val_of_isFin fu, val_of_isFin fv, ← EReal.coe_mul, EReal.coe_le_coe_iff] at h
    exact lower_step hp (mul_fin fu fv).2.le h
theorem mul_upper {u v : Flt mw ew} {r : ℝ} (hp : (u * v).isNaN = false) (h : (r : EReal) ≤ u.val * v.val) :
    UpperOf (GFloat.nextUp (u * v)) r := by
  obtain ⟨hu, hv⟩ := notNaN_of_mul hp
  by_cases hi : u.isInf = true ∨ v.isInf = true
  · exact step_upper_of_val hp (by rw [val_mul_inf hu hv hi hp]; exact h)
  · have fu := (isFin_or_isInf hu).resolve_right (fun h => hi (Or.inl h))
    have fv := (isFin_or_isInf hv).resolve_right (fun h => hi (Or.inr h))
    rw [val_of_isFin fu, val_of_isFin fv, ← EReal.coe_mul, EReal.coe_le_coe_iff] at h
    exact upper_step hp (mul_fin fu fv).2.ge h

/-- A product is not NaN unless it is zero times infinity. -/
theorem mul_notNaN {u v : Flt mw ew} (hu : u.isNaN = false) (hv : v.isNaN = false)
    (h : (u.isFin = true ∧ v.isFin = true) ∨ (u.key ≠ 0 ∧ v.key ≠ 0)) : (u * v).isNaN = false := by
  by_cases hi : u.isInf = true ∨ v.isInf = true
  · rcases h with ⟨fu, fv⟩ | h
    · rw [notInf_of_isFin fu, notInf_of_isFin fv] at hi; simp at hi
    · exact ((mul_inf hu hv hi).2 h).1
  · have fu := (isFin_or_isInf hu).resolve_right (fun h => hi (Or.inl h))
    have fv := (isFin_or_isInf hv).resolve_right (fun h => hi (Or.inr h))
    exact (mul_fin fu fv).1

/-- Division of an infinite float by a finite nonzero one. -/
theorem div_of_inf {x y : Flt mw ew} (hx : x.isInf = true) (hy : y.isFin = true) (h0 : y.key ≠ 0) :
    (x / y).isNaN = false ∧ (x / y).key = if (0 < x.key ↔ 0 < y.key) then kInf mw ew else -kInf mw ew := by
  have hK := kInf_pos (mw := mw) (ew := ew)
  have hxn : x.isNaN = false := by rw [notNaN_iff]; rw [isInf_iff] at hx; omega
  rw [div_def]; unfold div
  rw [hxn, notNaN_of_isFin hy, notInf_of_isFin hy, hx]
  simp only [Bool.or_self, Bool.false_eq_true, if_false, if_true]
  refine ⟨isNaN_inf _, ?_⟩
  rw [key_inf]
  rw [isInf_iff_key] at hx
  rcases hx with h1 | h1 <;> rcases lt_or_gt_of_ne h0 with h2 | h2
  · rw [sgn_of_key_pos (x := x) (by omega), sgn_of_key_neg h2]; exact (if_neg (by omega)).symm
  · rw [sgn_of_key_pos (x := x) (by omega), sgn_of_key_pos h2]; exact (if_pos (by omega)).symm
  · rw [sgn_of_key_neg (x := x) (by omega), sgn_of_key_neg h2]; exact (if_pos (by omega)).symm
  · rw [sgn_of_key_neg (x := x) (by omega), sgn_of_key_pos h2]; exact (if_neg (by omega)).symm

end
end Flt

namespace Interval
variable [FltImpl mw ew] [LawfulFlt mw ew]

theorem isNonnegative_iff {A : Interval (Flt mw ew)} :
    isNonnegative A = true ↔ A.inf.isNaN = false ∧ 0 ≤ A.inf.key := by
  unfold isNonnegative; rw [sge_iff, key_szero]
  simp [notNaN_of_isFin (isFin_szero (mw := mw) (ew := ew))]
theorem isNonpositive_iff {A : Interval (Flt mw ew)} :
    isNonpositive A = true ↔ A.sup.isNaN = false ∧ A.sup.key ≤ 0 := by
  unfold isNonpositive; rw [sle_iff, key_szero]
  simp [notNaN_of_isFin (isFin_szero (mw := mw) (ew := ew))]
theorem isPositive_iff {A : Interval (Flt mw ew)} :
    isPositive A = true ↔ A.inf.isNaN = false ∧ 0 < A.inf.key := by
  unfold isPositive; rw [sgt_iff, key_szero]
  simp [notNaN_of_isFin (isFin_szero (mw := mw) (ew := ew))]
theorem isNegative_iff {A : Interval (Flt mw ew)} :
    isNegative A = true ↔ A.sup.isNaN = false ∧ A.sup.key < 0 := by
  unfold isNegative; rw [slt_iff, key_szero]
  simp [notNaN_of_isFin (isFin_szero (mw := mw) (ew := ew))]

/-- A nonempty interval. -/
theorem mem_facts {A : Interval (Flt mw ew)} {x : ℝ} (h : x ∈ A) :
    A.inf.isNaN = false ∧ A.sup.isNaN = false ∧ A.inf.val ≤ (x : EReal) ∧ (x : EReal) ≤ A.sup.val ∧
    A.inf.key ≠ kInf mw ew ∧ A.sup.key ≠ -kInf mw ew ∧ A.inf.key ≤ A.sup.key := by
  obtain ⟨⟨h1, h2⟩, ⟨h3, h4⟩⟩ := h
  refine ⟨h1, h3, h2, h4, ?_, ?_, (val_le_iff h1 h3).1 (le_trans h2 h4)⟩
  · intro hk
    rw [(val_top_iff h1).2 hk, top_le_iff] at h2
    exact EReal.coe_ne_top _ h2
  · intro hk
    rw [(val_bot_iff h3).2 hk, le_bot_iff] at h4
    exact EReal.coe_ne_bot _ h4

theorem add_def (A B : Interval (Flt mw ew)) :
    A + B = ⟨GFloat.nextDown (A.inf + B.inf), GFloat.nextUp (A.sup + B.sup)⟩ := rfl
theorem sub_def (A B : Interval (Flt mw ew)) :
    A - B = ⟨GFloat.nextDown (A.inf - B.sup), GFloat.nextUp (A.sup - B.inf)⟩ := rfl
theorem neg_def (A : Interval (Flt mw ew)) : -A = ⟨-A.sup, -A.inf⟩ := rfl

end Interval

namespace Flt
variable [FltImpl mw ew] [LawfulFlt mw ew]

theorem LowerOf.neg {l : Flt mw ew} {x : ℝ} (h : LowerOf l x) : UpperOf (-l) (-x) := by
  refine ⟨by rw [isNaN_negop]; exact h.1, ?_⟩
  rw [val_neg h.1, EReal.coe_neg]; exact EReal.neg_le_neg_iff.2 h.2
theorem UpperOf.neg {u : Flt mw ew} {x : ℝ} (h : UpperOf u x) : LowerOf (-u) (-x) := by
  refine ⟨by rw [isNaN_negop]; exact h.1, ?_⟩
  rw [val_neg h.1, EReal.coe_neg]; exact EReal.neg_le_neg_iff.2 h.2

theorem LowerOf.key_ne_top {l : Flt mw ew} {x : ℝ} (h : LowerOf l x) : l.key ≠ kInf mw ew := by
  intro hk
  have := h.2
  rw [(val_top_iff h.1).2 hk, top_le_iff] at this
  exact EReal.coe_ne_top _ this
theorem UpperOf.key_ne_bot {u : Flt mw ew} {x : ℝ} (h : UpperOf u x) : u.key ≠ -kInf mw ew := by
  intro hk
  have := h.2
  rw [(val_bot_iff h.1).2 hk, le_bot_iff] at this
  exact EReal.coe_ne_bot _ this

theorem add_lower {u v : Flt mw ew} {x y : ℝ} (hu : LowerOf u x) (hv : LowerOf v y) :
    LowerOf (GFloat.nextDown (u + v)) (x + y) := by
  rcases key_cases hu.1 with h | h | h
  · have := add_bot_left hu.1 hv.1 h hv.key_ne_top
    exact lower_step_bot this.1 this.2
  · exact absurd h hu.key_ne_top
  · rcases key_cases hv.1 with h' | h' | h'
    · have := add_bot_right hu.1 hv.1 h' hu.key_ne_top
      exact lower_step_bot this.1 this.2
    · exact absurd h' hv.key_ne_top
    · have := add_fin h h'
      exact lower_step this.1 this.2.le (add_le_add ((lowerOf_fin h).1 hu) ((lowerOf_fin h').1 hv))
theorem add_upper {u v : Flt mw ew} {x y : ℝ} (hu : UpperOf u x) (hv : UpperOf v y) :
    UpperOf (GFloat.nextUp (u + v)) (x + y) := by
  rcases key_cases hu.1 with h | h | h
  · exact absurd h hu.key_ne_bot
  · have := add_top_left hu.1 hv.1 h hv.key_ne_bot
    exact upper_step_top this.1 this.2
  · rcases key_cases hv.1 with h' | h' | h'
    · exact absurd h' hv.key_ne_bot
    · have := add_top_right hu.1 hv.1 h' hu.key_ne_bot
      exact upper_step_top this.1 this.2
    · have := add_fin h h'
      exact upper_step this.1 this.2.ge (add_le_add ((upperOf_fin h).1 hu) ((upperOf_fin h').1 hv))

theorem LowerOf.of_fin {t : Flt mw ew} (h : t.isFin = true) : LowerOf t t.toReal := (lowerOf_fin h).2 le_rfl
theorem UpperOf.of_fin {t : Flt mw ew} (h : t.isFin = true) : UpperOf t t.toReal := (upperOf_fin h).2 le_rfl

/-! division -/

/-- Lower bound of a quotient with finite numerator bound or finite denominator bound. -/
theorem div_lower {u v : Flt mw ew} {r : ℝ} (hu : u.isNaN = false) (hv : v.isNaN = false) (h0 : v.key ≠ 0)
    (hfin : u.isFin = true ∨ v.isFin = true)
    (h1 : u.isFin = true → v.isFin = true → u.toReal / v.toReal ≤ r)
    (h2 : u.isFin = true → v.isInf = true → 0 ≤ r)
    (h3 : u.isInf = true → ¬(0 < u.key ↔ 0 < v.key)) :
    LowerOf (GFloat.nextDown (u / v)) r := by
  rcases isFin_or_isInf hu with fu | iu <;> rcases isFin_or_isInf hv with fv | iv
  · have := div_fin fu fv h0
    exact lower_step this.1 this.2.le (h1 fu fv)
  · have := div_by_inf fu iv
    refine lower_step (r0 := 0) this.1 ?_ (h2 fu iv)
    rw [this.2, rndK_zero]
  · have := div_of_inf iu fv h0
    refine lower_step_bot this.1 ?_
    rw [this.2, if_neg (h3 iu)]
  · rcases hfin with h | h
    · rw [notInf_of_isFin h] at iu; exact absurd iu (by decide)
    · rw [notInf_of_isFin h] at iv; exact absurd iv (by decide)
theorem div_upper {u v : Flt mw ew} {r : ℝ} (hu : u.isNaN = false) (hv : v.isNaN = false) (h0 : v.key ≠ 0)
    (hfin : u.isFin = true ∨ v.isFin = true)
    (h1 : u.isFin = true → v.isFin = true → r ≤ u.toReal / v.toReal)
    (h2 : u.isFin = true → v.isInf = true → r ≤ 0)
    (h3 : u.isInf = true → (0 < u.key ↔ 0 < v.key)) :
    UpperOf (GFloat.nextUp (u / v)) r := by
  rcases isFin_or_isInf hu with fu | iu <;> rcases isFin_or_isInf hv with fv | iv
  · have := div_fin fu fv h0
    exact upper_step this.1 this.2.ge (h1 fu fv)
  · have := div_by_inf fu iv
    refine upper_step (r0 := 0) this.1 ?_ (h2 fu iv)
    rw [this.2, rndK_zero]
  · have := div_of_inf iu fv h0
    refine upper_step_top this.1 ?_
    rw [this.2, if_pos (h3 iu)]
  · rcases hfin with h | h
    · rw [notInf_of_isFin h] at iu; exact absurd iu (by decide)
    · rw [notInf_of_isFin h] at iv; exact absurd iv (by decide)

end Flt
end Scarlet
