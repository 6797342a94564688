import Verif.Props.IntervalFloat
import Verif.Props.Tight

/-! C133: interval results get narrower as the inputs do. -/

set_option linter.unusedSectionVars false

namespace Scarlet
open Flt Scarlet.Interval
variable {mw ew : Nat}

/-! ### the specification -/

namespace Interval

/-- The width of an interval. -/
noncomputable def width (A : Interval (Flt mw ew)) : ℝ := A.sup.toReal - A.inf.toReal

/-- Finite bounds of magnitude at most `M`. -/
def Small (M : ℝ) (A : Interval (Flt mw ew)) : Prop := Interval.Finite A ∧ |A.inf.toReal| ≤ M ∧ |A.sup.toReal| ≤ M

end Interval

namespace IExpr

/-- How much an expression can stretch the width of its inputs, when no intermediate result exceeds `M` and no divisor
comes nearer to zero than `m`. -/
noncomputable def lip (m M : ℝ) : IExpr (Flt mw ew) → ℝ
  | var _ => 1
  | const _ => 0
  | add a b | sub a b | min a b | max a b => lip m M a + lip m M b
  | mul a b => M * (lip m M a + lip m M b)
  | div a b => lip m M a / m + M * lip m M b / m ^ 2
  | neg a | abs a | addC a _ | subC a _ => lip m M a
  | square a => 2 * M * lip m M a
  | mulC a _ => M * lip m M a
  | divC a _ => lip m M a / m

/-- How the rounding of every operation accumulates. -/
noncomputable def noise (m M : ℝ) : IExpr (Flt mw ew) → ℝ
  | var _ | const _ => 0
  | add a b | sub a b => noise m M a + noise m M b + 1
  | min a b | max a b => noise m M a + noise m M b
  | mul a b => M * (noise m M a + noise m M b) + 1
  | div a b => noise m M a / m + M * noise m M b / m ^ 2 + 1
  | neg a | abs a => noise m M a
  | addC a _ | subC a _ => noise m M a + 1
  | square a => 2 * M * noise m M a + 1
  | mulC a _ => M * noise m M a + 1
  | divC a _ => noise m M a / m + 1

end IExpr

/-- The rounding of one interval operation: both bounds are rounded and then moved outwards by one float. -/
noncomputable def stepErr (mw ew : Nat) (M : ℝ) : ℝ := 12 * (uRnd mw * M + etaRnd mw ew)

variable [FltImpl mw ew] [LawfulFlt mw ew]

/-- Every interval that occurs in the evaluation is finite and within `[-M, M]`, constants too; divisors stay at least `m`
away from zero; `abs` is not applied to an interval of negative numbers. -/
def IExpr.Moderate (m M : ℝ) (ρ : Nat → Interval (Flt mw ew)) (e : IExpr (Flt mw ew)) : Prop :=
  Small M (e.evalI ρ) ∧ match e with
  | var _ | const _ => True
  | add a b | sub a b | min a b | max a b | mul a b => Moderate m M ρ a ∧ Moderate m M ρ b
  | div a b => Moderate m M ρ a ∧ Moderate m M ρ b ∧ ∀ y ∈ b.evalI ρ, m ≤ |y|
  | neg a | square a => Moderate m M ρ a
  | abs a => Moderate m M ρ a ∧ 0 ≤ (a.evalI ρ).sup.toReal
  | addC a t | subC a t | mulC a t => Moderate m M ρ a ∧ t.isFin = true ∧ |t.toReal| ≤ M
  | divC a t => Moderate m M ρ a ∧ t.isFin = true ∧ m ≤ |t.toReal|

/-! ### neighbouring floats are near -/

theorem uRnd_le_half (mw : Nat) : uRnd mw ≤ 1 / 2 := by
  unfold uRnd
  rw [pow_succ]
  have : (1 : ℝ) ≤ 2 ^ mw := one_le_pow₀ (by norm_num)
  exact one_div_le_one_div_of_le (by norm_num) (by linarith)

theorem valZ_wide (mw : Nat) (k : ℤ) : valZ mw (k + 1) - valZ mw k ≤ 1 + 2 * uRnd mw * |valZ mw k| := by
  have core : ∀ i : Nat, (magN mw (i + 1) : ℝ) - magN mw i ≤ 1 + 2 * uRnd mw * magN mw i := by
    intro i
    have hm : (0 : ℝ) ≤ 2 * uRnd mw * magN mw i := by have := uRnd_pos (mw := mw); positivity
    rcases Flt.magN_gap mw i with h | h
    · rw [h]; push_cast; linarith
    · have : (magN mw (i + 1) - magN mw i : ℝ) ≤ 2 * uRnd mw * magN mw i := by
        unfold uRnd
        rw [pow_succ, show 2 * (1 / (2 ^ mw * 2)) * (magN mw i : ℝ) = magN mw i / 2 ^ mw by field_simp,
          le_div_iff₀ (by positivity)]
        linarith
      linarith
  rcases lt_or_ge k 0 with h | h
  · obtain ⟨n, rfl⟩ : ∃ n : Nat, k = -((n : ℤ) + 1) := ⟨(-k - 1).toNat, by omega⟩
    rw [show -((n : ℤ) + 1) + 1 = -(n : ℤ) by ring, valZ_neg, valZ_neg, abs_neg,
      show ((n : ℤ) + 1) = ((n + 1 : Nat) : ℤ) by push_cast; rfl, valZ_nat, valZ_nat, Nat.abs_cast]
    have c := core n
    have mono : (magN mw n : ℝ) ≤ magN mw (n + 1) := by
      have := (valZ_le (mw := mw) (a := (n : ℤ)) (b := ((n + 1 : Nat) : ℤ))).2 (by push_cast; omega)
      rwa [valZ_nat, valZ_nat] at this
    have := mul_le_mul_of_nonneg_left mono (by have := uRnd_pos (mw := mw); positivity : 0 ≤ 2 * uRnd mw)
    linarith
  · obtain ⟨n, rfl⟩ : ∃ n : Nat, k = (n : ℤ) := ⟨k.toNat, by omega⟩
    rw [show ((n : ℤ) + 1) = ((n + 1 : Nat) : ℤ) by push_cast; rfl, valZ_nat, valZ_nat, Nat.abs_cast]
    exact core n

theorem valZ_wide2 (mw : Nat) (k : ℤ) : valZ mw (k + 2) - valZ mw k ≤ 3 + 6 * uRnd mw * |valZ mw k| := by
  have h1 := valZ_wide mw k
  have h2 := valZ_wide mw (k + 1)
  rw [show k + 1 + 1 = k + 2 by ring] at h2
  have hu := uRnd_pos (mw := mw)
  have hu2 := uRnd_le_half mw
  have h3 : valZ mw k < valZ mw (k + 1) := valZ_lt.2 (by omega)
  have h4 : |valZ mw (k + 1)| ≤ |valZ mw k| + (1 + 2 * uRnd mw * |valZ mw k|) := by
    calc |valZ mw (k + 1)| = |valZ mw k + (valZ mw (k + 1) - valZ mw k)| := by ring_nf
      _ ≤ |valZ mw k| + |valZ mw (k + 1) - valZ mw k| := abs_add_le _ _
      _ ≤ _ := by rw [abs_of_pos (by linarith : 0 < valZ mw (k + 1) - valZ mw k)]; linarith
  have h5 := mul_le_mul_of_nonneg_left h4 (by positivity : 0 ≤ 2 * uRnd mw)
  have hA := abs_nonneg (valZ mw k)
  have h6 : uRnd mw * (uRnd mw * |valZ mw k|) ≤ 1 / 2 * (uRnd mw * |valZ mw k|) :=
    mul_le_mul_of_nonneg_right hu2 (by positivity)
  nlinarith

theorem unit_eta (mw ew : Nat) : (1 : ℝ) / 2 ^ fK mw ew = 2 * etaRnd mw ew := by
  unfold etaRnd; rw [pow_succ]; field_simp

/-- Two floats further: less than half a `stepErr`. -/
theorem two_up {x : Flt mw ew} {M : ℝ} (h : |x.toReal| ≤ M) :
    valZ mw (x.key + 2) / 2 ^ fK mw ew ≤ x.toReal + stepErr mw ew M / 2 := by
  have g := valZ_wide2 mw x.key
  have hp : (0 : ℝ) < 2 ^ fK mw ew := by positivity
  rw [toReal_eq_key] at h ⊢
  have e := unit_eta mw ew
  rw [abs_div, abs_of_pos hp] at h
  have hu := mul_le_mul_of_nonneg_left h (uRnd_pos (mw := mw)).le
  unfold stepErr
  have : valZ mw (x.key + 2) / 2 ^ fK mw ew - valZ mw x.key / 2 ^ fK mw ew ≤
      3 * (1 / 2 ^ fK mw ew) + 6 * (uRnd mw * (|valZ mw x.key| / 2 ^ fK mw ew)) := by
    rw [← sub_div, div_le_iff₀ hp]
    have : (3 * (1 / 2 ^ fK mw ew) + 6 * (uRnd mw * (|valZ mw x.key| / 2 ^ fK mw ew))) * 2 ^ fK mw ew =
      3 + 6 * uRnd mw * |valZ mw x.key| := by field_simp
    rw [this]; exact g
  rw [e] at this
  linarith

theorem below_err {lo s : Flt mw ew} {m M : ℝ} (h : WithinTwoBelow lo m) (hl : lo.isFin = true) (hM : |lo.toReal| ≤ M)
    (hs : s.isFin = true) (hm : m ≤ s.toReal) : lo.toReal ≤ m ∧ m ≤ lo.toReal + stepErr mw ew M / 2 := by
  refine ⟨(lowerOf_fin hl).1 h.1, le_trans ?_ (two_up hM)⟩
  have n0 := notNaN_of_isFin hl
  have u1 := nextUp_key n0
  have u2 := nextUp_key u1.1
  have hp : (0 : ℝ) < 2 ^ fK mw ew := by positivity
  rw [u1.2] at u2
  rcases isFin_or_isInf u2.1 with f | f
  · have := h.2
    rw [val_of_isFin f, EReal.coe_lt_coe_iff, toReal_eq_key, u2.2] at this
    refine this.le.trans (div_le_div_of_nonneg_right (valZ_le.2 ?_) hp.le)
    omega
  · have k0 := isFin_iff_key.1 hl
    have ks := isFin_iff_key.1 hs
    have ki := isInf_iff_key.1 f
    rw [u2.2] at ki
    refine hm.trans ?_
    rw [toReal_eq_key]
    exact div_le_div_of_nonneg_right (valZ_le.2 (by omega)) hp.le

theorem above_err {hi s : Flt mw ew} {m M : ℝ} (h : WithinTwoAbove hi m) (hl : hi.isFin = true) (hM : |hi.toReal| ≤ M)
    (hs : s.isFin = true) (hm : s.toReal ≤ m) : m ≤ hi.toReal ∧ hi.toReal ≤ m + stepErr mw ew M / 2 := by
  refine ⟨(upperOf_fin hl).1 h.1, ?_⟩
  have n0 := notNaN_of_isFin hl
  have u1 := nextDown_key n0
  have u2 := nextDown_key u1.1
  have hp : (0 : ℝ) < 2 ^ fK mw ew := by positivity
  rw [u1.2] at u2
  have t := two_up (x := -hi) (M := M) (by rw [toReal_negop, abs_neg]; exact hM)
  rw [toReal_negop, key_negop, show -hi.key + 2 = -(hi.key - 2) by ring, valZ_neg, neg_div] at t
  have key : valZ mw (hi.key - 2) / 2 ^ fK mw ew ≤ m := by
    rcases isFin_or_isInf u2.1 with f | f
    · have := h.2
      rw [val_of_isFin f, EReal.coe_lt_coe_iff, toReal_eq_key, u2.2] at this
      refine le_trans (div_le_div_of_nonneg_right (valZ_le.2 ?_) hp.le) this.le
      omega
    · have k0 := isFin_iff_key.1 hl
      have ks := isFin_iff_key.1 hs
      have ki := isInf_iff_key.1 f
      rw [u2.2] at ki
      refine le_trans ?_ hm
      rw [toReal_eq_key]
      exact div_le_div_of_nonneg_right (valZ_le.2 (by omega)) hp.le
  linarith

/-- An interval with bounds less than two floats beyond a range is not much wider than the range. -/
theorem width_of_twoUlp {S : Set ℝ} {C : Interval (Flt mw ew)} {M b : ℝ} (h : TwoUlp S C) (hC : Small M C)
    (hS : ∀ p ∈ S, ∀ q ∈ S, q - p ≤ b) : C.width ≤ b + stepErr mw ew M := by
  obtain ⟨⟨l, l1, l2⟩, ⟨u, u1, u2⟩⟩ := h
  have hlu : l ≤ u := l1.2 u1.1
  have a1 := (upperOf_fin hC.1.2).1 u2.1
  have a2 := (lowerOf_fin hC.1.1).1 l2.1
  have e1 := below_err l2 hC.1.1 hC.2.1 hC.1.2 (hlu.trans a1)
  have e2 := above_err u2 hC.1.2 hC.2.2 hC.1.1 (a2.trans hlu)
  have := hS l l1.1 u u1.1
  unfold width
  linarith

theorem mem_small {M x : ℝ} {A : Interval (Flt mw ew)} (hA : Small M A) (hx : x ∈ A) : |x| ≤ M := by
  obtain ⟨h1, h2⟩ := (mem_fin_iff hA.1 x).1 hx
  have := _root_.abs_le.1 hA.2.1
  have := _root_.abs_le.1 hA.2.2
  exact _root_.abs_le.2 ⟨by linarith, by linarith⟩

theorem mem_width {x y : ℝ} {A : Interval (Flt mw ew)} (hA : Interval.Finite A) (hx : x ∈ A) (hy : y ∈ A) :
    |y - x| ≤ A.width := by
  obtain ⟨h1, h2⟩ := (mem_fin_iff hA x).1 hx
  obtain ⟨h3, h4⟩ := (mem_fin_iff hA y).1 hy
  unfold width
  exact _root_.abs_le.2 ⟨by linarith, by linarith⟩

/-! ### one operation -/

variable {A B : Interval (Flt mw ew)} {M m : ℝ} {t : Flt mw ew}

theorem width_add (oA : Ordered A) (oB : Ordered B) (hA : Small M A) (hB : Small M B) (h : Small M (A + B)) :
    (A + B).width ≤ A.width + B.width + stepErr mw ew M := by
  refine width_of_twoUlp (C28 oA oB hA.1 hB.1 A.inf hA.1.1).1 h ?_
  rintro _ ⟨x, y, hx, hy, rfl⟩ _ ⟨x', y', hx', hy', rfl⟩
  have := le_abs_self _ |>.trans (mem_width hA.1 hx hx')
  have := le_abs_self _ |>.trans (mem_width hB.1 hy hy')
  linarith

theorem width_sub (oA : Ordered A) (oB : Ordered B) (hA : Small M A) (hB : Small M B) (h : Small M (A - B)) :
    (A - B).width ≤ A.width + B.width + stepErr mw ew M := by
  refine width_of_twoUlp (C28 oA oB hA.1 hB.1 A.inf hA.1.1).2.1 h ?_
  rintro _ ⟨x, y, hx, hy, rfl⟩ _ ⟨x', y', hx', hy', rfl⟩
  have := le_abs_self _ |>.trans (mem_width hA.1 hx hx')
  have := le_abs_self _ |>.trans (mem_width hB.1 hy' hy)
  linarith

theorem width_addC (oA : Ordered A) (hA : Small M A) (ht : t.isFin = true) (h : Small M (A + t)) :
    (A + t).width ≤ A.width + stepErr mw ew M := by
  refine width_of_twoUlp (C28 oA oA hA.1 hA.1 t ht).2.2.1 h ?_
  rintro _ ⟨x, hx, rfl⟩ _ ⟨x', hx', rfl⟩
  have := le_abs_self _ |>.trans (mem_width hA.1 hx hx')
  linarith

theorem width_subC (oA : Ordered A) (hA : Small M A) (ht : t.isFin = true) (h : Small M (A - t)) :
    (A - t).width ≤ A.width + stepErr mw ew M := by
  refine width_of_twoUlp (C28 oA oA hA.1 hA.1 t ht).2.2.2.1 h ?_
  rintro _ ⟨x, hx, rfl⟩ _ ⟨x', hx', rfl⟩
  have := le_abs_self _ |>.trans (mem_width hA.1 hx hx')
  linarith

theorem width_mulC (oA : Ordered A) (hA : Small M A) (ht : t.isFin = true) (hM : |t.toReal| ≤ M) (h : Small M (A * t)) :
    (A * t).width ≤ M * A.width + stepErr mw ew M := by
  refine width_of_twoUlp (C28 oA oA hA.1 hA.1 t ht).2.2.2.2.1 h ?_
  rintro _ ⟨x, hx, rfl⟩ _ ⟨x', hx', rfl⟩
  have := mem_width hA.1 hx hx'
  calc x' * t.toReal - x * t.toReal = (x' - x) * t.toReal := by ring
    _ ≤ |(x' - x) * t.toReal| := le_abs_self _
    _ = |t.toReal| * |x' - x| := by rw [abs_mul, mul_comm]
    _ ≤ M * A.width := mul_le_mul hM this (abs_nonneg _) ((abs_nonneg _).trans hM)

theorem width_divC (oA : Ordered A) (hA : Small M A) (ht : t.isFin = true) (hm : 0 < m) (hM : m ≤ |t.toReal|) (h : Small M (A / t)) :
    (A / t).width ≤ A.width / m + stepErr mw ew M := by
  have t0 : t.toReal ≠ 0 := abs_pos.1 (hm.trans_le hM)
  refine width_of_twoUlp ((C28 oA oA hA.1 hA.1 t ht).2.2.2.2.2.1 t0) h ?_
  rintro _ ⟨x, hx, rfl⟩ _ ⟨x', hx', rfl⟩
  have := mem_width hA.1 hx hx'
  calc x' / t.toReal - x / t.toReal = (x' - x) / t.toReal := by ring
    _ ≤ |(x' - x) / t.toReal| := le_abs_self _
    _ = |x' - x| / |t.toReal| := abs_div _ _
    _ ≤ A.width / m := div_le_div₀ ((abs_nonneg _).trans this) this hm hM

theorem width_div (oA : Ordered A) (oB : Ordered B) (hA : Small M A) (hB : Small M B) (hm : 0 < m)
    (hM : ∀ y ∈ B, m ≤ |y|) (h : Small M (A / B)) :
    (A / B).width ≤ A.width / m + M * B.width / m ^ 2 + stepErr mw ew M := by
  have h0 : (0 : ℝ) ∉ B := fun h => by have := hM 0 h; rw [abs_zero] at this; linarith
  refine width_of_twoUlp ((C28 oA oB hA.1 hB.1 A.inf hA.1.1).2.2.2.2.2.2.2 h0) h ?_
  rintro _ ⟨x, y, hx, hy, rfl⟩ _ ⟨x', y', hx', hy', rfl⟩
  have y0 : y ≠ 0 := abs_pos.1 (hm.trans_le (hM y hy))
  have y0' : y' ≠ 0 := abs_pos.1 (hm.trans_le (hM y' hy'))
  have wA := mem_width hA.1 hx hx'
  have wB := mem_width hB.1 hy' hy
  have e : x' / y' - x / y = (x' - x) / y' + x * (y - y') / (y * y') := by field_simp; ring
  have p1 : |(x' - x) / y'| ≤ A.width / m := by
    rw [abs_div]; exact div_le_div₀ ((abs_nonneg _).trans wA) wA hm (hM y' hy')
  have p2 : |x * (y - y') / (y * y')| ≤ M * B.width / m ^ 2 := by
    rw [abs_div, abs_mul, abs_mul]
    refine div_le_div₀ ?_ ?_ (by positivity) ?_
    · exact mul_nonneg ((abs_nonneg _).trans (mem_small hA hx)) ((abs_nonneg _).trans wB)
    · exact mul_le_mul (mem_small hA hx) wB (abs_nonneg _) ((abs_nonneg _).trans (mem_small hA hx))
    · rw [sq]; exact mul_le_mul (hM y hy) (hM y' hy') hm.le (abs_nonneg _)
  show x' / y' - x / y ≤ _
  rw [e]
  have := le_abs_self ((x' - x) / y')
  have := le_abs_self (x * (y - y') / (y * y'))
  linarith

theorem width_mul (oA : Ordered A) (oB : Ordered B) (hA : Small M A) (hB : Small M B) (h : Small M (A * B)) :
    (A * B).width ≤ M * (A.width + B.width) + stepErr mw ew M := by
  have M0 : 0 ≤ M := (abs_nonneg _).trans hA.2.1
  by_cases hs : Straddles A ∧ Straddles B
  · have sA := (straddles_real hA.1).1 hs.1
    have sB := (straddles_real hB.1).1 hs.2
    obtain ⟨p1, p1'⟩ := mul_fin hA.1.1 hB.1.2
    obtain ⟨p2, p2'⟩ := mul_fin hA.1.2 hB.1.1
    obtain ⟨q1, q1'⟩ := mul_fin hA.1.1 hA.1.1
    obtain ⟨q2, q2'⟩ := mul_fin hB.1.2 hB.1.2
    have kl := key_smin p1 p2
    have ku := key_smax q1 q2
    have ml : Min.min (rndK mw ew (A.inf.toReal * B.sup.toReal)) (rndK mw ew (A.sup.toReal * B.inf.toReal)) =
        rndK mw ew (Min.min (A.inf.toReal * B.sup.toReal) (A.sup.toReal * B.inf.toReal)) :=
      (Monotone.map_min (f := rndK mw ew) (fun _ _ h => rndK_mono mw ew h)).symm
    have mu : Max.max (rndK mw ew (A.inf.toReal * A.inf.toReal)) (rndK mw ew (B.sup.toReal * B.sup.toReal)) =
        rndK mw ew (Max.max (A.inf.toReal * A.inf.toReal) (B.sup.toReal * B.sup.toReal)) :=
      (Monotone.map_max (f := rndK mw ew) (fun _ _ h => rndK_mono mw ew h)).symm
    rw [p1', p2', ml] at kl
    rw [q1', q2', mu] at ku
    have wl := two_below (isLo_of kl)
    have wu := two_above (isHi_of ku)
    rw [mul_straddle hs.1 hs.2] at h ⊢
    set l := Min.min (A.inf.toReal * B.sup.toReal) (A.sup.toReal * B.inf.toReal) with hl
    set u := Max.max (A.inf.toReal * A.inf.toReal) (B.sup.toReal * B.sup.toReal) with hu
    have b1 := (_root_.abs_le.1 hA.2.1)
    have b2 := (_root_.abs_le.1 hA.2.2)
    have b3 := (_root_.abs_le.1 hB.2.1)
    have b4 := (_root_.abs_le.1 hB.2.2)
    have l0 : l ≤ 0 := (min_le_left _ _).trans (by nlinarith)
    have u0 : 0 ≤ u := (mul_self_nonneg _).trans (le_max_left _ _)
    have key : u - l ≤ M * (A.width + B.width) := by
      have e1 : A.inf.toReal * A.inf.toReal ≤ M * -A.inf.toReal := by nlinarith
      have e2 : B.sup.toReal * B.sup.toReal ≤ M * B.sup.toReal := by nlinarith
      have e3 : -(M * B.sup.toReal) ≤ A.inf.toReal * B.sup.toReal := by nlinarith
      have e3' : M * A.inf.toReal ≤ A.inf.toReal * B.sup.toReal := by nlinarith
      have e4 : -(M * A.sup.toReal) ≤ A.sup.toReal * B.inf.toReal := by nlinarith
      have e4' : M * B.inf.toReal ≤ A.sup.toReal * B.inf.toReal := by nlinarith
      have z1 : 0 ≤ M * -A.inf.toReal := mul_nonneg M0 (by linarith)
      have z2 : 0 ≤ M * A.sup.toReal := mul_nonneg M0 (by linarith)
      have z3 : 0 ≤ M * -B.inf.toReal := mul_nonneg M0 (by linarith)
      have z4 : 0 ≤ M * B.sup.toReal := mul_nonneg M0 (by linarith)
      unfold width
      rcases max_choice (A.inf.toReal * A.inf.toReal) (B.sup.toReal * B.sup.toReal) with c | c <;>
      rcases min_choice (A.inf.toReal * B.sup.toReal) (A.sup.toReal * B.inf.toReal) with d | d <;>
      · rw [hu, hl, c, d]; linarith
    refine width_of_twoUlp (S := {l, u}) ⟨⟨l, ⟨by simp, ?_⟩, wl⟩, ⟨u, ⟨by simp, ?_⟩, wu⟩⟩ h ?_
    · rintro z (rfl | rfl) <;> linarith
    · rintro z (rfl | rfl) <;> linarith
    · have : 0 ≤ u - l := by linarith
      rintro p (rfl | rfl) q (rfl | rfl) <;> linarith
  · refine width_of_twoUlp ((C28 oA oB hA.1 hB.1 A.inf hA.1.1).2.2.2.2.2.2.1 hs) h ?_
    rintro _ ⟨x, y, hx, hy, rfl⟩ _ ⟨x', y', hx', hy', rfl⟩
    have wA := mem_width hA.1 hx hx'
    have wB := mem_width hB.1 hy hy'
    have p1 : |x' * (y' - y)| ≤ M * B.width := by
      rw [abs_mul]; exact mul_le_mul (mem_small hA hx') wB (abs_nonneg _) M0
    have p2 : |y * (x' - x)| ≤ M * A.width := by
      rw [abs_mul]; exact mul_le_mul (mem_small hB hy) wA (abs_nonneg _) M0
    show x' * y' - x * y ≤ _
    have := le_abs_self (x' * (y' - y))
    have := le_abs_self (y * (x' - x))
    nlinarith

theorem width_square (oA : Ordered A) (hA : Small M A) (h : Small M A.square) :
    A.square.width ≤ 2 * M * A.width + stepErr mw ew M := by
  have M0 : 0 ≤ M := (abs_nonneg _).trans hA.2.1
  obtain ⟨⟨u, u1, u2⟩, hn, hst⟩ := C28_square oA hA.1
  by_cases hs : Straddles A
  · obtain ⟨l1, l2⟩ := hst hs
    rw [val_of_isFin h.1.1] at l2
    have l3 : A.square.inf.toReal = 0 := by exact_mod_cast l2
    have e2 := above_err u2 h.1.2 h.2.2 h.1.1 (by rw [l3]; exact l1.2 u1.1)
    obtain ⟨x, hx, rfl⟩ := u1.1
    obtain ⟨z, hz, hz0⟩ := l1.1
    have z0 : z = 0 := mul_self_eq_zero.1 hz0
    have w := mem_width hA.1 (z0 ▸ hz) hx
    rw [sub_zero] at w
    have b := mem_small hA hx
    have : x * x ≤ M * A.width := by
      rw [← abs_mul_abs_self]; exact mul_le_mul b w (abs_nonneg _) M0
    have se : 0 ≤ stepErr mw ew M := by
      unfold stepErr; have := uRnd_pos (mw := mw); have := etaRnd_pos (mw := mw) (ew := ew); positivity
    have : 0 ≤ M * A.width := (mul_self_nonneg x).trans this
    unfold width at *
    rw [l3]
    linarith [e2.2]
  · obtain ⟨l, l1, l2⟩ := hn hs
    refine width_of_twoUlp (S := Range1 (fun x => x * x) A) ⟨⟨l, l1, l2⟩, ⟨u, u1, u2⟩⟩ h ?_
    rintro _ ⟨x, hx, rfl⟩ _ ⟨y, hy, rfl⟩
    have w := mem_width hA.1 hx hy
    have b : |x + y| ≤ 2 * M := (abs_add_le _ _).trans (by linarith [mem_small hA hx, mem_small hA hy])
    calc y * y - x * x = (x + y) * (y - x) := by ring
      _ ≤ |(x + y) * (y - x)| := le_abs_self _
      _ = |x + y| * |y - x| := abs_mul _ _
      _ ≤ 2 * M * A.width := mul_le_mul b w (abs_nonneg _) (by linarith)

theorem width_hull {S : Set ℝ} {C : Interval (Flt mw ew)} {b : ℝ} (h : ExactHull S C) (hS : ∀ p ∈ S, ∀ q ∈ S, q - p ≤ b) :
    C.width ≤ b := hS _ h.2.1.1 _ h.2.2.1

theorem width_neg (A : Interval (Flt mw ew)) : (-A).width = A.width := by
  show (-A.inf).toReal - (-A.sup).toReal = _
  rw [toReal_negop, toReal_negop]; unfold width; ring

theorem width_nonneg (oA : Ordered A) (fA : Interval.Finite A) : 0 ≤ A.width :=
  sub_nonneg.2 (ordered_real oA fA)

theorem width_min (oA : Ordered A) (oB : Ordered B) (fA : Interval.Finite A) (fB : Interval.Finite B) :
    (Scalar.min A B : Interval (Flt mw ew)).width ≤ A.width + B.width := by
  refine width_hull (C18_hull oA oB fA fB).1 ?_
  rintro _ ⟨x, y, hx, hy, rfl⟩ _ ⟨x', y', hx', hy', rfl⟩
  have w1 := _root_.abs_le.1 (mem_width fA hx hx')
  have w2 := _root_.abs_le.1 (mem_width fB hy hy')
  have := width_nonneg oA fA
  have := width_nonneg oB fB
  rcases min_choice x y with c | c <;> rw [c]
  · have := min_le_left x' y'; linarith
  · have := min_le_right x' y'; linarith

theorem width_max (oA : Ordered A) (oB : Ordered B) (fA : Interval.Finite A) (fB : Interval.Finite B) :
    (Scalar.max A B : Interval (Flt mw ew)).width ≤ A.width + B.width := by
  refine width_hull (C18_hull oA oB fA fB).2.1 ?_
  rintro _ ⟨x, y, hx, hy, rfl⟩ _ ⟨x', y', hx', hy', rfl⟩
  have w1 := _root_.abs_le.1 (mem_width fA hx hx')
  have w2 := _root_.abs_le.1 (mem_width fB hy hy')
  have := width_nonneg oA fA
  have := width_nonneg oB fB
  rcases max_choice x' y' with c | c <;> rw [c]
  · have := le_max_left x y; linarith
  · have := le_max_right x y; linarith

theorem width_abs (oA : Ordered A) (fA : Interval.Finite A) (h : 0 ≤ A.sup.toReal) :
    (SignedScalar.abs A : Interval (Flt mw ew)).width ≤ A.width := by
  refine width_hull ((C18_hull oA oA fA fA).2.2.2 h) ?_
  rintro _ ⟨x, hx, rfl⟩ _ ⟨x', hx', rfl⟩
  exact (abs_sub_abs_le_abs_sub _ _).trans (mem_width fA hx hx')

/-! ### whole expressions -/

theorem IExpr.lip_nonneg {m M : ℝ} (hm : 0 < m) (hM : 0 ≤ M) (e : IExpr (Flt mw ew)) : 0 ≤ e.lip m M ∧ 0 ≤ e.noise m M := by
  induction e with
  | var _ | const _ => unfold lip noise; norm_num
  | add a b iha ihb | sub a b iha ihb | min a b iha ihb | max a b iha ihb | mul a b iha ihb | div a b iha ihb =>
    unfold lip noise
    obtain ⟨h1, h2⟩ := iha
    obtain ⟨h3, h4⟩ := ihb
    constructor <;> positivity
  | neg a iha | square a iha | abs a iha =>
    unfold lip noise
    obtain ⟨h1, h2⟩ := iha
    constructor <;> positivity
  | addC a t iha | subC a t iha | mulC a t iha | divC a t iha =>
    unfold lip noise
    obtain ⟨h1, h2⟩ := iha
    constructor <;> positivity

theorem IExpr.Moderate.small {m M : ℝ} {ρ : Nat → Interval (Flt mw ew)} {e : IExpr (Flt mw ew)} (h : e.Moderate m M ρ) :
    Small M (e.evalI ρ) := by unfold Moderate at h; exact h.1

/-- Every interval that occurs satisfies the assertion of `Interval::new`. -/
theorem IExpr.ordered {m M : ℝ} (hm : 0 < m) {ρ : Nat → Interval (Flt mw ew)} (hρ : ∀ i, Ordered (ρ i)) :
    ∀ e : IExpr (Flt mw ew), e.Moderate m M ρ → Ordered (e.evalI ρ) := by
  have two : ∀ {A B : Interval (Flt mw ew)}, Ordered A → Ordered B → Small M A → Small M B → ∀ t : Flt mw ew, t.isFin = true → _ :=
    fun {A B} oA oB hA hB t ht => C20_no_panic_partial A B t oA oB hA.1 hB.1 ht
  intro e
  induction e with
  | var i => exact fun _ => hρ i
  | const t =>
    intro h
    have := h.small.1.1
    exact ⟨notNaN_of_isFin this, notNaN_of_isFin this, le_rfl⟩
  | add a b iha ihb =>
    intro h; unfold Moderate at h
    exact (C20_assert_iff _).1 (two (iha h.2.1) (ihb h.2.2) h.2.1.small h.2.2.small _ h.2.1.small.1.1).1.1
  | sub a b iha ihb =>
    intro h; unfold Moderate at h
    exact (C20_assert_iff _).1 (two (iha h.2.1) (ihb h.2.2) h.2.1.small h.2.2.small _ h.2.1.small.1.1).1.2.1
  | mul a b iha ihb =>
    intro h; unfold Moderate at h
    exact (C20_assert_iff _).1 (two (iha h.2.1) (ihb h.2.2) h.2.1.small h.2.2.small _ h.2.1.small.1.1).1.2.2.1
  | div a b iha ihb =>
    intro h; unfold Moderate at h
    exact (C20_assert_iff _).1 (two (iha h.2.1) (ihb h.2.2.1) h.2.1.small h.2.2.1.small _ h.2.1.small.1.1).1.2.2.2
  | neg a iha =>
    intro h; unfold Moderate at h
    exact (C20_assert_iff _).1 (two (iha h.2) (iha h.2) h.2.small h.2.small _ h.2.small.1.1).2.2.1.1
  | square a iha =>
    intro h; unfold Moderate at h
    exact (C20_assert_iff _).1 (two (iha h.2) (iha h.2) h.2.small h.2.small _ h.2.small.1.1).2.2.1.2.1
  | abs a iha =>
    intro h; unfold Moderate at h
    exact (C20_assert_iff _).1 (two (iha h.2.1) (iha h.2.1) h.2.1.small h.2.1.small _ h.2.1.small.1.1).2.2.1.2.2
  | min a b iha ihb =>
    intro h; unfold Moderate at h
    exact (C20_assert_iff _).1 (two (iha h.2.1) (ihb h.2.2) h.2.1.small h.2.2.small _ h.2.1.small.1.1).2.2.2.1.1
  | max a b iha ihb =>
    intro h; unfold Moderate at h
    exact (C20_assert_iff _).1 (two (iha h.2.1) (ihb h.2.2) h.2.1.small h.2.2.small _ h.2.1.small.1.1).2.2.2.1.2.1
  | addC a t iha =>
    intro h; unfold Moderate at h
    exact (C20_assert_iff _).1 (two (iha h.2.1) (iha h.2.1) h.2.1.small h.2.1.small _ h.2.2.1).2.1.1
  | subC a t iha =>
    intro h; unfold Moderate at h
    exact (C20_assert_iff _).1 (two (iha h.2.1) (iha h.2.1) h.2.1.small h.2.1.small _ h.2.2.1).2.1.2.1
  | mulC a t iha =>
    intro h; unfold Moderate at h
    exact (C20_assert_iff _).1 (two (iha h.2.1) (iha h.2.1) h.2.1.small h.2.1.small _ h.2.2.1).2.1.2.2.1
  | divC a t iha =>
    intro h; unfold Moderate at h
    exact (C20_assert_iff _).1 (two (iha h.2.1) (iha h.2.1) h.2.1.small h.2.1.small _ h.2.2.1).2.1.2.2.2

/-- C133: the width of an interval result is at most `lip` times the width of the widest input, plus `noise` times the
rounding of one operation.  `lip` and `noise` depend on the expression and on the bounds `m`, `M` only. -/
theorem C133_width {m M w : ℝ} (hm : 0 < m) (ρ : Nat → Interval (Flt mw ew)) (hρ : ∀ i, Ordered (ρ i))
    (hw : ∀ i, (ρ i).width ≤ w) (e : IExpr (Flt mw ew)) (h : e.Moderate m M ρ) :
    (e.evalI ρ).width ≤ e.lip m M * w + e.noise m M * stepErr mw ew M := by
  have M0 : 0 ≤ M := (abs_nonneg _).trans h.small.2.1
  induction e with
  | var i => have := hw i; unfold IExpr.lip IExpr.noise; rw [one_mul, zero_mul, add_zero]; exact this
  | const t => unfold IExpr.lip IExpr.noise; rw [zero_mul, zero_mul, add_zero]; exact (sub_self _).le
  | add a b iha ihb =>
    have h' := h; unfold IExpr.Moderate at h'
    have := width_add (IExpr.ordered hm hρ a h'.2.1) (IExpr.ordered hm hρ b h'.2.2) h'.2.1.small h'.2.2.small h.small
    have := iha h'.2.1; have := ihb h'.2.2
    unfold IExpr.lip IExpr.noise
    show (IExpr.evalI ρ a + IExpr.evalI ρ b).width ≤ _
    linarith
  | sub a b iha ihb =>
    have h' := h; unfold IExpr.Moderate at h'
    have := width_sub (IExpr.ordered hm hρ a h'.2.1) (IExpr.ordered hm hρ b h'.2.2) h'.2.1.small h'.2.2.small h.small
    have := iha h'.2.1; have := ihb h'.2.2
    unfold IExpr.lip IExpr.noise
    show (IExpr.evalI ρ a - IExpr.evalI ρ b).width ≤ _
    linarith
  | mul a b iha ihb =>
    have h' := h; unfold IExpr.Moderate at h'
    have k := width_mul (IExpr.ordered hm hρ a h'.2.1) (IExpr.ordered hm hρ b h'.2.2) h'.2.1.small h'.2.2.small h.small
    have := mul_le_mul_of_nonneg_left (add_le_add (iha h'.2.1) (ihb h'.2.2)) M0
    unfold IExpr.lip IExpr.noise
    show (IExpr.evalI ρ a * IExpr.evalI ρ b).width ≤ _
    linarith
  | div a b iha ihb =>
    have h' := h; unfold IExpr.Moderate at h'
    have k := width_div (IExpr.ordered hm hρ a h'.2.1) (IExpr.ordered hm hρ b h'.2.2.1) h'.2.1.small h'.2.2.1.small hm
      h'.2.2.2 h.small
    have p1 := div_le_div_of_nonneg_right (iha h'.2.1) hm.le
    have p2 := div_le_div_of_nonneg_right (mul_le_mul_of_nonneg_left (ihb h'.2.2.1) M0) (by positivity : 0 ≤ m ^ 2)
    unfold IExpr.lip IExpr.noise
    show (IExpr.evalI ρ a / IExpr.evalI ρ b).width ≤ _
    refine k.trans ((add_le_add_left (add_le_add p1 p2) _).trans (le_of_eq ?_))
    ring
  | neg a iha =>
    have h' := h; unfold IExpr.Moderate at h'
    unfold IExpr.lip IExpr.noise
    show (-IExpr.evalI ρ a).width ≤ _
    rw [width_neg]; exact iha h'.2
  | square a iha =>
    have h' := h; unfold IExpr.Moderate at h'
    have k := width_square (IExpr.ordered hm hρ a h'.2) h'.2.small h.small
    have := mul_le_mul_of_nonneg_left (iha h'.2) (by linarith : 0 ≤ 2 * M)
    unfold IExpr.lip IExpr.noise
    show (IExpr.evalI ρ a).square.width ≤ _
    linarith
  | abs a iha =>
    have h' := h; unfold IExpr.Moderate at h'
    have k := width_abs (IExpr.ordered hm hρ a h'.2.1) h'.2.1.small.1 h'.2.2
    unfold IExpr.lip IExpr.noise
    exact k.trans (iha h'.2.1)
  | min a b iha ihb =>
    have h' := h; unfold IExpr.Moderate at h'
    have k := width_min (IExpr.ordered hm hρ a h'.2.1) (IExpr.ordered hm hρ b h'.2.2) h'.2.1.small.1 h'.2.2.small.1
    have := iha h'.2.1; have := ihb h'.2.2
    unfold IExpr.lip IExpr.noise
    refine k.trans ?_
    linarith
  | max a b iha ihb =>
    have h' := h; unfold IExpr.Moderate at h'
    have k := width_max (IExpr.ordered hm hρ a h'.2.1) (IExpr.ordered hm hρ b h'.2.2) h'.2.1.small.1 h'.2.2.small.1
    have := iha h'.2.1; have := ihb h'.2.2
    unfold IExpr.lip IExpr.noise
    refine k.trans ?_
    linarith
  | addC a t iha =>
    have h' := h; unfold IExpr.Moderate at h'
    have k := width_addC (IExpr.ordered hm hρ a h'.2.1) h'.2.1.small h'.2.2.1 h.small
    have := iha h'.2.1
    unfold IExpr.lip IExpr.noise
    refine le_trans k ?_
    linarith
  | subC a t iha =>
    have h' := h; unfold IExpr.Moderate at h'
    have k := width_subC (IExpr.ordered hm hρ a h'.2.1) h'.2.1.small h'.2.2.1 h.small
    have := iha h'.2.1
    unfold IExpr.lip IExpr.noise
    refine le_trans k ?_
    linarith
  | mulC a t iha =>
    have h' := h; unfold IExpr.Moderate at h'
    have k := width_mulC (IExpr.ordered hm hρ a h'.2.1) h'.2.1.small h'.2.2.1 h'.2.2.2 h.small
    have := mul_le_mul_of_nonneg_left (iha h'.2.1) M0
    unfold IExpr.lip IExpr.noise
    refine le_trans k ?_
    linarith
  | divC a t iha =>
    have h' := h; unfold IExpr.Moderate at h'
    have k := width_divC (IExpr.ordered hm hρ a h'.2.1) h'.2.1.small h'.2.2.1 hm h'.2.2.2 h.small
    have p1 := div_le_div_of_nonneg_right (iha h'.2.1) hm.le
    unfold IExpr.lip IExpr.noise
    refine k.trans ((add_le_add_left p1 _).trans (le_of_eq ?_))
    ring

/-- C133: as the inputs shrink the result shrinks to the rounding. -/
theorem C133_limit {m M δ : ℝ} (hm : 0 < m) (hM : 0 ≤ M) (hδ : 0 < δ) (e : IExpr (Flt mw ew)) :
    ∃ w > 0, ∀ ρ : Nat → Interval (Flt mw ew), (∀ i, Ordered (ρ i)) → (∀ i, (ρ i).width ≤ w) → e.Moderate m M ρ →
      (e.evalI ρ).width ≤ δ + e.noise m M * stepErr mw ew M := by
  have L := (IExpr.lip_nonneg hm hM e).1
  refine ⟨δ / (e.lip m M + 1), by positivity, fun ρ hρ hw h => ?_⟩
  have k := C133_width hm ρ hρ hw e h
  have : e.lip m M * (δ / (e.lip m M + 1)) ≤ δ := by
    rw [mul_div_assoc', div_le_iff₀ (by linarith)]; nlinarith
  linarith

/-- C133: how far an interval result overestimates: everything in it is near every exact value. -/
theorem C133_overestimate {m M w : ℝ} (hm : 0 < m) (ρ : Nat → Interval (Flt mw ew)) (hρ : ∀ i, Ordered (ρ i))
    (hw : ∀ i, (ρ i).width ≤ w) (e : IExpr (Flt mw ew)) (h : e.Moderate m M ρ) (hb : e.Bounded ρ)
    (σ : Nat → ℝ) (hσ : ∀ i, σ i ∈ ρ i) (z : ℝ) (hz : z ∈ e.evalI ρ) :
    |z - e.evalR σ| ≤ e.lip m M * w + e.noise m M * stepErr mw ew M :=
  (mem_width h.small.1 (C23_partial ρ σ hσ e (hb.defined hσ).1 (hb.defined hσ).2) hz).trans (C133_width hm ρ hρ hw e h)

/-- C133: evaluating in floats, the error is at most `noise` times the rounding of one interval operation. -/
theorem C133_forward {m M : ℝ} (hm : 0 < m) (s : Nat → Flt mw ew) (hs : ∀ i, (s i).isFin = true) (e : IExpr (Flt mw ew))
    (h : e.Moderate m M fun i => Interval.from1 (s i)) (hb : e.Bounded fun i => Interval.from1 (s i)) :
    (e.evalF s).isFin = true ∧
    |(e.evalF s).toReal - e.evalR fun i => (s i).toReal| ≤ e.noise m M * stepErr mw ew M := by
  have hm' : ∀ i, (s i).toReal ∈ Interval.from1 (s i) := fun i => ⟨LowerOf.of_fin (hs i), UpperOf.of_fin (hs i)⟩
  obtain ⟨h1, -, -, h4⟩ := C123_error_bound _ s (fun i => (s i).toReal) (fun i => ⟨hs i, hm' i⟩) hm' e hb
  have k := C133_width (w := 0) hm (fun i => Interval.from1 (s i))
    (fun i => ⟨notNaN_of_isFin (hs i), notNaN_of_isFin (hs i), le_rfl⟩) (fun i => (sub_self _).le) e h
  rw [mul_zero, zero_add] at k
  exact ⟨h1, h4.trans k⟩

/-- Without the condition on `abs` it is false: the absolute value of a single negative number is as wide as the number is
large, `|[x, x]| = [0, -x]` (interval.rs:434-441). -/
theorem C133_refuted_abs (x : Flt mw ew) (hx : x.isFin = true) (h0 : x.toReal < 0) :
    (Interval.from1 x).width = 0 ∧ (SignedScalar.abs (Interval.from1 x) : Interval (Flt mw ew)).width = -x.toReal := by
  refine ⟨sub_self _, ?_⟩
  have hn : Scalar.isNegative x = true := by
    show Scalar.lt x Scalar.zero = true
    rw [slt_iff]
    refine ⟨notNaN_of_isFin hx, notNaN_of_isFin isFin_szero, ?_⟩
    rw [← toReal_lt_iff, toReal_szero]; exact h0
  have e : (SignedScalar.abs (Interval.from1 x) : Interval (Flt mw ew)) =
      ⟨Scalar.zero, Scalar.max (SignedScalar.abs x) (SignedScalar.abs x)⟩ := by
    show (if Scalar.isNegative x then _ else _) = _
    rw [if_pos hn]; rfl
  have hb := hasFlt_abs (A := Interval.from1 x) (x := x) ⟨hx, LowerOf.of_fin hx, UpperOf.of_fin hx⟩
  obtain ⟨-, -, -, -, h1, h2⟩ := C79_float x (notNaN_of_isFin hx)
  rw [val_of_isFin hb.1, val_of_isFin hx, ← EReal.coe_neg, show Max.max (x.toReal : EReal) ((-x.toReal : ℝ) : EReal) =
    ((Max.max x.toReal (-x.toReal) : ℝ) : EReal) from (EReal.coe_strictMono.monotone.map_max).symm, EReal.coe_eq_coe_iff,
    max_eq_right (by linarith)] at h2
  rw [e]
  unfold width
  rw [(toReal_smax hb.1 hb.1).2, max_self, toReal_szero, h2, sub_zero]

/-! ### a concrete case: `(x·y + x²) / z` for `x = [-1,2]`, `y = [-3,1]`, `z = [1,2]` -/

def convRho : Nat → Interval F32
  | 0 => exA
  | 1 => exB
  | _ => ⟨F32.lit 1, F32.lit 2⟩
def convExpr : IExpr F32 := .div (.add (.mul (.var 0) (.var 1)) (.square (.var 0))) (.var 2)

theorem conv_small {A : Interval F32} (h1 : A.inf.isFin = true) (h2 : A.sup.isFin = true)
    (k1 : (-(F32.lit 16)).key ≤ A.inf.key) (k2 : A.inf.key ≤ (F32.lit 16).key)
    (k3 : (-(F32.lit 16)).key ≤ A.sup.key) (k4 : A.sup.key ≤ (F32.lit 16).key) : Small 16 A := by
  have e : (F32.lit 16).toReal = 16 := by rw [toReal_lit (by norm_num)]; norm_num
  have e' : (-(F32.lit 16)).toReal = -16 := by rw [toReal_negop, e]
  have t1 := toReal_le_iff.2 k1
  have t2 := toReal_le_iff.2 k2
  have t3 := toReal_le_iff.2 k3
  have t4 := toReal_le_iff.2 k4
  rw [e] at t2 t4; rw [e'] at t1 t3
  exact ⟨⟨h1, h2⟩, _root_.abs_le.2 ⟨t1, t2⟩, _root_.abs_le.2 ⟨t3, t4⟩⟩

/-- The hypotheses of `C133_width` are met, with two factors that both straddle zero. -/
example : (∀ i, Ordered (convRho i)) ∧ (∀ i, (convRho i).width ≤ 4) ∧ convExpr.Moderate 1 16 convRho := by
  obtain ⟨e1, e2, e3⟩ := toReal_lit_small
  refine ⟨?_, ?_, ?_⟩
  · rintro (_ | _ | i)
    · exact (C20_assert_iff exA).1 (by decide +kernel)
    · exact (C20_assert_iff exB).1 (by decide +kernel)
    · exact (C20_assert_iff _).1 (show assertHolds (⟨F32.lit 1, F32.lit 2⟩ : Interval F32) = true by decide +kernel)
  · rintro (_ | _ | i)
    · show (F32.lit 2).toReal - (-(F32.lit 1)).toReal ≤ 4
      rw [toReal_negop, e1, e2]; norm_num
    · show (F32.lit 1).toReal - (-(F32.lit 3)).toReal ≤ 4
      rw [toReal_negop, e1, e3]; norm_num
    · show (F32.lit 2).toReal - (F32.lit 1).toReal ≤ 4
      rw [e1, e2]; norm_num
  · unfold convExpr IExpr.Moderate
    refine ⟨conv_small (by decide +kernel) (by decide +kernel) (by decide +kernel) (by decide +kernel) (by decide +kernel)
      (by decide +kernel), ?_, ?_, ?_⟩
    · unfold IExpr.Moderate
      refine ⟨conv_small (by decide +kernel) (by decide +kernel) (by decide +kernel) (by decide +kernel) (by decide +kernel)
        (by decide +kernel), ?_, ?_⟩
      · unfold IExpr.Moderate
        refine ⟨conv_small (by decide +kernel) (by decide +kernel) (by decide +kernel) (by decide +kernel) (by decide +kernel)
          (by decide +kernel), ?_, ?_⟩
        · unfold IExpr.Moderate
          exact ⟨conv_small (by decide +kernel) (by decide +kernel) (by decide +kernel) (by decide +kernel)
            (by decide +kernel) (by decide +kernel), trivial⟩
        · unfold IExpr.Moderate
          exact ⟨conv_small (by decide +kernel) (by decide +kernel) (by decide +kernel) (by decide +kernel)
            (by decide +kernel) (by decide +kernel), trivial⟩
      · unfold IExpr.Moderate
        refine ⟨conv_small (by decide +kernel) (by decide +kernel) (by decide +kernel) (by decide +kernel) (by decide +kernel)
          (by decide +kernel), ?_⟩
        unfold IExpr.Moderate
        exact ⟨conv_small (by decide +kernel) (by decide +kernel) (by decide +kernel) (by decide +kernel)
          (by decide +kernel) (by decide +kernel), trivial⟩
    · unfold IExpr.Moderate
      exact ⟨conv_small (by decide +kernel) (by decide +kernel) (by decide +kernel) (by decide +kernel)
        (by decide +kernel) (by decide +kernel), trivial⟩
    · intro y hy
      have hf : Interval.Finite (⟨F32.lit 1, F32.lit 2⟩ : Interval F32) := ⟨by decide +kernel, by decide +kernel⟩
      have := ((mem_fin_iff hf y).1 hy).1
      have h1 : (1 : ℝ) ≤ y := by rw [← e1]; exact this
      exact h1.trans (le_abs_self y)

end Scarlet
