import Verif.Props.Interval4

/-!
C27, continued: what is left of inclusion monotonicity for products and squares when the outer operands straddle zero
(where `C27_refuted_mul` and `C27_refuted_square` show that it can fail).
-/

set_option linter.unusedSectionVars false

namespace Scarlet
open Flt Scarlet.Interval

variable {mw ew : Nat} [FltImpl mw ew] [LawfulFlt mw ew] {A A' B B' : Interval (Flt mw ew)}

theorem smin_pick (u v : Flt mw ew) (hu : u.isNaN = false) (hv : v.isNaN = false) :
    (Scalar.min u v).isNaN = false ∧ (Scalar.min u v).key = Min.min u.key v.key := by
  rw [smin_def]
  split
  · next h => rw [slt_iff] at h; exact ⟨hu, by omega⟩
  · next h => rw [slt_iff, hu, hv] at h; exact ⟨hv, by simp at h; omega⟩
theorem smax_pick (u v : Flt mw ew) (hu : u.isNaN = false) (hv : v.isNaN = false) :
    (Scalar.max u v).isNaN = false ∧ (Scalar.max u v).key = Max.max u.key v.key := by
  rw [smax_def]
  split
  · next h => rw [sgt_iff] at h; exact ⟨hu, by omega⟩
  · next h => rw [sgt_iff, hu, hv] at h; exact ⟨hv, by simp at h; omega⟩

/-- The lower bound of a product is tight in every case, also when both operands straddle zero. -/
theorem mul_tightLo (hA : Ordered A) (hB : Ordered B) (fA : Interval.Finite A) (fB : Interval.Finite B) :
    TightLo (Range2 (· * ·) A B) (A * B) := by
  by_cases hs : Straddles A ∧ Straddles B
  · obtain ⟨sA, sB⟩ := hs
    have i1 := mem_inf_of_ordered hA fA
    have i2 := mem_sup_of_ordered hA fA
    have j1 := mem_inf_of_ordered hB fB
    have j2 := mem_sup_of_ordered hB fB
    rw [mul_straddle sA sB]
    rw [straddles_real fA] at sA
    rw [straddles_real fB] at sB
    obtain ⟨n1, k1⟩ := mul_fin fA.1 fB.2
    obtain ⟨n2, k2⟩ := mul_fin fA.2 fB.1
    obtain ⟨n, k⟩ := smin_pick (A.inf * B.sup) (A.sup * B.inf) n1 n2
    rcases le_total (A.inf.toReal * B.sup.toReal) (A.sup.toReal * B.inf.toReal) with h | h
    · refine ⟨_, ⟨⟨_, _, i1, j2, rfl⟩, ?_⟩, isLo_of ⟨n, ?_⟩⟩
      · rintro _ ⟨x, y, hx, hy, rfl⟩
        rw [mem_fin_iff fA] at hx; rw [mem_fin_iff fB] at hy
        simp only
        rcases le_total 0 x with h0 | h0 <;> nlinarith
      · have := rndK_mono mw ew h
        rw [k, show (A.inf * B.sup).key = _ from k1, show (A.sup * B.inf).key = _ from k2]; simp only; omega
    · refine ⟨_, ⟨⟨_, _, i2, j1, rfl⟩, ?_⟩, isLo_of ⟨n, ?_⟩⟩
      · rintro _ ⟨x, y, hx, hy, rfl⟩
        rw [mem_fin_iff fA] at hx; rw [mem_fin_iff fB] at hy
        simp only
        rcases le_total 0 x with h0 | h0 <;> nlinarith
      · have := rndK_mono mw ew h
        rw [k, show (A.inf * B.sup).key = _ from k1, show (A.sup * B.inf).key = _ from k2]; simp only; omega
  · exact (mul_tight hA hB fA fB hs).1

/-- The upper bound computed when both operands straddle zero. -/
theorem mul_straddle_hi (fA : Interval.Finite A) (fB : Interval.Finite B) (sA : Straddles A) (sB : Straddles B) :
    IsHi (A * B).sup (Max.max (A.inf.toReal * A.inf.toReal) (B.sup.toReal * B.sup.toReal)) := by
  rw [mul_straddle sA sB]
  obtain ⟨n1, k1⟩ := mul_fin fA.1 fA.1
  obtain ⟨n2, k2⟩ := mul_fin fB.2 fB.2
  obtain ⟨n, k⟩ := smax_pick (A.inf * A.inf) (B.sup * B.sup) n1 n2
  refine isHi_of ⟨n, ?_⟩
  rw [k, show (A.inf * A.inf).key = _ from k1, show (B.sup * B.sup).key = _ from k2]
  rcases le_total (A.inf.toReal * A.inf.toReal) (B.sup.toReal * B.sup.toReal) with h | h
  · rw [max_eq_right h, max_eq_right (rndK_mono mw ew h)]
  · rw [max_eq_left h, max_eq_left (rndK_mono mw ew h)]

/-- C27 for products: the lower bound is monotone in every case. -/
theorem C27_mul_lower (h : Nested A A') (h' : Nested B B') :
    (A' * B').inf.isNaN = false ∧ (A * B).inf.isNaN = false ∧ (A' * B').inf.val ≤ (A * B).inf.val := by
  obtain ⟨a, b, c⟩ := mono_lo (range2_sub _ h.w h'.w) (mul_tightLo h.o h'.o h.f h'.f) (mul_tightLo h.o' h'.o' h.f' h'.f')
  exact ⟨b, a, c⟩

/-- C27 for products: monotone as long as the inner operands both straddle zero (then the outer ones do, too), although the
upper bounds may be wrong (C12). -/
theorem C27_mul_straddle_partial (h : Nested A A') (h' : Nested B B') (sA : Straddles A) (sB : Straddles B) :
    Within (A * B) (A' * B') := by
  obtain ⟨l1, l2, l3⟩ := C27_mul_lower h h'
  obtain ⟨n, k⟩ := mul_straddle_hi h.f h'.f sA sB
  obtain ⟨n', k'⟩ := mul_straddle_hi h.f' h'.f' (straddles_mono h sA) (straddles_mono h' sB)
  refine ⟨⟨l2, n⟩, ⟨l1, n'⟩, l3, (val_le_iff n n').2 ?_⟩
  rw [straddles_real h.f] at sA
  rw [straddles_real h'.f] at sB
  have e1 : A'.inf.toReal ≤ A.inf.toReal := by
    have := h.w.2.2.1; rw [val_of_isFin h.f.1, val_of_isFin h.f'.1] at this; exact_mod_cast this
  have e2 : B.sup.toReal ≤ B'.sup.toReal := by
    have := h'.w.2.2.2; rw [val_of_isFin h'.f.2, val_of_isFin h'.f'.2] at this; exact_mod_cast this
  have := rndK_mono mw ew (max_le_max (show A.inf.toReal * A.inf.toReal ≤ A'.inf.toReal * A'.inf.toReal by nlinarith)
    (show B.sup.toReal * B.sup.toReal ≤ B'.sup.toReal * B'.sup.toReal by nlinarith))
  omega

/-- C27 for products, exactly, in the remaining case (the outer operands straddle zero, the inner ones do not both): the
inclusion holds if and only if the upper bound of the inner product is at most `max(A'.inf², B'.sup²)`, rounded up, which is the
upper bound the code computes instead of the right one.  So it holds if every exact product `x * y` of the inner operands is at
most `max(A'.inf², B'.sup²)`, and only if every such product is at most that number rounded up. -/
theorem C27_mul_exact (h : Nested A A') (h' : Nested B B') (hs : ¬ (Straddles A ∧ Straddles B)) (sA : Straddles A')
    (sB : Straddles B') :
    (Within (A * B) (A' * B') ↔ (A * B).sup.val ≤
      (GFloat.nextUp (Scalar.max (A'.inf * A'.inf) (B'.sup * B'.sup)) : Flt mw ew).val) ∧
    ((∀ x y : ℝ, x ∈ A → y ∈ B → x * y ≤ Max.max (A'.inf.toReal * A'.inf.toReal) (B'.sup.toReal * B'.sup.toReal)) →
      Within (A * B) (A' * B')) ∧
    (Within (A * B) (A' * B') → ∀ x y : ℝ, x ∈ A → y ∈ B →
      ((x * y : ℝ) : EReal) ≤ (GFloat.nextUp (Scalar.max (A'.inf * A'.inf) (B'.sup * B'.sup)) : Flt mw ew).val) := by
  obtain ⟨l1, l2, l3⟩ := C27_mul_lower h h'
  have t := (mul_tight h.o h'.o h.f h'.f hs).2
  obtain ⟨n', k'⟩ := mul_straddle_hi h.f' h'.f' sA sB
  have e : (A' * B').sup = (GFloat.nextUp (Scalar.max (A'.inf * A'.inf) (B'.sup * B'.sup)) : Flt mw ew) := by
    rw [mul_straddle sA sB]
  have n : (A * B).sup.isNaN = false := t.choose_spec.2.1
  refine ⟨⟨fun hw => e ▸ hw.2.2.2, fun hw => ⟨⟨l2, n⟩, ⟨l1, n'⟩, l3, e ▸ hw⟩⟩, fun hm => ?_, fun hw x y hx hy => ?_⟩
  · obtain ⟨m, ⟨⟨x, y, hx, hy, rfl⟩, -⟩, -, k⟩ := t
    refine ⟨⟨l2, n⟩, ⟨l1, n'⟩, l3, (val_le_iff n n').2 ?_⟩
    have := rndK_mono mw ew (hm x y hx hy)
    simp only at k
    omega
  · rw [← e]
    exact le_trans (C12_mul_finite_partial A B x y hx hy h.f h'.f hs).2.2 hw.2.2.2

theorem val_zero_lt_sq {x : Flt mw ew} (hx : x.isFin = true) :
    (0 < (x * x).val ↔ 0 < rndK mw ew (x.toReal * x.toReal)) := by
  obtain ⟨n, k⟩ := mul_fin hx hx
  rw [val_zero_lt_iff (show (x * x).isNaN = false from n), show (x * x).key = _ from k]

/-- C27 for squares, exactly: when the outer operand straddles zero (and so its square starts at 0), the inclusion holds if and
only if the inner one straddles, too, or the square of its bound next to zero does not round to zero. -/
theorem C27_square_exact (h : Nested A A') (hs : Straddles A') :
    Within (Interval.square A) (Interval.square A') ↔
      Straddles A ∨ (0 ≤ A.inf.val ∧ 0 < (A.inf * A.inf).val) ∨ (A.sup.val ≤ 0 ∧ 0 < (A.sup * A.sup).val) := by
  have hh := mono_hi (range1_sub (fun x => x * x) h.w) (square_tightHi h.o h.f) (square_tightHi h.o' h.f')
  have z : (Interval.square A').inf = Flt.zero mw ew false := C16_square_straddle A' hs
  have zn : (Interval.square A').inf.isNaN = false := by rw [z]; exact szero_notNaN
  have zv : (Interval.square A').inf.val = 0 := by rw [z]; exact val_szero
  have hO := ordered_real h.o h.f
  rw [val_zero_lt_sq h.f.1, val_zero_lt_sq h.f.2]
  have K := kInf_pos (mw := mw) (ew := ew)
  have c1 : 0 ≤ A.inf.val ↔ 0 ≤ A.inf.toReal := by rw [val_of_isFin h.f.1]; exact_mod_cast Iff.rfl
  have c2 : A.sup.val ≤ 0 ↔ A.sup.toReal ≤ 0 := by rw [val_of_isFin h.f.2]; exact_mod_cast Iff.rfl
  rw [c1, c2]
  -- the inclusion is that the lower bound of the inner square is not negative
  have main : Within (Interval.square A) (Interval.square A') ↔
      (Interval.square A).inf.isNaN = false ∧ 0 ≤ (Interval.square A).inf.val :=
    ⟨fun w => ⟨w.1.1, by have := w.2.2.1; rwa [zv] at this⟩, fun w => ⟨⟨w.1, hh.1⟩, ⟨zn, hh.2.1⟩, by rw [zv]; exact w.2, hh.2.2⟩⟩
  rw [main]
  have lo : ∀ {z : Flt mw ew} {m : ℝ}, IsLo z m → (z.isNaN = false ∧ 0 ≤ z.val ↔ 0 < rndK mw ew m) := by
    intro z m hz
    rw [and_iff_right hz.1, val_nonneg_iff hz.1, hz.2]
    omega
  by_cases sA : Straddles A
  · have z0 : (Interval.square A).inf = Flt.zero mw ew false := C16_square_straddle A sA
    rw [z0]
    exact ⟨fun _ => Or.inl sA, fun _ => ⟨szero_notNaN, le_of_eq val_szero.symm⟩⟩
  · have sA' := sA
    rw [straddles_real h.f] at sA'
    rw [or_iff_right sA]
    unfold Interval.square
    simp only [nonneg_real h.f, nonpos_real h.f]
    by_cases p : 0 ≤ A.inf.toReal
    · rw [if_pos p]
      refine (lo (isLo_of (mul_fin h.f.1 h.f.1))).trans ⟨fun k => Or.inl ⟨p, k⟩, ?_⟩
      rintro (⟨-, k⟩ | ⟨q, k⟩)
      · exact k
      · have : A.inf.toReal = A.sup.toReal := by linarith
        rw [this]; exact k
    · rw [if_neg p, if_pos (by by_contra q; exact sA' ⟨not_le.1 p, not_le.1 q⟩)]
      refine (lo (isLo_of (mul_fin h.f.2 h.f.2))).trans ⟨fun k => Or.inr ⟨by by_contra q; exact sA' ⟨not_le.1 p, not_le.1 q⟩, k⟩, ?_⟩
      rintro (⟨q, -⟩ | ⟨-, k⟩)
      · exact absurd q p
      · exact k

/-- Both outcomes occur for squares: `[1,2]` in `[-1,2]` keeps the inclusion, `[0,1]` in `[-1,1]` does not. -/
example : Nested (⟨F32.lit 1, F32.lit 2⟩ : Interval F32) exA ∧ Straddles exA ∧
    Within (Interval.square (⟨F32.lit 1, F32.lit 2⟩ : Interval F32)) (Interval.square exA) := by
  have n : Nested (⟨F32.lit 1, F32.lit 2⟩ : Interval F32) exA := nested_of_key (by decide +kernel)
  refine ⟨n, straddles_exA, (C27_square_exact n straddles_exA).2 (Or.inr (Or.inl ⟨?_, ?_⟩))⟩
  · rw [val_nonneg_iff (by decide +kernel)]; decide +kernel
  · rw [val_zero_lt_iff (by decide +kernel)]; decide +kernel

/-- The hypotheses of `C27_mul_straddle_partial` and of `C27_mul_exact` are met: `[-1,1]` and `[1,2]` in `[-1,2]`. -/
example : Nested (⟨-(F32.lit 1), F32.lit 1⟩ : Interval F32) exA ∧ Straddles (⟨-(F32.lit 1), F32.lit 1⟩ : Interval F32) ∧
    Nested (⟨F32.lit 1, F32.lit 2⟩ : Interval F32) exA ∧ ¬ Straddles (⟨F32.lit 1, F32.lit 2⟩ : Interval F32) ∧ Straddles exA := by
  refine ⟨nested_of_key (by decide +kernel), ⟨by decide +kernel, by decide +kernel, ?_, ?_⟩, nested_of_key (by decide +kernel),
    fun h => ?_, straddles_exA⟩
  · rw [val_lt_zero_iff (by decide +kernel)]; decide +kernel
  · rw [val_zero_lt_iff (by decide +kernel)]; decide +kernel
  · have := h.2.2.1
    rw [val_lt_zero_iff (by decide +kernel)] at this
    exact absurd this (by decide +kernel)

end Scarlet
