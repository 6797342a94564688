import Verif.Props.Interval3
import Verif.Model.Vector

/-! C87: vectors of intervals (vectori.rs): sums, products, norms enclose. C17: exactly when the square root encloses. -/

set_option linter.unusedSectionVars false

namespace Scarlet
open Flt Interval

variable {mw ew n : Nat} {U I : Marker} [FltImpl mw ew] [LawfulFlt mw ew]

/-- `x` is component-wise a member of the vector of intervals `A`. -/
def InVec (A : GVec (Interval (Flt mw ew)) n U) (x : Fin n → ℝ) : Prop := ∀ i, x i ∈ A.vec i

/-- All bounds of all components are finite. -/
def FinVec (A : GVec (Interval (Flt mw ew)) n U) : Prop := ∀ i, Interval.Finite (A.vec i)

/-! ## C17 -/

/-- The square root of a negative float is NaN. -/
theorem sqrt_neg_nan {x : Flt mw ew} (hx : x.isNaN = false) (h : x.key < 0) : (GFloat.sqrt x : Flt mw ew).isNaN = true := by
  rw [sqrt_def]
  unfold Flt.sqrt
  rw [hx, sgn_of_key_neg h]
  have : x.isZero = false := by rw [Bool.eq_false_iff, ne_eq, isZero_iff_key]; omega
  rw [this]
  exact isNaN_nan

/-- C17, exactly: for `x ∈ A`, the square root of `x` is enclosed (by the inherent method and by the trait method) precisely
when no part of `A` is negative; otherwise a bound is NaN. -/
theorem C17_exact (A : Interval (Flt mw ew)) (x : ℝ) (hx : x ∈ A) :
    (Real.sqrt x ∈ Interval.sqrt A ↔ 0 ≤ A.inf.val) ∧ (Real.sqrt x ∈ (GFloat.sqrt A : Interval (Flt mw ew)) ↔ 0 ≤ A.inf.val) := by
  have hn : ¬ 0 ≤ A.inf.val → (GFloat.nextDown (GFloat.sqrt A.inf) : Flt mw ew).isNaN = true := by
    intro h
    rw [isNaN_nextDown]
    exact sqrt_neg_nan hx.1.1 (by rw [val_nonneg_iff hx.1.1] at h; omega)
  refine ⟨⟨fun h => ?_, C17_sqrt_partial A x hx⟩, ⟨fun h => ?_, C17_sqrt_trait_partial A x hx⟩⟩
  · by_contra hc
    have := h.1.1
    rw [show (Interval.sqrt A).inf = GFloat.nextDown (GFloat.sqrt A.inf) from rfl, hn hc] at this
    cases this
  · by_contra hc
    have e : (GFloat.sqrt A : Interval (Flt mw ew)).sup.isNaN = true := by
      change (Interval.from2 (Scalar.minMax (GFloat.nextDown (GFloat.sqrt A.inf)) (GFloat.nextUp (GFloat.sqrt A.sup)))).sup.isNaN = true
      unfold Scalar.minMax
      rw [if_neg (by rw [slt_iff]; intro h'; rw [hn hc] at h'; cases h'.1)]
      exact hn hc
    rw [h.2.1] at e
    cases e

/-! ## C12 -/

/-- C12, exactly, for two finite intervals that both straddle zero: the product encloses if and only if the computed upper
bound is at least the two products it should have been computed from (`inf*inf` and `sup*sup`). -/
theorem C12_straddle_exact (A B : Interval (Flt mw ew)) (hA : Interval.Finite A) (hB : Interval.Finite B)
    (sA : Straddles A) (sB : Straddles B) :
    (∀ x y : ℝ, x ∈ A → y ∈ B → x * y ∈ A * B) ↔
      (A * B).sup.UpperOf (A.inf.toReal * B.inf.toReal) ∧ (A * B).sup.UpperOf (A.sup.toReal * B.sup.toReal) := by
  have a1 : A.inf.toReal < 0 := by
    have := sA.2.2.1; rw [val_of_isFin hA.1] at this; exact_mod_cast this
  have a2 : 0 < A.sup.toReal := by
    have := sA.2.2.2; rw [val_of_isFin hA.2] at this; exact_mod_cast this
  have b1 : B.inf.toReal < 0 := by
    have := sB.2.2.1; rw [val_of_isFin hB.1] at this; exact_mod_cast this
  have b2 : 0 < B.sup.toReal := by
    have := sB.2.2.2; rw [val_of_isFin hB.2] at this; exact_mod_cast this
  have mem : ∀ (C : Interval (Flt mw ew)), Interval.Finite C → ∀ x : ℝ, C.inf.toReal ≤ x → x ≤ C.sup.toReal → x ∈ C :=
    fun C hC x h1 h2 => ⟨(lowerOf_fin hC.1).2 h1, (upperOf_fin hC.2).2 h2⟩
  constructor
  · intro h
    exact ⟨(h _ _ (mem A hA _ le_rfl (by linarith)) (mem B hB _ le_rfl (by linarith))).2,
      (h _ _ (mem A hA _ (by linarith) le_rfl) (mem B hB _ (by linarith) le_rfl)).2⟩
  · rintro ⟨h1, h2⟩ x y hx hy
    refine ⟨C12_straddle_lower_partial A B x y hx hy sA sB, h1.1, ?_⟩
    have x1 := (lowerOf_fin hA.1).1 hx.1
    have x2 := (upperOf_fin hA.2).1 hx.2
    have y1 := (lowerOf_fin hB.1).1 hy.1
    have y2 := (upperOf_fin hB.2).1 hy.2
    have : x * y ≤ A.inf.toReal * B.inf.toReal ∨ x * y ≤ A.sup.toReal * B.sup.toReal := by
      rcases le_total 0 x with hx0 | hx0
      · right
        nlinarith
      · left
        nlinarith
    rcases this with h | h
    · exact le_trans (EReal.coe_le_coe_iff.2 h) h1.2
    · exact le_trans (EReal.coe_le_coe_iff.2 h) h2.2

/-- Both outcomes occur: `[-1,2]·[-1,2]` encloses, `[-1,2]·[-3,1]` does not. -/
example : Straddles exA ∧ (exA * exA).sup.UpperOf (exA.inf.toReal * exA.inf.toReal) ∧
    (exA * exA).sup.UpperOf (exA.sup.toReal * exA.sup.toReal) := by
  obtain ⟨e1, e2, -⟩ := toReal_lit_small
  have hf : (exA * exA).sup.isFin = true := by decide +kernel
  have h4 : (F32.lit 4).toReal ≤ (exA * exA).sup.toReal := toReal_le_iff.2 (by decide +kernel)
  rw [toReal_lit (by norm_num)] at h4
  push_cast at h4
  refine ⟨straddles_exA, (upperOf_fin hf).2 ?_, (upperOf_fin hf).2 ?_⟩
  · change (-(F32.lit 1)).toReal * (-(F32.lit 1)).toReal ≤ _; rw [toReal_negop, e1]; linarith
  · change (F32.lit 2).toReal * (F32.lit 2).toReal ≤ _; rw [e2]; linarith

/-! ## C87 -/

/-- Sums of any number of terms enclose. -/
theorem sumLoop_mem {f : Fin n → Interval (Flt mw ew)} {g : Fin n → ℝ} (h : ∀ i, g i ∈ f i) : (∑ i, g i) ∈ sumLoop n f := by
  induction n with
  | zero =>
    rw [Finset.univ_eq_empty, Finset.sum_empty]
    exact ⟨(lowerOf_fin isFin_szero).2 (by rw [toReal_szero]), (upperOf_fin isFin_szero).2 (by rw [toReal_szero])⟩
  | succ n ih =>
    rw [Fin.sum_univ_castSucc]
    exact C11_add _ _ _ _ (ih fun i => h i.castSucc) (h (Fin.last n))

/-- C87: sum, difference, negation, scaling by an interval or a float. -/
theorem C87_linear (A B : Vec (Interval (Flt mw ew)) n) (x y : Fin n → ℝ) (hx : InVec A x) (hy : InVec B y) :
    InVec (A + B) (fun i => x i + y i) ∧ InVec (A - B) (fun i => x i - y i) ∧ InVec (-A) (fun i => -x i) :=
  ⟨fun i => C11_add _ _ _ _ (hx i) (hy i), fun i => C11_sub _ _ _ _ (hx i) (hy i), fun i => C18_neg _ _ (hx i)⟩

/-- C87: scaling by a float (vectori.rs). -/
theorem C87_scale (A : GVec (Interval (Flt mw ew)) n U) (t : Flt mw ew) (x : Fin n → ℝ) (hx : InVec A x) (ht : t.isFin = true) :
    (FinVec A ∨ t.toReal ≠ 0 → InVec (A * t) (fun i => x i * t.toReal)) ∧
    (t.toReal ≠ 0 → InVec (A / t) (fun i => x i / t.toReal)) :=
  ⟨fun h i => C13_mul_scalar_partial _ _ _ (hx i) ht (h.imp (fun h => h i) id), fun h i => C15_div_scalar _ _ _ (hx i) ht h⟩

/-- C87: `square_norm` encloses, in every dimension, without exceptions. -/
theorem C87_squareNorm (A : GVec (Interval (Flt mw ew)) n U) (x : Fin n → ℝ) (hx : InVec A x) :
    (∑ i, x i ^ 2) ∈ A.squareNorm :=
  sumLoop_mem fun i => by rw [sq]; exact C16_square _ _ (hx i)

/-- C87: `norm` encloses exactly when the lower bound of `square_norm` is not negative. -/
theorem C87_norm (A : GVec (Interval (Flt mw ew)) n U) (x : Fin n → ℝ) (hx : InVec A x) :
    Real.sqrt (∑ i, x i ^ 2) ∈ A.norm ↔ 0 ≤ A.squareNorm.inf.val :=
  (C17_exact _ _ (C87_squareNorm A x hx)).2

/-- C87: `dot` encloses, in every dimension, for finite bounds, unless two corresponding components both straddle zero. -/
theorem C87_dot_partial (A : GVec (Interval (Flt mw ew)) n U) (B : GVec (Interval (Flt mw ew)) n I) (x y : Fin n → ℝ)
    (hx : InVec A x) (hy : InVec B y) (hA : FinVec A) (hB : FinVec B)
    (hs : ∀ i, ¬ (Straddles (A.vec i) ∧ Straddles (B.vec i))) : (∑ i, x i * y i) ∈ A.dot B :=
  sumLoop_mem fun i => C12_mul_finite_partial _ _ _ _ (hx i) (hy i) (hA i) (hB i) (hs i)

/-- C87: `cross` encloses, for finite bounds, unless two different components of the two vectors both straddle zero. -/
theorem C87_cross_partial (A B : GVec (Interval (Flt mw ew)) 3 U) (x y : Fin 3 → ℝ)
    (hx : InVec A x) (hy : InVec B y) (hA : FinVec A) (hB : FinVec B)
    (hs : ∀ i j, i ≠ j → ¬ (Straddles (A.vec i) ∧ Straddles (B.vec j))) :
    InVec (A.cross B) ![x 1 * y 2 - x 2 * y 1, x 2 * y 0 - x 0 * y 2, x 0 * y 1 - x 1 * y 0] := by
  have m : ∀ i j, i ≠ j → x i * y j ∈ A.vec i * B.vec j :=
    fun i j h => C12_mul_finite_partial _ _ _ _ (hx i) (hy j) (hA i) (hB j) (hs i j h)
  intro i
  fin_cases i
  · exact C11_sub _ _ _ _ (m 1 2 (by decide)) (m 2 1 (by decide))
  · exact C11_sub _ _ _ _ (m 2 0 (by decide)) (m 0 2 (by decide))
  · exact C11_sub _ _ _ _ (m 0 1 (by decide)) (m 1 0 (by decide))

/-- C87: converting a float vector to a vector of intervals encloses it, and converting back gives it back. -/
theorem C87_from (v : GVec (Flt mw ew) n U) (hv : ∀ i, (v.vec i).isFin = true) :
    InVec v.toInterval (fun i => (v.vec i).toReal) ∧
    ∀ i, ((v.vec i) + (v.vec i)).isFin = true → (v.toInterval.fromInterval.vec i).toReal = (v.vec i).toReal :=
  ⟨fun i => ⟨(lowerOf_fin (hv i)).2 le_rfl, (upperOf_fin (hv i)).2 le_rfl⟩, fun i h => C21_approx_from _ (hv i) h⟩

/-- C87 is false of `norm`: the exact zero vector has a norm with NaN bounds (both of them after the swap of the trait
method), because the square of `[0,0]` and the sums are widened below zero. -/
theorem C87_norm_refuted : InVec (GVec.toInterval (GVec.new3 (F32.lit 0) (F32.lit 0) (F32.lit 0) : Vec F32 3)) (fun _ => 0) ∧
    Real.sqrt (∑ _i : Fin 3, (0 : ℝ) ^ 2) ∉
      (GVec.toInterval (GVec.new3 (F32.lit 0) (F32.lit 0) (F32.lit 0) : Vec F32 3)).norm := by
  have h0 : (F32.lit 0).toReal = 0 := by rw [toReal_lit (by norm_num)]; norm_num
  have hin : InVec (GVec.toInterval (GVec.new3 (F32.lit 0) (F32.lit 0) (F32.lit 0) : Vec F32 3)) (fun _ => 0) := by
    have := (C87_from (GVec.new3 (F32.lit 0) (F32.lit 0) (F32.lit 0) : Vec F32 3) (by decide +kernel)).1
    intro i
    have h := this i
    fin_cases i <;> (change (F32.lit 0).toReal ∈ _ at h; rw [h0] at h; exact h)
  refine ⟨hin, fun h => ?_⟩
  have := (C87_norm _ _ hin).1 h
  rw [val_nonneg_iff (by decide +kernel)] at this
  exact absurd this (by decide +kernel)

/-- The straddling case of `dot` inherits the wrong product of `C12_refuted_straddle`: `[-1,2]` and `[-3,1]` as components give a
`dot` that misses the exact value. -/
theorem C87_dot_refuted : ¬ ∀ (A B : Vec (Interval F32) 1) (x y : Fin 1 → ℝ), FinVec A → FinVec B → InVec A x → InVec B y →
    (∑ i, x i * y i) ∈ A.dot B := by
  intro h
  obtain ⟨e1, e2, e3⟩ := toReal_lit_small
  have fin : Interval.Finite exA ∧ Interval.Finite exB := by
    unfold Interval.Finite; decide +kernel
  have hx : (-1 : ℝ) ∈ exA := by
    refine ⟨(lowerOf_fin fin.1.1).2 ?_, (upperOf_fin fin.1.2).2 ?_⟩
    · change (-(F32.lit 1)).toReal ≤ _; rw [toReal_negop, e1]
    · change _ ≤ (F32.lit 2).toReal; rw [e2]; norm_num
  have hy : (-3 : ℝ) ∈ exB := by
    refine ⟨(lowerOf_fin fin.2.1).2 ?_, (upperOf_fin fin.2.2).2 ?_⟩
    · change (-(F32.lit 3)).toReal ≤ _; rw [toReal_negop, e3]
    · change _ ≤ (F32.lit 1).toReal; rw [e1]; norm_num
  have hm := (h ⟨fun _ => exA⟩ ⟨fun _ => exB⟩ (fun _ => -1) (fun _ => -3) (fun _ => fin.1) (fun _ => fin.2)
    (fun _ => hx) (fun _ => hy)).2
  have hf : ((⟨fun _ => exA⟩ : Vec (Interval F32) 1).dot (⟨fun _ => exB⟩ : Vec (Interval F32) 1)).sup.isFin = true := by
    decide +kernel
  have h3 := (upperOf_fin hf).1 hm
  have h4 : ((⟨fun _ => exA⟩ : Vec (Interval F32) 1).dot (⟨fun _ => exB⟩ : Vec (Interval F32) 1)).sup.toReal <
      (F32.lit 3).toReal := toReal_lt_iff.2 (by decide +kernel)
  rw [e3] at h4
  norm_num at h3
  linarith

/-- Non-vacuity: the vector (1,2,3) as intervals; its `square_norm` has a positive lower bound, so `norm` encloses. -/
example : InVec (GVec.toInterval (GVec.new3 (F32.lit 1) (F32.lit 2) (F32.lit 3) : Vec F32 3)) ![1, 2, 3] ∧
    0 < (GVec.toInterval (GVec.new3 (F32.lit 1) (F32.lit 2) (F32.lit 3) : Vec F32 3)).squareNorm.inf.key ∧
    FinVec (GVec.toInterval (GVec.new3 (F32.lit 1) (F32.lit 2) (F32.lit 3) : Vec F32 3)) := by
  refine ⟨?_, by decide +kernel, by unfold FinVec Interval.Finite; decide +kernel⟩
  have := (C87_from (GVec.new3 (F32.lit 1) (F32.lit 2) (F32.lit 3) : Vec F32 3) (by decide +kernel)).1
  obtain ⟨e1, e2, e3⟩ := toReal_lit_small
  intro i
  have h := this i
  fin_cases i
  · change (F32.lit 1).toReal ∈ _ at h; rw [e1] at h; exact h
  · change (F32.lit 2).toReal ∈ _ at h; rw [e2] at h; exact h
  · change (F32.lit 3).toReal ∈ _ at h; rw [e3] at h; exact h
end Scarlet
