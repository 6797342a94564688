import Verif.Props.Interval3
import Verif.Spec.IntervalExpr

/-! C23 (fundamental theorem), C26 (constants), C27 (inclusion monotone), C28 (tightness). -/

set_option linter.unusedSectionVars false

namespace Scarlet
open Flt Scarlet.Interval
variable {mw ew : Nat} [FltImpl mw ew] [LawfulFlt mw ew]

/-! ### C23 -/

namespace IExpr

/-- Evaluation with the code's interval operators (model of what a user writes). -/
def evalI (ρ : Nat → Interval (Flt mw ew)) : IExpr (Flt mw ew) → Interval (Flt mw ew)
  | var i => ρ i
  | const t => Interval.from1 t
  | add a b => evalI ρ a + evalI ρ b
  | sub a b => evalI ρ a - evalI ρ b
  | mul a b => evalI ρ a * evalI ρ b
  | div a b => evalI ρ a / evalI ρ b
  | neg a => -evalI ρ a
  | square a => Interval.square (evalI ρ a)
  | abs a => SignedScalar.abs (evalI ρ a)
  | min a b => Scalar.min (evalI ρ a) (evalI ρ b)
  | max a b => Scalar.max (evalI ρ a) (evalI ρ b)
  | addC a t => evalI ρ a + t
  | subC a t => evalI ρ a - t
  | mulC a t => evalI ρ a * t
  | divC a t => evalI ρ a / t

/-- The side conditions under which the code's multiplication is sound, at every product inside the expression. -/
def MulSafe (ρ : Nat → Interval (Flt mw ew)) : IExpr (Flt mw ew) → Prop
  | var _ | const _ => True
  | mul a b => MulSafe ρ a ∧ MulSafe ρ b ∧ ¬(Straddles (evalI ρ a) ∧ Straddles (evalI ρ b)) ∧
      NoNaN (evalI ρ a * evalI ρ b)
  | add a b | sub a b | min a b | max a b | div a b => MulSafe ρ a ∧ MulSafe ρ b
  | neg a | square a | abs a | addC a _ | subC a _ | divC a _ => MulSafe ρ a
  | mulC a t => MulSafe ρ a ∧ (Interval.Finite (evalI ρ a) ∨ t.toReal ≠ 0)

theorem MulFree.safe {ρ : Nat → Interval (Flt mw ew)} {e : IExpr (Flt mw ew)} : e.MulFree → e.MulSafe ρ := by
  induction e with
  | var i => exact fun _ => trivial
  | const t => exact fun _ => trivial
  | mul a b _ _ => exact fun h => h.elim
  | add a b iha ihb => exact fun h => ⟨iha h.1, ihb h.2⟩
  | sub a b iha ihb => exact fun h => ⟨iha h.1, ihb h.2⟩
  | min a b iha ihb => exact fun h => ⟨iha h.1, ihb h.2⟩
  | max a b iha ihb => exact fun h => ⟨iha h.1, ihb h.2⟩
  | div a b iha ihb => exact fun h => ⟨iha h.1, ihb h.2⟩
  | neg a iha => exact fun h => iha h
  | square a iha => exact fun h => iha h
  | abs a iha => exact fun h => iha h
  | addC a t iha => exact fun h => iha h
  | subC a t iha => exact fun h => iha h
  | divC a t iha => exact fun h => iha h
  | mulC a t iha => exact fun h => ⟨iha h.1, Or.inr h.2⟩

end IExpr

/-- C23 with the side conditions of C12/C13 at each product.
Missing from the full claim: products of two zero-straddling intervals and `0 * inf` products; there it is false
(`C23_refuted`). -/
theorem C23_partial (ρ : Nat → Interval (Flt mw ew)) (σ : Nat → ℝ) (hσ : ∀ i, σ i ∈ ρ i) :
    ∀ e : IExpr (Flt mw ew), e.Defined σ → e.MulSafe ρ → e.evalR σ ∈ e.evalI ρ := by
  intro e
  induction e with
  | var i => exact fun _ _ => hσ i
  | const t => exact fun h _ => ⟨LowerOf.of_fin h, UpperOf.of_fin h⟩
  | add a b iha ihb => exact fun h s => C11_add _ _ _ _ (iha h.1 s.1) (ihb h.2 s.2)
  | sub a b iha ihb => exact fun h s => C11_sub _ _ _ _ (iha h.1 s.1) (ihb h.2 s.2)
  | mul a b iha ihb => exact fun h s => C12_mul_partial _ _ _ _ (iha h.1 s.1) (ihb h.2 s.2.1) s.2.2.1 s.2.2.2
  | div a b iha ihb => exact fun h s => C14_div _ _ _ _ (iha h.1 s.1) (ihb h.2.1 s.2) h.2.2
  | neg a iha => exact fun h s => C18_neg _ _ (iha h s)
  | square a iha =>
    intro h s
    have := C16_square _ _ (iha h s)
    rwa [← sq] at this
  | abs a iha => exact fun h s => C18_abs _ _ (iha h s)
  | min a b iha ihb => exact fun h s => C18_min _ _ _ _ (iha h.1 s.1) (ihb h.2 s.2)
  | max a b iha ihb => exact fun h s => C18_max _ _ _ _ (iha h.1 s.1) (ihb h.2 s.2)
  | addC a t iha => exact fun h s => C11_add_scalar _ _ _ (iha h.1 s) h.2
  | subC a t iha => exact fun h s => C11_sub_scalar _ _ _ (iha h.1 s) h.2
  | mulC a t iha => exact fun h s => C13_mul_scalar_partial _ _ _ (iha h.1 s.1) h.2 s.2
  | divC a t iha => exact fun h s => C15_div_scalar _ _ _ (iha h.1 s) h.2.1 h.2.2

/-- C23 without side conditions for all expressions free of interval×interval products. -/
theorem C23_mulfree_partial (ρ : Nat → Interval (Flt mw ew)) (σ : Nat → ℝ) (hσ : ∀ i, σ i ∈ ρ i)
    (e : IExpr (Flt mw ew)) (h : e.Defined σ) (hm : e.MulFree) : e.evalR σ ∈ e.evalI ρ :=
  C23_partial ρ σ hσ e h hm.safe

theorem mem_exA : (-1 : ℝ) ∈ exA := by
  obtain ⟨e1, e2, e3⟩ := toReal_lit_small
  refine ⟨(lowerOf_fin (by decide +kernel)).2 ?_, (upperOf_fin (by decide +kernel)).2 ?_⟩
  · change (-(F32.lit 1)).toReal ≤ _; rw [toReal_negop, e1]
  · change _ ≤ (F32.lit 2).toReal; rw [e2]; norm_num
theorem mem_exB : (-3 : ℝ) ∈ exB := by
  obtain ⟨e1, e2, e3⟩ := toReal_lit_small
  refine ⟨(lowerOf_fin (by decide +kernel)).2 ?_, (upperOf_fin (by decide +kernel)).2 ?_⟩
  · change (-(F32.lit 3)).toReal ≤ _; rw [toReal_negop, e3]
  · change _ ≤ (F32.lit 1).toReal; rw [e1]; norm_num

/-- C23 is false in general: `v0 * v1` with `v0 ∈ [-1,2]`, `v1 ∈ [-3,1]`. -/
theorem C23_refuted : ¬ ∀ (ρ : Nat → Interval F32) (σ : Nat → ℝ) (e : IExpr F32),
    (∀ i, σ i ∈ ρ i) → (∀ i, Interval.Finite (ρ i)) → e.Defined σ → e.evalR σ ∈ e.evalI ρ := by
  intro h
  have := h (fun i => if i = 0 then exA else exB) (fun i => if i = 0 then -1 else -3) (.mul (.var 0) (.var 1))
    (fun i => by by_cases hi : i = 0 <;> simp only [hi, if_true, if_false]; exact mem_exA; exact mem_exB)
    (fun i => by by_cases hi : i = 0 <;> simp only [hi, if_true, if_false] <;> unfold Interval.Finite <;> decide +kernel)
    ⟨trivial, trivial⟩
  change (-1 : ℝ) * (-3) ∈ exA * exB at this
  have hf : (exA * exB).sup.isFin = true := by decide +kernel
  have h3 := (upperOf_fin hf).1 this.2
  have h4 : (exA * exB).sup.toReal < (F32.lit 3).toReal := toReal_lt_iff.2 (by decide +kernel)
  rw [toReal_lit_small.2.2] at h4
  norm_num at h3
  linarith

/-- Hypotheses of `C23_partial` met by a nontrivial expression with a product: `(v0 - 3) * (v0 / 2)²` on `[-1,2]`. -/
example : ∃ (e : IExpr F32) (ρ : Nat → Interval F32) (σ : Nat → ℝ), (∀ i, σ i ∈ ρ i) ∧ e.Defined σ ∧ e.MulSafe ρ ∧
    e = .mul (.subC (.var 0) (F32.lit 3)) (.square (.divC (.var 0) (F32.lit 2))) := by
  refine ⟨_, fun _ => exA, fun _ => -1, fun _ => mem_exA, ?_, ?_, rfl⟩
  · refine ⟨⟨trivial, by decide +kernel⟩, trivial, by decide +kernel, ?_⟩
    rw [toReal_lit_small.2.1]; norm_num
  · refine ⟨trivial, trivial, ?_, ?_⟩
    · rintro ⟨-, h1, -, h3, -⟩
      rw [val_lt_zero_iff h1] at h3
      exact absurd h3 (by decide +kernel)
    · unfold NoNaN; decide +kernel

/-! ### C26 -/

/-- C26 for the f64 constants. -/
theorem C26_constants_f64 : Real.pi ∈ (GFloat.pi : Interval F64) ∧ 2 * Real.pi ∈ (GFloat.tau : Interval F64) ∧
    Real.pi / 2 ∈ (GFloat.fracPi2 : Interval F64) ∧ Real.pi / 4 ∈ (GFloat.fracPi4 : Interval F64) := by
  obtain ⟨h1, h2, h3, h4⟩ := C10_f64
  exact ⟨⟨h1.1, h1.2⟩, ⟨h2.1, h2.2⟩, ⟨h3.1, h3.2⟩, ⟨h4.1, h4.2⟩⟩

/-- C26 is false for the f32 constants: none of the four intervals contains its constant. -/
theorem C26_refuted_f32 : Real.pi ∉ (GFloat.pi : Interval F32) ∧ 2 * Real.pi ∉ (GFloat.tau : Interval F32) ∧
    Real.pi / 2 ∉ (GFloat.fracPi2 : Interval F32) ∧ Real.pi / 4 ∉ (GFloat.fracPi4 : Interval F32) := by
  obtain ⟨h1, h2, h3, h4⟩ := C10_f32_upper_wrong
  exact ⟨fun h => h1 h.2, fun h => h2 h.2, fun h => h3 h.2, fun h => h4 h.2⟩

/-- C26, integers exactly representable in the format (|n| ≤ 2^24 for f32, 2^53 for f64).
Missing: larger integers (`C26_refuted_i64`). -/
theorem C26_from_i64_partial (n : ℤ) (hn : n.natAbs ≤ 2 ^ (mw + 1))
    (hr : 2 ^ (mw + 1) * 2 ^ fK mw ew < magN mw (infIdx mw ew)) : (n : ℝ) ∈ (GFloat.fromI64 n : Interval (Flt mw ew)) := by
  obtain ⟨h1, h2⟩ := ofInt_exact (mw := mw) (ew := ew) n hn hr
  change (n : ℝ) ∈ Interval.from1 (ofInt mw ew n)
  rw [← h2]; exact ⟨LowerOf.of_fin h1, UpperOf.of_fin h1⟩

/-- The range hypothesis of `C26_from_i64_partial` holds for both formats. -/
example : 2 ^ (23 + 1) * 2 ^ fK 23 8 < magN 23 (infIdx 23 8) ∧ 2 ^ (52 + 1) * 2 ^ fK 52 11 < magN 52 (infIdx 52 11) := by
  decide +kernel

/-- C26 is false for `from_i64` in f32: `2^24 + 1` is not in the point interval built from it. -/
theorem C26_refuted_i64 : ((16777217 : ℤ) : ℝ) ∉ (GFloat.fromI64 16777217 : Interval F32) := by
  intro h
  have hf : (GFloat.fromI64 16777217 : F32).isFin = true := by decide +kernel
  have h1 : ((16777217 : ℤ) : ℝ) ≤ (GFloat.fromI64 16777217 : F32).toReal := (upperOf_fin hf).1 h.2
  have h2 : (GFloat.fromI64 16777217 : F32) = F32.lit 16777216 := by decide +kernel
  rw [h2, toReal_lit (by norm_num)] at h1
  norm_num at h1

/-- C26 is false for `Interval::<f32>::from_f64`: the f64 `1 + 2^-52` is rounded to the point `1`. -/
theorem C26_refuted_f64 : ∃ x : F64, x.isFin = true ∧ x.toReal ∉ (GFloat.fromF64 x : Interval F32) := by
  refine ⟨F64.nextUp (F64.lit 1), by decide +kernel, fun h => ?_⟩
  have e : (GFloat.fromF64 (F64.nextUp (F64.lit 1)) : F32) = F32.lit 1 := by decide +kernel
  have h1 : (F64.nextUp (F64.lit 1)).toReal ≤ (GFloat.fromF64 (F64.nextUp (F64.lit 1)) : F32).toReal :=
    (upperOf_fin (by decide +kernel)).1 h.2
  rw [e, toReal_lit_small.1] at h1
  have h2 : (F64.lit 1).toReal < (F64.nextUp (F64.lit 1)).toReal := toReal_lt_iff.2 (by decide +kernel)
  have h3 : (F64.lit 1).toReal = 1 := by
    have := (exact_of_repr (mw := 52) (ew := 11) (repr_int (1 : ℤ) (by decide) (by decide +kernel)) (z := F64.lit 1)
      (by unfold F64.lit; rw [(ofRat_key false _ 1 Nat.one_pos).2]; simp)).2
    simpa using this
  linarith

/-- C26: `from(t)` and `from_f32`/`from_f64` of the interval's own format contain the source exactly. -/
theorem C26_from (t : Flt mw ew) (ht : t.isFin = true) (x : ℝ) : x ∈ Interval.from1 t ↔ x = t.toReal := by
  constructor
  · intro h; exact le_antisymm ((upperOf_fin ht).1 h.2) ((lowerOf_fin ht).1 h.1)
  · rintro rfl; exact ⟨LowerOf.of_fin ht, UpperOf.of_fin ht⟩

/-! ### C27, C28: the bounds are the widened roundings of the exact extrema -/

/-- `lo` is one float below the float nearest to `m` (saturating at `-inf`). -/
def IsLo (lo : Flt mw ew) (m : ℝ) : Prop := lo.isNaN = false ∧ lo.key = max (rndK mw ew m - 1) (-kInf mw ew)
def IsHi (hi : Flt mw ew) (m : ℝ) : Prop := hi.isNaN = false ∧ hi.key = min (rndK mw ew m + 1) (kInf mw ew)
def TightLo (S : Set ℝ) (C : Interval (Flt mw ew)) : Prop := ∃ m, IsLeast S m ∧ IsLo C.inf m
def TightHi (S : Set ℝ) (C : Interval (Flt mw ew)) : Prop := ∃ m, IsGreatest S m ∧ IsHi C.sup m

theorem isLo_of {z : Flt mw ew} {m : ℝ} (h : z.isNaN = false ∧ z.key = rndK mw ew m) : IsLo (GFloat.nextDown z) m := by
  have := nextDown_key h.1
  exact ⟨this.1, by rw [this.2, h.2]⟩
theorem isHi_of {z : Flt mw ew} {m : ℝ} (h : z.isNaN = false ∧ z.key = rndK mw ew m) : IsHi (GFloat.nextUp z) m := by
  have := nextUp_key h.1
  exact ⟨this.1, by rw [this.2, h.2]⟩

theorem mono_lo {S S' : Set ℝ} {C C' : Interval (Flt mw ew)} (hs : S ⊆ S') (h : TightLo S C) (h' : TightLo S' C') :
    C.inf.isNaN = false ∧ C'.inf.isNaN = false ∧ C'.inf.val ≤ C.inf.val := by
  obtain ⟨m, ⟨h1, -⟩, n, k⟩ := h
  obtain ⟨m', ⟨-, h2⟩, n', k'⟩ := h'
  refine ⟨n, n', (val_le_iff n' n).2 ?_⟩
  have := rndK_mono mw ew (h2 (hs h1))
  omega
theorem mono_hi {S S' : Set ℝ} {C C' : Interval (Flt mw ew)} (hs : S ⊆ S') (h : TightHi S C) (h' : TightHi S' C') :
    C.sup.isNaN = false ∧ C'.sup.isNaN = false ∧ C.sup.val ≤ C'.sup.val := by
  obtain ⟨m, ⟨h1, -⟩, n, k⟩ := h
  obtain ⟨m', ⟨-, h2⟩, n', k'⟩ := h'
  refine ⟨n, n', (val_le_iff n n').2 ?_⟩
  have := rndK_mono mw ew (h2 (hs h1))
  omega
theorem mono_tight {S S' : Set ℝ} {C C' : Interval (Flt mw ew)} (hs : S ⊆ S') (h : TightLo S C ∧ TightHi S C)
    (h' : TightLo S' C' ∧ TightHi S' C') : Within C C' := by
  obtain ⟨a1, a2, a3⟩ := mono_lo hs h.1 h'.1
  obtain ⟨b1, b2, b3⟩ := mono_hi hs h.2 h'.2
  exact ⟨⟨a1, b1⟩, ⟨a2, b2⟩, a3, b3⟩

theorem mem_fin_iff {A : Interval (Flt mw ew)} (hA : Interval.Finite A) (x : ℝ) :
    x ∈ A ↔ A.inf.toReal ≤ x ∧ x ≤ A.sup.toReal := by
  rw [mem_iff, lowerOf_fin hA.1, upperOf_fin hA.2]

theorem ordered_real {A : Interval (Flt mw ew)} (h : Ordered A) (hf : Interval.Finite A) :
    A.inf.toReal ≤ A.sup.toReal := by
  have := h.2.2
  rwa [val_of_isFin hf.1, val_of_isFin hf.2, EReal.coe_le_coe_iff] at this

/-- Least and greatest element of a range from two corner points. -/
theorem least2 {f : ℝ → ℝ → ℝ} {A B : Interval (Flt mw ew)} (hA : Interval.Finite A) (hB : Interval.Finite B) {p q : ℝ}
    (hp : p ∈ A) (hq : q ∈ B)
    (h : ∀ x y, A.inf.toReal ≤ x → x ≤ A.sup.toReal → B.inf.toReal ≤ y → y ≤ B.sup.toReal → f p q ≤ f x y) :
    IsLeast (Range2 f A B) (f p q) := by
  refine ⟨⟨p, q, hp, hq, rfl⟩, ?_⟩
  rintro _ ⟨x, y, hx, hy, rfl⟩
  rw [mem_fin_iff hA] at hx
  rw [mem_fin_iff hB] at hy
  exact h x y hx.1 hx.2 hy.1 hy.2
theorem greatest2 {f : ℝ → ℝ → ℝ} {A B : Interval (Flt mw ew)} (hA : Interval.Finite A) (hB : Interval.Finite B) {p q : ℝ}
    (hp : p ∈ A) (hq : q ∈ B)
    (h : ∀ x y, A.inf.toReal ≤ x → x ≤ A.sup.toReal → B.inf.toReal ≤ y → y ≤ B.sup.toReal → f x y ≤ f p q) :
    IsGreatest (Range2 f A B) (f p q) := by
  refine ⟨⟨p, q, hp, hq, rfl⟩, ?_⟩
  rintro _ ⟨x, y, hx, hy, rfl⟩
  rw [mem_fin_iff hA] at hx
  rw [mem_fin_iff hB] at hy
  exact h x y hx.1 hx.2 hy.1 hy.2

variable {A B A' B' : Interval (Flt mw ew)}

theorem add_tight (hA : Ordered A) (hB : Ordered B) (fA : Interval.Finite A) (fB : Interval.Finite B) :
    TightLo (Range2 (· + ·) A B) (A + B) ∧ TightHi (Range2 (· + ·) A B) (A + B) :=
  ⟨⟨_, least2 fA fB (mem_inf_of_ordered hA fA) (mem_inf_of_ordered hB fB) (fun _ _ h1 _ h2 _ => add_le_add h1 h2),
    isLo_of (add_fin fA.1 fB.1)⟩,
   ⟨_, greatest2 fA fB (mem_sup_of_ordered hA fA) (mem_sup_of_ordered hB fB) (fun _ _ _ h1 _ h2 => add_le_add h1 h2),
    isHi_of (add_fin fA.2 fB.2)⟩⟩

theorem sub_fin' {u v : Flt mw ew} (hu : u.isFin = true) (hv : v.isFin = true) :
    (u - v).isNaN = false ∧ (u - v).key = rndK mw ew (u.toReal - v.toReal) := by
  rw [Flt.sub_eq_add_neg, _root_.sub_eq_add_neg, ← toReal_negop]
  exact add_fin hu (by rw [isFin_negop]; exact hv)

theorem sub_tight (hA : Ordered A) (hB : Ordered B) (fA : Interval.Finite A) (fB : Interval.Finite B) :
    TightLo (Range2 (· - ·) A B) (A - B) ∧ TightHi (Range2 (· - ·) A B) (A - B) :=
  ⟨⟨_, least2 fA fB (mem_inf_of_ordered hA fA) (mem_sup_of_ordered hB fB) (fun _ _ h1 _ _ h2 => sub_le_sub h1 h2),
    isLo_of (sub_fin' fA.1 fB.2)⟩,
   ⟨_, greatest2 fA fB (mem_sup_of_ordered hA fA) (mem_inf_of_ordered hB fB) (fun _ _ _ h1 h2 _ => sub_le_sub h1 h2),
    isHi_of (sub_fin' fA.2 fB.1)⟩⟩

theorem from1_ok {t : Flt mw ew} (ht : t.isFin = true) : Ordered (Interval.from1 t) ∧ Interval.Finite (Interval.from1 t) :=
  ⟨⟨notNaN_of_isFin ht, notNaN_of_isFin ht, le_rfl⟩, ht, ht⟩

theorem range_from1 (f : ℝ → ℝ → ℝ) {t : Flt mw ew} (ht : t.isFin = true) :
    Range2 f A (Interval.from1 t) = Range1 (fun x => f x t.toReal) A := by
  ext z
  constructor
  · rintro ⟨x, y, hx, hy, rfl⟩
    rw [C26_from t ht] at hy
    exact ⟨x, hx, by rw [hy]⟩
  · rintro ⟨x, hx, rfl⟩
    exact ⟨x, _, hx, (C26_from t ht _).2 rfl, rfl⟩

theorem addS_tight {t : Flt mw ew} (ht : t.isFin = true) (hA : Ordered A) (fA : Interval.Finite A) :
    TightLo (Range1 (· + t.toReal) A) (A + t) ∧ TightHi (Range1 (· + t.toReal) A) (A + t) := by
  rw [← range_from1 (· + ·) ht]
  exact add_tight hA (from1_ok ht).1 fA (from1_ok ht).2
theorem subS_tight {t : Flt mw ew} (ht : t.isFin = true) (hA : Ordered A) (fA : Interval.Finite A) :
    TightLo (Range1 (· - t.toReal) A) (A - t) ∧ TightHi (Range1 (· - t.toReal) A) (A - t) := by
  rw [← range_from1 (· - ·) ht]
  exact sub_tight hA (from1_ok ht).1 fA (from1_ok ht).2

theorem mulS_tight {t : Flt mw ew} (ht : t.isFin = true) (hA : Ordered A) (fA : Interval.Finite A) :
    TightLo (Range1 (· * t.toReal) A) (A * t) ∧ TightHi (Range1 (· * t.toReal) A) (A * t) := by
  have tn := notNaN_of_isFin ht
  have i1 := mem_inf_of_ordered hA fA
  have i2 := mem_sup_of_ordered hA fA
  rw [mulS_def]; unfold Interval.mulS
  split
  · next h =>
    unfold Scalar.isNonnegative at h
    rw [sge_iff, key_szero] at h
    have t0 := toReal_nonneg_iff.2 h.2.2
    refine ⟨⟨_, ⟨⟨_, i1, rfl⟩, ?_⟩, isLo_of (mul_fin fA.1 ht)⟩, ⟨_, ⟨⟨_, i2, rfl⟩, ?_⟩, isHi_of (mul_fin fA.2 ht)⟩⟩
    · rintro _ ⟨x, hx, rfl⟩
      exact mul_le_mul_of_nonneg_right ((mem_fin_iff fA x).1 hx).1 t0
    · rintro _ ⟨x, hx, rfl⟩
      exact mul_le_mul_of_nonneg_right ((mem_fin_iff fA x).1 hx).2 t0
  · next h =>
    unfold Scalar.isNonnegative at h
    rw [sge_iff, key_szero] at h
    have t0 : t.toReal ≤ 0 := by
      rw [← not_lt, toReal_pos_iff]
      intro h'; exact h ⟨tn, szero_notNaN, h'.le⟩
    refine ⟨⟨_, ⟨⟨_, i2, rfl⟩, ?_⟩, isLo_of (mul_fin fA.2 ht)⟩, ⟨_, ⟨⟨_, i1, rfl⟩, ?_⟩, isHi_of (mul_fin fA.1 ht)⟩⟩
    · rintro _ ⟨x, hx, rfl⟩
      exact mul_le_mul_of_nonpos_right ((mem_fin_iff fA x).1 hx).2 t0
    · rintro _ ⟨x, hx, rfl⟩
      exact mul_le_mul_of_nonpos_right ((mem_fin_iff fA x).1 hx).1 t0

theorem divS_tight {t : Flt mw ew} (ht : t.isFin = true) (h0 : t.toReal ≠ 0) (hA : Ordered A) (fA : Interval.Finite A) :
    TightLo (Range1 (· / t.toReal) A) (A / t) ∧ TightHi (Range1 (· / t.toReal) A) (A / t) := by
  have tn := notNaN_of_isFin ht
  have i1 := mem_inf_of_ordered hA fA
  have i2 := mem_sup_of_ordered hA fA
  have k0 : t.key ≠ 0 := fun h => h0 (toReal_eq_zero_iff.2 h)
  change TightLo _ (Interval.divS A t) ∧ TightHi _ (Interval.divS A t)
  unfold Interval.divS
  rcases lt_or_gt_of_ne k0 with k | k
  · rw [if_neg (by rw [sgt_iff, key_szero]; omega), if_pos (by rw [slt_iff, key_szero]; exact ⟨tn, szero_notNaN, k⟩)]
    have tneg : t.toReal < 0 := by rw [← not_le, toReal_nonneg_iff]; omega
    refine ⟨⟨_, ⟨⟨_, i2, rfl⟩, ?_⟩, isLo_of (div_fin fA.2 ht k0)⟩, ⟨_, ⟨⟨_, i1, rfl⟩, ?_⟩, isHi_of (div_fin fA.1 ht k0)⟩⟩
    · rintro _ ⟨x, hx, rfl⟩
      exact (div_le_div_right_of_neg tneg).2 ((mem_fin_iff fA x).1 hx).2
    · rintro _ ⟨x, hx, rfl⟩
      exact (div_le_div_right_of_neg tneg).2 ((mem_fin_iff fA x).1 hx).1
  · rw [if_pos (by rw [sgt_iff, key_szero]; exact ⟨tn, szero_notNaN, k⟩)]
    have tpos : 0 < t.toReal := toReal_pos_iff.2 k
    refine ⟨⟨_, ⟨⟨_, i1, rfl⟩, ?_⟩, isLo_of (div_fin fA.1 ht k0)⟩, ⟨_, ⟨⟨_, i2, rfl⟩, ?_⟩, isHi_of (div_fin fA.2 ht k0)⟩⟩
    · rintro _ ⟨x, hx, rfl⟩
      exact div_le_div_of_nonneg_right ((mem_fin_iff fA x).1 hx).1 tpos.le
    · rintro _ ⟨x, hx, rfl⟩
      exact div_le_div_of_nonneg_right ((mem_fin_iff fA x).1 hx).2 tpos.le

theorem nonneg_real (fA : Interval.Finite A) : isNonnegative A = true ↔ 0 ≤ A.inf.toReal := by
  rw [isNonnegative_iff, toReal_nonneg_iff]; simp [notNaN_of_isFin fA.1]
theorem nonpos_real (fA : Interval.Finite A) : isNonpositive A = true ↔ A.sup.toReal ≤ 0 := by
  rw [isNonpositive_iff, ← not_lt (a := (0:ℝ)), toReal_pos_iff, not_lt]; simp [notNaN_of_isFin fA.2]

theorem straddles_real (fA : Interval.Finite A) : Straddles A ↔ A.inf.toReal < 0 ∧ 0 < A.sup.toReal := by
  unfold Straddles
  rw [val_of_isFin fA.1, val_of_isFin fA.2]
  simp only [notNaN_of_isFin fA.1, notNaN_of_isFin fA.2, true_and]
  constructor
  · rintro ⟨h1, h2⟩; exact ⟨by exact_mod_cast h1, by exact_mod_cast h2⟩
  · rintro ⟨h1, h2⟩; exact ⟨by exact_mod_cast h1, by exact_mod_cast h2⟩

theorem mul_tight (hA : Ordered A) (hB : Ordered B) (fA : Interval.Finite A) (fB : Interval.Finite B)
    (hs : ¬(Straddles A ∧ Straddles B)) :
    TightLo (Range2 (· * ·) A B) (A * B) ∧ TightHi (Range2 (· * ·) A B) (A * B) := by
  have i1 := mem_inf_of_ordered hA fA
  have i2 := mem_sup_of_ordered hA fA
  have j1 := mem_inf_of_ordered hB fB
  have j2 := mem_sup_of_ordered hB fB
  have oA := ordered_real hA fA
  have oB := ordered_real hB fB
  rw [straddles_real fA, straddles_real fB] at hs
  change TightLo _ (Interval.mul A B) ∧ TightHi _ (Interval.mul A B)
  unfold Interval.mul
  simp only [nonneg_real fA, nonpos_real fA, nonneg_real fB, nonpos_real fB]
  have lo : ∀ {u v : Flt mw ew}, u.toReal ∈ A → v.toReal ∈ B → u.isFin = true → v.isFin = true →
      (∀ x y, A.inf.toReal ≤ x → x ≤ A.sup.toReal → B.inf.toReal ≤ y → y ≤ B.sup.toReal → u.toReal * v.toReal ≤ x * y) →
      ∀ s, TightLo (Range2 (· * ·) A B) ⟨GFloat.nextDown (u * v), s⟩ := fun hu hv fu fv h s =>
    ⟨_, least2 fA fB hu hv h, isLo_of (mul_fin fu fv)⟩
  have hi : ∀ {u v : Flt mw ew}, u.toReal ∈ A → v.toReal ∈ B → u.isFin = true → v.isFin = true →
      (∀ x y, A.inf.toReal ≤ x → x ≤ A.sup.toReal → B.inf.toReal ≤ y → y ≤ B.sup.toReal → x * y ≤ u.toReal * v.toReal) →
      ∀ s, TightHi (Range2 (· * ·) A B) ⟨s, GFloat.nextUp (u * v)⟩ := fun hu hv fu fv h s =>
    ⟨_, greatest2 fA fB hu hv h, isHi_of (mul_fin fu fv)⟩
  by_cases pA : 0 ≤ A.inf.toReal
  · rw [if_pos pA]
    refine ⟨?_, ?_⟩
    · by_cases pB : 0 ≤ B.inf.toReal
      · rw [if_pos pB]; exact lo i1 j1 fA.1 fB.1 (fun x y h1 h2 h3 h4 => by nlinarith) _
      · rw [if_neg pB]; exact lo i2 j1 fA.2 fB.1 (fun x y h1 h2 h3 h4 => by nlinarith) _
    · by_cases pB : B.sup.toReal ≤ 0
      · rw [if_pos pB]; exact hi i1 j2 fA.1 fB.2 (fun x y h1 h2 h3 h4 => by nlinarith) _
      · rw [if_neg pB]; exact hi i2 j2 fA.2 fB.2 (fun x y h1 h2 h3 h4 => by nlinarith) _
  · rw [if_neg pA]
    by_cases nA : A.sup.toReal ≤ 0
    · rw [if_pos nA]
      refine ⟨?_, ?_⟩
      · by_cases pB : B.sup.toReal ≤ 0
        · rw [if_pos pB]; exact lo i2 j2 fA.2 fB.2 (fun x y h1 h2 h3 h4 => by nlinarith) _
        · rw [if_neg pB]; exact lo i1 j2 fA.1 fB.2 (fun x y h1 h2 h3 h4 => by nlinarith) _
      · by_cases pB : 0 ≤ B.inf.toReal
        · rw [if_pos pB]; exact hi i2 j1 fA.2 fB.1 (fun x y h1 h2 h3 h4 => by nlinarith) _
        · rw [if_neg pB]; exact hi i1 j1 fA.1 fB.1 (fun x y h1 h2 h3 h4 => by nlinarith) _
    · rw [if_neg nA]
      rw [not_le] at pA nA
      by_cases pB : 0 ≤ B.inf.toReal
      · rw [if_pos pB]
        exact ⟨lo i1 j2 fA.1 fB.2 (fun x y h1 h2 h3 h4 => by nlinarith) _,
          hi i2 j2 fA.2 fB.2 (fun x y h1 h2 h3 h4 => by nlinarith) _⟩
      · rw [if_neg pB]
        by_cases nB : B.sup.toReal ≤ 0
        · rw [if_pos nB]
          exact ⟨lo i2 j1 fA.2 fB.1 (fun x y h1 h2 h3 h4 => by nlinarith) _,
            hi i1 j1 fA.1 fB.1 (fun x y h1 h2 h3 h4 => by nlinarith) _⟩
        · exact absurd ⟨⟨pA, nA⟩, not_le.1 pB, not_le.1 nB⟩ hs

theorem div_tight (hA : Ordered A) (hB : Ordered B) (fA : Interval.Finite A) (fB : Interval.Finite B)
    (h0 : (0 : ℝ) ∉ B) :
    TightLo (Range2 (· / ·) A B) (A / B) ∧ TightHi (Range2 (· / ·) A B) (A / B) := by
  have i1 := mem_inf_of_ordered hA fA
  have i2 := mem_sup_of_ordered hA fA
  have j1 := mem_inf_of_ordered hB fB
  have j2 := mem_sup_of_ordered hB fB
  have oA := ordered_real hA fA
  have oB := ordered_real hB fB
  rw [mem_fin_iff fB] at h0
  have pB : isPositive B = true ↔ 0 < B.inf.toReal := by
    rw [isPositive_iff, toReal_pos_iff]; simp [notNaN_of_isFin fB.1]
  have nB : isNegative B = true ↔ B.sup.toReal < 0 := by
    rw [isNegative_iff, ← not_le (a := (0:ℝ)), toReal_nonneg_iff, not_le]; simp [notNaN_of_isFin fB.2]
  change TightLo _ (Interval.div A B) ∧ TightHi _ (Interval.div A B)
  unfold Interval.div
  simp only [nonneg_real fA, nonpos_real fA, pB, nB]
  have lo : ∀ {u v : Flt mw ew}, u.toReal ∈ A → v.toReal ∈ B → u.isFin = true → v.isFin = true → v.toReal ≠ 0 →
      (∀ x y, A.inf.toReal ≤ x → x ≤ A.sup.toReal → B.inf.toReal ≤ y → y ≤ B.sup.toReal → u.toReal / v.toReal ≤ x / y) →
      ∀ s, TightLo (Range2 (· / ·) A B) ⟨GFloat.nextDown (u / v), s⟩ := fun hu hv fu fv h0 h s =>
    ⟨_, least2 fA fB hu hv h, isLo_of (div_fin fu fv (fun h' => h0 (toReal_eq_zero_iff.2 h')))⟩
  have hi : ∀ {u v : Flt mw ew}, u.toReal ∈ A → v.toReal ∈ B → u.isFin = true → v.isFin = true → v.toReal ≠ 0 →
      (∀ x y, A.inf.toReal ≤ x → x ≤ A.sup.toReal → B.inf.toReal ≤ y → y ≤ B.sup.toReal → x / y ≤ u.toReal / v.toReal) →
      ∀ s, TightHi (Range2 (· / ·) A B) ⟨s, GFloat.nextUp (u / v)⟩ := fun hu hv fu fv h0 h s =>
    ⟨_, greatest2 fA fB hu hv h, isHi_of (div_fin fu fv (fun h' => h0 (toReal_eq_zero_iff.2 h')))⟩
  by_cases hp : 0 < B.inf.toReal
  · rw [if_pos hp]
    refine ⟨?_, ?_⟩
    · by_cases pA : 0 ≤ A.inf.toReal
      · rw [if_pos pA]
        exact lo i1 j2 fA.1 fB.2 (by linarith) (fun x y h1 h2 h3 h4 => by
          rw [div_le_div_iff₀ (by linarith) (by linarith)]; nlinarith) _
      · rw [if_neg pA]
        exact lo i1 j1 fA.1 fB.1 (by linarith) (fun x y h1 h2 h3 h4 => by
          rw [div_le_div_iff₀ (by linarith) (by linarith)]; nlinarith) _
    · by_cases pA : A.sup.toReal ≤ 0
      · rw [if_pos pA]
        exact hi i2 j2 fA.2 fB.2 (by linarith) (fun x y h1 h2 h3 h4 => by
          rw [div_le_div_iff₀ (by linarith) (by linarith)]; nlinarith) _
      · rw [if_neg pA]
        exact hi i2 j1 fA.2 fB.1 (by linarith) (fun x y h1 h2 h3 h4 => by
          rw [div_le_div_iff₀ (by linarith) (by linarith)]; nlinarith) _
  · rw [if_neg hp]
    have hn : B.sup.toReal < 0 := by
      by_contra h; exact h0 ⟨by linarith, by linarith⟩
    rw [if_pos hn]
    refine ⟨?_, ?_⟩
    · by_cases pA : A.sup.toReal ≤ 0
      · rw [if_pos pA]
        exact lo i2 j1 fA.2 fB.1 (by linarith) (fun x y h1 h2 h3 h4 => by
          rw [ddneg (by linarith) (by linarith)]; nlinarith) _
      · rw [if_neg pA]
        exact lo i2 j2 fA.2 fB.2 (by linarith) (fun x y h1 h2 h3 h4 => by
          rw [ddneg (by linarith) (by linarith)]; nlinarith) _
    · by_cases pA : 0 ≤ A.inf.toReal
      · rw [if_pos pA]
        exact hi i1 j1 fA.1 fB.1 (by linarith) (fun x y h1 h2 h3 h4 => by
          rw [ddneg (by linarith) (by linarith)]; nlinarith) _
      · rw [if_neg pA]
        exact hi i1 j2 fA.1 fB.2 (by linarith) (fun x y h1 h2 h3 h4 => by
          rw [ddneg (by linarith) (by linarith)]; nlinarith) _

theorem square_tightHi (hA : Ordered A) (fA : Interval.Finite A) :
    TightHi (Range1 (fun x => x * x) A) (Interval.square A) := by
  have i1 := mem_inf_of_ordered hA fA
  have i2 := mem_sup_of_ordered hA fA
  have oA := ordered_real hA fA
  have hi : ∀ {u : Flt mw ew}, u.isFin = true → (∃ w ∈ A, u.toReal * u.toReal = w * w) →
      (∀ x, A.inf.toReal ≤ x → x ≤ A.sup.toReal → x * x ≤ u.toReal * u.toReal) →
      ∀ s, TightHi (Range1 (fun x => x * x) A) ⟨s, GFloat.nextUp (u * u)⟩ := by
    rintro u fu ⟨w, hw, e⟩ h s
    refine ⟨_, ⟨⟨w, hw, rfl⟩, ?_⟩, ?_⟩
    · rintro _ ⟨x, hx, rfl⟩
      rw [mem_fin_iff fA] at hx
      simp only
      rw [← e]; exact h x hx.1 hx.2
    · simp only; rw [← e]; exact isHi_of (mul_fin fu fu)
  unfold Interval.square
  simp only [nonneg_real fA, nonpos_real fA]
  by_cases pA : 0 ≤ A.inf.toReal
  · rw [if_pos pA]
    exact hi fA.2 ⟨_, i2, rfl⟩ (fun x h1 h2 => by nlinarith) _
  · rw [if_neg pA]
    by_cases nA : A.sup.toReal ≤ 0
    · rw [if_pos nA]
      exact hi fA.1 ⟨_, i1, rfl⟩ (fun x h1 h2 => by nlinarith) _
    · rw [if_neg nA]
      rw [not_le] at pA nA
      have fn : (-A.inf).isFin = true := by rw [isFin_negop]; exact fA.1
      obtain ⟨n, v⟩ := smax_spec (u := -A.inf) (v := A.sup) (notNaN_of_isFin fn) (notNaN_of_isFin fA.2)
      have fm : (Scalar.max (-A.inf) A.sup).isFin = true := by rw [smax_def]; split; exact fn; exact fA.2
      rw [val_of_isFin fn, val_of_isFin fA.2, val_of_isFin fm, toReal_negop] at v
      have v' : (Scalar.max (-A.inf) A.sup).toReal = max (-A.inf.toReal) A.sup.toReal := by
        have := EReal.coe_strictMono.monotone.map_max (a := -A.inf.toReal) (b := A.sup.toReal)
        rw [← this] at v; exact_mod_cast v
      refine hi fm ?_ (fun x h1 h2 => ?_) _
      · rw [v']
        rcases le_total (-A.inf.toReal) A.sup.toReal with h | h
        · exact ⟨_, i2, by rw [max_eq_right h]⟩
        · exact ⟨_, i1, by rw [max_eq_left h]; ring⟩
      · rw [v']
        have h3 := le_max_left (-A.inf.toReal) A.sup.toReal
        have h4 := le_max_right (-A.inf.toReal) A.sup.toReal
        nlinarith [abs_le.2 ⟨(by linarith : -(max (-A.inf.toReal) A.sup.toReal) ≤ x), h2.trans h4⟩]

theorem square_tightLo (hA : Ordered A) (fA : Interval.Finite A) (hs : ¬ Straddles A) :
    TightLo (Range1 (fun x => x * x) A) (Interval.square A) := by
  have i1 := mem_inf_of_ordered hA fA
  have i2 := mem_sup_of_ordered hA fA
  rw [straddles_real fA] at hs
  unfold Interval.square
  simp only [nonneg_real fA, nonpos_real fA]
  by_cases pA : 0 ≤ A.inf.toReal
  · rw [if_pos pA]
    refine ⟨_, ⟨⟨_, i1, rfl⟩, ?_⟩, isLo_of (mul_fin fA.1 fA.1)⟩
    rintro _ ⟨x, hx, rfl⟩
    rw [mem_fin_iff fA] at hx
    simp only; nlinarith
  · rw [if_neg pA]
    have nA : A.sup.toReal ≤ 0 := by
      by_contra h; exact hs ⟨not_le.1 pA, not_le.1 h⟩
    rw [if_pos nA]
    refine ⟨_, ⟨⟨_, i2, rfl⟩, ?_⟩, isLo_of (mul_fin fA.2 fA.2)⟩
    rintro _ ⟨x, hx, rfl⟩
    rw [mem_fin_iff fA] at hx
    simp only; nlinarith

/-! ### C27 -/

theorem within_mem (h : Within A A') {x : ℝ} (hx : x ∈ A) : x ∈ A' :=
  ⟨⟨h.2.1.1, le_trans h.2.2.1 hx.1.2⟩, ⟨h.2.1.2, le_trans hx.2.2 h.2.2.2⟩⟩
theorem range2_sub (f : ℝ → ℝ → ℝ) (h : Within A A') (h' : Within B B') : Range2 f A B ⊆ Range2 f A' B' := by
  rintro _ ⟨x, y, hx, hy, rfl⟩; exact ⟨x, y, within_mem h hx, within_mem h' hy, rfl⟩
theorem range1_sub (f : ℝ → ℝ) (h : Within A A') : Range1 f A ⊆ Range1 f A' := by
  rintro _ ⟨x, hx, rfl⟩; exact ⟨x, within_mem h hx, rfl⟩

/-- Nested ordered finite intervals. -/
structure Nested (A A' : Interval (Flt mw ew)) : Prop where
  o : Ordered A
  o' : Ordered A'
  f : Interval.Finite A
  f' : Interval.Finite A'
  w : Within A A'

/-- C27: sums, differences, sums with and differences from a finite float, and negation, are inclusion monotone. -/
theorem C27_add_sub (h : Nested A A') (h' : Nested B B') (t : Flt mw ew) (ht : t.isFin = true) :
    Within (A + B) (A' + B') ∧ Within (A - B) (A' - B') ∧ Within (A + t) (A' + t) ∧ Within (A - t) (A' - t) ∧
    Within (-A) (-A') := by
  refine ⟨?_, ?_, ?_, ?_, ?_⟩
  · exact mono_tight (range2_sub _ h.w h'.w) (add_tight h.o h'.o h.f h'.f) (add_tight h.o' h'.o' h.f' h'.f')
  · exact mono_tight (range2_sub _ h.w h'.w) (sub_tight h.o h'.o h.f h'.f) (sub_tight h.o' h'.o' h.f' h'.f')
  · exact mono_tight (range1_sub _ h.w) (addS_tight ht h.o h.f) (addS_tight ht h.o' h.f')
  · exact mono_tight (range1_sub _ h.w) (subS_tight ht h.o h.f) (subS_tight ht h.o' h.f')
  · obtain ⟨⟨n1, n2⟩, ⟨n3, n4⟩, w1, w2⟩ := h.w
    refine ⟨⟨?_, ?_⟩, ⟨?_, ?_⟩, ?_, ?_⟩
    · change (-A.sup).isNaN = false; rw [isNaN_negop]; exact n2
    · change (-A.inf).isNaN = false; rw [isNaN_negop]; exact n1
    · change (-A'.sup).isNaN = false; rw [isNaN_negop]; exact n4
    · change (-A'.inf).isNaN = false; rw [isNaN_negop]; exact n3
    · change (-A'.sup).val ≤ (-A.sup).val; rw [val_neg n4, val_neg n2]; exact EReal.neg_le_neg_iff.2 w2
    · change (-A.inf).val ≤ (-A'.inf).val; rw [val_neg n1, val_neg n3]; exact EReal.neg_le_neg_iff.2 w1

/-- C27: product with and quotient by a finite float (also zero). -/
theorem C27_scale (h : Nested A A') (t : Flt mw ew) (ht : t.isFin = true) :
    Within (A * t) (A' * t) ∧ Within (A / t) (A' / t) := by
  refine ⟨mono_tight (range1_sub _ h.w) (mulS_tight ht h.o h.f) (mulS_tight ht h.o' h.f'), ?_⟩
  by_cases h0 : t.toReal = 0
  · have w1 := C15_div_scalar_zero A t ht h0
    have w2 := C15_div_scalar_zero A' t ht h0
    exact ⟨w1.1, w2.1, by rw [w2.2.1]; exact bot_le, by rw [w2.2.2]; exact le_top⟩
  · exact mono_tight (range1_sub _ h.w) (divS_tight ht h0 h.o h.f) (divS_tight ht h0 h.o' h.f')

/-- C27: quotients, including divisors that contain zero. -/
theorem C27_div (h : Nested A A') (h' : Nested B B') : Within (A / B) (A' / B') := by
  by_cases h0 : (0 : ℝ) ∈ B'
  · have w2 := C14_div_by_zero A' B' h0
    have n1 : NoNaN (A / B) := by
      by_cases h1 : (0 : ℝ) ∈ B
      · exact (C14_div_by_zero A B h1).1
      · obtain ⟨⟨_, _, a, _⟩, ⟨_, _, b, _⟩⟩ := div_tight h.o h'.o h.f h'.f h1
        exact ⟨a, b⟩
    exact ⟨n1, w2.1, by rw [w2.2.1]; exact bot_le, by rw [w2.2.2]; exact le_top⟩
  · exact mono_tight (range2_sub _ h.w h'.w) (div_tight h.o h'.o h.f h'.f (fun hc => h0 (within_mem h'.w hc)))
      (div_tight h.o' h'.o' h.f' h'.f' h0)

theorem straddles_mono (h : Nested A A') (hs : Straddles A) : Straddles A' :=
  ⟨h.w.2.1.1, h.w.2.1.2, lt_of_le_of_lt h.w.2.2.1 hs.2.2.1, lt_of_lt_of_le hs.2.2.2 h.w.2.2.2⟩

/-- C27 for products, unless both outer operands straddle zero.
Missing: that case, where it is false (`C27_refuted_mul`). -/
theorem C27_mul_partial (h : Nested A A') (h' : Nested B B') (hs : ¬(Straddles A' ∧ Straddles B')) :
    Within (A * B) (A' * B') :=
  mono_tight (range2_sub _ h.w h'.w)
    (mul_tight h.o h'.o h.f h'.f (fun hc => hs ⟨straddles_mono h hc.1, straddles_mono h' hc.2⟩))
    (mul_tight h.o' h'.o' h.f' h'.f' hs)

/-- C27 for squares, unless the outer operand straddles zero; the upper bound is monotone in every case.
Missing: the lower bound in the straddling case, where it is false (`C27_refuted_square`). -/
theorem C27_square_partial (h : Nested A A') :
    (¬ Straddles A' → Within (Interval.square A) (Interval.square A')) ∧
    (Interval.square A).sup.val ≤ (Interval.square A').sup.val := by
  have hh := mono_hi (range1_sub (fun x => x * x) h.w) (square_tightHi h.o h.f) (square_tightHi h.o' h.f')
  refine ⟨fun hs => ?_, hh.2.2⟩
  exact mono_tight (range1_sub _ h.w)
    ⟨square_tightLo h.o h.f (fun hc => hs (straddles_mono h hc)), square_tightHi h.o h.f⟩
    ⟨square_tightLo h.o' h.f' hs, square_tightHi h.o' h.f'⟩

theorem within_of_key {C D : Interval (Flt mw ew)} (h : C.inf.isNaN = false ∧ C.sup.isNaN = false ∧ D.inf.isNaN = false ∧
    D.sup.isNaN = false ∧ D.inf.key ≤ C.inf.key ∧ C.sup.key ≤ D.sup.key) : Within C D :=
  ⟨⟨h.1, h.2.1⟩, ⟨h.2.2.1, h.2.2.2.1⟩, (val_le_iff h.2.2.1 h.1).2 h.2.2.2.2.1, (val_le_iff h.2.1 h.2.2.2.1).2 h.2.2.2.2.2⟩

theorem nested_of_key {C D : Interval (Flt mw ew)} (h : (assertHolds C = true ∧ assertHolds D = true) ∧
    (C.inf.isFin = true ∧ C.sup.isFin = true) ∧ (D.inf.isFin = true ∧ D.sup.isFin = true) ∧
    D.inf.key ≤ C.inf.key ∧ C.sup.key ≤ D.sup.key) : Nested C D :=
  ⟨(C20_assert_iff _).1 h.1.1, (C20_assert_iff _).1 h.1.2, h.2.1, h.2.2.1,
    within_of_key ⟨notNaN_of_isFin h.2.1.1, notNaN_of_isFin h.2.1.2, notNaN_of_isFin h.2.2.1.1,
      notNaN_of_isFin h.2.2.1.2, h.2.2.2⟩⟩

/-- C27 is false for products: `[1,3] ⊂ [-1,3]`, `[1,1] ⊂ [-1,1]`, but `[1,3]*[1,1]` reaches above `[-1,3]*[-1,1]`. -/
theorem C27_refuted_mul : ∃ A A' B B' : Interval F32, Nested A A' ∧ Nested B B' ∧ ¬ Within (A * B) (A' * B') := by
  refine ⟨⟨F32.lit 1, F32.lit 3⟩, ⟨-(F32.lit 1), F32.lit 3⟩, ⟨F32.lit 1, F32.lit 1⟩, ⟨-(F32.lit 1), F32.lit 1⟩,
    nested_of_key (by decide +kernel), nested_of_key (by decide +kernel), ?_⟩
  rintro ⟨⟨-, h1⟩, ⟨-, h2⟩, -, h3⟩
  rw [val_le_iff h1 h2] at h3
  exact absurd h3 (by decide +kernel)

/-- C27 is false for squares: `[0,1] ⊂ [-1,1]`, but `[0,1]²` starts at the largest negative float and `[-1,1]²` at 0. -/
theorem C27_refuted_square : ∃ A A' : Interval F32, Nested A A' ∧ ¬ Within (Interval.square A) (Interval.square A') := by
  refine ⟨⟨F32.lit 0, F32.lit 1⟩, ⟨-(F32.lit 1), F32.lit 1⟩, nested_of_key (by decide +kernel), ?_⟩
  rintro ⟨⟨h1, -⟩, ⟨h2, -⟩, h3, -⟩
  rw [val_le_iff h2 h1] at h3
  exact absurd h3 (by decide +kernel)

/-- Hypotheses of C27 met: `[1,2] ⊂ [-1,2]`, and `[1,2]` does not straddle. -/
example : Nested (⟨F32.lit 1, F32.lit 2⟩ : Interval F32) exA ∧ Nested (⟨F32.lit 1, F32.lit 2⟩ : Interval F32) ⟨F32.lit 1, F32.lit 3⟩ :=
  ⟨nested_of_key (by decide +kernel), nested_of_key (by decide +kernel)⟩

/-! ### C28 -/

/-- The bound `lo` is at or below `m` and at most two floats below it (strictly). -/
def WithinTwoBelow (lo : Flt mw ew) (m : ℝ) : Prop :=
  LowerOf lo m ∧ (m : EReal) < (GFloat.nextUp (GFloat.nextUp lo)).val
def WithinTwoAbove (hi : Flt mw ew) (m : ℝ) : Prop :=
  UpperOf hi m ∧ (GFloat.nextDown (GFloat.nextDown hi)).val < (m : EReal)

theorem real_lt_of_key {u : Flt mw ew} {m : ℝ} (hn : u.isNaN = false) (hk : min (rndK mw ew m + 1) (kInf mw ew) ≤ u.key) :
    (m : EReal) < u.val := by
  have hb := key_bounds hn
  rcases key_cases hn with h | h | h
  · have := rndK_bounds mw ew m
    have hK := kInf_pos (mw := mw) (ew := ew)
    omega
  · rw [(val_top_iff hn).2 h]; exact EReal.coe_lt_top _
  · rw [val_of_isFin h, EReal.coe_lt_coe_iff, toReal_eq_key]
    have hf := isFin_iff_key.1 h
    have hb := rndK_bounds mw ew m
    have h1 := rndK_succ_gt (mw := mw) (ew := ew) (r := m) (by omega)
    refine lt_of_lt_of_le h1 ?_
    exact div_le_div_of_nonneg_right (valZ_le.2 (by omega)) (by positivity)

theorem two_below {lo : Flt mw ew} {m : ℝ} (h : IsLo lo m) : WithinTwoBelow lo m := by
  have hb := rndK_bounds mw ew m
  have hK := kInf_pos (mw := mw) (ew := ew)
  refine ⟨lowerOf_of_key h.1 (le_of_eq h.2), ?_⟩
  have u1 := nextUp_key h.1
  have u2 := nextUp_key u1.1
  refine real_lt_of_key u2.1 ?_
  rw [u2.2, u1.2, h.2]
  omega

theorem two_above {hi : Flt mw ew} {m : ℝ} (h : IsHi hi m) : WithinTwoAbove hi m := by
  have hb := rndK_bounds mw ew m
  have hK := kInf_pos (mw := mw) (ew := ew)
  refine ⟨upperOf_of_key h.1 (le_of_eq h.2.symm), ?_⟩
  have u1 := nextDown_key h.1
  have u2 := nextDown_key u1.1
  have n : (-(GFloat.nextDown (GFloat.nextDown hi))).isNaN = false := by rw [isNaN_negop]; exact u2.1
  have := real_lt_of_key (u := -(GFloat.nextDown (GFloat.nextDown hi))) (m := -m) n (by
    rw [key_negop, u2.2, u1.2, h.2, rndK_neg]; omega)
  rw [val_neg u2.1, EReal.coe_neg] at this
  exact EReal.neg_lt_neg_iff.1 this

/-- The computed bounds are less than two floats away from the exact range `S` of the operation. -/
def TwoUlp (S : Set ℝ) (C : Interval (Flt mw ew)) : Prop :=
  (∃ m, IsLeast S m ∧ WithinTwoBelow C.inf m) ∧ (∃ m, IsGreatest S m ∧ WithinTwoAbove C.sup m)

theorem twoUlp_of {S : Set ℝ} {C : Interval (Flt mw ew)} (h : TightLo S C ∧ TightHi S C) : TwoUlp S C := by
  obtain ⟨⟨m, h1, h2⟩, ⟨M, h3, h4⟩⟩ := h
  exact ⟨⟨m, h1, two_below h2⟩, ⟨M, h3, two_above h4⟩⟩

/-- C28: sums, differences and scalar variants (also products and quotients, outside the defective cases) have
bounds less than two floats away from the exact ones, in every sign case, also near overflow and underflow. -/
theorem C28 (hA : Ordered A) (hB : Ordered B) (fA : Interval.Finite A) (fB : Interval.Finite B) (t : Flt mw ew)
    (ht : t.isFin = true) :
    TwoUlp (Range2 (· + ·) A B) (A + B) ∧ TwoUlp (Range2 (· - ·) A B) (A - B) ∧
    TwoUlp (Range1 (· + t.toReal) A) (A + t) ∧ TwoUlp (Range1 (· - t.toReal) A) (A - t) ∧
    TwoUlp (Range1 (· * t.toReal) A) (A * t) ∧
    (t.toReal ≠ 0 → TwoUlp (Range1 (· / t.toReal) A) (A / t)) ∧
    (¬(Straddles A ∧ Straddles B) → TwoUlp (Range2 (· * ·) A B) (A * B)) ∧
    ((0 : ℝ) ∉ B → TwoUlp (Range2 (· / ·) A B) (A / B)) :=
  ⟨twoUlp_of (add_tight hA hB fA fB), twoUlp_of (sub_tight hA hB fA fB), twoUlp_of (addS_tight ht hA fA),
   twoUlp_of (subS_tight ht hA fA), twoUlp_of (mulS_tight ht hA fA), fun h => twoUlp_of (divS_tight ht h hA fA),
   fun h => twoUlp_of (mul_tight hA hB fA fB h), fun h => twoUlp_of (div_tight hA hB fA fB h)⟩

/-- The hypotheses of C28 are met by `[-1,2]`, `[-3,1]`, `3`. -/
example : Ordered exA ∧ Ordered exB ∧ Interval.Finite exA ∧ Interval.Finite exB ∧ (F32.lit 3).isFin = true :=
  ⟨(C20_assert_iff exA).1 (by decide +kernel), (C20_assert_iff exB).1 (by decide +kernel),
   by unfold Interval.Finite; decide +kernel, by unfold Interval.Finite; decide +kernel, by decide +kernel⟩

end Scarlet
