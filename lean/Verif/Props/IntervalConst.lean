import Verif.Props.Interval4
import Verif.Props.Float4
import Verif.Props.Float

/-! C99 (constants, classification and conversions of intervals as scalars). -/

set_option linter.unusedSectionVars false

namespace Scarlet
open Flt Scarlet.Interval
variable {mw ew : Nat} [FltImpl mw ew] [LawfulFlt mw ew]

/-- C99: the constants stand for exactly the one real number of their name; `infinity`, `neg_infinity` and `nan` for none. -/
theorem C99_constants (x : ℝ) :
    (x ∈ (Scalar.zero : Interval (Flt mw ew)) ↔ x = 0) ∧ (x ∈ (Scalar.one : Interval (Flt mw ew)) ↔ x = 1) ∧
    (x ∈ (GFloat.half : Interval (Flt mw ew)) ↔ x = 1 / 2) ∧ (x ∈ (GFloat.negZero : Interval (Flt mw ew)) ↔ x = 0) ∧
    (x ∈ (Scalar.lowest : Interval (Flt mw ew)) ↔ x = (Scalar.lowest : Flt mw ew).toReal) ∧
    (x ∈ (Scalar.highest : Interval (Flt mw ew)) ↔ x = (Scalar.highest : Flt mw ew).toReal) ∧
    x ∉ (GFloat.infinity : Interval (Flt mw ew)) ∧ x ∉ (GFloat.negInfinity : Interval (Flt mw ew)) ∧
    x ∉ (GFloat.nan : Interval (Flt mw ew)) := by
  have key : ∀ (c : Flt mw ew), c.isFin = true → (x ∈ (⟨c, c⟩ : Interval (Flt mw ew)) ↔ x = c.toReal) :=
    fun c h => C26_from c h x
  have hn : (GFloat.negZero : Flt mw ew).isFin = true := by
    have hk : (GFloat.negZero : Flt mw ew).key = 0 := key_zero true
    rw [isFin_iff_key, hk]; have := kInf_pos (mw := mw) (ew := ew); omega
  obtain ⟨-, -, -, -, hnz, -, -⟩ := C80_units (Scalar.zero : Flt mw ew)
  obtain ⟨hnan, ⟨-, hinf⟩, ⟨-, hninf⟩, -, -⟩ := C80_special (mw := mw) (ew := ew)
  rw [val_of_isFin hn] at hnz
  have hnz' : (GFloat.negZero : Flt mw ew).toReal = 0 := by exact_mod_cast hnz
  obtain ⟨hh, hhv⟩ := half_spec (mw := mw) (ew := ew)
  obtain ⟨ho, hov⟩ := sone_spec (mw := mw) (ew := ew)
  refine ⟨?_, ?_, ?_, ?_, key _ (isFin_maxFin true), key _ (isFin_maxFin false), ?_, ?_, ?_⟩
  · rw [← toReal_szero (mw := mw) (ew := ew)]; exact key _ isFin_szero
  · rw [← hov]; exact key _ ho
  · rw [← hhv]; exact key _ hh
  · refine (key _ hn).trans ?_; rw [hnz']
  · rintro ⟨⟨-, h⟩, -⟩
    change (GFloat.infinity : Flt mw ew).val ≤ _ at h
    rw [hinf] at h; exact absurd h (not_le.2 (EReal.coe_lt_top x))
  · rintro ⟨-, -, h⟩
    change _ ≤ (GFloat.negInfinity : Flt mw ew).val at h
    rw [hninf] at h; exact absurd h (not_le.2 (EReal.bot_lt_coe x))
  · rintro ⟨⟨h, -⟩, -⟩
    change (GFloat.nan : Flt mw ew).isNaN = false at h
    rw [hnan] at h; cases h

/-- C99: both bounds of `infinity` are +∞, both bounds of `neg_infinity` are -∞, and both bounds of `nan` are NaN. -/
theorem C99_infinite :
    (GFloat.infinity : Interval (Flt mw ew)).inf.val = ⊤ ∧ (GFloat.infinity : Interval (Flt mw ew)).sup.val = ⊤ ∧
    (GFloat.negInfinity : Interval (Flt mw ew)).inf.val = ⊥ ∧ (GFloat.negInfinity : Interval (Flt mw ew)).sup.val = ⊥ ∧
    (GFloat.nan : Interval (Flt mw ew)).inf.isNaN = true ∧ (GFloat.nan : Interval (Flt mw ew)).sup.isNaN = true :=
  have h := C80_special (mw := mw) (ew := ew)
  ⟨h.2.1.2, h.2.1.2, h.2.2.1.2, h.2.2.1.2, h.1, h.1⟩

/-- C99: `lowest` and `highest` are the extreme finite floats: every finite float lies between them. -/
theorem C99_extremes (t : Flt mw ew) (ht : t.isFin = true) :
    (Scalar.lowest : Flt mw ew).isFin = true ∧ (Scalar.highest : Flt mw ew).isFin = true ∧
    (Scalar.lowest : Flt mw ew).toReal ≤ t.toReal ∧ t.toReal ≤ (Scalar.highest : Flt mw ew).toReal := by
  have h1 : (Scalar.lowest : Flt mw ew).isFin = true := isFin_maxFin true
  have h2 : (Scalar.highest : Flt mw ew).isFin = true := isFin_maxFin false
  have k1 : (Scalar.lowest : Flt mw ew).key = -(kInf mw ew - 1) := key_maxFin true
  have k2 : (Scalar.highest : Flt mw ew).key = kInf mw ew - 1 := key_maxFin false
  have ht' := isFin_iff_key.1 ht
  refine ⟨h1, h2, ?_, ?_⟩
  · rw [toReal_le_iff, k1]; omega
  · rw [toReal_le_iff, k2]; omega

/-- C99: `is_nan` means that a bound is NaN, `is_finite` that both bounds are real numbers. -/
theorem C99_classify (A : Interval (Flt mw ew)) :
    (GFloat.isNan A = true ↔ ¬ Interval.NoNaN A) ∧ (GFloat.isFinite A = true ↔ Interval.Finite A) := by
  constructor
  · change (A.inf.isNaN || A.sup.isNaN) = true ↔ ¬ (A.inf.isNaN = false ∧ A.sup.isNaN = false)
    cases A.inf.isNaN <;> cases A.sup.isNaN <;> simp
  · change (A.inf.isFin && A.sup.isFin) = true ↔ A.inf.isFin = true ∧ A.sup.isFin = true
    rw [Bool.and_eq_true]

/-- C99, what `is_infinite` really is: both bounds *finite* and of the same sign (`C07`: the scalar `is_infinite` is
`is_finite`). -/
theorem C99_is_infinite_inverted (A : Interval (Flt mw ew)) :
    GFloat.isInfinite A = true ↔ Interval.Finite A ∧
      (0 < A.inf.val ∧ 0 < A.sup.val ∨ A.inf.val < 0 ∧ A.sup.val < 0 ∨ A.inf.val = 0 ∧ A.sup.val = 0) := by
  have hs : ∀ a b : Flt mw ew, a.isFin = true → b.isFin = true →
      (Scalar.eq (Scalar.signum a) (Scalar.signum b) = true ↔
        (0 < a.val ∧ 0 < b.val ∨ a.val < 0 ∧ b.val < 0 ∨ a.val = 0 ∧ b.val = 0)) := by
    intro a b ha hb
    obtain ⟨a1, a2, a3, -⟩ := C79_signum a (notNaN_of_isFin ha)
    obtain ⟨b1, b2, b3, -⟩ := C79_signum b (notNaN_of_isFin hb)
    obtain ⟨ho, hov⟩ := sone_spec (mw := mw) (ew := ew)
    have hno : (-(Scalar.one : Flt mw ew)).isFin = true := by rw [isFin_negop]; exact ho
    have eqv : ∀ p q : Flt mw ew, p.isFin = true → q.isFin = true → (Scalar.eq p q = true ↔ p.toReal = q.toReal) := by
      intro p q hp hq
      rw [seq_iff, ← toReal_eq_iff]; exact ⟨fun h => h.2.2, fun h => ⟨notNaN_of_isFin hp, notNaN_of_isFin hq, h⟩⟩
    have hnv : (-(Scalar.one : Flt mw ew)).toReal = -1 := by rw [toReal_negop, hov]
    have hz := isFin_szero (mw := mw) (ew := ew)
    have hzv := toReal_szero (mw := mw) (ew := ew)
    rcases lt_trichotomy a.val 0 with h | h | h <;> rcases lt_trichotomy b.val 0 with h' | h' | h'
    · rw [a2 h, b2 h', eqv _ _ hno hno]; simp [h, h']
    · rw [a2 h, b3 h', eqv _ _ hno hz, hnv, hzv]; simp [h, h', h.ne, h.not_gt]
    · rw [a2 h, b1 h', eqv _ _ hno ho, hnv, hov]; norm_num [h, h', h.ne, h.not_gt, h'.not_gt]
    · rw [a3 h, b2 h', eqv _ _ hz hno, hnv, hzv]; simp [h, h', h'.ne, h'.not_gt]
    · rw [a3 h, b3 h', eqv _ _ hz hz]; simp [h, h']
    · rw [a3 h, b1 h', eqv _ _ hz ho, hov, hzv]; simp [h, h', h'.ne', h'.not_gt]
    · rw [a1 h, b2 h', eqv _ _ ho hno, hnv, hov]; norm_num [h, h', h'.ne, h'.not_gt, h.not_gt]
    · rw [a1 h, b3 h', eqv _ _ ho hz, hov, hzv]; simp [h, h', h.ne', h.not_gt]
    · rw [a1 h, b1 h', eqv _ _ ho ho]; simp [h, h']
  change (A.inf.isFin && A.sup.isFin && Scalar.eq (Scalar.signum A.inf) (Scalar.signum A.sup)) = true ↔
    (A.inf.isFin = true ∧ A.sup.isFin = true) ∧ _
  rw [Bool.and_eq_true, Bool.and_eq_true]
  constructor
  · rintro ⟨⟨h1, h2⟩, h3⟩; exact ⟨⟨h1, h2⟩, (hs _ _ h1 h2).1 h3⟩
  · rintro ⟨⟨h1, h2⟩, h3⟩; exact ⟨⟨h1, h2⟩, (hs _ _ h1 h2).2 h3⟩

/-- C99 is false of `is_infinite`. -/
theorem C99_refuted : GFloat.isInfinite (⟨F32.lit 1, F32.lit 2⟩ : Interval F32) = true ∧
    GFloat.isInfinite (GFloat.infinity : Interval F32) = false := by decide +kernel

/-- C99: `next_up` moves both bounds to the next float up, `next_down` down. -/
theorem C99_next (A : Interval (Flt mw ew)) (hA : Interval.Finite A) :
    A.inf.val < (GFloat.nextUp A).inf.val ∧ A.sup.val < (GFloat.nextUp A).sup.val ∧
    (GFloat.nextDown A).inf.val < A.inf.val ∧ (GFloat.nextDown A).sup.val < A.sup.val ∧
    ∀ t : Flt mw ew, t.isNaN = false → (A.inf.val < t.val → (GFloat.nextUp A).inf.val ≤ t.val) ∧
      (A.sup.val < t.val → (GFloat.nextUp A).sup.val ≤ t.val) ∧ (t.val < A.inf.val → t.val ≤ (GFloat.nextDown A).inf.val) ∧
      (t.val < A.sup.val → t.val ≤ (GFloat.nextDown A).sup.val) := by
  obtain ⟨hi, hs⟩ := hA
  have ne : ∀ x : Flt mw ew, x.isFin = true → x.val ≠ ⊤ ∧ x.val ≠ ⊥ := fun x hx => by
    rw [val_of_isFin hx]; exact ⟨EReal.coe_ne_top _, EReal.coe_ne_bot _⟩
  obtain ⟨-, i1, i2⟩ := C01_next_up A.inf (notNaN_of_isFin hi) (ne _ hi).1
  obtain ⟨-, s1, s2⟩ := C01_next_up A.sup (notNaN_of_isFin hs) (ne _ hs).1
  obtain ⟨-, j1, j2⟩ := C02_next_down A.inf (notNaN_of_isFin hi) (ne _ hi).2
  obtain ⟨-, t1, t2⟩ := C02_next_down A.sup (notNaN_of_isFin hs) (ne _ hs).2
  exact ⟨i1, s1, j1, t1, fun t ht => ⟨fun h => not_lt.1 fun h' => i2 t ht ⟨h, h'⟩, fun h => not_lt.1 fun h' => s2 t ht ⟨h, h'⟩,
    fun h => not_lt.1 fun h' => j2 t ht ⟨h', h⟩, fun h => not_lt.1 fun h' => t2 t ht ⟨h', h⟩⟩⟩

/-- C99: `to_f32` of an `f32` interval and `to_f64` of an `f64` interval are points of it, for ordered finite intervals whose
bounds do not overflow when added. -/
theorem C99_to_float (A : Interval F32) (B : Interval F64) (hA : Ordered A ∧ Interval.Finite A ∧ (A.inf + A.sup).isFin = true)
    (hB : Ordered B ∧ Interval.Finite B ∧ (B.inf + B.sup).isFin = true) :
    (GFloat.toF32 A).toReal ∈ A ∧ (GFloat.toF64 B).toReal ∈ B := by
  obtain ⟨f1, m1⟩ := C21_approx A hA.1 hA.2.1 hA.2.2
  obtain ⟨f2, m2⟩ := C21_approx B hB.1 hB.2.1 hB.2.2
  have same : ∀ {mw ew : Nat} [Fmt mw ew] (x : Flt mw ew), x.isFin = true → (x.cast mw ew).toReal = x.toReal := by
    intro mw ew _ x hx
    have h := cast_fin (mw' := mw) (ew' := ew) hx
    rw [toReal_eq_iff, h.2, rndK_toReal (notNaN_of_isFin hx)]
  constructor
  · rw [← same _ f1] at m1; exact m1
  · rw [← same _ f2] at m2; exact m2

/-- The hypotheses of `C99_to_float` are met by `[1, 2]`, which it maps to `1.5`. -/
example : (GFloat.toF32 (⟨F32.lit 1, F32.lit 2⟩ : Interval F32) : F32) = ⟨0x3fc00000#32⟩ ∧
    (F32.lit 1 + F32.lit 2).isFin = true := by decide +kernel
end Scarlet
