import Verif.Props.Float2
import Verif.Props.Float3
import Verif.Theory.Trig
import Verif.Theory.Err

/-! C06 (tolerance of `fequals`), C79 (sign functions), C80 (constants, `two`, `recip`). -/

namespace Scarlet
open Flt

variable {mw ew : Nat}

/-! ## C06: what `fequals` accepts -/

section
variable [Fmt mw ew]

theorem Flt.toReal_sabs {x : Flt mw ew} (h : x.isNaN = false) : (SignedScalar.abs x).toReal = |x.toReal| := by
  rcases le_or_gt 0 x.key with h0 | h0
  · rw [abs_of_nonneg (toReal_nonneg_iff.2 h0), toReal_eq_key, (sabs_spec x).2 h, abs_of_nonneg h0, ← toReal_eq_key]
  · have hn : x.toReal < 0 := not_le.1 fun h' => absurd (toReal_nonneg_iff.1 h') (not_le.2 h0)
    rw [abs_of_neg hn, ← toReal_negop, toReal_eq_key, (sabs_spec x).2 h, abs_of_neg h0, ← key_negop, ← toReal_eq_key]

theorem Flt.isFin_sabs {x : Flt mw ew} (h : x.isFin = true) : (SignedScalar.abs x).isFin = true := by
  have h1 := (sabs_spec x).2 (notNaN_of_isFin h)
  rw [isFin_iff_key] at h ⊢
  rw [h1]
  rcases abs_cases x.key with h2 | h2 <;> omega

theorem Flt.smax_real {x y : Flt mw ew} (hx : x.isFin = true) (hy : y.isFin = true) :
    (Scalar.max x y).isFin = true ∧ (Scalar.max x y).toReal = max x.toReal y.toReal := by
  rw [smax_def]
  by_cases h : Scalar.gt x y = true
  · rw [if_pos h]; rw [sgt_iff] at h
    exact ⟨hx, (max_eq_left (toReal_le_iff.2 h.2.2.le)).symm⟩
  · rw [if_neg h]; rw [sgt_iff] at h
    simp only [notNaN_of_isFin hx, notNaN_of_isFin hy, true_and, not_lt] at h
    exact ⟨hy, (max_eq_right (toReal_le_iff.2 h)).symm⟩
end

variable [FltImpl mw ew] [LawfulFlt mw ew]

theorem fequals_iff (a b : Flt mw ew) (ha : a.isFin = true) (hb : b.isFin = true) :
    GFloat.fequals a b = true ↔
      rndK mw ew |a.toReal - b.toReal| < rndK mw ew (FltImpl.absEpsilon : Flt mw ew).toReal ∨
      rndK mw ew |a.toReal - b.toReal| <
        rndK mw ew (max |a.toReal| |b.toReal| * (FltImpl.relEpsilon : Flt mw ew).toReal) := by
  have hs := sub_fin ha hb
  rw [← sub_def] at hs
  have hd := sabs_spec (a - b)
  have hdn : (SignedScalar.abs (a - b)).isNaN = false := by rw [hd.1, hs.1]
  have hdk : (SignedScalar.abs (a - b)).key = rndK mw ew |a.toReal - b.toReal| := by
    rw [hd.2 hs.1, hs.2]
    rcases le_or_gt 0 (a.toReal - b.toReal) with h | h
    · rw [abs_of_nonneg h, abs_of_nonneg (rndK_nonneg h)]
    · rw [abs_of_neg h, rndK_neg, abs_of_nonpos (rndK_nonpos h.le)]
  have hm := smax_real (isFin_sabs ha) (isFin_sabs hb)
  rw [toReal_sabs (notNaN_of_isFin ha), toReal_sabs (notNaN_of_isFin hb)] at hm
  have hr := mul_fin hm.1 (LawfulFlt.relEps_fin (mw := mw) (ew := ew))
  rw [← mul_def, hm.2] at hr
  have he := notNaN_of_isFin (LawfulFlt.absEps_fin (mw := mw) (ew := ew))
  have e1 : Scalar.lt (SignedScalar.abs (a - b)) (GFloat.absEpsilon : Flt mw ew) = true ↔
      rndK mw ew |a.toReal - b.toReal| < rndK mw ew (FltImpl.absEpsilon : Flt mw ew).toReal := by
    rw [slt_iff, hdk, rndK_toReal he]
    exact ⟨fun h => h.2.2, fun h => ⟨hdn, he, h⟩⟩
  have e2 : Scalar.lt (SignedScalar.abs (a - b))
      (Scalar.max (SignedScalar.abs a) (SignedScalar.abs b) * (GFloat.relEpsilon : Flt mw ew)) = true ↔
      rndK mw ew |a.toReal - b.toReal| <
        rndK mw ew (max |a.toReal| |b.toReal| * (FltImpl.relEpsilon : Flt mw ew).toReal) := by
    rw [slt_iff, hdk]
    constructor
    · intro h; have := h.2.2; rwa [show (GFloat.relEpsilon : Flt mw ew) = FltImpl.relEpsilon from rfl, hr.2] at this
    · intro h; exact ⟨hdn, hr.1, by rw [show (GFloat.relEpsilon : Flt mw ew) = FltImpl.relEpsilon from rfl, hr.2]; exact h⟩
  unfold GFloat.fequals
  rw [← e1, ← e2]
  by_cases h : Scalar.lt (SignedScalar.abs (a - b)) (GFloat.absEpsilon : Flt mw ew) = true
  · simp [h]
  · simp [h]

/-- C06: two finite floats accepted by `fequals` really are within the absolute or the relative tolerance, with no
rounding slack. -/
theorem C06_sound (a b : Flt mw ew) (ha : a.isFin = true) (hb : b.isFin = true) (h : GFloat.fequals a b = true) :
    |a.toReal - b.toReal| < (GFloat.absEpsilon : Flt mw ew).toReal ∨
    |a.toReal - b.toReal| < (GFloat.relEpsilon : Flt mw ew).toReal * max |a.toReal| |b.toReal| := by
  rw [fequals_iff a b ha hb] at h
  rcases h with h | h
  · left; by_contra hc; exact absurd (rndK_mono mw ew (not_lt.1 hc)) (not_le.2 h)
  · right; by_contra hc
    rw [mul_comm] at hc
    exact absurd (rndK_mono mw ew (not_lt.1 hc)) (not_le.2 h)

/-- C06: `fequals` accepts whenever two neighbouring floats `y < z` fit between the distance and a tolerance. -/
theorem C06_complete (a b y z : Flt mw ew) (ha : a.isFin = true) (hb : b.isFin = true) (hy : y.isFin = true)
    (hz : z.isFin = true) (h1 : |a.toReal - b.toReal| ≤ y.toReal) (h2 : y.toReal < z.toReal)
    (h3 : z.toReal ≤ (GFloat.absEpsilon : Flt mw ew).toReal ∨
      z.toReal ≤ (GFloat.relEpsilon : Flt mw ew).toReal * max |a.toReal| |b.toReal|) :
    GFloat.fequals a b = true := by
  rw [fequals_iff a b ha hb]
  have k1 := rndK_mono mw ew h1
  rw [rndK_toReal (notNaN_of_isFin hy)] at k1
  rw [toReal_lt_iff] at h2
  rcases h3 with h | h
  · left
    have := rndK_mono mw ew h
    rw [rndK_toReal (notNaN_of_isFin hz)] at this
    exact lt_of_le_of_lt k1 (lt_of_lt_of_le h2 this)
  · right
    rw [mul_comm] at h
    have := rndK_mono mw ew h
    rw [rndK_toReal (notNaN_of_isFin hz)] at this
    exact lt_of_le_of_lt k1 (lt_of_lt_of_le h2 this)

/-- C06: the tolerances: the floats nearest to `1e-6` (absolute) and `1e-4` (`f32`) or `1e-6` (`f64`) (relative). -/
theorem C06_tolerances :
    (∀ y : F32, |(GFloat.absEpsilon : F32).toReal - 1 / 1000000| ≤ |y.toReal - 1 / 1000000|) ∧
    (∀ y : F32, |(GFloat.relEpsilon : F32).toReal - 1 / 10000| ≤ |y.toReal - 1 / 10000|) ∧
    (∀ y : F64, |(GFloat.absEpsilon : F64).toReal - 1 / 1000000| ≤ |y.toReal - 1 / 1000000|) ∧
    (∀ y : F64, |(GFloat.relEpsilon : F64).toReal - 1 / 1000000| ≤ |y.toReal - 1 / 1000000|) := by
  have hk : ∀ {mw ew : Nat} [Fmt mw ew] (d : Nat), 0 < d → (ofRat mw ew false 1 d).key = rndK mw ew (1 / (d : ℝ)) := by
    intro mw ew _ d hd
    rw [(ofRat_key false 1 d hd).2]; simp
  refine ⟨fun y => ?_, fun y => ?_, fun y => ?_, fun y => ?_⟩
  · exact nearest_of_key (LawfulFlt.absEps_fin (mw := 23) (ew := 8)) (by have := hk (mw := 23) (ew := 8) 1000000 (by decide); push_cast at this; exact this) y
  · exact nearest_of_key (LawfulFlt.relEps_fin (mw := 23) (ew := 8)) (by have := hk (mw := 23) (ew := 8) 10000 (by decide); push_cast at this; exact this) y
  · exact nearest_of_key (LawfulFlt.absEps_fin (mw := 52) (ew := 11)) (by have := hk (mw := 52) (ew := 11) 1000000 (by decide); push_cast at this; exact this) y
  · exact nearest_of_key (LawfulFlt.relEps_fin (mw := 52) (ew := 11)) (by have := hk (mw := 52) (ew := 11) 1000000 (by decide); push_cast at this; exact this) y

/-- Two different floats are accepted, and two farther apart are not: the relative and the absolute tolerance. -/
example : GFloat.fequals (F32.lit 100000) (F32.lit 100009) = true ∧ GFloat.fequals (F32.lit 100000) (F32.lit 100011) = false ∧
    GFloat.fequals (ofRat 23 8 false 1 1000000000) (ofRat 23 8 false 1 1100000) = true ∧
    GFloat.fequals (ofRat 23 8 false 1 1000000000) (ofRat 23 8 false 1 900000) = false := by decide +kernel

/-! ## C79 -/

omit [FltImpl mw ew] [LawfulFlt mw ew]
section
variable [FltImpl mw ew] [LawfulFlt mw ew]

/-- C79: the sign tests and `abs` on floats, infinities included. -/
theorem C79_float (x : Flt mw ew) (h : x.isNaN = false) :
    (Scalar.isPositive x = true ↔ 0 < x.val) ∧ (Scalar.isNegative x = true ↔ x.val < 0) ∧
    (Scalar.isNonpositive x = true ↔ x.val ≤ 0) ∧ (Scalar.isNonnegative x = true ↔ 0 ≤ x.val) ∧
    (SignedScalar.abs x).isNaN = false ∧ (SignedScalar.abs x).val = max x.val (-x.val) := by
  have hz : (Scalar.zero : Flt mw ew).isNaN = false := notNaN_of_isFin isFin_szero
  have hv : (Scalar.zero : Flt mw ew).val = 0 := by rw [val_of_isFin isFin_szero, toReal_szero]; rfl
  have hn : (-x).isNaN = false := by rw [isNaN_negop]; exact h
  have hneg : (-x).val = -x.val := val_neg h
  refine ⟨?_, ?_, ?_, ?_, ?_, ?_⟩
  · rw [Scalar.isPositive, sgt_iff, ← hv, val_lt_iff hz h]; exact ⟨fun a => a.2.2, fun a => ⟨h, hz, a⟩⟩
  · rw [Scalar.isNegative, slt_iff, ← hv, val_lt_iff h hz]; exact ⟨fun a => a.2.2, fun a => ⟨h, hz, a⟩⟩
  · rw [Scalar.isNonpositive, sle_iff, ← hv, val_le_iff h hz]; exact ⟨fun a => a.2.2, fun a => ⟨h, hz, a⟩⟩
  · rw [Scalar.isNonnegative, sge_iff, ← hv, val_le_iff hz h]; exact ⟨fun a => a.2.2, fun a => ⟨h, hz, a⟩⟩
  · rw [(sabs_spec x).1, h]
  · rw [← hneg]
    rcases le_total (-x).key x.key with h1 | h1
    · rw [max_eq_left ((val_le_iff hn h).2 h1), val_eq_iff (by rw [(sabs_spec x).1, h]) h, (sabs_spec x).2 h]
      rw [key_negop] at h1; exact abs_of_nonneg (by omega)
    · rw [max_eq_right ((val_le_iff h hn).2 h1), val_eq_iff (by rw [(sabs_spec x).1, h]) hn, (sabs_spec x).2 h]
      rw [key_negop] at h1 ⊢; exact abs_of_nonpos (by omega)

end

section
variable [FltImpl mw ew] [LawfulFlt mw ew]

/-- C79: `signum` is `1`, `-1` or `0` according to the sign; `x.signum() * x.abs()` is `x` again. -/
theorem C79_signum (x : Flt mw ew) (h : x.isNaN = false) :
    (0 < x.val → Scalar.signum x = Scalar.one) ∧ (x.val < 0 → Scalar.signum x = -Scalar.one) ∧
    (x.val = 0 → Scalar.signum x = Scalar.zero) ∧
    (x.isFin = true → (Scalar.signum x).toReal * (SignedScalar.abs x).toReal = x.toReal) := by
  obtain ⟨p, n, -, -, -, -⟩ := C79_float x h
  have e1 : 0 < x.val → Scalar.signum x = Scalar.one := fun h1 => by
    unfold Scalar.signum; rw [if_pos (p.2 h1)]
  have e2 : x.val < 0 → Scalar.signum x = -Scalar.one := fun h1 => by
    unfold Scalar.signum
    rw [if_neg (fun hp => absurd (p.1 hp) (not_lt.2 h1.le)), if_pos (n.2 h1)]
  have e3 : x.val = 0 → Scalar.signum x = Scalar.zero := fun h1 => by
    unfold Scalar.signum
    rw [if_neg (fun hp => absurd (p.1 hp) (by rw [h1]; exact lt_irrefl _)),
      if_neg (fun hp => absurd (n.1 hp) (by rw [h1]; exact lt_irrefl _))]
  refine ⟨e1, e2, e3, fun hf => ?_⟩
  have hv := val_of_isFin hf
  rw [toReal_sabs h]
  rcases lt_trichotomy x.toReal 0 with h1 | h1 | h1
  · rw [e2 (by rw [hv]; exact_mod_cast h1), toReal_negop, sone_spec.2, abs_of_neg h1]; ring
  · rw [h1]; simp
  · rw [e1 (by rw [hv]; exact_mod_cast h1), sone_spec.2, abs_of_pos h1]; ring

omit [LawfulFlt mw ew] [FltImpl mw ew] in
/-- C79: on NaN every sign test is false, `signum` returns `0` and `abs` returns the same NaN. -/
theorem C79_nan (x : Flt mw ew) (h : x.isNaN = true) :
    Scalar.isPositive x = false ∧ Scalar.isNegative x = false ∧ Scalar.isNonpositive x = false ∧
    Scalar.isNonnegative x = false ∧ Scalar.signum x = Scalar.zero ∧ SignedScalar.abs x = x := by
  have a1 : Scalar.isPositive x = false := by
    rw [Bool.eq_false_iff, Scalar.isPositive, ne_eq, sgt_iff, h]; simp
  have a2 : Scalar.isNegative x = false := by
    rw [Bool.eq_false_iff, Scalar.isNegative, ne_eq, slt_iff, h]; simp
  refine ⟨a1, a2, ?_, ?_, ?_, ?_⟩
  · rw [Bool.eq_false_iff, Scalar.isNonpositive, ne_eq, sle_iff, h]; simp
  · rw [Bool.eq_false_iff, Scalar.isNonnegative, ne_eq, sge_iff, h]; simp
  · unfold Scalar.signum; rw [a1, a2]; rfl
  · change Scalar.absDefault x = x
    unfold Scalar.absDefault; rw [a2]; rfl
end

/-- What the integer part of C79 needs of a type: its comparison and constants are those of the integers. -/
structure IntLike (T : Type) [Scalar T] [Neg T] (toZ : T → ℤ) (lo : ℤ) : Prop where
  cmp : ∀ a b : T, Scalar.pcmp a b = if toZ a < toZ b then some .lt else if toZ a = toZ b then some .eq else some .gt
  zero : toZ Scalar.zero = 0
  one : toZ Scalar.one = 1
  neg : ∀ a : T, toZ a ≠ lo → toZ (-a) = -toZ a

/-- The sign functions on a type of machine integers: everything is exact except `abs` of the least value. -/
def IntSigns (T : Type) [Scalar T] [SignedScalar T] [Neg T] (toZ : T → ℤ) (lo : ℤ) : Prop :=
  ∀ x : T, (Scalar.isPositive x = true ↔ 0 < toZ x) ∧ (Scalar.isNegative x = true ↔ toZ x < 0) ∧
    (Scalar.isNonpositive x = true ↔ toZ x ≤ 0) ∧ (Scalar.isNonnegative x = true ↔ 0 ≤ toZ x) ∧
    toZ (Scalar.signum x) = Int.sign (toZ x) ∧ (toZ x ≠ lo → toZ (SignedScalar.abs x) = |toZ x|)

theorem intSigns_of {T : Type} [Scalar T] [SignedScalar T] [Neg T] {toZ : T → ℤ} {lo : ℤ} (h : IntLike T toZ lo)
    (habs : ∀ x : T, SignedScalar.abs x = Scalar.absDefault x) (hlo : lo < -1) : IntSigns T toZ lo := by
  intro x
  have p : Scalar.isPositive x = true ↔ 0 < toZ x := by
    unfold Scalar.isPositive Scalar.gt; rw [h.cmp, h.zero]
    split_ifs with h1 h2 <;> simp <;> omega
  have n : Scalar.isNegative x = true ↔ toZ x < 0 := by
    unfold Scalar.isNegative Scalar.lt; rw [h.cmp, h.zero]
    split_ifs with h1 h2 <;> simp <;> omega
  refine ⟨p, n, ?_, ?_, ?_, fun hx => ?_⟩
  · unfold Scalar.isNonpositive Scalar.le; rw [h.cmp, h.zero]
    split_ifs with h1 h2 <;> simp <;> omega
  · unfold Scalar.isNonnegative Scalar.ge; rw [h.cmp, h.zero]
    split_ifs with h1 h2 <;> simp <;> omega
  · unfold Scalar.signum
    by_cases h1 : 0 < toZ x
    · rw [if_pos (p.2 h1), h.one, Int.sign_eq_one_of_pos h1]
    · rw [if_neg (fun a => h1 (p.1 a))]
      by_cases h2 : toZ x < 0
      · rw [if_pos (n.2 h2), h.neg _ (by rw [h.one]; omega), h.one, Int.sign_eq_neg_one_of_neg h2]
      · rw [if_neg (fun a => h2 (n.1 a)), h.zero]
        rw [show toZ x = 0 by omega]; rfl
  · rw [habs]; unfold Scalar.absDefault
    by_cases h2 : toZ x < 0
    · rw [if_pos (n.2 h2), h.neg _ hx, abs_of_neg h2]
    · rw [if_neg (fun a => h2 (n.1 a)), abs_of_nonneg (by omega)]

theorem intLike8 : IntLike Int8 Int8.toInt (-128) where
  cmp a b := by
    change ordCmp a b = _; unfold ordCmp; simp only [Int8.lt_iff_toInt_lt, Int8.toInt_inj]
  zero := rfl
  one := rfl
  neg a h := by
    have h1 := a.le_toInt
    have h2 := a.toInt_lt
    rw [Int8.toInt_neg]
    exact Int.bmod_eq_of_le (by norm_num; omega) (by norm_num; omega)
theorem intLike16 : IntLike Int16 Int16.toInt (-32768) where
  cmp a b := by
    change ordCmp a b = _; unfold ordCmp; simp only [Int16.lt_iff_toInt_lt, Int16.toInt_inj]
  zero := rfl
  one := rfl
  neg a h := by
    have h1 := a.le_toInt
    have h2 := a.toInt_lt
    rw [Int16.toInt_neg]
    exact Int.bmod_eq_of_le (by norm_num; omega) (by norm_num; omega)
theorem intLike32 : IntLike Int32 Int32.toInt (-2147483648) where
  cmp a b := by
    change ordCmp a b = _; unfold ordCmp; simp only [Int32.lt_iff_toInt_lt, Int32.toInt_inj]
  zero := rfl
  one := rfl
  neg a h := by
    have h1 := a.le_toInt
    have h2 := a.toInt_lt
    rw [Int32.toInt_neg]
    exact Int.bmod_eq_of_le (by norm_num; omega) (by norm_num; omega)
theorem intLike64 : IntLike Int64 Int64.toInt (-9223372036854775808) where
  cmp a b := by
    change ordCmp a b = _; unfold ordCmp; simp only [Int64.lt_iff_toInt_lt, Int64.toInt_inj]
  zero := rfl
  one := rfl
  neg a h := by
    have h1 := a.le_toInt
    have h2 := a.toInt_lt
    rw [Int64.toInt_neg]
    exact Int.bmod_eq_of_le (by norm_num; omega) (by norm_num; omega)

/-- C79 for the signed integers: sign tests and `signum` are exact for every value, `abs` for every value except the
least one.  Missing for the full claim: `abs` of the least value, for which it is false (`C79_abs_min`). -/
theorem C79_int_partial :
    IntSigns Int8 Int8.toInt (-128) ∧ IntSigns Int16 Int16.toInt (-32768) ∧
    IntSigns Int32 Int32.toInt (-2147483648) ∧ IntSigns Int64 Int64.toInt (-9223372036854775808) :=
  ⟨intSigns_of intLike8 (fun _ => rfl) (by decide), intSigns_of intLike16 (fun _ => rfl) (by decide),
   intSigns_of intLike32 (fun _ => rfl) (by decide), intSigns_of intLike64 (fun _ => rfl) (by decide)⟩

/-- C79 is false for `abs` of the least signed integer: the release build returns it unchanged, still negative. -/
theorem C79_abs_min :
    SignedScalar.abs (Scalar.lowest : Int8) = Scalar.lowest ∧ Scalar.isNegative (Scalar.lowest : Int8) = true ∧
    SignedScalar.abs (Scalar.lowest : Int16) = Scalar.lowest ∧ Scalar.isNegative (Scalar.lowest : Int16) = true ∧
    SignedScalar.abs (Scalar.lowest : Int32) = Scalar.lowest ∧ Scalar.isNegative (Scalar.lowest : Int32) = true ∧
    SignedScalar.abs (Scalar.lowest : Int64) = Scalar.lowest ∧ Scalar.isNegative (Scalar.lowest : Int64) = true := by
  decide +kernel

example : SignedScalar.abs (-7 : Int32) = 7 ∧ Scalar.signum (-7 : Int32) = -1 := by decide +kernel
example : (-(F32.lit 7)).isNaN = false ∧ SignedScalar.abs (-(F32.lit 7)) = F32.lit 7 ∧
    Scalar.signum (-(F32.lit 7)) = -F32.lit 1 := by decide +kernel

/-! ## C80 -/

section
variable [FltImpl mw ew] [LawfulFlt mw ew]

theorem Flt.repr_two : Repr mw ew 2 := by
  have hF : Fmt mw ew := inferInstance
  have hmw := hF.hmw
  have hew := hF.hew
  have h1 : 2 ^ ew = 2 * 2 ^ (ew - 1) := by rw [← pow_succ']; congr 1; omega
  have h2 : 2 ^ 2 ≤ 2 ^ (ew - 1) := Nat.pow_le_pow_right (by decide) (by omega)
  refine repr_of_mul_pow 1 (fK mw ew + 1) (Nat.one_le_two_pow) ?_ (by push_cast; ring)
  rw [magN_infIdx, ← pow_add, one_mul]
  apply Nat.pow_lt_pow_right (by decide)
  unfold fK; omega

/-- C80: `zero`, `one`, `two`, `half`, `neg_zero` have exactly the values `0, 1, 2, 1/2, 0` in every format;
`is_zero`/`is_one` recognise exactly the values `0` (either sign) and `1`. -/
theorem C80_units (x : Flt mw ew) :
    (Scalar.zero : Flt mw ew).val = 0 ∧ (Scalar.one : Flt mw ew).val = 1 ∧ (Scalar.two : Flt mw ew).val = ((2 : ℝ) : EReal) ∧
    (GFloat.half : Flt mw ew).val = ((1 / 2 : ℝ) : EReal) ∧ (GFloat.negZero : Flt mw ew).val = 0 ∧
    (Scalar.isZero x = true ↔ x.isNaN = false ∧ x.val = 0) ∧ (Scalar.isOne x = true ↔ x.isNaN = false ∧ x.val = 1) := by
  have hz : (Scalar.zero : Flt mw ew).isNaN = false := notNaN_of_isFin isFin_szero
  have hv : (Scalar.zero : Flt mw ew).val = 0 := by rw [val_of_isFin isFin_szero, toReal_szero]; rfl
  have ho := sone_spec (mw := mw) (ew := ew)
  have hov : (Scalar.one : Flt mw ew).val = 1 := by rw [val_of_isFin ho.1, ho.2]; rfl
  have h2 := add_fin ho.1 ho.1
  rw [ho.2] at h2
  have h2' := exact_of_repr (z := (Scalar.two : Flt mw ew)) repr_two (by
    change ((Scalar.one : Flt mw ew).add Scalar.one).key = _
    rw [h2.2]; norm_num)
  refine ⟨hv, hov, ?_, ?_, ?_, ?_, ?_⟩
  · rw [val_of_isFin h2'.1, h2'.2]
  · rw [val_of_isFin half_spec.1, half_spec.2]
  · have hk : (GFloat.negZero : Flt mw ew).key = 0 := key_zero true
    have hf : (GFloat.negZero : Flt mw ew).isFin = true := by
      rw [isFin_iff_key, hk]; have := kInf_pos (mw := mw) (ew := ew); omega
    exact (val_zero_iff (notNaN_of_isFin hf)).2 hk
  · rw [Scalar.isZero, seq_iff, ← hv]
    constructor
    · rintro ⟨a, b, c⟩; exact ⟨a, (val_eq_iff a b).2 c⟩
    · rintro ⟨a, c⟩; exact ⟨a, hz, (val_eq_iff a hz).1 c⟩
  · have hon := notNaN_of_isFin ho.1
    rw [Scalar.isOne, seq_iff, ← hov]
    constructor
    · rintro ⟨a, b, c⟩; exact ⟨a, (val_eq_iff a b).2 c⟩
    · rintro ⟨a, c⟩; exact ⟨a, hon, (val_eq_iff a hon).1 c⟩

/-- C80: `recip x` is the float nearest to `1/x`, for every finite nonzero `x` whose reciprocal does not overflow. -/
theorem C80_recip (x : Flt mw ew) (hx : x.isFin = true) (h0 : x.toReal ≠ 0) :
    (GFloat.recip x).isNaN = false ∧
    ((GFloat.recip x).isFin = true → ∀ y : Flt mw ew, |(GFloat.recip x).toReal - 1 / x.toReal| ≤ |y.toReal - 1 / x.toReal|) := by
  have ho := sone_spec (mw := mw) (ew := ew)
  have h := div_fin ho.1 hx (fun h => h0 (toReal_eq_zero_iff.2 h))
  rw [ho.2] at h
  exact ⟨h.1, fun hf y => nearest_of_key hf h.2 y⟩

/-- C80: the special values: `nan()` is NaN, the infinities are the two infinities, `neg_zero()` has the sign bit set and
`zero()` has not. -/
theorem C80_special :
    (GFloat.nan : Flt mw ew).isNaN = true ∧
    ((GFloat.infinity : Flt mw ew).isNaN = false ∧ (GFloat.infinity : Flt mw ew).val = ⊤) ∧
    ((GFloat.negInfinity : Flt mw ew).isNaN = false ∧ (GFloat.negInfinity : Flt mw ew).val = ⊥) ∧
    (GFloat.negZero : Flt mw ew).sgn = true ∧ (Scalar.zero : Flt mw ew).sgn = false := by
  have hk : ∀ s, (inf mw ew s).key = if s then -kInf mw ew else kInf mw ew := fun s => key_inf s
  have hn : ∀ s, (inf mw ew s).isNaN = false := fun s => by
    have := isInf_inf (mw := mw) (ew := ew) s
    rw [isInf_iff] at this; rw [notNaN_iff]; omega
  refine ⟨isNaN_nan, ⟨hn false, ?_⟩, ⟨hn true, ?_⟩, ?_, ?_⟩
  · exact (val_top_iff (hn false)).2 (hk false)
  · exact (val_bot_iff (hn true)).2 (hk true)
  · exact sgn_ofIdx (Nat.two_pow_pos _)
  · exact sgn_ofIdx (Nat.two_pow_pos _)

end

/-- C80: `min_positive()` is the smallest normal number: `2^-126` and `2^-1022`. -/
theorem C80_min_positive :
    (GFloat.minPositive : F32).isFin = true ∧ (GFloat.minPositive : F32).toReal = 1 / 2 ^ 126 ∧
    (GFloat.minPositive : F64).isFin = true ∧ (GFloat.minPositive : F64).toReal = 1 / 2 ^ 1022 := by
  refine ⟨by decide +kernel, ?_, by decide +kernel, ?_⟩
  · rw [toReal_normal _ (by decide +kernel), show (GFloat.minPositive : F32).sgn = false by decide +kernel,
      show (GFloat.minPositive : F32).idx = 2 ^ 23 by decide +kernel, show bias 8 = 127 from rfl]
    norm_num
  · rw [toReal_normal _ (by decide +kernel), show (GFloat.minPositive : F64).sgn = false by decide +kernel,
      show (GFloat.minPositive : F64).idx = 2 ^ 52 by decide +kernel, show bias 11 = 1023 from rfl]
    norm_num

/-- A float between whose two neighbours' midpoints the real `r` lies is nearest to `r`. -/
theorem nearest_of_neighbours {x lo hi : Flt mw ew} {r : ℝ} (hlo : lo.key = x.key - 1) (hhi : hi.key = x.key + 1)
    (h1 : lo.toReal + x.toReal ≤ 2 * r) (h2 : 2 * r ≤ x.toReal + hi.toReal) (y : Flt mw ew) :
    |x.toReal - r| ≤ |y.toReal - r| := by
  rcases lt_trichotomy y.key x.key with h | h | h
  · have : y.toReal ≤ lo.toReal := toReal_le_iff.2 (by omega)
    have h3 : lo.toReal < x.toReal := toReal_lt_iff.2 (by omega)
    rw [abs_of_nonpos (by linarith : y.toReal - r ≤ 0), abs_le]
    constructor <;> linarith
  · rw [toReal_eq_iff.2 h]
  · have : hi.toReal ≤ y.toReal := toReal_le_iff.2 (by omega)
    have h3 : x.toReal < hi.toReal := toReal_lt_iff.2 (by omega)
    rw [abs_of_nonneg (by linarith : 0 ≤ y.toReal - r), abs_le]
    constructor <;> linarith

/-- `c` is a float nearest to the real `r`. -/
def NearestTo (c : Flt mw ew) (r : ℝ) : Prop := c.isFin = true ∧ ∀ y : Flt mw ew, |c.toReal - r| ≤ |y.toReal - r|

/-- C80: `pi()`, `tau()`, `frac_pi_2()`, `frac_pi_4()` are the floats nearest to `π`, `2π`, `π/2`, `π/4`. -/
theorem C80_pi_f32 :
    NearestTo (GFloat.pi : F32) Real.pi ∧ NearestTo (GFloat.tau : F32) (2 * Real.pi) ∧
    NearestTo (GFloat.fracPi2 : F32) (Real.pi / 2) ∧ NearestTo (GFloat.fracPi4 : F32) (Real.pi / 4) := by
  have hlo := Real.pi_gt_d20
  have hhi := Real.pi_lt_d20
  have v : ∀ (b : BitVec 32) (m : Nat) (e : ℤ), (⟨b⟩ : F32).sgn = false → 2 ^ 23 ≤ (⟨b⟩ : F32).idx →
      (⟨b⟩ : F32).idx % 2 ^ 23 = m → (((⟨b⟩ : F32).idx / 2 ^ 23 : Nat) : ℤ) - 127 = e →
      (⟨b⟩ : F32).toReal = (1 + (m : ℝ) / 2 ^ 23) * 2 ^ e := fun b m e => toReal_bits32 b m e
  refine ⟨⟨by decide +kernel, nearest_of_neighbours (lo := ⟨0x40490FDA#32⟩) (hi := ⟨0x40490FDC#32⟩) (by decide +kernel) (by decide +kernel) ?_ ?_⟩,
    ⟨by decide +kernel, nearest_of_neighbours (lo := ⟨0x40C90FDA#32⟩) (hi := ⟨0x40C90FDC#32⟩) (by decide +kernel) (by decide +kernel) ?_ ?_⟩,
    ⟨by decide +kernel, nearest_of_neighbours (lo := ⟨0x3FC90FDA#32⟩) (hi := ⟨0x3FC90FDC#32⟩) (by decide +kernel) (by decide +kernel) ?_ ?_⟩,
    ⟨by decide +kernel, nearest_of_neighbours (lo := ⟨0x3F490FDA#32⟩) (hi := ⟨0x3F490FDC#32⟩) (by decide +kernel) (by decide +kernel) ?_ ?_⟩⟩
  · rw [v 0x40490FDA#32 4788186 1 (by decide +kernel) (by decide +kernel) (by decide +kernel) (by decide +kernel),
      show (GFloat.pi : F32) = ⟨0x40490FDB#32⟩ from rfl, v 0x40490FDB#32 4788187 1 (by decide +kernel) (by decide +kernel) (by decide +kernel) (by decide +kernel)]
    norm_num; linarith
  · rw [v 0x40490FDC#32 4788188 1 (by decide +kernel) (by decide +kernel) (by decide +kernel) (by decide +kernel),
      show (GFloat.pi : F32) = ⟨0x40490FDB#32⟩ from rfl, v 0x40490FDB#32 4788187 1 (by decide +kernel) (by decide +kernel) (by decide +kernel) (by decide +kernel)]
    norm_num; linarith
  · rw [v 0x40C90FDA#32 4788186 2 (by decide +kernel) (by decide +kernel) (by decide +kernel) (by decide +kernel),
      show (GFloat.tau : F32) = ⟨0x40C90FDB#32⟩ from rfl, v 0x40C90FDB#32 4788187 2 (by decide +kernel) (by decide +kernel) (by decide +kernel) (by decide +kernel)]
    norm_num; linarith
  · rw [v 0x40C90FDC#32 4788188 2 (by decide +kernel) (by decide +kernel) (by decide +kernel) (by decide +kernel),
      show (GFloat.tau : F32) = ⟨0x40C90FDB#32⟩ from rfl, v 0x40C90FDB#32 4788187 2 (by decide +kernel) (by decide +kernel) (by decide +kernel) (by decide +kernel)]
    norm_num; linarith
  · rw [v 0x3FC90FDA#32 4788186 0 (by decide +kernel) (by decide +kernel) (by decide +kernel) (by decide +kernel),
      show (GFloat.fracPi2 : F32) = ⟨0x3FC90FDB#32⟩ from rfl, v 0x3FC90FDB#32 4788187 0 (by decide +kernel) (by decide +kernel) (by decide +kernel) (by decide +kernel)]
    norm_num; linarith
  · rw [v 0x3FC90FDC#32 4788188 0 (by decide +kernel) (by decide +kernel) (by decide +kernel) (by decide +kernel),
      show (GFloat.fracPi2 : F32) = ⟨0x3FC90FDB#32⟩ from rfl, v 0x3FC90FDB#32 4788187 0 (by decide +kernel) (by decide +kernel) (by decide +kernel) (by decide +kernel)]
    norm_num; linarith
  · rw [v 0x3F490FDA#32 4788186 (-1) (by decide +kernel) (by decide +kernel) (by decide +kernel) (by decide +kernel),
      show (GFloat.fracPi4 : F32) = ⟨0x3F490FDB#32⟩ from rfl, v 0x3F490FDB#32 4788187 (-1) (by decide +kernel) (by decide +kernel) (by decide +kernel) (by decide +kernel)]
    norm_num; linarith
  · rw [v 0x3F490FDC#32 4788188 (-1) (by decide +kernel) (by decide +kernel) (by decide +kernel) (by decide +kernel),
      show (GFloat.fracPi4 : F32) = ⟨0x3F490FDB#32⟩ from rfl, v 0x3F490FDB#32 4788187 (-1) (by decide +kernel) (by decide +kernel) (by decide +kernel) (by decide +kernel)]
    norm_num; linarith

/-- C80 for `f64`. -/
theorem C80_pi_f64 :
    NearestTo (GFloat.pi : F64) Real.pi ∧ NearestTo (GFloat.tau : F64) (2 * Real.pi) ∧
    NearestTo (GFloat.fracPi2 : F64) (Real.pi / 2) ∧ NearestTo (GFloat.fracPi4 : F64) (Real.pi / 4) := by
  have hlo := Real.pi_gt_d20
  have hhi := Real.pi_lt_d20
  have v : ∀ (b : BitVec 64) (m : Nat) (e : ℤ), (⟨b⟩ : F64).sgn = false → 2 ^ 52 ≤ (⟨b⟩ : F64).idx →
      (⟨b⟩ : F64).idx % 2 ^ 52 = m → (((⟨b⟩ : F64).idx / 2 ^ 52 : Nat) : ℤ) - 1023 = e →
      (⟨b⟩ : F64).toReal = (1 + (m : ℝ) / 2 ^ 52) * 2 ^ e := fun b m e => toReal_bits64 b m e
  refine ⟨⟨by decide +kernel, nearest_of_neighbours (lo := ⟨0x400921FB54442D17#64⟩) (hi := ⟨0x400921FB54442D19#64⟩) (by decide +kernel) (by decide +kernel) ?_ ?_⟩,
    ⟨by decide +kernel, nearest_of_neighbours (lo := ⟨0x401921FB54442D17#64⟩) (hi := ⟨0x401921FB54442D19#64⟩) (by decide +kernel) (by decide +kernel) ?_ ?_⟩,
    ⟨by decide +kernel, nearest_of_neighbours (lo := ⟨0x3FF921FB54442D17#64⟩) (hi := ⟨0x3FF921FB54442D19#64⟩) (by decide +kernel) (by decide +kernel) ?_ ?_⟩,
    ⟨by decide +kernel, nearest_of_neighbours (lo := ⟨0x3FE921FB54442D17#64⟩) (hi := ⟨0x3FE921FB54442D19#64⟩) (by decide +kernel) (by decide +kernel) ?_ ?_⟩⟩
  · rw [v 0x400921FB54442D17#64 2570638124657943 1 (by decide +kernel) (by decide +kernel) (by decide +kernel) (by decide +kernel),
      show (GFloat.pi : F64) = ⟨0x400921FB54442D18#64⟩ from rfl, v 0x400921FB54442D18#64 2570638124657944 1 (by decide +kernel) (by decide +kernel) (by decide +kernel) (by decide +kernel)]
    norm_num; linarith
  · rw [v 0x400921FB54442D19#64 2570638124657945 1 (by decide +kernel) (by decide +kernel) (by decide +kernel) (by decide +kernel),
      show (GFloat.pi : F64) = ⟨0x400921FB54442D18#64⟩ from rfl, v 0x400921FB54442D18#64 2570638124657944 1 (by decide +kernel) (by decide +kernel) (by decide +kernel) (by decide +kernel)]
    norm_num; linarith
  · rw [v 0x401921FB54442D17#64 2570638124657943 2 (by decide +kernel) (by decide +kernel) (by decide +kernel) (by decide +kernel),
      show (GFloat.tau : F64) = ⟨0x401921FB54442D18#64⟩ from rfl, v 0x401921FB54442D18#64 2570638124657944 2 (by decide +kernel) (by decide +kernel) (by decide +kernel) (by decide +kernel)]
    norm_num; linarith
  · rw [v 0x401921FB54442D19#64 2570638124657945 2 (by decide +kernel) (by decide +kernel) (by decide +kernel) (by decide +kernel),
      show (GFloat.tau : F64) = ⟨0x401921FB54442D18#64⟩ from rfl, v 0x401921FB54442D18#64 2570638124657944 2 (by decide +kernel) (by decide +kernel) (by decide +kernel) (by decide +kernel)]
    norm_num; linarith
  · rw [v 0x3FF921FB54442D17#64 2570638124657943 0 (by decide +kernel) (by decide +kernel) (by decide +kernel) (by decide +kernel),
      show (GFloat.fracPi2 : F64) = ⟨0x3FF921FB54442D18#64⟩ from rfl, v 0x3FF921FB54442D18#64 2570638124657944 0 (by decide +kernel) (by decide +kernel) (by decide +kernel) (by decide +kernel)]
    norm_num; linarith
  · rw [v 0x3FF921FB54442D19#64 2570638124657945 0 (by decide +kernel) (by decide +kernel) (by decide +kernel) (by decide +kernel),
      show (GFloat.fracPi2 : F64) = ⟨0x3FF921FB54442D18#64⟩ from rfl, v 0x3FF921FB54442D18#64 2570638124657944 0 (by decide +kernel) (by decide +kernel) (by decide +kernel) (by decide +kernel)]
    norm_num; linarith
  · rw [v 0x3FE921FB54442D17#64 2570638124657943 (-1) (by decide +kernel) (by decide +kernel) (by decide +kernel) (by decide +kernel),
      show (GFloat.fracPi4 : F64) = ⟨0x3FE921FB54442D18#64⟩ from rfl, v 0x3FE921FB54442D18#64 2570638124657944 (-1) (by decide +kernel) (by decide +kernel) (by decide +kernel) (by decide +kernel)]
    norm_num; linarith
  · rw [v 0x3FE921FB54442D19#64 2570638124657945 (-1) (by decide +kernel) (by decide +kernel) (by decide +kernel) (by decide +kernel),
      show (GFloat.fracPi4 : F64) = ⟨0x3FE921FB54442D18#64⟩ from rfl, v 0x3FE921FB54442D18#64 2570638124657944 (-1) (by decide +kernel) (by decide +kernel) (by decide +kernel) (by decide +kernel)]
    norm_num; linarith

example : NearestTo (F32.lit 3) 3 := ⟨by decide +kernel, fun y => by
  rw [toReal_lit (by norm_num)]; norm_num⟩
example : (GFloat.recip (F32.lit 3)).isFin = true ∧ (F32.lit 3).toReal ≠ 0 :=
  ⟨by decide +kernel, by rw [toReal_lit (by norm_num)]; norm_num⟩

end Scarlet
