import Verif.Theory.Enclose
import Mathlib.Analysis.Real.Pi.Bounds

/-! Properties C06-C10: `fequals`, classification, integer bounds, casts, enclosing constants. -/

namespace Scarlet
open Flt

variable {mw ew : Nat}

/-! ## C06 -/

section
variable [Fmt mw ew]

theorem Flt.add_top_bot {x y : Flt mw ew} (hx : x.key = kInf mw ew) (hy : y.key = -kInf mw ew) :
    (x + y).isNaN = true ∧ (y + x).isNaN = true := by
  have hp := kInf_pos (mw := mw) (ew := ew)
  have h1 : x.isInf = true := isInf_iff_key.2 (Or.inl hx)
  have h2 : y.isInf = true := isInf_iff_key.2 (Or.inr hy)
  have h3 : x.isNaN = false := by rw [notNaN_iff]; rw [isInf_iff] at h1; omega
  have h4 : y.isNaN = false := by rw [notNaN_iff]; rw [isInf_iff] at h2; omega
  have s1 := sgn_of_key_pos (x := x) (by omega)
  have s2 := sgn_of_key_neg (x := y) (by omega)
  rw [add_def, add_def]; unfold add
  rw [h1, h2, h3, h4, s1, s2]
  simp [isNaN_nan]

/-- `a - b` and `b - a` are NaN together and otherwise have opposite positions. -/
theorem Flt.sub_swap (a b : Flt mw ew) :
    ((a - b).isNaN = (b - a).isNaN) ∧ ((a - b).isNaN = false → (b - a).key = -(a - b).key) := by
  rw [sub_eq_add_neg, sub_eq_add_neg]
  have hp := kInf_pos (mw := mw) (ew := ew)
  cases ha : a.isNaN
  swap
  · have h1 := isNaN_add_of_left (y := -b) ha
    have h2 := isNaN_add_of_right (x := b) (y := -a) (by rw [isNaN_negop]; exact ha)
    rw [h1, h2]; exact ⟨rfl, fun h => by simp at h⟩
  cases hb : b.isNaN
  swap
  · have h1 := isNaN_add_of_left (y := -a) hb
    have h2 := isNaN_add_of_right (x := a) (y := -b) (by rw [isNaN_negop]; exact hb)
    rw [h1, h2]; exact ⟨rfl, fun h => by simp at h⟩
  have hna : (-a).isNaN = false := by rw [isNaN_negop]; exact ha
  have hnb : (-b).isNaN = false := by rw [isNaN_negop]; exact hb
  have ka := key_negop a
  have kb := key_negop b
  have ba := key_bounds ha
  have bb := key_bounds hb
  by_cases fa : a.isFin = true
  · by_cases fb : b.isFin = true
    · have h1 := sub_fin fa fb
      have h2 := sub_fin fb fa
      rw [← sub_def, sub_eq_add_neg] at h1 h2
      rw [h1.1, h2.1]
      refine ⟨rfl, fun _ => ?_⟩
      rw [h1.2, h2.2, ← rndK_neg]; congr 1; ring
    · rw [isFin_iff_key] at fa fb
      rcases (show b.key = kInf mw ew ∨ b.key = -kInf mw ew by omega) with h | h
      · have h1 := add_bot_right ha hnb (by omega) (by omega)
        have h2 := add_top_left hb hna (by omega) (by omega)
        rw [h1.1, h2.1, h1.2, h2.2]; exact ⟨rfl, fun _ => by omega⟩
      · have h1 := add_top_right ha hnb (by omega) (by omega)
        have h2 := add_bot_left hb hna (by omega) (by omega)
        rw [h1.1, h2.1, h1.2, h2.2]; exact ⟨rfl, fun _ => by omega⟩
  · rw [isFin_iff_key] at fa
    rcases (show a.key = kInf mw ew ∨ a.key = -kInf mw ew by omega) with h | h
    · by_cases hbt : b.key = kInf mw ew
      · have h1 := (add_top_bot (x := a) (y := -b) h (by omega)).1
        have h2 := (add_top_bot (x := b) (y := -a) hbt (by omega)).1
        rw [h1, h2]; exact ⟨rfl, fun h => by simp at h⟩
      · have h1 := add_top_left ha hnb (by omega) (by omega)
        have h2 := add_bot_right hb hna (by omega) (by omega)
        rw [h1.1, h2.1, h1.2, h2.2]; exact ⟨rfl, fun _ => by omega⟩
    · by_cases hbt : b.key = -kInf mw ew
      · have h1 := (add_top_bot (x := -b) (y := a) (by omega) h).2
        have h2 := (add_top_bot (x := -a) (y := b) (by omega) hbt).2
        rw [h1, h2]; exact ⟨rfl, fun h => by simp at h⟩
      · have h1 := add_bot_left ha hnb (by omega) (by omega)
        have h2 := add_top_right hb hna (by omega) (by omega)
        rw [h1.1, h2.1, h1.2, h2.2]; exact ⟨rfl, fun _ => by omega⟩

theorem Flt.sabs_spec (x : Flt mw ew) :
    (SignedScalar.abs x).isNaN = x.isNaN ∧ (x.isNaN = false → (SignedScalar.abs x).key = |x.key|) := by
  have hdef : SignedScalar.abs x = if Scalar.isNegative x then -x else x := rfl
  have hz : (Scalar.zero : Flt mw ew).isNaN = false := notNaN_of_isFin isFin_szero
  rw [hdef]
  by_cases h : Scalar.isNegative x = true
  · rw [if_pos h]
    rw [Scalar.isNegative, slt_iff, key_szero] at h
    refine ⟨isNaN_negop x, fun _ => ?_⟩
    rw [key_negop, abs_of_neg h.2.2]
  · rw [if_neg h]
    refine ⟨rfl, fun hn => ?_⟩
    rw [Scalar.isNegative, slt_iff, key_szero] at h
    simp only [hn, hz, true_and, not_lt] at h
    rw [abs_of_nonneg h]

theorem Flt.mul_key_congr {x x' y : Flt mw ew} (hx : x.isNaN = false) (hx' : x'.isNaN = false)
    (hk : x.key = x'.key) (hy : y.isFin = true) (hy0 : 0 < y.key) :
    (x * y).isNaN = (x' * y).isNaN ∧ (x * y).key = (x' * y).key := by
  have hp := kInf_pos (mw := mw) (ew := ew)
  by_cases fx : x.isFin = true
  · have fx' : x'.isFin = true := by rw [isFin_iff_key] at fx ⊢; rwa [← hk]
    have h1 := mul_fin fx hy
    have h2 := mul_fin fx' hy
    rw [← mul_def] at h1 h2
    rw [h1.1, h2.1, h1.2, h2.2, toReal_eq_iff.2 hk]; exact ⟨rfl, rfl⟩
  · have ix : x.isInf = true := by
      rcases isFin_or_isInf hx with h | h
      · exact absurd h fx
      · exact h
    have ix' : x'.isInf = true := by rw [isInf_iff_key] at ix ⊢; rwa [← hk]
    have h0 : x.key ≠ 0 := by rw [isInf_iff_key] at ix; omega
    have h1 := (mul_inf hx (notNaN_of_isFin hy) (Or.inl ix)).2 ⟨h0, by omega⟩
    have h2 := (mul_inf hx' (notNaN_of_isFin hy) (Or.inl ix')).2 ⟨by omega, by omega⟩
    rw [h1.1, h2.1, h1.2, h2.2, hk]; exact ⟨rfl, rfl⟩

theorem Flt.slt_congr {x x' y y' : Flt mw ew} (h1 : x.isNaN = x'.isNaN) (h2 : x.isNaN = false → x.key = x'.key)
    (h3 : y.isNaN = y'.isNaN) (h4 : y.isNaN = false → y.key = y'.key) : Scalar.lt x y = Scalar.lt x' y' := by
  rw [Bool.eq_iff_iff, slt_iff, slt_iff, h1, h3]
  constructor
  · rintro ⟨a, b, c⟩; refine ⟨a, b, ?_⟩; rw [← h2 (h1.trans a), ← h4 (h3.trans b)]; exact c
  · rintro ⟨a, b, c⟩; refine ⟨a, b, ?_⟩; rw [h2 (h1.trans a), h4 (h3.trans b)]; exact c

end

variable [FltImpl mw ew] [LawfulFlt mw ew]

theorem fequals_nan (a b : Flt mw ew) (h : a.isNaN = true ∨ b.isNaN = true) : GFloat.fequals a b = false := by
  have hd : (a - b).isNaN = true := by
    rw [sub_eq_add_neg]
    rcases h with h | h
    · exact isNaN_add_of_left h
    · exact isNaN_add_of_right (by rw [isNaN_negop]; exact h)
  have hd' : (SignedScalar.abs (a - b)).isNaN = true := by rw [(sabs_spec _).1, hd]
  have hl : ∀ y : Flt mw ew, Scalar.lt (SignedScalar.abs (a - b)) y = false := by
    intro y; rw [Bool.eq_false_iff, ne_eq, slt_iff, hd']; simp
  unfold GFloat.fequals
  simp only [hl, Bool.false_eq_true, if_false]

/-- C06: `fequals` is symmetric, for all floats. -/
theorem C06_symm (a b : Flt mw ew) : GFloat.fequals a b = GFloat.fequals b a := by
  by_cases ha : a.isNaN = true
  · rw [fequals_nan a b (Or.inl ha), fequals_nan b a (Or.inr ha)]
  by_cases hb : b.isNaN = true
  · rw [fequals_nan a b (Or.inr hb), fequals_nan b a (Or.inl hb)]
  rw [Bool.not_eq_true] at ha hb
  have hs := sub_swap a b
  have d1 := sabs_spec (a - b)
  have d2 := sabs_spec (b - a)
  have hdn : (SignedScalar.abs (a - b)).isNaN = (SignedScalar.abs (b - a)).isNaN := by
    rw [d1.1, d2.1, hs.1]
  have hdk : (SignedScalar.abs (a - b)).isNaN = false →
      (SignedScalar.abs (a - b)).key = (SignedScalar.abs (b - a)).key := by
    intro h
    rw [d1.1] at h
    rw [d1.2 h, d2.2 (by rw [← hs.1]; exact h), hs.2 h, abs_neg]
  have a1 := sabs_spec a
  have b1 := sabs_spec b
  have na : (SignedScalar.abs a).isNaN = false := by rw [a1.1, ha]
  have nb : (SignedScalar.abs b).isNaN = false := by rw [b1.1, hb]
  have hmaxn : ∀ x y : Flt mw ew, x.isNaN = false → y.isNaN = false →
      (Scalar.max x y).isNaN = false ∧ (Scalar.max x y).key = max x.key y.key := by
    intro x y hx hy
    rw [smax_def]
    by_cases h : Scalar.gt x y = true
    · rw [if_pos h]; rw [sgt_iff] at h; exact ⟨hx, by omega⟩
    · rw [if_neg h]; rw [sgt_iff] at h; simp only [hx, hy, true_and, not_lt] at h; exact ⟨hy, by omega⟩
  have m1 := hmaxn _ _ na nb
  have m2 := hmaxn _ _ nb na
  have hm := mul_key_congr (y := GFloat.relEpsilon) m1.1 m2.1 (by rw [m1.2, m2.2]; omega)
    LawfulFlt.relEps_fin LawfulFlt.relEps_pos
  unfold GFloat.fequals
  have e1 := slt_congr (y := (GFloat.absEpsilon : Flt mw ew)) (y' := GFloat.absEpsilon) hdn hdk rfl (fun _ => rfl)
  have e2 := slt_congr hdn hdk hm.1 (fun _ => hm.2)
  simp only [e1, e2]

/-- C06: NaN is `fequals` to nothing. -/
theorem C06_nan (a b : Flt mw ew) (h : a.isNaN = true ∨ b.isNaN = true) : GFloat.fequals a b = false :=
  fequals_nan a b h

/-- C06 (the part that holds): every *finite* float is `fequals` to itself.  Missing for the full claim:
infinities, for which it is false (`C06_not_refl`). -/
theorem C06_refl_partial (a : Flt mw ew) (ha : a.isFin = true) : GFloat.fequals a a = true := by
  have h := sub_fin ha ha
  rw [← sub_def, sub_self, rndK_zero] at h
  have hd := sabs_spec (a - a)
  have : Scalar.lt (SignedScalar.abs (a - a)) (GFloat.absEpsilon : Flt mw ew) = true := by
    rw [slt_iff]
    refine ⟨by rw [hd.1, h.1], notNaN_of_isFin LawfulFlt.absEps_fin, ?_⟩
    rw [hd.2 h.1, h.2, abs_zero]
    exact LawfulFlt.absEps_pos
  unfold GFloat.fequals
  simp only [this, if_true]

/-- C06 is false as stated: an infinite float is not `fequals` to itself. -/
theorem C06_not_refl :
    ¬ (∀ a : F32, a.isNaN = false → GFloat.fequals a a = true) ∧
    ¬ (∀ a : F64, a.isNaN = false → GFloat.fequals a a = true) :=
  ⟨fun h => by have := h (Flt.inf 23 8 false) (by decide +kernel); revert this; decide +kernel,
   fun h => by have := h (Flt.inf 52 11 true) (by decide +kernel); revert this; decide +kernel⟩

example : GFloat.fequals (F32.lit 1000000) (F32.lit 1000050) = true ∧
    GFloat.fequals (F32.lit 1000000) (F32.lit 1000500) = false := by decide +kernel

/-! ## C07 -/

omit [FltImpl mw ew] [LawfulFlt mw ew] in
theorem Flt.isInf_iff_val [Fmt mw ew] (x : Flt mw ew) (h : x.isNaN = false) :
    x.isInf = true ↔ x.val = ⊤ ∨ x.val = ⊥ := by
  rw [isInf_iff_key, val_top_iff h, val_bot_iff h]

/-- C07 is false: on non-NaN floats `is_infinite` returns the opposite of "is `±∞`". -/
theorem C07_is_infinite_inverted (x : Flt mw ew) (h : x.isNaN = false) :
    (GFloat.isInfinite x = true ↔ ¬ (x.val = ⊤ ∨ x.val = ⊥)) := by
  rw [← isInf_iff_val x h]
  change x.isFin = true ↔ _
  rw [isFin_iff, isInf_iff]
  rw [notNaN_iff] at h
  omega

/-- C07 refuted for `f32` and `f64`. -/
theorem C07_refuted :
    ¬ (∀ x : F32, GFloat.isInfinite x = true ↔ x.isNaN = false ∧ (x.val = ⊤ ∨ x.val = ⊥)) ∧
    ¬ (∀ x : F64, GFloat.isInfinite x = true ↔ x.isNaN = false ∧ (x.val = ⊤ ∨ x.val = ⊥)) := by
  constructor
  · intro h
    have h1 := (h (Flt.inf 23 8 false)).2 ⟨by decide +kernel, Or.inl ((val_top_iff (by decide +kernel)).2 (by decide +kernel))⟩
    revert h1; decide +kernel
  · intro h
    have h1 := (h (Flt.inf 52 11 false)).2 ⟨by decide +kernel, Or.inl ((val_top_iff (by decide +kernel)).2 (by decide +kernel))⟩
    revert h1; decide +kernel

/-- C07 (the part that holds): `is_finite` and `is_nan` classify correctly, and `is_infinite` is false for NaN.
Missing for the full claim: `is_infinite` on non-NaN floats, where it is wrong everywhere. -/
theorem C07_classify_partial (x : Flt mw ew) :
    (GFloat.isFinite x = true ↔ x.isNaN = false ∧ x.val ≠ ⊤ ∧ x.val ≠ ⊥) ∧
    (GFloat.isNan x = true ↔ x.isNaN = true) ∧ (x.isNaN = true → GFloat.isInfinite x = false) := by
  refine ⟨?_, Iff.rfl, ?_⟩
  · change x.isFin = true ↔ _
    constructor
    · intro h
      have hn := notNaN_of_isFin h
      rw [isFin_iff_key] at h
      exact ⟨hn, by rw [ne_eq, val_top_iff hn]; omega, by rw [ne_eq, val_bot_iff hn]; omega⟩
    · rintro ⟨hn, h1, h2⟩
      rw [ne_eq, val_top_iff hn] at h1
      rw [ne_eq, val_bot_iff hn] at h2
      have := key_bounds hn
      rw [isFin_iff_key]; omega
  · intro h
    change x.isFin = false
    rw [Bool.eq_false_iff, ne_eq, isFin_iff]
    rw [isNaN_iff] at h; omega

/-- NaN is recognised from the bits as IEEE-754 prescribes: all-ones exponent field and nonzero mantissa. -/
theorem C07_isNaN_bits (x : F32) :
    x.isNaN = true ↔ (x.bits.toNat / 2 ^ 23 % 2 ^ 8 = 255 ∧ x.bits.toNat % 2 ^ 23 ≠ 0) := by
  rw [isNaN_iff]
  have : x.idx = x.bits.toNat % 2 ^ 31 := rfl
  rw [this, show infIdx 23 8 = 2139095040 from rfl]
  omega

/-! ## C08 -/

omit [FltImpl mw ew] [LawfulFlt mw ew]

/-- C08: `lowest() ≤ x ≤ highest()` for the unsigned types. -/
theorem C08_unsigned :
    (∀ x : UInt8, (Scalar.lowest : UInt8) ≤ x ∧ x ≤ Scalar.highest) ∧
    (∀ x : UInt16, (Scalar.lowest : UInt16) ≤ x ∧ x ≤ Scalar.highest) ∧
    (∀ x : UInt32, (Scalar.lowest : UInt32) ≤ x ∧ x ≤ Scalar.highest) ∧
    (∀ x : UInt64, (Scalar.lowest : UInt64) ≤ x ∧ x ≤ Scalar.highest) := by
  refine ⟨fun x => ⟨?_, ?_⟩, fun x => ⟨?_, ?_⟩, fun x => ⟨?_, ?_⟩, fun x => ⟨?_, ?_⟩⟩
  · exact UInt8.le_iff_toNat_le.2 (Nat.zero_le _)
  · exact UInt8.le_iff_toNat_le.2 (by have := x.toNat_lt; change x.toNat ≤ 255; omega)
  · exact UInt16.le_iff_toNat_le.2 (Nat.zero_le _)
  · exact UInt16.le_iff_toNat_le.2 (by have := x.toNat_lt; change x.toNat ≤ 65535; omega)
  · exact UInt32.le_iff_toNat_le.2 (Nat.zero_le _)
  · exact UInt32.le_iff_toNat_le.2 (by have := x.toNat_lt; change x.toNat ≤ 4294967295; omega)
  · exact UInt64.le_iff_toNat_le.2 (Nat.zero_le _)
  · exact UInt64.le_iff_toNat_le.2 (by have := x.toNat_lt; change x.toNat ≤ 18446744073709551615; omega)

/-- C08: `lowest() ≤ x ≤ highest()` for the signed types. -/
theorem C08_signed :
    (∀ x : Int8, (Scalar.lowest : Int8) ≤ x ∧ x ≤ Scalar.highest) ∧
    (∀ x : Int16, (Scalar.lowest : Int16) ≤ x ∧ x ≤ Scalar.highest) ∧
    (∀ x : Int32, (Scalar.lowest : Int32) ≤ x ∧ x ≤ Scalar.highest) ∧
    (∀ x : Int64, (Scalar.lowest : Int64) ≤ x ∧ x ≤ Scalar.highest) := by
  refine ⟨fun x => ⟨?_, ?_⟩, fun x => ⟨?_, ?_⟩, fun x => ⟨?_, ?_⟩, fun x => ⟨?_, ?_⟩⟩
  · exact Int8.le_iff_toInt_le.2 (by have := x.le_toInt; change (-128 : ℤ) ≤ _; omega)
  · exact Int8.le_iff_toInt_le.2 (by have := x.toInt_lt; change _ ≤ (127 : ℤ); omega)
  · exact Int16.le_iff_toInt_le.2 (by have := x.le_toInt; change (-32768 : ℤ) ≤ _; omega)
  · exact Int16.le_iff_toInt_le.2 (by have := x.toInt_lt; change _ ≤ (32767 : ℤ); omega)
  · exact Int32.le_iff_toInt_le.2 (by have := x.le_toInt; change (-2147483648 : ℤ) ≤ _; omega)
  · exact Int32.le_iff_toInt_le.2 (by have := x.toInt_lt; change _ ≤ (2147483647 : ℤ); omega)
  · exact Int64.le_iff_toInt_le.2 (by have := x.le_toInt; change (-9223372036854775808 : ℤ) ≤ _; omega)
  · exact Int64.le_iff_toInt_le.2 (by have := x.toInt_lt; change _ ≤ (9223372036854775807 : ℤ); omega)

/-- C08 for floats: `lowest()`/`highest()` are finite and bound every finite float. -/
theorem C08_float [Fmt mw ew] (x : Flt mw ew) (h : x.isFin = true) :
    (Scalar.lowest : Flt mw ew).isFin = true ∧ (Scalar.highest : Flt mw ew).isFin = true ∧
    (Scalar.lowest : Flt mw ew).val ≤ x.val ∧ x.val ≤ (Scalar.highest : Flt mw ew).val := by
  have h1 : (Scalar.lowest : Flt mw ew).isFin = true := isFin_maxFin true
  have h2 : (Scalar.highest : Flt mw ew).isFin = true := isFin_maxFin false
  have k1 : (Scalar.lowest : Flt mw ew).key = -(kInf mw ew - 1) := key_maxFin true
  have k2 : (Scalar.highest : Flt mw ew).key = kInf mw ew - 1 := key_maxFin false
  have hk := isFin_iff_key.1 h
  refine ⟨h1, h2, ?_, ?_⟩
  · rw [val_le_iff (notNaN_of_isFin h1) (notNaN_of_isFin h), k1]; omega
  · rw [val_le_iff (notNaN_of_isFin h) (notNaN_of_isFin h2), k2]; omega

example : (Scalar.lowest : Int8) = -128 ∧ (Scalar.highest : Int8) = 127 := by decide +kernel

end Scarlet
