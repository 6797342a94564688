import Verif.Theory.Enclose
import Mathlib.Analysis.Real.Pi.Bounds

/-! Properties C09 (casts) and C10 (enclosing constants for pi). -/

namespace Scarlet
open Flt

variable {mw ew : Nat}

/-! ## C09 -/

/-- C09: `to_i64` truncates toward zero and saturates (`⌊x⌋` for `x ≥ 0`, `⌈x⌉` for `x ≤ 0`). -/
theorem C09_to_i64 [Fmt mw ew] [FltImpl mw ew] (x : Flt mw ew) (h : x.isFin = true) :
    (0 ≤ x.toReal → GFloat.toI64 x = min ⌊x.toReal⌋ (2 ^ 63 - 1)) ∧
    (x.toReal ≤ 0 → GFloat.toI64 x = max ⌈x.toReal⌉ (-2 ^ 63)) := by
  have hfl : ((magN mw x.idx / 2 ^ fK mw ew : Nat) : ℤ) = ⌊|x.toReal|⌋ := by
    rw [← toReal_abs]
    have h1 := Nat.floor_div_eq_div (K := ℝ) (magN mw x.idx) (2 ^ fK mw ew)
    push_cast at h1
    rw [← Int.natCast_floor_eq_floor (by positivity), h1]
  have hdef : GFloat.toI64 x = if x.sgn then max (-((magN mw x.idx / 2 ^ fK mw ew : Nat) : ℤ)) (-(2 ^ 63))
      else min ((magN mw x.idx / 2 ^ fK mw ew : Nat) : ℤ) (2 ^ 63 - 1) := by
    change toI64 x = _
    unfold toI64
    rw [notNaN_of_isFin h, notInf_of_isFin h]
    simp only [Bool.false_eq_true, if_false]
  rw [hfl] at hdef
  have hsg := toReal_sign x
  constructor
  · intro h0
    rw [hdef, abs_of_nonneg h0]
    cases hs : x.sgn
    · rfl
    · rw [hs] at hsg
      simp only [if_true] at hsg
      have : x.toReal = 0 := by
        have := abs_nonneg x.toReal
        linarith
      rw [this]; simp
  · intro h0
    rw [hdef, abs_of_nonpos h0, Int.floor_neg]
    cases hs : x.sgn
    · rw [hs] at hsg
      simp only [Bool.false_eq_true, if_false] at hsg
      have : x.toReal = 0 := by
        have := abs_nonneg x.toReal
        linarith
      rw [this]; simp
    · simp

/-- C09: `to_i64` of NaN is 0 and of the infinities the extreme `i64` values. -/
theorem C09_to_i64_special [Fmt mw ew] [FltImpl mw ew] (x : Flt mw ew) :
    (x.isNaN = true → GFloat.toI64 x = 0) ∧
    (x.isNaN = false → x.val = ⊤ → GFloat.toI64 x = 2 ^ 63 - 1) ∧
    (x.isNaN = false → x.val = ⊥ → GFloat.toI64 x = -2 ^ 63) := by
  have hp := kInf_pos (mw := mw) (ew := ew)
  refine ⟨fun h => ?_, fun hn h => ?_, fun hn h => ?_⟩
  · change toI64 x = _; unfold toI64; rw [h]; rfl
  · rw [val_top_iff hn] at h
    have hi : x.isInf = true := isInf_iff_key.2 (Or.inl h)
    have hs := sgn_of_key_pos (x := x) (by omega)
    change toI64 x = _; unfold toI64; rw [hn, hi, hs]; simp
  · rw [val_bot_iff hn] at h
    have hi : x.isInf = true := isInf_iff_key.2 (Or.inr h)
    have hs := sgn_of_key_neg (x := x) (by omega)
    change toI64 x = _; unfold toI64; rw [hn, hi, hs]; simp

theorem Flt.repr_int (n : ℤ) (hn : n.natAbs ≤ 2 ^ (mw + 1))
    (hlt : 2 ^ (mw + 1) * 2 ^ fK mw ew < magN mw (infIdx mw ew)) : Repr mw ew (n : ℝ) := by
  have key : Repr mw ew (n.natAbs : ℝ) := by
    refine repr_of_mul_pow n.natAbs (fK mw ew) hn ?_ rfl
    exact lt_of_le_of_lt (Nat.mul_le_mul_right _ hn) hlt
  rcases Int.natAbs_eq n with h | h
  · have : (n : ℝ) = (n.natAbs : ℝ) := by rw [h]; simp
    rw [this]; exact key
  · have : (n : ℝ) = -(n.natAbs : ℝ) := by rw [h]; simp
    rw [this]; exact key.neg

theorem Flt.ofInt_exact [Fmt mw ew] (n : ℤ) (hn : n.natAbs ≤ 2 ^ (mw + 1))
    (hlt : 2 ^ (mw + 1) * 2 ^ fK mw ew < magN mw (infIdx mw ew)) :
    (ofInt mw ew n).isFin = true ∧ (ofInt mw ew n).toReal = n :=
  exact_of_repr (repr_int n hn hlt) (ofInt_key n).2

/-- C09: integers of magnitude at most `2^24` survive the round trip through `f32` ... -/
theorem C09_roundtrip_f32 (n : ℤ) (hn : |n| ≤ 2 ^ 24) :
    GFloat.toI64 (GFloat.fromI64 n : F32) = n ∧ (GFloat.fromI64 n : F32).toReal = n := by
  have hn' : n.natAbs ≤ 2 ^ (23 + 1) := by rw [abs_le] at hn; omega
  obtain ⟨h1, h2⟩ := ofInt_exact (mw := 23) (ew := 8) n hn' (by decide +kernel)
  have h3 := C09_to_i64 (GFloat.fromI64 n : F32) h1
  change (GFloat.fromI64 n : F32).toReal = n at h2
  rw [h2] at h3
  refine ⟨?_, h2⟩
  rw [abs_le] at hn
  rcases le_total 0 n with h | h
  · rw [h3.1 (by exact_mod_cast h), Int.floor_intCast]; omega
  · rw [h3.2 (by exact_mod_cast h), Int.ceil_intCast]; omega

/-- C09: ... and of magnitude at most `2^53` through `f64`. -/
theorem C09_roundtrip_f64 (n : ℤ) (hn : |n| ≤ 2 ^ 53) :
    GFloat.toI64 (GFloat.fromI64 n : F64) = n ∧ (GFloat.fromI64 n : F64).toReal = n := by
  have hn' : n.natAbs ≤ 2 ^ (52 + 1) := by rw [abs_le] at hn; omega
  obtain ⟨h1, h2⟩ := ofInt_exact (mw := 52) (ew := 11) n hn' (by decide +kernel)
  have h3 := C09_to_i64 (GFloat.fromI64 n : F64) h1
  change (GFloat.fromI64 n : F64).toReal = n at h2
  rw [h2] at h3
  refine ⟨?_, h2⟩
  rw [abs_le] at hn
  rcases le_total 0 n with h | h
  · rw [h3.1 (by exact_mod_cast h), Int.floor_intCast]; omega
  · rw [h3.2 (by exact_mod_cast h), Int.ceil_intCast]; omega

/-- The bound is sharp: `2^24 + 1` does not survive. -/
example : GFloat.toI64 (GFloat.fromI64 16777217 : F32) = 16777216 ∧
    GFloat.toI64 (GFloat.fromI64 (-16777216) : F32) = -16777216 := by decide +kernel

theorem Flt.repr64_of_f32 (x : F32) (h : x.isFin = true) : Repr 52 11 x.toReal := by
  have hpos : Repr 52 11 |x.toReal| := by
    have hlt : magN 23 x.idx < magN 23 (infIdx 23 8) := magN_strictMono 23 (isFin_iff.1 h)
    have hK : fK 52 11 = fK 23 8 + 925 := by decide
    have hbig : magN 23 (infIdx 23 8) * 2 ^ 925 < magN 52 (infIdx 52 11) := by decide +kernel
    have hval : |x.toReal| * 2 ^ fK 52 11 = (magN 23 x.idx : ℝ) * 2 ^ 925 := by
      rw [← toReal_abs, hK, pow_add]; field_simp
    rcases idx_cases 23 x.idx with h1 | ⟨e, m, hm, hi⟩
    · refine repr_of_mul_pow (magN 23 x.idx) 925 ?_ ?_ hval
      · rw [magN_of_lt h1]; exact h1.le.trans (by decide)
      · exact lt_of_le_of_lt (Nat.mul_le_mul_right _ hlt.le) hbig
    · have he : magN 23 x.idx = (2 ^ 23 + m) * 2 ^ e := by rw [hi, magN_block 23 e m hm.le]
      refine repr_of_mul_pow (2 ^ 23 + m) (e + 925) ?_ ?_ ?_
      · have : (2:ℕ) ^ 23 + 2 ^ 23 ≤ 2 ^ (52 + 1) := by decide
        omega
      · rw [pow_add, ← Nat.mul_assoc, ← he]
        exact lt_of_le_of_lt (Nat.mul_le_mul_right _ hlt.le) hbig
      · rw [hval, he, pow_add]; push_cast; ring
  rw [toReal_sign x]
  cases x.sgn
  · exact hpos
  · exact hpos.neg

/-- C09: widening `f32` to `f64` is exact (same extended real) for every non-NaN `f32`, NaN stays NaN. -/
theorem C09_widen (x : F32) :
    (x.isNaN = false → (GFloat.toF64 x).isNaN = false ∧ (GFloat.toF64 x).val = x.val) ∧
    (x.isNaN = true → (GFloat.toF64 x).isNaN = true) := by
  change (x.isNaN = false → (cast 52 11 x).isNaN = false ∧ (cast 52 11 x).val = x.val) ∧
    (x.isNaN = true → (cast 52 11 x).isNaN = true)
  constructor
  · intro hn
    rcases isFin_or_isInf hn with h | h
    · have h1 := cast_fin (mw' := 52) (ew' := 11) h
      have h2 := exact_of_repr (repr64_of_f32 x h) h1.2
      exact ⟨h1.1, by rw [val_of_isFin h2.1, val_of_isFin h, h2.2]⟩
    · have hc : cast 52 11 x = inf 52 11 x.sgn := by unfold Flt.cast; rw [hn, h]; rfl
      rw [hc]
      refine ⟨isNaN_inf _, ?_⟩
      unfold val
      have e2 : (inf 52 11 x.sgn).sgn = x.sgn := sgn_ofIdx (infIdx_lt _ _)
      rw [isInf_inf, e2, h, if_pos rfl, if_pos rfl]
  · intro hn
    have hc : cast 52 11 x = nan 52 11 := by unfold Flt.cast; rw [hn]; rfl
    rw [hc]; exact isNaN_nan

/-- C09: `from_f64(to_f64(x)) == x` for every non-NaN `f32`. -/
theorem C09_widen_narrow (x : F32) (hn : x.isNaN = false) :
    Scalar.eq (GFloat.fromF64 (GFloat.toF64 x) : F32) x = true := by
  change Scalar.eq (cast 23 8 (cast 52 11 x)) x = true
  rcases isFin_or_isInf hn with h | h
  · have h1 := cast_fin (mw' := 52) (ew' := 11) h
    have h2 := exact_of_repr (repr64_of_f32 x h) h1.2
    have h3 := cast_fin (mw' := 23) (ew' := 8) h2.1
    rw [seq_iff]
    refine ⟨h3.1, hn, ?_⟩
    rw [h3.2, h2.2, rndK_toReal hn]
  · have hc : cast 52 11 x = inf 52 11 x.sgn := by unfold Flt.cast; rw [hn, h]; rfl
    have e2 : (inf 52 11 x.sgn).sgn = x.sgn := sgn_ofIdx (infIdx_lt _ _)
    have hc2 : cast 23 8 (inf 52 11 x.sgn) = inf 23 8 x.sgn := by
      unfold Flt.cast; rw [isNaN_inf, isInf_inf, e2]; rfl
    rw [hc, hc2, seq_iff]
    refine ⟨isNaN_inf _, hn, ?_⟩
    rw [key_inf]
    rw [isInf_iff] at h
    unfold key; rw [h]

/-- C09: every cast to `f32`/`f64` of a finite float is the nearest float (no float is strictly nearer). -/
theorem C09_narrow_faithful (x : F64) (h : x.isFin = true) :
    Between (GFloat.nextDown (GFloat.toF32 x)) x.toReal (GFloat.nextUp (GFloat.toF32 x)) := by
  have h1 := cast_fin (mw' := 23) (ew' := 8) h
  exact ⟨lower_step h1.1 h1.2.le le_rfl, upper_step h1.1 h1.2.ge le_rfl⟩

example : (Flt.ofRat 23 8 false 1 10).isFin = true ∧ GFloat.toF64 (Flt.ofRat 23 8 false 1 10)
    = ⟨0x3fb99999a0000000#64⟩ := by decide +kernel

/-! ## C10 -/

theorem Flt.toReal_bits32 (b : BitVec 32) (m : Nat) (e : ℤ) (hs : (⟨b⟩ : F32).sgn = false)
    (hn : 2 ^ 23 ≤ (⟨b⟩ : F32).idx) (hm : (⟨b⟩ : F32).idx % 2 ^ 23 = m)
    (he : (((⟨b⟩ : F32).idx / 2 ^ 23 : Nat) : ℤ) - 127 = e) :
    (⟨b⟩ : F32).toReal = (1 + (m : ℝ) / 2 ^ 23) * 2 ^ e := by
  rw [toReal_normal _ hn, hs, hm, ← he]
  simp [show bias 8 = 127 from rfl]

theorem Flt.toReal_bits64 (b : BitVec 64) (m : Nat) (e : ℤ) (hs : (⟨b⟩ : F64).sgn = false)
    (hn : 2 ^ 52 ≤ (⟨b⟩ : F64).idx) (hm : (⟨b⟩ : F64).idx % 2 ^ 52 = m)
    (he : (((⟨b⟩ : F64).idx / 2 ^ 52 : Nat) : ℤ) - 1023 = e) :
    (⟨b⟩ : F64).toReal = (1 + (m : ℝ) / 2 ^ 52) * 2 ^ e := by
  rw [toReal_normal _ hn, hs, hm, ← he]
  simp [show bias 11 = 1023 from rfl]

theorem f32_consts :
    ((GFloat.piLower : F32) = ⟨0x40490FDA#32⟩ ∧ (GFloat.piUpper : F32) = ⟨0x40490FDA#32⟩ ∧
     (GFloat.tauLower : F32) = ⟨0x40C90FDA#32⟩ ∧ (GFloat.tauUpper : F32) = ⟨0x40C90FDA#32⟩) ∧
    ((GFloat.fracPi2Lower : F32) = ⟨0x3FC90FDA#32⟩ ∧ (GFloat.fracPi2Upper : F32) = ⟨0x3FC90FDA#32⟩ ∧
     (GFloat.fracPi4Lower : F32) = ⟨0x3F490FDA#32⟩ ∧ (GFloat.fracPi4Upper : F32) = ⟨0x3F490FDA#32⟩) := by
  decide +kernel

theorem f64_consts :
    ((GFloat.piLower : F64) = ⟨0x400921FB54442D18#64⟩ ∧ (GFloat.piUpper : F64) = ⟨0x400921FB54442D19#64⟩ ∧
     (GFloat.tauLower : F64) = ⟨0x401921FB54442D18#64⟩ ∧ (GFloat.tauUpper : F64) = ⟨0x401921FB54442D19#64⟩) ∧
    ((GFloat.fracPi2Lower : F64) = ⟨0x3FF921FB54442D18#64⟩ ∧ (GFloat.fracPi2Upper : F64) = ⟨0x3FF921FB54442D19#64⟩ ∧
     (GFloat.fracPi4Lower : F64) = ⟨0x3FE921FB54442D18#64⟩ ∧ (GFloat.fracPi4Upper : F64) = ⟨0x3FE921FB54442D19#64⟩) := by
  decide +kernel

theorem toReal_f32_pi (e : ℤ) (b : BitVec 32) (hs : (⟨b⟩ : F32).sgn = false)
    (hn : 2 ^ 23 ≤ (⟨b⟩ : F32).idx) (hm : (⟨b⟩ : F32).idx % 2 ^ 23 = 4788186)
    (he : (((⟨b⟩ : F32).idx / 2 ^ 23 : Nat) : ℤ) - 127 = e) :
    (⟨b⟩ : F32).toReal = 13176794 / 2 ^ 23 * 2 ^ e := by
  rw [toReal_bits32 b 4788186 e hs hn hm he]; norm_num

/-- C10 for `f64`: all eight constants enclose. -/
theorem C10_f64 :
    Between (GFloat.piLower : F64) Real.pi GFloat.piUpper ∧
    Between (GFloat.tauLower : F64) (2 * Real.pi) GFloat.tauUpper ∧
    Between (GFloat.fracPi2Lower : F64) (Real.pi / 2) GFloat.fracPi2Upper ∧
    Between (GFloat.fracPi4Lower : F64) (Real.pi / 4) GFloat.fracPi4Upper := by
  have hlo := Real.pi_gt_d20
  have hhi := Real.pi_lt_d20
  obtain ⟨⟨a1, a2, a3, a4⟩, a5, a6, a7, a8⟩ := f64_consts
  rw [a1, a2, a3, a4, a5, a6, a7, a8]
  refine ⟨⟨?_, ?_⟩, ⟨?_, ?_⟩, ⟨?_, ?_⟩, ⟨?_, ?_⟩⟩
  · rw [lowerOf_fin (by decide +kernel), toReal_bits64 _ 2570638124657944 1 (by decide +kernel) (by decide +kernel) (by decide +kernel) (by decide +kernel)]
    norm_num; linarith
  · rw [upperOf_fin (by decide +kernel), toReal_bits64 _ 2570638124657945 1 (by decide +kernel) (by decide +kernel) (by decide +kernel) (by decide +kernel)]
    norm_num; linarith
  · rw [lowerOf_fin (by decide +kernel), toReal_bits64 _ 2570638124657944 2 (by decide +kernel) (by decide +kernel) (by decide +kernel) (by decide +kernel)]
    norm_num; linarith
  · rw [upperOf_fin (by decide +kernel), toReal_bits64 _ 2570638124657945 2 (by decide +kernel) (by decide +kernel) (by decide +kernel) (by decide +kernel)]
    norm_num; linarith
  · rw [lowerOf_fin (by decide +kernel), toReal_bits64 _ 2570638124657944 0 (by decide +kernel) (by decide +kernel) (by decide +kernel) (by decide +kernel)]
    norm_num; linarith
  · rw [upperOf_fin (by decide +kernel), toReal_bits64 _ 2570638124657945 0 (by decide +kernel) (by decide +kernel) (by decide +kernel) (by decide +kernel)]
    norm_num; linarith
  · rw [lowerOf_fin (by decide +kernel), toReal_bits64 _ 2570638124657944 (-1) (by decide +kernel) (by decide +kernel) (by decide +kernel) (by decide +kernel)]
    norm_num; linarith
  · rw [upperOf_fin (by decide +kernel), toReal_bits64 _ 2570638124657945 (-1) (by decide +kernel) (by decide +kernel) (by decide +kernel) (by decide +kernel)]
    norm_num; linarith

/-- C10 is false for `f32`: every `*_upper` constant is strictly below the real number it should bound
(`pi_upper` repeats the numerator of `pi_lower`). -/
theorem C10_f32_upper_wrong :
    ¬ UpperOf (GFloat.piUpper : F32) Real.pi ∧ ¬ UpperOf (GFloat.tauUpper : F32) (2 * Real.pi) ∧
    ¬ UpperOf (GFloat.fracPi2Upper : F32) (Real.pi / 2) ∧ ¬ UpperOf (GFloat.fracPi4Upper : F32) (Real.pi / 4) := by
  have hlo := Real.pi_gt_d20
  obtain ⟨⟨a1, a2, a3, a4⟩, a5, a6, a7, a8⟩ := f32_consts
  rw [a2, a4, a6, a8]
  refine ⟨?_, ?_, ?_, ?_⟩
  · rw [upperOf_fin (by decide +kernel), toReal_f32_pi 1 _ (by decide +kernel) (by decide +kernel) (by decide +kernel) (by decide +kernel)]
    norm_num; linarith
  · rw [upperOf_fin (by decide +kernel), toReal_f32_pi 2 _ (by decide +kernel) (by decide +kernel) (by decide +kernel) (by decide +kernel)]
    norm_num; linarith
  · rw [upperOf_fin (by decide +kernel), toReal_f32_pi 0 _ (by decide +kernel) (by decide +kernel) (by decide +kernel) (by decide +kernel)]
    norm_num; linarith
  · rw [upperOf_fin (by decide +kernel), toReal_f32_pi (-1) _ (by decide +kernel) (by decide +kernel) (by decide +kernel) (by decide +kernel)]
    norm_num; linarith

/-- C10 for `f32` (the part that holds): the four lower constants are lower bounds, and widening the upper ones by
one float would give upper bounds.  Missing: the upper bounds themselves, which are false (`C10_f32_upper_wrong`). -/
theorem C10_f32_partial :
    LowerOf (GFloat.piLower : F32) Real.pi ∧ LowerOf (GFloat.tauLower : F32) (2 * Real.pi) ∧
    LowerOf (GFloat.fracPi2Lower : F32) (Real.pi / 2) ∧ LowerOf (GFloat.fracPi4Lower : F32) (Real.pi / 4) ∧
    UpperOf (GFloat.nextUp (GFloat.piUpper : F32)) Real.pi := by
  have hlo := Real.pi_gt_d20
  have hhi := Real.pi_lt_d20
  obtain ⟨⟨a1, a2, a3, a4⟩, a5, a6, a7, a8⟩ := f32_consts
  have hup : GFloat.nextUp (⟨0x40490FDA#32⟩ : F32) = ⟨0x40490FDB#32⟩ := by decide +kernel
  rw [a1, a2, a3, a5, a7, hup]
  refine ⟨?_, ?_, ?_, ?_, ?_⟩
  · rw [lowerOf_fin (by decide +kernel), toReal_f32_pi 1 _ (by decide +kernel) (by decide +kernel) (by decide +kernel) (by decide +kernel)]
    norm_num; linarith
  · rw [lowerOf_fin (by decide +kernel), toReal_f32_pi 2 _ (by decide +kernel) (by decide +kernel) (by decide +kernel) (by decide +kernel)]
    norm_num; linarith
  · rw [lowerOf_fin (by decide +kernel), toReal_f32_pi 0 _ (by decide +kernel) (by decide +kernel) (by decide +kernel) (by decide +kernel)]
    norm_num; linarith
  · rw [lowerOf_fin (by decide +kernel), toReal_f32_pi (-1) _ (by decide +kernel) (by decide +kernel) (by decide +kernel) (by decide +kernel)]
    norm_num; linarith
  · rw [upperOf_fin (by decide +kernel), toReal_bits32 _ 4788187 1 (by decide +kernel) (by decide +kernel) (by decide +kernel) (by decide +kernel)]
    norm_num; linarith

end Scarlet
