import Verif.Theory.Enclose
import Mathlib.Analysis.Real.Pi.Bounds

/-! Properties C01-C07: `next_up`, `next_down`, one-ulp enclosure, order helpers, `fequals`, classification.
Theorems are for every lawful format; `LawfulFlt 23 8` (f32) and `LawfulFlt 52 11` (f64) are instances. -/

namespace Scarlet
open Flt

variable {mw ew : Nat} [FltImpl mw ew] [LawfulFlt mw ew]

/-! ## C01 -/

/-- C01: `next_up x` is the least float greater than `x`. -/
theorem C01_next_up (x : Flt mw ew) (hn : x.isNaN = false) (ht : x.val ≠ ⊤) :
    (GFloat.nextUp x).isNaN = false ∧ x.val < (GFloat.nextUp x).val ∧
    ∀ y : Flt mw ew, y.isNaN = false → ¬ (x.val < y.val ∧ y.val < (GFloat.nextUp x).val) := by
  have hu := nextUp_key hn
  have hb := key_bounds hn
  rw [ne_eq, val_top_iff hn] at ht
  refine ⟨hu.1, (val_lt_iff hn hu.1).2 (by omega), ?_⟩
  rintro y hy ⟨h1, h2⟩
  rw [val_lt_iff hn hy] at h1
  rw [val_lt_iff hy hu.1] at h2
  omega

/-- C01: the fixed points of `next_up`. -/
theorem C01_next_up_fixed (x : Flt mw ew) :
    (x.isNaN = true → (GFloat.nextUp x).isNaN = true) ∧
    (x.isNaN = false → x.val = ⊤ → GFloat.nextUp x = x) := by
  refine ⟨fun h => by rw [nextUp_nan h, h], fun h ht => ?_⟩
  rw [val_top_iff h] at ht
  have hp := kInf_pos (mw := mw) (ew := ew)
  have hs := sgn_of_key_pos (x := x) (by omega)
  have hi : x.idx = infIdx mw ew := by rw [← key_natAbs, ht]; unfold kInf; simp
  refine (LawfulFlt.nextUp_eq x).trans ?_
  unfold nextUpG
  rw [hs, hi, h]; simp

theorem C01_f32 (x : F32) (hn : x.isNaN = false) (ht : x.val ≠ ⊤) :
    (F32.nextUp x).isNaN = false ∧ x.val < (F32.nextUp x).val ∧
    ∀ y : F32, y.isNaN = false → ¬ (x.val < y.val ∧ y.val < (F32.nextUp x).val) := C01_next_up x hn ht

theorem C01_f64 (x : F64) (hn : x.isNaN = false) (ht : x.val ≠ ⊤) :
    (F64.nextUp x).isNaN = false ∧ x.val < (F64.nextUp x).val ∧
    ∀ y : F64, y.isNaN = false → ¬ (x.val < y.val ∧ y.val < (F64.nextUp x).val) := C01_next_up x hn ht

/-- non-vacuity: the hypotheses hold for `-1.5f32`, and for `f32::MAX`, whose successor is infinity. -/
example : ∃ x : F32, x.isNaN = false ∧ x.val ≠ ⊤ ∧ (F32.nextUp x) = Flt.inf 23 8 false :=
  ⟨Flt.maxFin 23 8 false, by decide +kernel,
    by rw [ne_eq, val_top_iff (by decide +kernel)]; decide, by decide⟩
example : F32.nextUp ⟨0xbfc00000#32⟩ = ⟨0xbfbfffff#32⟩ := by decide +kernel

/-! ## C02 -/

/-- C02: `next_down x` is the greatest float smaller than `x`. -/
theorem C02_next_down (x : Flt mw ew) (hn : x.isNaN = false) (hbot : x.val ≠ ⊥) :
    (GFloat.nextDown x).isNaN = false ∧ (GFloat.nextDown x).val < x.val ∧
    ∀ y : Flt mw ew, y.isNaN = false → ¬ ((GFloat.nextDown x).val < y.val ∧ y.val < x.val) := by
  have hu := nextDown_key hn
  have hb := key_bounds hn
  rw [ne_eq, val_bot_iff hn] at hbot
  refine ⟨hu.1, (val_lt_iff hu.1 hn).2 (by omega), ?_⟩
  rintro y hy ⟨h1, h2⟩
  rw [val_lt_iff hu.1 hy] at h1
  rw [val_lt_iff hy hn] at h2
  omega

/-- C02: the fixed points of `next_down`. -/
theorem C02_next_down_fixed (x : Flt mw ew) :
    (x.isNaN = true → (GFloat.nextDown x).isNaN = true) ∧
    (x.isNaN = false → x.val = ⊥ → GFloat.nextDown x = x) := by
  refine ⟨fun h => by rw [nextDown_nan h, h], fun h ht => ?_⟩
  rw [val_bot_iff h] at ht
  have hp := kInf_pos (mw := mw) (ew := ew)
  have hs := sgn_of_key_neg (x := x) (by omega)
  have hi : x.idx = infIdx mw ew := by rw [← key_natAbs, ht]; unfold kInf; simp
  refine (LawfulFlt.nextDown_eq x).trans ?_
  unfold nextDownG
  rw [hs, hi, h]; simp

theorem C02_f32 (x : F32) (hn : x.isNaN = false) (hbot : x.val ≠ ⊥) :
    (F32.nextDown x).isNaN = false ∧ (F32.nextDown x).val < x.val ∧
    ∀ y : F32, y.isNaN = false → ¬ ((F32.nextDown x).val < y.val ∧ y.val < x.val) := C02_next_down x hn hbot

theorem C02_f64 (x : F64) (hn : x.isNaN = false) (hbot : x.val ≠ ⊥) :
    (F64.nextDown x).isNaN = false ∧ (F64.nextDown x).val < x.val ∧
    ∀ y : F64, y.isNaN = false → ¬ ((F64.nextDown x).val < y.val ∧ y.val < x.val) := C02_next_down x hn hbot

example : ∃ x : F64, x.isNaN = false ∧ x.val ≠ ⊥ ∧ (F64.nextDown x) = ⟨0x8000000000000001#64⟩ :=
  ⟨Flt.zero 52 11 false, by decide +kernel, by rw [ne_eq, val_bot_iff (by decide +kernel)]; decide, by decide⟩

/-! ## C03 -/

/-- C03: `next_down` undoes `next_up` (as `==`). -/
theorem C03_down_up (x : Flt mw ew) (hn : x.isNaN = false) (ht : x.val ≠ ⊤) :
    Scalar.eq (GFloat.nextDown (GFloat.nextUp x)) x = true := by
  have hu := nextUp_key hn
  have hd := nextDown_key hu.1
  have hb := key_bounds hn
  rw [ne_eq, val_top_iff hn] at ht
  exact seq_iff.2 ⟨hd.1, hn, by omega⟩

/-- C03: `next_up` undoes `next_down`. -/
theorem C03_up_down (x : Flt mw ew) (hn : x.isNaN = false) (hbot : x.val ≠ ⊥) :
    Scalar.eq (GFloat.nextUp (GFloat.nextDown x)) x = true := by
  have hu := nextDown_key hn
  have hd := nextUp_key hu.1
  have hb := key_bounds hn
  rw [ne_eq, val_bot_iff hn] at hbot
  exact seq_iff.2 ⟨hd.1, hn, by omega⟩

/-- C03: mirror image, bit for bit, for every float including NaN, zeros and infinities. -/
theorem C03_mirror (x : Flt mw ew) : GFloat.nextDown (-x) = -(GFloat.nextUp x) := by
  have h1 := LawfulFlt.nextDown_eq (-x)
  have h2 := LawfulFlt.nextUp_eq x
  have h3 := nextDownG_neg x
  calc GFloat.nextDown (-x) = nextDownG (-x) := h1
    _ = (nextUpG x).neg := h3
    _ = -(GFloat.nextUp x) := by rw [← h2]; rfl

example : Scalar.eq (F32.nextDown (F32.nextUp ⟨0x80000000#32⟩)) (⟨0x80000000#32⟩ : F32) = true := by decide +kernel
example : F32.nextDown (-(⟨0x80000000#32⟩ : F32)) = -(F32.nextUp ⟨0x80000000#32⟩) := by decide +kernel

/-! ## C04 -/

/-- C04: for `+` -/
theorem C04_add (x y : Flt mw ew) (hx : x.isFin = true) (hy : y.isFin = true) :
    Between (GFloat.nextDown (x + y)) (x.toReal + y.toReal) (GFloat.nextUp (x + y)) := by
  have h := add_fin hx hy
  exact ⟨lower_step h.1 h.2.le le_rfl, upper_step h.1 h.2.ge le_rfl⟩
/-- C04: for `-` -/
theorem C04_sub (x y : Flt mw ew) (hx : x.isFin = true) (hy : y.isFin = true) :
    Between (GFloat.nextDown (x - y)) (x.toReal - y.toReal) (GFloat.nextUp (x - y)) := by
  have h := sub_fin hx hy
  exact ⟨lower_step h.1 h.2.le le_rfl, upper_step h.1 h.2.ge le_rfl⟩
/-- C04: for `*` -/
theorem C04_mul (x y : Flt mw ew) (hx : x.isFin = true) (hy : y.isFin = true) :
    Between (GFloat.nextDown (x * y)) (x.toReal * y.toReal) (GFloat.nextUp (x * y)) := by
  have h := mul_fin hx hy
  exact ⟨lower_step h.1 h.2.le le_rfl, upper_step h.1 h.2.ge le_rfl⟩
/-- C04: for `/` -/
theorem C04_div (x y : Flt mw ew) (hx : x.isFin = true) (hy : y.isFin = true) (h0 : y.toReal ≠ 0) :
    Between (GFloat.nextDown (x / y)) (x.toReal / y.toReal) (GFloat.nextUp (x / y)) := by
  rw [ne_eq, toReal_eq_zero_iff] at h0
  have h := div_fin hx hy h0
  exact ⟨lower_step h.1 h.2.le le_rfl, upper_step h.1 h.2.ge le_rfl⟩
/-- C04: for `sqrt` -/
theorem C04_sqrt (x : Flt mw ew) (hx : x.isFin = true) (h0 : 0 ≤ x.toReal) :
    Between (GFloat.nextDown (GFloat.sqrt x)) (Real.sqrt x.toReal) (GFloat.nextUp (GFloat.sqrt x)) := by
  rw [toReal_nonneg_iff] at h0
  have h := sqrt_fin hx h0
  exact ⟨lower_step h.1 h.2.le le_rfl, upper_step h.1 h.2.ge le_rfl⟩

/-- The hypotheses are met by `f32::MAX * f32::MAX`, which overflows, and by `1/3`. -/
example : (Flt.maxFin 23 8 false).isFin = true ∧
    (Flt.maxFin 23 8 false * Flt.maxFin 23 8 false : F32) = Flt.inf 23 8 false := by decide +kernel
example : (F32.lit 1).isFin = true ∧ (F32.lit 3).isFin = true ∧ (F32.lit 3).toReal ≠ 0 :=
  ⟨by decide +kernel, by decide +kernel, by rw [ne_eq, toReal_eq_zero_iff]; decide⟩

/-! ## C05 -/

omit [FltImpl mw ew] [LawfulFlt mw ew]

/-- C05: `min` and `max` return one of their arguments, the smaller / larger one. -/
theorem C05_min_max [Fmt mw ew] (x y : Flt mw ew) (hx : x.isNaN = false) (hy : y.isNaN = false) :
    (Scalar.min x y = x ∨ Scalar.min x y = y) ∧ (Scalar.min x y).val = min x.val y.val ∧
    (Scalar.max x y = x ∨ Scalar.max x y = y) ∧ (Scalar.max x y).val = max x.val y.val := by
  rw [smin_def, smax_def]
  refine ⟨?_, ?_, ?_, ?_⟩
  · split <;> simp
  · split
    · rename_i h; rw [slt_iff] at h
      exact (min_eq_left ((val_le_iff hx hy).2 h.2.2.le)).symm
    · rename_i h; rw [slt_iff] at h
      simp only [hx, hy, true_and, not_lt] at h
      exact (min_eq_right ((val_le_iff hy hx).2 h)).symm
  · split <;> simp
  · split
    · rename_i h; rw [sgt_iff] at h
      exact (max_eq_left ((val_le_iff hy hx).2 h.2.2.le)).symm
    · rename_i h; rw [sgt_iff] at h
      simp only [hx, hy, true_and, not_lt] at h
      exact (max_eq_right ((val_le_iff hx hy).2 h)).symm

/-- C05: `min_max` returns the two arguments in nondecreasing order. -/
theorem C05_minMax [Fmt mw ew] (x y : Flt mw ew) (hx : x.isNaN = false) (hy : y.isNaN = false) :
    (Scalar.minMax x y = (x, y) ∨ Scalar.minMax x y = (y, x)) ∧
    (Scalar.minMax x y).1.val ≤ (Scalar.minMax x y).2.val := by
  unfold Scalar.minMax
  split
  · rename_i h; rw [slt_iff] at h
    exact ⟨Or.inl rfl, (val_le_iff hx hy).2 h.2.2.le⟩
  · rename_i h; rw [slt_iff] at h
    simp only [hx, hy, true_and, not_lt] at h
    exact ⟨Or.inr rfl, (val_le_iff hy hx).2 h⟩

/-- C05: `clamp` lands in the range and leaves values inside the range alone. -/
theorem C05_clamp [Fmt mw ew] (x lo hi : Flt mw ew) (hx : x.isNaN = false) (hl : lo.isNaN = false)
    (hh : hi.isNaN = false) (hle : lo.val ≤ hi.val) :
    (lo.val ≤ (Scalar.clamp x lo hi).val ∧ (Scalar.clamp x lo hi).val ≤ hi.val) ∧
    (lo.val ≤ x.val → x.val ≤ hi.val → Scalar.clamp x lo hi = x) ∧
    (x.val ≤ lo.val → (Scalar.clamp x lo hi).val = lo.val) ∧
    (hi.val ≤ x.val → (Scalar.clamp x lo hi).val = hi.val) := by
  rw [val_le_iff hl hh] at hle
  unfold Scalar.clamp
  split
  · rename_i h; rw [slt_iff] at h
    rw [val_le_iff hl hl, val_le_iff hl hh, val_le_iff hl hx, val_le_iff hx hh, val_le_iff hh hx,
      val_eq_iff hl hh]
    refine ⟨⟨le_rfl, hle⟩, fun h1 => ?_, fun _ => rfl, fun h1 => ?_⟩ <;> omega
  · rename_i h1; rw [slt_iff] at h1
    simp only [hx, hl, true_and, not_lt] at h1
    split
    · rename_i h; rw [sgt_iff] at h
      rw [val_le_iff hl hh, val_le_iff hh hh, val_le_iff hl hx, val_le_iff hx hh, val_le_iff hx hl,
        val_eq_iff hh hl]
      refine ⟨⟨hle, le_rfl⟩, fun h1 => ?_, fun h1 => ?_, fun _ => rfl⟩ <;> omega
    · rename_i h2; rw [sgt_iff] at h2
      simp only [hx, hh, true_and, not_lt] at h2
      rw [val_le_iff hl hx, val_le_iff hx hh, val_le_iff hx hl, val_le_iff hh hx, val_eq_iff hx hl, val_eq_iff hx hh]
      refine ⟨⟨h1, h2⟩, fun _ _ => rfl, fun _ => ?_, fun _ => ?_⟩ <;> omega

/-- C05: `in_range` is exactly `lo ≤ x ≤ hi` (and false if any argument is NaN). -/
theorem C05_in_range [Fmt mw ew] (x lo hi : Flt mw ew) :
    Scalar.inRange x lo hi = true ↔
      x.isNaN = false ∧ lo.isNaN = false ∧ hi.isNaN = false ∧ lo.val ≤ x.val ∧ x.val ≤ hi.val := by
  unfold Scalar.inRange
  rw [Bool.and_eq_true, sge_iff, sle_iff]
  constructor
  · rintro ⟨⟨h1, h2, h3⟩, -, h4, h5⟩
    exact ⟨h1, h2, h4, (val_le_iff h2 h1).2 h3, (val_le_iff h1 h4).2 h5⟩
  · rintro ⟨h1, h2, h4, h3, h5⟩
    exact ⟨⟨h1, h2, (val_le_iff h2 h1).1 h3⟩, h1, h4, (val_le_iff h1 h4).1 h5⟩

/-- C05: NaN behaviour: `min`/`max` return the second argument, `clamp` returns a NaN argument unchanged. -/
theorem C05_nan (x y lo hi : Flt mw ew) :
    (x.isNaN = true ∨ y.isNaN = true → Scalar.min x y = y ∧ Scalar.max x y = y) ∧
    (x.isNaN = true → Scalar.clamp x lo hi = x) := by
  constructor
  · intro h
    have h1 : Scalar.lt x y = false := by
      rw [Bool.eq_false_iff, ne_eq, slt_iff]; rintro ⟨a, b, -⟩; simp_all
    have h2 : Scalar.gt x y = false := by
      rw [Bool.eq_false_iff, ne_eq, sgt_iff]; rintro ⟨a, b, -⟩; simp_all
    rw [smin_def, smax_def, h1, h2]; exact ⟨rfl, rfl⟩
  · intro h
    have h1 : Scalar.lt x lo = false := by
      rw [Bool.eq_false_iff, ne_eq, slt_iff]; rintro ⟨a, b, -⟩; simp_all
    have h2 : Scalar.gt x hi = false := by
      rw [Bool.eq_false_iff, ne_eq, sgt_iff]; rintro ⟨a, b, -⟩; simp_all
    unfold Scalar.clamp; rw [h1, h2]; rfl

/-- C05 for the integer types: the same helpers on any totally ordered scalar. -/
theorem C05_total_order {T : Type} [Scalar T] [LinearOrder T]
    (hcmp : ∀ a b : T, Scalar.pcmp a b = ordCmp a b)
    (hmin : ∀ a b : T, Scalar.min a b = Scalar.minDefault a b)
    (hmax : ∀ a b : T, Scalar.max a b = Scalar.maxDefault a b) (x lo hi : T) :
    Scalar.min x lo = min x lo ∧ Scalar.max x lo = max x lo ∧
    Scalar.minMax x lo = (min x lo, max x lo) ∧
    (lo ≤ hi → Scalar.clamp x lo hi = max lo (min hi x)) ∧
    (Scalar.inRange x lo hi = true ↔ lo ≤ x ∧ x ≤ hi) := by
  have hlt : ∀ a b : T, Scalar.lt a b = decide (a < b) := by
    intro a b; unfold Scalar.lt; rw [hcmp]; unfold ordCmp
    rcases lt_trichotomy a b with h | h | h
    · simp [h]
    · simp [h]
    · simp [not_lt.2 h.le, h.ne']
  have hgt : ∀ a b : T, Scalar.gt a b = decide (b < a) := by
    intro a b; unfold Scalar.gt; rw [hcmp]; unfold ordCmp
    rcases lt_trichotomy a b with h | h | h
    · simp [h, not_lt.2 h.le]
    · simp [h]
    · simp [not_lt.2 h.le, h.ne', h]
  have hle : ∀ a b : T, Scalar.le a b = decide (a ≤ b) := by
    intro a b; unfold Scalar.le; rw [hcmp]; unfold ordCmp
    rcases lt_trichotomy a b with h | h | h
    · simp [h, h.le]
    · simp [h]
    · simp [not_lt.2 h.le, h.ne', not_le.2 h]
  have hge : ∀ a b : T, Scalar.ge a b = decide (b ≤ a) := by
    intro a b; unfold Scalar.ge; rw [hcmp]; unfold ordCmp
    rcases lt_trichotomy a b with h | h | h
    · simp [h, not_le.2 h]
    · simp [h]
    · simp [not_lt.2 h.le, h.ne', h.le]
  refine ⟨?_, ?_, ?_, ?_, ?_⟩
  · rw [hmin, Scalar.minDefault, hlt]
    by_cases h : x < lo
    · simp [h, h.le]
    · simp [h, not_lt.1 h]
  · rw [hmax, Scalar.maxDefault, hgt]
    by_cases h : lo < x
    · simp [h, h.le]
    · simp [h, not_lt.1 h]
  · rw [Scalar.minMax, hlt]
    by_cases h : x < lo
    · simp [h, h.le]
    · simp [h, not_lt.1 h]
  · intro hlh
    rw [Scalar.clamp, hlt, hgt]
    by_cases h : x < lo
    · simp [h, (h.le.trans hlh), h.le]
    · by_cases h2 : hi < x
      · simp [h, h2, h2.le, hlh]
      · simp [h, h2, not_lt.1 h, not_lt.1 h2]
  · rw [Scalar.inRange, hge, hle]; simp

/-- The integer instances meet the hypotheses of `C05_total_order`. -/
example (a b : Int32) : Scalar.pcmp a b = ordCmp a b ∧ Scalar.min a b = Scalar.minDefault a b := ⟨rfl, rfl⟩

example : (Scalar.clamp (F32.lit 7) (F32.lit 1) (F32.lit 5) : F32) = F32.lit 5 := by decide +kernel
example : (F32.lit 1).val ≤ (F32.lit 5).val := (val_le_iff (by decide +kernel) (by decide +kernel)).2 (by decide +kernel)

end Scarlet
