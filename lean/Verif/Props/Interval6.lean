import Verif.Props.Interval5
import Verif.Spec.Atan2

/-! C25: interval inverse trigonometric functions. -/

set_option linter.unusedSectionVars false

namespace Scarlet
open Flt Scarlet.Interval
open Real (pi arcsin arccos arctan)
variable {mw ew : Nat} [FltImpl mw ew] [LawfulFlt mw ew]

section
variable [Libm mw ew] [LawfulLibm mw ew]

theorem asin_map {A : Interval (Flt mw ew)} {x : ℝ} (hx : x ∈ A) (hf : Interval.Finite A) (h1 : -1 ≤ A.inf.toReal)
    (h2 : A.sup.toReal ≤ 1) : arcsin x ∈ mapMonotonicInc A GTrig.asin := by
  obtain ⟨x1, x2⟩ := mem_fin_le hx hf
  exact ⟨(LawfulLibm.asin A.inf hf.1 h1 (by linarith)).lo.mono (Real.monotone_arcsin x1),
    (LawfulLibm.asin A.sup hf.2 (by linarith) h2).hi.mono (Real.monotone_arcsin x2)⟩
theorem acos_map {A : Interval (Flt mw ew)} {x : ℝ} (hx : x ∈ A) (hf : Interval.Finite A) (h1 : -1 ≤ A.inf.toReal)
    (h2 : A.sup.toReal ≤ 1) : arccos x ∈ mapMonotonicDec A GTrig.acos := by
  obtain ⟨x1, x2⟩ := mem_fin_le hx hf
  exact ⟨(LawfulLibm.acos A.sup hf.2 (by linarith) h2).lo.mono (Real.antitone_arccos x2),
    (LawfulLibm.acos A.inf hf.1 h1 (by linarith)).hi.mono (Real.antitone_arccos x1)⟩

theorem noNaN_of_mem {A : Interval (Flt mw ew)} {x : ℝ} (hx : x ∈ A) : NoNaN A := ⟨hx.1.1, hx.2.1⟩

/-- C25 (partial), `asin`: within the domain, the result contains `asin x` exactly when `asin x ∈ [0, frac_pi_2_upper]`.
Hence it fails for every negative `x` (`C25_refuted_asin_acos`); for `f64` it holds for every `x ≥ 0`
(`C25_asin_acos_f64_partial`). -/
theorem C25_asin_partial (hfin : (GFloat.fracPi2Upper : Flt mw ew).isFin = true)
    (A : Interval (Flt mw ew)) (x : ℝ) (hx : x ∈ A) (hf : Interval.Finite A) (h1 : -1 ≤ A.inf.toReal) (h2 : A.sup.toReal ≤ 1) :
    arcsin x ∈ Interval.asin A ↔ 0 ≤ x ∧ arcsin x ≤ (GFloat.fracPi2Upper : Flt mw ew).toReal := by
  have hm := asin_map hx hf h1 h2
  unfold Interval.asin
  rw [C18_intersect _ _ (noNaN_of_mem hm) ⟨szero_notNaN, notNaN_of_isFin hfin⟩]
  constructor
  · rintro ⟨-, h3, h4⟩
    have h3' := (lowerOf_fin isFin_szero).1 h3
    rw [toReal_szero, Real.arcsin_nonneg] at h3'
    exact ⟨h3', (upperOf_fin hfin).1 h4⟩
  · rintro ⟨h3, h4⟩
    exact ⟨hm, (lowerOf_fin isFin_szero).2 (by rw [toReal_szero, Real.arcsin_nonneg]; exact h3), (upperOf_fin hfin).2 h4⟩

/-- C25 (partial), `acos`: within the domain, the result contains `acos x` exactly when `acos x ≤ frac_pi_2_upper`. -/
theorem C25_acos_partial (hfin : (GFloat.fracPi2Upper : Flt mw ew).isFin = true)
    (A : Interval (Flt mw ew)) (x : ℝ) (hx : x ∈ A) (hf : Interval.Finite A) (h1 : -1 ≤ A.inf.toReal) (h2 : A.sup.toReal ≤ 1) :
    arccos x ∈ Interval.acos A ↔ arccos x ≤ (GFloat.fracPi2Upper : Flt mw ew).toReal := by
  have hm := acos_map hx hf h1 h2
  unfold Interval.acos
  rw [C18_intersect _ _ (noNaN_of_mem hm) ⟨szero_notNaN, notNaN_of_isFin hfin⟩]
  constructor
  · rintro ⟨-, h3, h4⟩
    exact (upperOf_fin hfin).1 h4
  · intro h4
    exact ⟨hm, (lowerOf_fin isFin_szero).2 (by rw [toReal_szero]; exact Real.arccos_nonneg x), (upperOf_fin hfin).2 h4⟩

/-- every real `r` with `-π/2 ≤ r ≤ π/2` below/above the images of the bounds -/
theorem atan_lower {l : Flt mw ew} {x r : ℝ} (h : LowerOf l x) (hr : arctan x ≤ r) :
    LowerOf (GFloat.nextDown (Libm.atan l)) r := by
  rcases key_cases h.1 with h1 | h1 | h1
  · exact (LawfulLibm.atan_bot l h.1 ((val_bot_iff h.1).2 h1)).mono (by linarith [Real.neg_pi_div_two_lt_arctan x])
  · exact absurd h1 h.key_ne_top
  · exact (LawfulLibm.atan l h1).lo.mono ((Real.arctan_strictMono.monotone ((lowerOf_fin h1).1 h)).trans hr)
theorem atan_upper {u : Flt mw ew} {x r : ℝ} (h : UpperOf u x) (hr : r ≤ arctan x) :
    UpperOf (GFloat.nextUp (Libm.atan u)) r := by
  rcases key_cases h.1 with h1 | h1 | h1
  · exact absurd h1 h.key_ne_bot
  · exact (LawfulLibm.atan_top u h.1 ((val_top_iff h.1).2 h1)).mono (by linarith [Real.arctan_lt_pi_div_two x])
  · exact (LawfulLibm.atan u h1).hi.mono (hr.trans (Real.arctan_strictMono.monotone ((upperOf_fin h1).1 h)))

/-- C25, `atan`: for every interval, infinite bounds included. -/
theorem C25_atan (A : Interval (Flt mw ew)) (x : ℝ) (hx : x ∈ A) : arctan x ∈ Interval.atan A :=
  ⟨atan_lower hx.1 le_rfl, atan_upper hx.2 le_rfl⟩

theorem atan_whole {A : Interval (Flt mw ew)} (hw : IsWhole A) {r : ℝ} (h1 : -(pi / 2) ≤ r) (h2 : r ≤ pi / 2) :
    r ∈ Interval.atan A :=
  ⟨(LawfulLibm.atan_bot A.inf hw.1.1 hw.2.1).mono h1, (LawfulLibm.atan_top A.sup hw.1.2 hw.2.2).mono h2⟩

theorem isZeroI_iff {A : Interval (Flt mw ew)} : Scalar.isZero A = true ↔ NoNaN A ∧ A.inf.key = 0 ∧ A.sup.key = 0 := by
  unfold Scalar.isZero
  rw [ieq_iff]
  change _ ∧ ((Scalar.zero : Flt mw ew).isNaN = false ∧ (Scalar.zero : Flt mw ew).isNaN = false ∧ (Scalar.zero : Flt mw ew).key = (Scalar.zero : Flt mw ew).key) ∧
    A.inf.key = (Scalar.zero : Flt mw ew).key ↔ _
  rw [key_szero]
  simp only [szero_notNaN, true_and, and_true]
  unfold NoNaN
  constructor
  · rintro ⟨⟨a, b, c⟩, d⟩; exact ⟨⟨a, b⟩, d, by omega⟩
  · rintro ⟨⟨a, b⟩, d, e⟩; exact ⟨⟨a, b, by omega⟩, d⟩

theorem mem_key_nonneg {A : Interval (Flt mw ew)} {x : ℝ} (hx : x ∈ A) (h : 0 ≤ A.inf.key) : 0 ≤ x := by
  have := le_trans ((val_nonneg_iff hx.1.1).2 h) hx.1.2
  exact_mod_cast this
theorem mem_key_nonpos {A : Interval (Flt mw ew)} {x : ℝ} (hx : x ∈ A) (h : A.sup.key ≤ 0) : x ≤ 0 := by
  have := le_trans hx.2.2 ((val_nonpos_iff hx.2.1).2 h)
  exact_mod_cast this
theorem mem_key_neg {A : Interval (Flt mw ew)} {x : ℝ} (hx : x ∈ A) (h : A.sup.key < 0) : x < 0 := by
  have := lt_of_le_of_lt hx.2.2 ((val_lt_zero_iff hx.2.1).2 h)
  exact_mod_cast this

/-- The quotient's arctangent: `atan2 y x` for `x ≥ 0` up to the excluded origin. -/
theorem atan2_right_map {Y X : Interval (Flt mw ew)} {y x : ℝ} (hy : y ∈ Y) (hx : x ∈ X) (h0 : 0 ≤ x) (hne : x ≠ 0 ∨ y ≠ 0) :
    atan2R y x ∈ mapMonotonicInc (Y / X) GTrig.atan := by
  rcases eq_or_lt_of_le h0 with h | h
  · subst h
    have hw := C14_div_by_zero Y X hx
    have hy0 : y ≠ 0 := by simpa using hne
    rcases lt_or_gt_of_ne hy0 with h | h
    · rw [atan2R_zero_neg h]; exact atan_whole hw le_rfl (by linarith [Real.pi_pos])
    · rw [atan2R_zero_pos h]; exact atan_whole hw (by linarith [Real.pi_pos]) le_rfl
  · rw [atan2R_of_pos h]
    exact C25_atan _ _ (C14_div Y X y x hy hx h.ne')

theorem atan2_unfold (n : Nat) (Y X : Interval (Flt mw ew)) : atan2Fuel (n + 1) Y X =
    if Scalar.isZero X || Scalar.isZero Y then (Scalar.zero : Interval (Flt mw ew))
    else if isNonnegative X then
      intersect (mapMonotonicInc (Y / X) GTrig.atan) (new (-GFloat.fracPi2Upper) GFloat.fracPi2Upper)
    else if isNonpositive X then
      if isNonnegative Y then
        intersect (mapMonotonicInc (Y / X) GTrig.atan + (GFloat.pi : Flt mw ew)) (new GFloat.fracPi2Lower GFloat.piUpper)
      else if isNegative Y then
        intersect (mapMonotonicInc (Y / X) GTrig.atan - (GFloat.pi : Flt mw ew)) (new (-GFloat.piUpper) (-GFloat.fracPi2Lower))
      else new (-GFloat.piUpper) GFloat.piUpper
    else union (atan2Fuel n Y (new X.inf Scalar.zero)) (atan2Fuel n Y (new Scalar.zero X.sup)) := rfl

/-- The right half plane, for any format: enclosure holds exactly when `|atan2 y x| ≤ frac_pi_2_upper`. -/
theorem atan2_right (n : Nat) (hfin : (GFloat.fracPi2Upper : Flt mw ew).isFin = true)
    (Y X : Interval (Flt mw ew)) (y x : ℝ) (hy : y ∈ Y) (hx : x ∈ X) (hne : x ≠ 0 ∨ y ≠ 0) (hX : 0 ≤ X.inf.key)
    (hz : ¬ Scalar.isZero X = true ∧ ¬ Scalar.isZero Y = true) :
    atan2R y x ∈ atan2Fuel (n + 1) Y X ↔ |atan2R y x| ≤ (GFloat.fracPi2Upper : Flt mw ew).toReal := by
  have hm := atan2_right_map hy hx (mem_key_nonneg hx hX) hne
  rw [atan2_unfold, if_neg (by simpa using hz), if_pos (isNonnegative_iff.2 ⟨hx.1.1, hX⟩)]
  rw [C18_intersect _ _ (noNaN_of_mem hm) ⟨by change (-_ : Flt mw ew).isNaN = false; rw [isNaN_negop]; exact notNaN_of_isFin hfin, notNaN_of_isFin hfin⟩, abs_le]
  have e1 : LowerOf (-GFloat.fracPi2Upper : Flt mw ew) (atan2R y x) ↔ -(GFloat.fracPi2Upper : Flt mw ew).toReal ≤ atan2R y x := by
    rw [lowerOf_fin (by rw [isFin_negop]; exact hfin), toReal_negop]
  constructor
  · rintro ⟨-, h3, h4⟩
    exact ⟨e1.1 h3, (upperOf_fin hfin).1 h4⟩
  · rintro ⟨h3, h4⟩
    exact ⟨hm, e1.2 h3, (upperOf_fin hfin).2 h4⟩

/-- C25 (partial), `atan2` in the right half plane, any format. -/
theorem C25_atan2_right_partial (hfin : (GFloat.fracPi2Upper : Flt mw ew).isFin = true)
    (Y X : Interval (Flt mw ew)) (y x : ℝ) (hy : y ∈ Y) (hx : x ∈ X) (hne : x ≠ 0 ∨ y ≠ 0) (hX : 0 ≤ X.inf.val)
    (hz : ¬ (∀ r : ℝ, r ∈ X → r = 0) ∧ ¬ (∀ r : ℝ, r ∈ Y → r = 0)) :
    atan2R y x ∈ Interval.atan2 Y X ↔ |atan2R y x| ≤ (GFloat.fracPi2Upper : Flt mw ew).toReal := by
  refine atan2_right 1 hfin Y X y x hy hx hne ((val_nonneg_iff hx.1.1).1 hX) ⟨fun h => hz.1 ?_, fun h => hz.2 ?_⟩
  · obtain ⟨-, h1, h2⟩ := isZeroI_iff.1 h
    exact fun r hr => le_antisymm (mem_key_nonpos hr (by omega)) (mem_key_nonneg hr (by omega))
  · obtain ⟨-, h1, h2⟩ := isZeroI_iff.1 h
    exact fun r hr => le_antisymm (mem_key_nonpos hr (by omega)) (mem_key_nonneg hr (by omega))

end

/-! ### f64: all quadrants -/

theorem magN_gap {mw e i : Nat} (h : (e + 1) * 2 ^ mw ≤ i) : magN mw i + 2 ^ e ≤ magN mw (i + 1) := by
  have hp := Nat.two_pow_pos mw
  rcases idx_cases mw i with h1 | ⟨e', m, hm, rfl⟩
  · have : 1 * 2 ^ mw ≤ (e + 1) * 2 ^ mw := Nat.mul_le_mul_right _ (by omega)
    omega
  · have he : e ≤ e' := by
      by_contra hc
      have : (e' + 1 + 1) * 2 ^ mw ≤ (e + 1) * 2 ^ mw := Nat.mul_le_mul_right _ (by omega)
      have e2 : (e' + 1 + 1) * 2 ^ mw = (e' + 1) * 2 ^ mw + 2 ^ mw := by ring
      omega
    rw [magN_block mw e' m hm.le, Nat.add_assoc, magN_block mw e' (m + 1) (by omega)]
    have : 2 ^ e ≤ 2 ^ e' := Nat.pow_le_pow_right (by decide) he
    have e3 : (2 ^ mw + (m + 1)) * 2 ^ e' = (2 ^ mw + m) * 2 ^ e' + 2 ^ e' := by ring
    omega

/-- One step above the rounding of `s` is above `s` by half a gap. -/
theorem rndK_step_half {s : ℝ} {e : Nat} (h : (((e + 1) * 2 ^ mw : Nat) : ℤ) ≤ rndK mw ew s) (h2 : rndK mw ew s < kInf mw ew) :
    s + 2 ^ e / 2 / 2 ^ fK mw ew ≤ valZ mw (rndK mw ew s + 1) / 2 ^ fK mw ew := by
  have hK := kInf_pos (mw := mw) (ew := ew)
  have hr : rndK mw ew s = rndZ mw (s * 2 ^ fK mw ew) := by
    have hp : 0 < (e + 1) * 2 ^ mw := Nat.mul_pos (by omega) (Nat.two_pow_pos mw)
    unfold rndK at h h2 ⊢; omega
  have hs : 0 ≤ s * 2 ^ fK mw ew := by
    by_contra hc
    have := rndZ_mono mw (not_le.1 hc).le
    rw [rndZ_zero] at this
    have hp : 0 < (e + 1) * 2 ^ mw := Nat.mul_pos (by omega) (Nat.two_pow_pos mw)
    rw [hr] at h; omega
  rw [hr] at h ⊢
  rw [rndZ_of_nonneg hs] at h ⊢
  have hi : (e + 1) * 2 ^ mw ≤ rndIdx mw (s * 2 ^ fK mw ew) := by exact_mod_cast h
  have hg := magN_gap hi
  have hn := (rndIdx_nearest mw hs (rndIdx mw (s * 2 ^ fK mw ew) + 1)).1
  have hlt := rndIdx_lt_succ mw hs
  have e1 : ((rndIdx mw (s * 2 ^ fK mw ew) : ℤ) + 1) = ((rndIdx mw (s * 2 ^ fK mw ew) + 1 : Nat) : ℤ) := by push_cast; rfl
  rw [e1, valZ_nat]
  generalize rndIdx mw (s * 2 ^ fK mw ew) = i at *
  have hg' : (magN mw i : ℝ) + 2 ^ e ≤ magN mw (i + 1) := by exact_mod_cast hg
  rw [abs_of_neg (by linarith : s * 2 ^ fK mw ew - magN mw (i + 1) < 0)] at hn
  have hn' := (abs_le.1 hn).2
  have hpw : (0 : ℝ) < 2 ^ fK mw ew := by positivity
  rw [le_div_iff₀ hpw, add_mul, div_mul_cancel₀ _ hpw.ne']
  linarith

/-- The real value of `f64`'s `PI`. -/
noncomputable def P64 : ℝ := 7074237752028440 / 2 ^ 51

theorem f64_pi : (GFloat.pi : F64).isFin = true ∧ (GFloat.pi : F64).toReal = P64 := by
  have h : (GFloat.pi : F64) = ⟨0x400921FB54442D18#64⟩ := by decide +kernel
  refine ⟨by decide +kernel, ?_⟩
  rw [h, toReal_bits64 _ 2570638124657944 1 (by decide +kernel) (by decide +kernel) (by decide +kernel) (by decide +kernel)]
  unfold P64; norm_num

theorem P64_bounds : P64 < pi ∧ pi < P64 + (2 ^ 52)⁻¹ := by
  have hlo := Real.pi_gt_d20
  have hhi := Real.pi_lt_d20
  unfold P64
  constructor
  · norm_num; linarith
  · norm_num; linarith

theorem key_int64 (n : ℕ) (z : F64) (hz : z = ofRat 52 11 false n 1) : rndK 52 11 (n : ℝ) = z.key := by
  rw [hz, (ofRat_key false n 1 Nat.one_pos).2]; simp

/-- Adding `PI` to a float not below `-8/5` and stepping up once makes up for the error of `PI` and of the sum. -/
theorem pi_step {w : F64} (hw : w.isFin = true) (h : -(8 / 5) ≤ w.toReal) (hlt : rndK 52 11 (w.toReal + P64) < kInf 52 11) :
    w.toReal + P64 + (2 ^ 52)⁻¹ ≤ valZ 52 (rndK 52 11 (w.toReal + P64) + 1) / 2 ^ fK 52 11 := by
  have hP : (3141 / 1000 : ℝ) < P64 ∧ P64 < 3142 / 1000 := by
    unfold P64; constructor <;> norm_num
  have hK : fK 52 11 = 1023 + 51 := by decide
  have hK' : fK 52 11 = 1022 + 52 := by decide
  have k1 : rndK 52 11 1 = (((1022 + 1) * 2 ^ 52 : Nat) : ℤ) := by
    have := key_int64 1 _ rfl
    rw [Nat.cast_one] at this; rw [this]; decide +kernel
  have k2 : rndK 52 11 2 = (((1023 + 1) * 2 ^ 52 : Nat) : ℤ) := by
    have := key_int64 2 _ rfl
    rw [Nat.cast_ofNat] at this; rw [this]; decide +kernel
  rcases le_or_gt 2 (w.toReal + P64) with h2 | h2
  · have hk := rndK_mono 52 11 h2
    rw [k2] at hk
    refine le_trans (le_of_eq ?_) (rndK_step_half hk hlt)
    congr 1
    rw [hK, pow_add]; field_simp
  · have hk := rndK_mono 52 11 (show (1 : ℝ) ≤ w.toReal + P64 by linarith)
    rw [k1] at hk
    -- the sum is exact
    have hkw1 : w.key ≤ -(((1022 + 1) * 2 ^ 52 : Nat) : ℤ) := by
      have := rndK_mono 52 11 (show w.toReal ≤ -1 by linarith)
      rwa [rndK_toReal (notNaN_of_isFin hw), rndK_neg, k1] at this
    have hkw2 : -(((1023 + 1) * 2 ^ 52 : Nat) : ℤ) < w.key := by
      have h3 : rndK 52 11 (-2) ≤ w.key := by
        rw [← rndK_toReal (notNaN_of_isFin hw)]; exact rndK_mono 52 11 (by linarith)
      rw [rndK_neg, k2] at h3
      refine lt_of_le_of_ne h3 fun h4 => ?_
      have h5 : w.toReal = -2 := by
        have h6 := exact_of_repr (mw := 52) (ew := 11) (z := -(F64.lit 2)) (r := -2) ?_ ?_
        · rw [← h6.2, toReal_eq_iff, ← h4]; decide +kernel
        · refine Repr.neg (repr_of_mul_pow 1 (fK 52 11 + 1) (by norm_num) (by decide +kernel) ?_)
          rw [pow_succ]; push_cast; ring
        · rw [rndK_neg, k2]; decide +kernel
      linarith
    obtain ⟨m, hm, hmk⟩ : ∃ m : ℕ, m < 2 ^ 52 ∧ w.key = -(((1022 + 1) * 2 ^ 52 + m : Nat) : ℤ) := by
      refine ⟨(-w.key - ((1022 + 1) * 2 ^ 52 : Nat)).toNat, by omega, by omega⟩
    have hwv : w.toReal = -((2 ^ 52 + m : ℝ) * 2 ^ 1022) / 2 ^ fK 52 11 := by
      rw [toReal_eq_key, hmk, valZ_neg, valZ_nat, magN_block 52 1022 m hm.le]
      rw [Nat.cast_mul, Nat.cast_add, Nat.cast_pow, Nat.cast_pow, Nat.cast_ofNat]
    have hwv' : w.toReal = -(2 ^ 52 + m : ℝ) / 2 ^ 52 := by
      rw [hwv, hK', pow_add]; field_simp
    have hrep : Repr 52 11 (w.toReal + P64) := by
      have hm1 : m ≤ 9644875876686384 := by omega
      refine repr_of_mul_pow (9644875876686384 - m) 1022 ?_ ?_ ?_
      · have : ((9644875876686384 - m : ℕ) : ℝ) < (2 ^ 53 : ℕ) := by
          rw [Nat.cast_sub hm1]; push_cast
          rw [hwv'] at h2; unfold P64 at h2
          have h3 : (-(2 ^ 52 + m : ℝ) / 2 ^ 52 + 7074237752028440 / 2 ^ 51) * 2 ^ 52 < 2 * 2 ^ 52 :=
            mul_lt_mul_of_pos_right h2 (by positivity)
          have h4 : (-(2 ^ 52 + m : ℝ) / 2 ^ 52 + 7074237752028440 / 2 ^ 51) * 2 ^ 52 = 9644875876686384 - m := by
            field_simp; ring
          rw [h4] at h3; norm_num at h3 ⊢; linarith
        exact (by exact_mod_cast this : 9644875876686384 - m < 2 ^ 53).le
      · have : (9644875876686384 - m) * 2 ^ 1022 ≤ 9644875876686384 * 2 ^ 1022 := Nat.mul_le_mul_right _ (by omega)
        refine lt_of_le_of_lt this (by decide +kernel)
      · rw [Nat.cast_sub hm1, hwv', hK', pow_add]; unfold P64; push_cast; field_simp; ring
    obtain ⟨k, -, -, hk3⟩ := id hrep
    have hkk : rndK 52 11 (w.toReal + P64) = k := by
      obtain ⟨k', a1, a2, a3⟩ := hrep
      rw [← a3, rndK_valZ a1.le a2.le]
      have : valZ 52 k' = valZ 52 k := by
        rw [← hk3] at a3
        rwa [div_left_inj' (by positivity)] at a3
      exact (valZ_strictMono 52).injective this
    rw [hkk] at hk hlt ⊢
    rw [← hk3]
    obtain ⟨i, rfl⟩ := Int.eq_ofNat_of_zero_le (show 0 ≤ k by omega)
    have hi : (1022 + 1) * 2 ^ 52 ≤ i := by exact_mod_cast hk
    have hg := magN_gap hi
    have e1 : ((i : ℤ) + 1) = ((i + 1 : Nat) : ℤ) := by push_cast; rfl
    rw [e1, valZ_nat, valZ_nat]
    have hg' : (magN 52 i : ℝ) + 2 ^ 1022 ≤ magN 52 (i + 1) := by exact_mod_cast hg
    have hpw : (0 : ℝ) < 2 ^ fK 52 11 := by positivity
    rw [le_div_iff₀ hpw, add_mul, div_mul_cancel₀ _ hpw.ne']
    refine le_trans (le_of_eq ?_) hg'
    rw [hK', pow_add]; field_simp

theorem add_pi_upper {w : F64} {r : ℝ} (h : UpperOf w r) (hr : -(pi / 2) ≤ r) :
    UpperOf (GFloat.nextUp (w + (GFloat.pi : F64))) (r + pi) := by
  obtain ⟨p1, p2⟩ := f64_pi
  have hK := kInf_pos (mw := 52) (ew := 11)
  rcases key_cases h.1 with h1 | h1 | h1
  · exact absurd h1 h.key_ne_bot
  · obtain ⟨a, b⟩ := add_top_left h.1 (notNaN_of_isFin p1) h1 (by have := isFin_iff_key.1 p1; omega)
    have hu := nextUp_key a
    refine ⟨hu.1, ?_⟩
    rw [(val_top_iff hu.1).2 (by rw [hu.2, b]; omega)]; exact le_top
  · obtain ⟨a, b⟩ := add_fin h1 p1
    change (w + (GFloat.pi : F64)).isNaN = false at a
    change (w + (GFloat.pi : F64)).key = _ at b
    rw [p2] at b
    have hu := nextUp_key a
    have hw := (upperOf_fin h1).1 h
    refine ⟨hu.1, ?_⟩
    rcases lt_or_ge (rndK 52 11 (w.toReal + P64)) (kInf 52 11 - 1) with hlt | hge
    · have hs := pi_step h1 (by have := Real.pi_lt_d2; linarith) (by omega)
      have hf : (GFloat.nextUp (w + (GFloat.pi : F64))).isFin = true := by
        rw [isFin_iff_key, hu.2, b]; have := rndK_bounds 52 11 (w.toReal + P64); omega
      rw [val_of_isFin hf, EReal.coe_le_coe_iff, toReal_eq_key, hu.2, b,
        show min (rndK 52 11 (w.toReal + P64) + 1) (kInf 52 11) = rndK 52 11 (w.toReal + P64) + 1 by omega]
      have := P64_bounds.2
      linarith
    · rw [(val_top_iff hu.1).2 (by rw [hu.2, b]; omega)]; exact le_top

theorem neg_add_key {u v : F64} (hu : u.isFin = true) (hv : v.isFin = true) :
    (-u - v).isNaN = false ∧ (-u - v).key = -(u + v).key := by
  obtain ⟨a, b⟩ := sub_fin' (u := -u) (v := v) (by rw [isFin_negop]; exact hu) hv
  refine ⟨a, ?_⟩
  rw [b, toReal_negop, show (u + v).key = _ from (add_fin hu hv).2, ← rndK_neg]; congr 1; ring

theorem sub_pi_lower {w : F64} {r : ℝ} (h : LowerOf w r) (hr : r ≤ pi / 2) :
    LowerOf (GFloat.nextDown (w - (GFloat.pi : F64))) (r - pi) := by
  obtain ⟨p1, p2⟩ := f64_pi
  have hK := kInf_pos (mw := 52) (ew := 11)
  have h' := h.neg
  have hup := add_pi_upper h' (by linarith)
  rcases key_cases h.1 with h1 | h1 | h1
  · have hsub := add_bot_left (x := w) (y := -(GFloat.pi : F64)) h.1 (by rw [isNaN_negop]; exact notNaN_of_isFin p1) h1
      (by rw [key_negop]; have := isFin_iff_key.1 p1; omega)
    rw [← Flt.sub_eq_add_neg] at hsub
    have hd := nextDown_key hsub.1
    refine ⟨hd.1, ?_⟩
    rw [(val_bot_iff hd.1).2 (by rw [hd.2, hsub.2]; omega)]; exact bot_le
  · exact absurd h1 h.key_ne_top
  · have hnw : (-w).isFin = true := by rw [isFin_negop]; exact h1
    obtain ⟨a, b⟩ := neg_add_key hnw p1
    have e : -(-w) = w := Flt.neg_neg w
    rw [e] at a b
    have hd := nextDown_key a
    have hu := nextUp_key (show (-w + (GFloat.pi : F64)).isNaN = false from (add_fin hnw p1).1)
    have hneg : (-(GFloat.nextUp (-w + (GFloat.pi : F64)))).isNaN = false := by rw [isNaN_negop]; exact hu.1
    have hl := hup.neg
    refine ⟨hd.1, le_trans ((val_le_iff hd.1 hneg).2 ?_) (by have := hl.2; rwa [show -(-r + pi) = r - pi by ring] at this)⟩
    rw [hd.2, b, key_negop, hu.2]; omega

section
variable [Libm 52 11] [LawfulLibm 52 11]

theorem pi2_fin : (GFloat.fracPi2Upper : F64).isFin = true := by decide +kernel

/-- C25 (partial), `asin` and `acos` for `f64`: enclosure for every `x ≥ 0`.  Missing: negative `x`, refuted. -/
theorem C25_asin_acos_f64_partial (A : Interval F64) (x : ℝ) (hx : x ∈ A) (hf : Interval.Finite A) (h1 : -1 ≤ A.inf.toReal)
    (h2 : A.sup.toReal ≤ 1) (h0 : 0 ≤ x) : arcsin x ∈ Interval.asin A ∧ arccos x ∈ Interval.acos A := by
  have hc := (upperOf_fin pi2_fin).1 C10_f64.2.2.1.2
  rw [C25_asin_partial pi2_fin A x hx hf h1 h2, C25_acos_partial pi2_fin A x hx hf h1 h2]
  exact ⟨⟨h0, (Real.arcsin_le_pi_div_two x).trans hc⟩, (Real.arccos_le_pi_div_two.2 h0).trans hc⟩

theorem negOf {u : F64} {r : ℝ} (h : UpperOf u r) {q : ℝ} (hq : -r ≤ q) : LowerOf (-u) q := h.neg.mono hq

theorem new_noNaN {a b : Flt mw ew} (ha : a.isNaN = false) (hb : b.isNaN = false) : NoNaN (new a b) := ⟨ha, hb⟩

theorem atan2_base (n : Nat) (Y X : Interval F64) (y x : ℝ) (hy : y ∈ Y) (hx : x ∈ X) (hne : x ≠ 0 ∨ y ≠ 0)
    (hX : 0 ≤ X.inf.key ∨ X.sup.key ≤ 0) (hz : ¬ Scalar.isZero X = true ∧ ¬ Scalar.isZero Y = true) :
    atan2R y x ∈ atan2Fuel (n + 1) Y X := by
  obtain ⟨⟨c1, c2⟩, -, ⟨c3, c4⟩, -⟩ := C10_f64
  have hpp := Real.pi_pos
  by_cases hXp : 0 ≤ X.inf.key
  · rw [atan2_right n pi2_fin Y X y x hy hx hne hXp hz]
    have hx0 := mem_key_nonneg hx hXp
    exact (Complex.abs_arg_le_pi_div_two_iff.2 hx0).trans ((upperOf_fin pi2_fin).1 c4)
  · have hXn : X.sup.key ≤ 0 := hX.resolve_left hXp
    have hx0 := mem_key_nonpos hx hXn
    rw [atan2_unfold, if_neg (by simpa using hz), if_neg (by rw [isNonnegative_iff]; omega),
      if_pos (isNonpositive_iff.2 ⟨hx.2.1, hXn⟩)]
    by_cases hYp : isNonnegative Y = true
    · rw [if_pos hYp]
      have hy0 := mem_key_nonneg hy (isNonnegative_iff.1 hYp).2
      -- the arctangent part `q` with `atan2 = q + π`
      obtain ⟨q, hq, hq1, e⟩ : ∃ q, q ∈ mapMonotonicInc (Y / X) (GTrig.atan : F64 → F64) ∧ -(pi / 2) ≤ q ∧ atan2R y x = q + pi := by
        rcases eq_or_lt_of_le hx0 with h | h
        · subst h
          have hy1 : 0 < y := lt_of_le_of_ne hy0 (by rcases hne with h | h; exacts [absurd rfl h, h.symm])
          exact ⟨-(pi / 2), atan_whole (C14_div_by_zero Y X hx) le_rfl (by linarith), le_rfl, by rw [atan2R_zero_pos hy1]; ring⟩
        · exact ⟨arctan (y / x), C25_atan _ _ (C14_div Y X y x hy hx h.ne), (Real.neg_pi_div_two_lt_arctan _).le,
            atan2R_of_neg_nonneg h hy0⟩
      have hsum : atan2R y x ∈ mapMonotonicInc (Y / X) (GTrig.atan : F64 → F64) + (GFloat.pi : F64) := by
        refine ⟨?_, ?_⟩
        · have := (C11_add_scalar _ GFloat.pi q hq f64_pi.1).1
          refine this.mono ?_
          rw [e, f64_pi.2]; linarith [P64_bounds.1]
        · rw [e]; exact add_pi_upper hq.2 hq1
      rw [C18_intersect _ _ (noNaN_of_mem hsum) (new_noNaN c3.1 c2.1)]
      refine ⟨hsum, c3.mono ?_, c2.mono (atan2R_le_pi y x)⟩
      rw [e]; linarith
    · rw [if_neg hYp]
      by_cases hYn : isNegative Y = true
      · rw [if_pos hYn]
        have hy0 := mem_key_neg hy (isNegative_iff.1 hYn).2
        obtain ⟨q, hq, hq1, e⟩ : ∃ q, q ∈ mapMonotonicInc (Y / X) (GTrig.atan : F64 → F64) ∧ q ≤ pi / 2 ∧ atan2R y x = q - pi := by
          rcases eq_or_lt_of_le hx0 with h | h
          · subst h
            exact ⟨pi / 2, atan_whole (C14_div_by_zero Y X hx) (by linarith) le_rfl, le_rfl, by rw [atan2R_zero_neg hy0]; ring⟩
          · exact ⟨arctan (y / x), C25_atan _ _ (C14_div Y X y x hy hx h.ne), (Real.arctan_lt_pi_div_two _).le,
              atan2R_of_neg_neg h hy0⟩
        have hsum : atan2R y x ∈ mapMonotonicInc (Y / X) (GTrig.atan : F64 → F64) - (GFloat.pi : F64) := by
          refine ⟨?_, ?_⟩
          · rw [e]; exact sub_pi_lower hq.1 hq1
          · have := (C11_sub_scalar _ GFloat.pi q hq f64_pi.1).2
            refine this.mono ?_
            rw [e, f64_pi.2]; linarith [P64_bounds.1]
        rw [C18_intersect _ _ (noNaN_of_mem hsum) (new_noNaN c2.neg.1 c3.neg.1)]
        refine ⟨hsum, negOf c2 (neg_pi_lt_atan2R y x).le, c3.neg.mono ?_⟩
        rw [e]; linarith
      · rw [if_neg hYn]
        exact ⟨negOf c2 (neg_pi_lt_atan2R y x).le, c2.mono (atan2R_le_pi y x)⟩

/-- C25 (partial), `atan2` for `f64`, all quadrants, infinite bounds included: for `(x,y)` not the origin and neither
interval exactly zero.  Missing: an interval that is exactly zero, where the code returns `[0,0]` (refuted below). -/
theorem C25_atan2_f64_partial (Y X : Interval F64) (y x : ℝ) (hy : y ∈ Y) (hx : x ∈ X) (hne : x ≠ 0 ∨ y ≠ 0)
    (hz : ¬ (∀ r : ℝ, r ∈ X → r = 0) ∧ ¬ (∀ r : ℝ, r ∈ Y → r = 0)) :
    atan2R y x ∈ Interval.atan2 Y X := by
  have key0 : ∀ A : Interval F64, Scalar.isZero A = true → ∀ r : ℝ, r ∈ A → r = 0 := by
    intro A h
    obtain ⟨-, h1, h2⟩ := isZeroI_iff.1 h
    exact fun r hr => le_antisymm (mem_key_nonpos hr (by omega)) (mem_key_nonneg hr (by omega))
  have hzX : ¬ Scalar.isZero X = true := fun h => hz.1 (key0 X h)
  have hzY : ¬ Scalar.isZero Y = true := fun h => hz.2 (key0 Y h)
  unfold Interval.atan2
  by_cases hX : 0 ≤ X.inf.key ∨ X.sup.key ≤ 0
  · exact atan2_base 1 Y X y x hy hx hne hX ⟨hzX, hzY⟩
  · rw [not_or, not_le, not_le] at hX
    rw [atan2_unfold, if_neg (by rw [Bool.or_eq_true]; exact fun h => h.elim hzX hzY), if_neg (by rw [isNonnegative_iff]; omega),
      if_neg (by rw [isNonpositive_iff]; omega)]
    -- both halves have non-NaN bounds
    have hm0 : (0 : ℝ) ∈ X := ⟨⟨hx.1.1, by exact_mod_cast ((val_nonpos_iff hx.1.1).2 hX.1.le)⟩,
      ⟨hx.2.1, by exact_mod_cast ((val_nonneg_iff hx.2.1).2 hX.2.le)⟩⟩
    have z0l : LowerOf (Scalar.zero : F64) 0 := (lowerOf_fin isFin_szero).2 (by rw [toReal_szero])
    have z0u : UpperOf (Scalar.zero : F64) 0 := (upperOf_fin isFin_szero).2 (by rw [toReal_szero])
    have nzL : ¬ Scalar.isZero (new X.inf Scalar.zero) = true := by
      rw [isZeroI_iff]; rintro ⟨-, h1, -⟩; exact absurd h1 (by change X.inf.key ≠ 0; omega)
    have nzR : ¬ Scalar.isZero (new Scalar.zero X.sup) = true := by
      rw [isZeroI_iff]; rintro ⟨-, -, h1⟩; exact absurd h1 (by change X.sup.key ≠ 0; omega)
    have hL : ∀ x' y' : ℝ, x' ∈ X → x' ≤ 0 → y' ∈ Y → (x' ≠ 0 ∨ y' ≠ 0) → atan2R y' x' ∈ atan2Fuel 1 Y (new X.inf Scalar.zero) := by
      intro x' y' hx' h0 hy' hne'
      refine atan2_base 0 Y _ y' x' hy' ⟨hx'.1, z0u.mono h0⟩ hne' (Or.inr (by change (Scalar.zero : F64).key ≤ 0; rw [key_szero])) ⟨nzL, hzY⟩
    have hR : ∀ x' y' : ℝ, x' ∈ X → 0 ≤ x' → y' ∈ Y → (x' ≠ 0 ∨ y' ≠ 0) → atan2R y' x' ∈ atan2Fuel 1 Y (new Scalar.zero X.sup) := by
      intro x' y' hx' h0 hy' hne'
      refine atan2_base 0 Y _ y' x' hy' ⟨z0l.mono h0, hx'.2⟩ hne' (Or.inl (by change 0 ≤ (Scalar.zero : F64).key; rw [key_szero])) ⟨nzR, hzY⟩
    obtain ⟨y1, hy1, hy1n⟩ : ∃ y1 : ℝ, y1 ∈ Y ∧ y1 ≠ 0 := by
      by_contra hc; push Not at hc; exact hz.2 hc
    have nL := noNaN_of_mem (hL 0 y1 hm0 le_rfl hy1 (Or.inr hy1n))
    have nR := noNaN_of_mem (hR 0 y1 hm0 le_rfl hy1 (Or.inr hy1n))
    refine (C18_union _ _ nL nR).1 _ ?_
    rcases le_total x 0 with h | h
    · exact Or.inl (hL x y hx h hy hne)
    · exact Or.inr (hR x y hx h hy hne)

end

/-! refutations, for every format with a finite `frac_pi_2_upper < π` -/

section
variable [Libm mw ew] [LawfulLibm mw ew]

theorem mem_point {u : Flt mw ew} (h : u.isFin = true) : u.toReal ∈ (⟨u, u⟩ : Interval (Flt mw ew)) :=
  ⟨LowerOf.of_fin h, UpperOf.of_fin h⟩

/-- C25 is false for `asin` and `acos` of negative numbers: `asin(-1) = -π/2` is not in `[-1,-1].asin()` and
`acos(-1) = π` is not in `[-1,-1].acos()`. -/
theorem C25_refuted_asin_acos (hfin : (GFloat.fracPi2Upper : Flt mw ew).isFin = true)
    (hpi : (GFloat.fracPi2Upper : Flt mw ew).toReal < pi) :
    (¬ ∀ (A : Interval (Flt mw ew)) (x : ℝ), x ∈ A → Interval.Finite A → -1 ≤ A.inf.toReal → A.sup.toReal ≤ 1 →
      arcsin x ∈ Interval.asin A) ∧
    (¬ ∀ (A : Interval (Flt mw ew)) (x : ℝ), x ∈ A → Interval.Finite A → -1 ≤ A.inf.toReal → A.sup.toReal ≤ 1 →
      arccos x ∈ Interval.acos A) := by
  have hf : (-(Scalar.one : Flt mw ew)).isFin = true := by rw [isFin_negop]; exact sone_spec.1
  have hv : (-(Scalar.one : Flt mw ew)).toReal = -1 := by rw [toReal_negop, sone_spec.2]
  have hm := mem_point hf
  rw [hv] at hm
  constructor
  · intro h
    have := h _ _ hm ⟨hf, hf⟩ (by rw [hv]) (by rw [hv]; norm_num)
    rw [C25_asin_partial hfin _ _ hm ⟨hf, hf⟩ (by rw [hv]) (by rw [hv]; norm_num)] at this
    linarith [this.1]
  · intro h
    have := h _ _ hm ⟨hf, hf⟩ (by rw [hv]) (by rw [hv]; norm_num)
    rw [C25_acos_partial hfin _ _ hm ⟨hf, hf⟩ (by rw [hv]) (by rw [hv]; norm_num), Real.arccos_neg_one] at this
    linarith

/-- C25 is false for `atan2` when `x` or `y` is exactly zero: `atan2(1,0) = π/2` and `atan2(0,-1) = π`, but both results
are `[0,0]`. -/
theorem C25_refuted_atan2 :
    (¬ ∀ (Y X : Interval (Flt mw ew)) (y x : ℝ), y ∈ Y → x ∈ X → y ≠ 0 → atan2R y x ∈ Interval.atan2 Y X) ∧
    (¬ ∀ (Y X : Interval (Flt mw ew)) (y x : ℝ), y ∈ Y → x ∈ X → x ≠ 0 → atan2R y x ∈ Interval.atan2 Y X) := by
  have h1 := mem_point (sone_spec (mw := mw) (ew := ew)).1
  have h0 := mem_point (isFin_szero (mw := mw) (ew := ew))
  have hf : (-(Scalar.one : Flt mw ew)).isFin = true := by rw [isFin_negop]; exact sone_spec.1
  have hm := mem_point hf
  rw [toReal_negop, sone_spec.2] at hm
  rw [sone_spec.2] at h1; rw [toReal_szero] at h0
  have hz : Scalar.isZero (⟨Scalar.zero, Scalar.zero⟩ : Interval (Flt mw ew)) = true :=
    isZeroI_iff.2 ⟨⟨szero_notNaN, szero_notNaN⟩, key_szero, key_szero⟩
  have res : ∀ r : ℝ, r ∈ (Scalar.zero : Interval (Flt mw ew)) → r ≤ 0 := by
    intro r hr
    have := (upperOf_fin (isFin_szero (mw := mw) (ew := ew))).1 hr.2
    rwa [toReal_szero] at this
  have hpp := Real.pi_pos
  constructor
  · intro h
    have := h _ _ 1 0 h1 h0 one_ne_zero
    unfold Interval.atan2 at this
    rw [atan2_unfold, hz, Bool.true_or, if_pos rfl, atan2R_zero_pos one_pos] at this
    linarith [res _ this]
  · intro h
    have := h _ _ 0 (-1) h0 hm (by norm_num)
    unfold Interval.atan2 at this
    rw [atan2_unfold, hz, Bool.or_true, if_pos rfl, atan2R_zero_left (by norm_num)] at this
    linarith [res _ this]

end

/-- C25 is false for `f32` `atan2` also away from exact zeros: `[-1,1].atan2([-1,-1])` does not contain
`atan2(0,-1) = π`, because `pi_upper` is below `π`. -/
theorem C25_refuted_atan2_f32 [Libm 23 8] [LawfulLibm 23 8] :
    ¬ ∀ (Y X : Interval F32) (y x : ℝ), y ∈ Y → x ∈ X → x ≠ 0 →
      ¬ (∀ r : ℝ, r ∈ X → r = 0) ∧ ¬ (∀ r : ℝ, r ∈ Y → r = 0) → atan2R y x ∈ Interval.atan2 Y X := by
  intro h
  have hf : (-(Scalar.one : F32)).isFin = true := by rw [isFin_negop]; exact sone_spec.1
  have hv : (-(Scalar.one : F32)).toReal = -1 := by rw [toReal_negop, sone_spec.2]
  have hm := mem_point hf
  rw [hv] at hm
  have hy : ∀ r : ℝ, -1 ≤ r → r ≤ 1 → r ∈ (⟨-Scalar.one, Scalar.one⟩ : Interval F32) := fun r a b =>
    ⟨neg_one_lower a, one_upper b⟩
  have := h ⟨-Scalar.one, Scalar.one⟩ _ 0 (-1) (hy 0 (by norm_num) (by norm_num)) hm (by norm_num)
    ⟨fun hr => by have := hr _ hm; norm_num at this, fun hr => by have := hr 1 (hy 1 (by norm_num) le_rfl); norm_num at this⟩
  rw [atan2R_zero_left (by norm_num)] at this
  unfold Interval.atan2 at this
  rw [atan2_unfold, if_neg (by decide +kernel), if_neg (by decide +kernel), if_pos (by decide +kernel), if_neg (by decide +kernel),
    if_neg (by decide +kernel)] at this
  exact C10_f32_upper_wrong.1 this.2

/-- Concrete cases: the `f64` constants meet the refutation's hypotheses, and `[-1,1]`, `[-2,3]` with the point `(-1, 1/2)`
meet those of `C25_atan2_f64_partial`. -/
example : (∃ L : Libm 52 11, @LawfulLibm 52 11 _ L) ∧ (GFloat.fracPi2Upper : F64).isFin = true ∧
    (GFloat.fracPi2Upper : F64).toReal < pi ∧ (1 / 2 : ℝ) ∈ (⟨-Scalar.one, Scalar.one⟩ : Interval F64) := by
  refine ⟨lawfulLibm_exists 52 11, by decide +kernel, ?_, neg_one_lower (by norm_num), one_upper (by norm_num)⟩
  obtain ⟨-, -, a6, -, -⟩ := f64_consts
  rw [a6, toReal_bits64 _ 2570638124657945 0 (by decide +kernel) (by decide +kernel) (by decide +kernel) (by decide +kernel)]
  have := Real.pi_gt_three
  norm_num; linarith

end Scarlet
