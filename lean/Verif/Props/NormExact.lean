import Verif.Props.RootIter
import Verif.Props.Camera4
import Verif.Props.Transform4

/-! C162: a float vector's norm is at least every component, and `normalize` stays in `[-1, 1]`, without tolerance. -/

set_option linter.unusedSectionVars false

namespace Scarlet
open Flt

/-! ### squaring and taking the root again, on magnitude bits -/

section idx
variable {mw ew : Nat}

/-- the gap above magnitude bits `j` is more than `u` times the value -/
theorem gap_up (j : Nat) : uRnd mw * magV mw ew j < magV mw ew (j + 1) - magV mw ew j := by
  have hp : (0 : ℝ) < 2 ^ fK mw ew := by positivity
  have key : uRnd mw * (magN mw j : ℝ) < magN mw (j + 1) - magN mw j := by
    unfold uRnd
    rw [div_mul_eq_mul_div, one_mul, div_lt_iff₀ (by positivity)]
    rcases idx_cases mw j with h | ⟨e, m, hm, rfl⟩
    · have g : magN mw (j + 1) = magN mw j + 1 := by
        rcases Nat.lt_or_ge (j + 1) (2 ^ mw) with h' | h'
        · rw [magN_of_lt h, magN_of_lt h']
        · have e1 : j + 1 = (0 + 1) * 2 ^ mw + 0 := by omega
          rw [e1, magN_block mw 0 0 (Nat.zero_le _), magN_of_lt h]; omega
      rw [g, magN_of_lt h]
      push_cast
      have h' : (j : ℝ) < 2 ^ mw := by exact_mod_cast h
      rw [pow_succ (2 : ℝ) mw]; nlinarith [show (0 : ℝ) < 2 ^ mw by positivity]
    · rw [Nat.add_assoc, magN_block mw e m hm.le, magN_block mw e (m + 1) hm]
      push_cast
      have h' : (m : ℝ) < 2 ^ mw := by exact_mod_cast hm
      have : (0 : ℝ) < 2 ^ e := by positivity
      rw [pow_succ (2 : ℝ) mw]; nlinarith
  unfold magV
  rw [← sub_div, ← mul_div_assoc]
  exact (div_lt_div_iff_of_pos_right hp).2 key

/-- magnitude bits that are not a power of two: the gap below satisfies the two bounds used below -/
theorem gap_down {j : Nat} (h0 : 0 < j) (hb : ∀ e, j ≠ (e + 1) * 2 ^ mw) :
    uRnd mw * magV mw ew j * magV mw ew j + (magV mw ew j - magV mw ew (j - 1)) ^ 2 / 4 <
      magV mw ew j * (magV mw ew j - magV mw ew (j - 1)) := by
  have hp : (0 : ℝ) < 2 ^ fK mw ew := by positivity
  have hP : (0 : ℝ) < 2 ^ mw := by positivity
  have key : (magN mw j : ℝ) * magN mw j + ((magN mw j : ℝ) - magN mw (j - 1)) ^ 2 / 4 * 2 ^ (mw + 1) <
      (magN mw j : ℝ) * (magN mw j - magN mw (j - 1)) * 2 ^ (mw + 1) := by
    rcases idx_cases mw j with h | ⟨e, m, hm, rfl⟩
    · rw [magN_of_lt h, magN_of_lt (show j - 1 < 2 ^ mw by omega)]
      rw [Nat.cast_sub (by omega)]
      have h' : (j : ℝ) + 1 ≤ 2 ^ mw := by exact_mod_cast h
      have h1 : (1 : ℝ) ≤ j := by exact_mod_cast h0
      rw [pow_succ (2 : ℝ) mw]; push_cast
      nlinarith
    · have hm0 : 0 < m := Nat.pos_of_ne_zero fun h => hb e (by omega)
      have e1 : (e + 1) * 2 ^ mw + m - 1 = (e + 1) * 2 ^ mw + (m - 1) := by omega
      rw [e1, magN_block mw e m hm.le, magN_block mw e (m - 1) (by omega)]
      rw [Nat.cast_mul, Nat.cast_mul, Nat.cast_add, Nat.cast_add, Nat.cast_sub (by omega)]
      push_cast
      have h' : (m : ℝ) + 1 ≤ 2 ^ mw := by exact_mod_cast hm
      have h1 : (1 : ℝ) ≤ m := by exact_mod_cast hm0
      have hE : (0 : ℝ) < 2 ^ e := by positivity
      have d : ((2 : ℝ) ^ mw + m) * 2 ^ e - (2 ^ mw + (m - 1)) * 2 ^ e = 2 ^ e := by ring
      rw [d, pow_succ (2 : ℝ) mw]
      have q : ((2 : ℝ) ^ mw + m) * ((2 : ℝ) ^ mw + m) + 1 / 4 * (2 ^ mw * 2) < (2 ^ mw + m) * (2 ^ mw * 2) := by nlinarith
      have := mul_lt_mul_of_pos_right q (by positivity : (0 : ℝ) < 2 ^ e * 2 ^ e)
      nlinarith
  unfold magV uRnd
  have hK2 : (0 : ℝ) < 2 ^ fK mw ew * 2 ^ fK mw ew * 2 ^ (mw + 1) := by positivity
  rw [← sub_div]
  refine lt_of_mul_lt_mul_right (a := 2 ^ fK mw ew * 2 ^ fK mw ew * 2 ^ (mw + 1)) ?_ hK2.le
  have l : (1 / 2 ^ (mw + 1) * ((magN mw j : ℝ) / 2 ^ fK mw ew) * ((magN mw j : ℝ) / 2 ^ fK mw ew) +
      (((magN mw j : ℝ) - magN mw (j - 1)) / 2 ^ fK mw ew) ^ 2 / 4) * (2 ^ fK mw ew * 2 ^ fK mw ew * 2 ^ (mw + 1)) =
      (magN mw j : ℝ) * magN mw j + ((magN mw j : ℝ) - magN mw (j - 1)) ^ 2 / 4 * 2 ^ (mw + 1) := by
    field_simp
  have r : (magN mw j : ℝ) / 2 ^ fK mw ew * (((magN mw j : ℝ) - magN mw (j - 1)) / 2 ^ fK mw ew) *
      (2 ^ fK mw ew * 2 ^ fK mw ew * 2 ^ (mw + 1)) =
      (magN mw j : ℝ) * (magN mw j - magN mw (j - 1)) * 2 ^ (mw + 1) := by field_simp
  rw [l, r]; exact key

/-- a value within `u` of the square of `j`, exactly the square for powers of two, has root `j` -/
theorem sqIdx_of_sq {j q : Nat} (h0 : 0 < j)
    (h : |magV mw ew q - magV mw ew j * magV mw ew j| ≤ uRnd mw * (magV mw ew j * magV mw ew j))
    (hb : (∃ e, j = (e + 1) * 2 ^ mw) → magV mw ew q = magV mw ew j * magV mw ew j) : sqIdx mw ew q = j := by
  obtain ⟨h1, h2⟩ := abs_le.1 h
  have hX := magV_pos (mw := mw) (ew := ew) h0
  have hq : 0 ≤ magV mw ew q := by unfold magV; positivity
  refine le_antisymm (sqIdx_le_of ?_) ?_
  · have g := gap_up (mw := mw) (ew := ew) j
    have hpos : 0 < magV mw ew j + magV mw ew (j + 1) := by nlinarith [magV_pos (mw := mw) (ew := ew) (Nat.succ_pos j)]
    have : Real.sqrt (magV mw ew q) < (magV mw ew j + magV mw ew (j + 1)) / 2 := by
      rw [Real.sqrt_lt' (by linarith)]
      nlinarith [mul_lt_mul_of_pos_left g hX, sq_nonneg (magV mw ew (j + 1) - magV mw ew j)]
    linarith
  · obtain ⟨i, rfl⟩ : ∃ i, j = i + 1 := ⟨j - 1, by omega⟩
    refine le_sqIdx_of ?_
    by_cases hc : ∃ e, i + 1 = (e + 1) * 2 ^ mw
    · rw [hb hc, Real.sqrt_mul_self hX.le]
      have := (magV_lt (mw := mw) (ew := ew)).2 (Nat.lt_succ_self i)
      linarith
    · push Not at hc
      have g := gap_down (mw := mw) (ew := ew) h0 hc
      rw [Nat.add_sub_cancel] at g
      have hi : 0 ≤ magV mw ew i := by unfold magV; positivity
      have : (magV mw ew i + magV mw ew (i + 1)) / 2 < Real.sqrt (magV mw ew q) := by
        rw [Real.lt_sqrt (by linarith)]
        nlinarith
      linarith

end idx

section flt
variable {mw ew : Nat} [FltImpl mw ew] [LawfulFlt mw ew]

theorem toReal_pos_mag {x : Flt mw ew} (h : 0 ≤ x.key) : x.toReal = magV mw ew x.key.toNat := by
  rw [toReal_eq_key]
  unfold magV
  conv_lhs => rw [← Int.toNat_of_nonneg h]
  rw [valZ_nat]

/-- the exact square of `x` is at least the smallest normal number (`MIN_POSITIVE`): for `f32`, `|x| ≥ 2⁻⁶³ ≈ 1.1e-19` -/
def NormalSq (x : Flt mw ew) : Prop := (minNormal mw ew).toReal ≤ x.toReal * x.toReal

theorem normalSq_eta {x : Flt mw ew} (h : NormalSq x) : etaRnd mw ew ≤ uRnd mw * (x.toReal * x.toReal) := by
  have hF : Fmt mw ew := inferInstance
  have hi : 2 ^ mw < 2 ^ (mw + ew) := Nat.pow_lt_pow_right (by norm_num) (by have := hF.hew; omega)
  have e : (minNormal mw ew).toReal = 2 ^ mw / 2 ^ fK mw ew := by
    have k : (minNormal mw ew).key = ((2 ^ mw : ℕ) : ℤ) := by
      unfold minNormal key; rw [sgn_ofIdx hi, idx_ofIdx hi]; simp
    rw [toReal_eq_key, k, valZ_nat, show 2 ^ mw = (0 + 1) * 2 ^ mw + 0 by omega, magN_block mw 0 0 (Nat.zero_le _)]
    push_cast; simp
  unfold NormalSq at h
  rw [e] at h
  have : etaRnd mw ew = uRnd mw * (2 ^ mw / 2 ^ fK mw ew) := by
    unfold etaRnd uRnd; rw [pow_succ, pow_succ]; field_simp
  rw [this]
  exact mul_le_mul_of_nonneg_left h uRnd_pos.le

/-- **C162**: the square root of a float's square is the float's magnitude, exactly — as long as the square is not
below the normal range and does not overflow. -/
theorem C162_sq_sqrt (hm : 10 ≤ mw) (hw : mw + 3 ≤ 2 ^ (ew - 1)) {x : Flt mw ew} (hx : x.isFin = true)
    (hy : (Scalar.square x).isFin = true) (hN : NormalSq x) :
    (GFloat.sqrt (Scalar.square x)).isFin = true ∧ (GFloat.sqrt (Scalar.square x)).key = |x.key| := by
  have hn := normalSq_eta hN
  have he : 0 < etaRnd mw ew := by unfold etaRnd; positivity
  have hu := uRnd_pos (mw := mw)
  have hX2 : 0 < x.toReal * x.toReal := by by_contra hc; nlinarith
  have hk0 : x.key ≠ 0 := fun h => by rw [toReal_eq_zero_iff.2 h] at hX2; simp at hX2
  have habs : |x.toReal| = magV mw ew x.key.natAbs := by
    rw [← toReal_iabs, toReal_pos_mag (by rw [key_iabs]; exact abs_nonneg _), key_iabs, Int.abs_eq_natAbs, Int.toNat_natCast]
  have hsq : x.toReal * x.toReal = magV mw ew x.key.natAbs * magV mw ew x.key.natAbs := by
    rw [← habs, abs_mul_abs_self]
  have hj0 : 0 < x.key.natAbs := Int.natAbs_pos.2 hk0
  have hyk : (Scalar.square x : Flt mw ew).key = rndK mw ew (x.toReal * x.toReal) := by
    show (x * x).key = _
    rw [mul_def]; exact (mul_fin hx hx).2
  have err := err_of_key hy hyk
  rw [abs_of_pos hX2, max_eq_right hn] at err
  have hy0 : 0 < (Scalar.square x : Flt mw ew).key := by
    rw [← toReal_pos_iff]
    have := (abs_le.1 err).1
    have hs := u_small hm
    nlinarith
  have hyr := toReal_pos_mag hy0.le
  rw [hyr] at err
  rw [hsq] at err
  have main : sqIdx mw ew (Scalar.square x : Flt mw ew).key.toNat = x.key.natAbs := by
    refine sqIdx_of_sq hj0 err ?_
    rintro ⟨e, hj⟩
    -- the square of a power of two is a float
    have hM : magV mw ew x.key.natAbs = 2 ^ (mw + e) / 2 ^ fK mw ew := by
      unfold magV
      rw [hj, show (e + 1) * 2 ^ mw = (e + 1) * 2 ^ mw + 0 from rfl, magN_block mw e 0 (Nat.zero_le _)]
      push_cast; rw [add_zero, pow_add]
    have hE : fK mw ew ≤ mw + 2 * e := by
      rw [hsq, hM] at hn
      unfold etaRnd uRnd at hn
      have hn' : (2 : ℝ) ^ (mw + 1) * (2 ^ fK mw ew * 2 ^ fK mw ew) ≤ 2 ^ (fK mw ew + 1) * (2 ^ (mw + e) * 2 ^ (mw + e)) := by
        rw [div_mul_div_comm, div_mul_div_comm, div_le_div_iff₀ (by positivity) (by positivity)] at hn
        linarith
      rw [← pow_add, ← pow_add, ← pow_add, ← pow_add] at hn'
      have := (pow_le_pow_iff_right₀ (by norm_num : (1 : ℝ) < 2)).1 hn'
      omega
    obtain ⟨E, hE'⟩ : ∃ E, mw + 2 * e = fK mw ew + E := ⟨mw + 2 * e - fK mw ew, by omega⟩
    set q := (E + 1) * 2 ^ mw with hq
    have hV : magV mw ew q = magV mw ew x.key.natAbs * magV mw ew x.key.natAbs := by
      rw [hM]
      unfold magV
      rw [hq, show (E + 1) * 2 ^ mw = (E + 1) * 2 ^ mw + 0 from rfl, magN_block mw E 0 (Nat.zero_le _)]
      push_cast
      rw [add_zero, div_mul_div_comm, div_eq_div_iff (by positivity) (by positivity)]
      rw [← pow_add, ← pow_add, ← pow_add, ← pow_add, ← pow_add]
      congr 1
      omega
    have hkq : (Scalar.square x : Flt mw ew).key = rndK mw ew (valZ mw (q : ℤ) / 2 ^ fK mw ew) := by
      rw [hyk, hsq, ← hV, valZ_nat]; rfl
    have hfin := isFin_iff_key.1 hy
    have hKp := kInf_pos (mw := mw) (ew := ew)
    have hle : (q : ℤ) ≤ kInf mw ew := by
      by_contra hc
      have hge : rndK mw ew (valZ mw (kInf mw ew) / 2 ^ fK mw ew) ≤ rndK mw ew (valZ mw (q : ℤ) / 2 ^ fK mw ew) := by
        refine rndK_mono mw ew ?_
        have : valZ mw (kInf mw ew) ≤ valZ mw (q : ℤ) := (valZ_strictMono mw).monotone (by omega)
        gcongr
      rw [rndK_valZ (by omega) le_rfl] at hge
      omega
    rw [rndK_valZ (by omega) hle] at hkq
    rw [hkq, Int.toNat_natCast]
    exact hV
  have s := sqrt_idx hm hw hy hy0
  refine ⟨s.1, ?_⟩
  rw [s.2.1, main, Int.abs_eq_natAbs]

/-! ### sums of squares -/

theorem add_nn {a b : Flt mw ew} (ha : a.isNaN = false) (hb : b.isNaN = false) (ka : 0 ≤ a.key) (kb : 0 ≤ b.key) :
    (a + b).isNaN = false ∧ a.key ≤ (a + b).key ∧ b.key ≤ (a + b).key := by
  have hK := kInf_pos (mw := mw) (ew := ew)
  have ba := key_bounds ha
  have bb := key_bounds hb
  by_cases ia : a.key = kInf mw ew
  · have := add_top_left ha hb ia (by omega)
    exact ⟨this.1, by omega, by omega⟩
  by_cases ib : b.key = kInf mw ew
  · have := add_top_right ha hb ib (by omega)
    exact ⟨this.1, by omega, by omega⟩
  have h := add_fin (isFin_iff_key.2 ⟨by omega, by omega⟩ : a.isFin = true) (isFin_iff_key.2 ⟨by omega, by omega⟩ : b.isFin = true)
  rw [← add_def] at h
  refine ⟨h.1, ?_, ?_⟩
  · rw [h.2, ← rndK_toReal ha]
    exact rndK_mono mw ew (by have := toReal_nonneg_iff.2 kb; linarith)
  · rw [h.2, ← rndK_toReal hb]
    exact rndK_mono mw ew (by have := toReal_nonneg_iff.2 ka; linarith)

theorem sq_nn {x : Flt mw ew} (hx : x.isFin = true) :
    (Scalar.square x : Flt mw ew).isNaN = false ∧ 0 ≤ (Scalar.square x : Flt mw ew).key := by
  have h := mul_fin hx hx
  rw [← mul_def] at h
  refine ⟨h.1, ?_⟩
  show 0 ≤ (x * x).key
  rw [h.2]
  have := rndK_mono mw ew (mul_self_nonneg x.toReal)
  rwa [rndK_zero] at this

theorem sum_nn : ∀ {n : Nat} {f : Fin n → Flt mw ew}, (∀ i, (f i).isNaN = false ∧ 0 ≤ (f i).key) →
    (sumLoop n f).isNaN = false ∧ 0 ≤ (sumLoop n f).key ∧ ∀ i, (f i).key ≤ (sumLoop n f).key
  | 0, _, _ => ⟨notNaN_of_isFin isFin_szero, by show 0 ≤ (Scalar.zero : Flt mw ew).key; rw [key_szero], fun i => i.elim0⟩
  | n + 1, f, h => by
    have ih := sum_nn (f := fun i : _root_.Fin n => f i.castSucc) fun i => h _
    have a := add_nn ih.1 (h (Fin.last n)).1 ih.2.1 (h (Fin.last n)).2
    refine ⟨a.1, ih.2.1.trans a.2.1, fun i => ?_⟩
    refine Fin.lastCases a.2.2 (fun i => (ih.2.2 i).trans a.2.1) i

theorem sqrt_key_mono {u v : Flt mw ew} (hu : u.isNaN = false) (hv : v.isNaN = false) (h0 : 0 ≤ u.key) (h : u.key ≤ v.key) :
    (GFloat.sqrt u).isNaN = false ∧ (GFloat.sqrt v).isNaN = false ∧ (GFloat.sqrt u).key ≤ (GFloat.sqrt v).key := by
  have hK := kInf_pos (mw := mw) (ew := ew)
  have bu := key_bounds hu
  have bv := key_bounds hv
  rw [sqrt_def, sqrt_def]
  by_cases iv : v.key = kInf mw ew
  · have sv := sqrt_inf hv iv
    by_cases iu : u.key = kInf mw ew
    · have su := sqrt_inf hu iu
      exact ⟨su.1, sv.1, by omega⟩
    · have su := sqrt_fin (isFin_iff_key.2 ⟨by omega, by omega⟩ : u.isFin = true) h0
      have := key_bounds su.1
      exact ⟨su.1, sv.1, by omega⟩
  · have su := sqrt_fin (isFin_iff_key.2 ⟨by omega, by omega⟩ : u.isFin = true) h0
    have sv := sqrt_fin (isFin_iff_key.2 ⟨by omega, by omega⟩ : v.isFin = true) (h0.trans h)
    refine ⟨su.1, sv.1, ?_⟩
    rw [su.2, sv.2]
    exact rndK_mono mw ew (Real.sqrt_le_sqrt (toReal_le_iff.2 h))

/-! ### the claims -/

variable {n : Nat} {U : Marker}

/-- the norm is at least every component whose square is not below the normal range, also when the sum overflows -/
theorem norm_ge_key (hm : 10 ≤ mw) (hw : mw + 3 ≤ 2 ^ (ew - 1)) {v : GVec (Flt mw ew) n U}
    (hf : ∀ i, (v.vec i).isFin = true) {i : Fin n} (hN : NormalSq (v.vec i)) :
    v.norm.isNaN = false ∧ |(v.vec i).key| ≤ v.norm.key := by
  have s := sum_nn (f := fun i => Scalar.square (v.vec i)) fun i => sq_nn (hf i)
  have q := sq_nn (hf i)
  have m := sqrt_key_mono q.1 s.1 q.2 (s.2.2 i)
  refine ⟨m.2.1, ?_⟩
  have bq := key_bounds q.1
  have bs := key_bounds s.1
  have bv := isFin_iff_key.1 (hf i)
  have l := s.2.2 i
  by_cases iq : (Scalar.square (v.vec i) : Flt mw ew).key = kInf mw ew
  · have := sqrt_inf s.1 (by omega)
    have e : v.norm.key = kInf mw ew := this.2
    rw [e]
    exact (abs_lt.2 ⟨by omega, by omega⟩).le
  · have hK := kInf_pos (mw := mw) (ew := ew)
    rw [← (C162_sq_sqrt hm hw (hf i) (isFin_iff_key.2 ⟨by omega, by omega⟩) hN).2]
    exact m.2.2

theorem norm_ge_all (hm : 10 ≤ mw) (hw : mw + 3 ≤ 2 ^ (ew - 1)) {v : GVec (Flt mw ew) n U}
    (hf : ∀ i, (v.vec i).isFin = true) (hN : ∃ i, NormalSq (v.vec i)) (k : Fin n) :
    v.norm.isNaN = false ∧ |(v.vec k).key| ≤ v.norm.key := by
  obtain ⟨i, hi⟩ := hN
  by_cases hk : NormalSq (v.vec k)
  · exact norm_ge_key hm hw hf hk
  · have g := norm_ge_key hm hw hf hi
    refine ⟨g.1, le_trans ?_ g.2⟩
    unfold NormalSq at hi hk
    have : |(v.vec k).toReal| ≤ |(v.vec i).toReal| := sq_le_sq.1 (by nlinarith)
    rw [← toReal_iabs, ← toReal_iabs] at this
    have := toReal_le_iff.1 this
    rwa [key_iabs, key_iabs] at this

/-- **C162**: `|v_k| ≤ norm(v)` for every component of a finite vector that is not tiny, compared as floats and
without tolerance; the sum of squares may overflow. -/
theorem C162_norm_ge (hm : 10 ≤ mw) (hw : mw + 3 ≤ 2 ^ (ew - 1)) {v : GVec (Flt mw ew) n U}
    (hf : ∀ i, (v.vec i).isFin = true) (hN : ∃ i, NormalSq (v.vec i)) (k : Fin n) :
    Scalar.ge v.norm (Inherent.abs (v.vec k)) = true := by
  have g := norm_ge_all hm hw hf hN k
  refine sge_iff.2 ⟨g.1, ?_, ?_⟩
  · show (v.vec k).iabs.isNaN = false
    rw [isNaN_iabs]; exact notNaN_of_isFin (hf k)
  · show (v.vec k).iabs.key ≤ _
    rw [key_iabs]; exact g.2

/-- **C162**: the distance of two points is at least the difference in every coordinate. -/
theorem C162_distance_ge (hm : 10 ≤ mw) (hw : mw + 3 ≤ 2 ^ (ew - 1)) {a b : Vec (Flt mw ew) n}
    (hf : ∀ i, (a.vec i - b.vec i).isFin = true) (hN : ∃ i, NormalSq (a.vec i - b.vec i)) (k : Fin n) :
    Scalar.ge (a.distance b) (Inherent.abs (a.vec k - b.vec k)) = true :=
  C162_norm_ge (v := a - b) hm hw hf hN k

/-- **C162**: every component of `normalize(v)` is in `[-1, 1]`, without tolerance. -/
theorem C162_normalize_le (hm : 10 ≤ mw) (hw : mw + 3 ≤ 2 ^ (ew - 1)) {v : GVec (Flt mw ew) n U}
    (hf : ∀ i, (v.vec i).isFin = true) (hN : ∃ i, NormalSq (v.vec i)) (k : Fin n) :
    Scalar.le (v.normalize.vec k) Scalar.one = true ∧ Scalar.ge (v.normalize.vec k) (-Scalar.one) = true := by
  have o := sone_spec (mw := mw) (ew := ew)
  have o1 := notNaN_of_isFin o.1
  have ok : 0 < (Scalar.one : Flt mw ew).key := toReal_pos_iff.1 (by rw [o.2]; norm_num)
  suffices h : ((v.vec k) / v.norm).isNaN = false ∧ -(Scalar.one : Flt mw ew).key ≤ ((v.vec k) / v.norm).key ∧
      ((v.vec k) / v.norm).key ≤ (Scalar.one : Flt mw ew).key from
    ⟨sle_iff.2 ⟨h.1, o1, h.2.2⟩, sge_iff.2 ⟨h.1, by rw [isNaN_negop]; exact o1, by rw [key_negop]; exact h.2.1⟩⟩
  have hK := kInf_pos (mw := mw) (ew := ew)
  have g := norm_ge_all hm hw hf hN k
  have pos : 0 < v.norm.key := by
    obtain ⟨i, hi⟩ := hN
    refine lt_of_lt_of_le (abs_pos.2 fun h => ?_) (norm_ge_all hm hw hf ⟨i, hi⟩ i).2
    have := normalSq_eta hi
    rw [toReal_eq_zero_iff.2 h] at this
    have he : 0 < etaRnd mw ew := by unfold etaRnd; positivity
    simp at this; linarith
  have bn := key_bounds g.1
  by_cases inf : v.norm.key = kInf mw ew
  · have d := div_by_inf (hf k) (isInf_iff_key.2 (Or.inl inf))
    exact ⟨d.1, by omega, by omega⟩
  · have fin : v.norm.isFin = true := isFin_iff_key.2 ⟨by omega, by omega⟩
    have d := div_fin (hf k) fin (by omega)
    rw [← div_def] at d
    have pr := toReal_pos_iff.2 pos
    have ab : |(v.vec k).toReal| ≤ v.norm.toReal := by
      rw [← toReal_iabs]; exact toReal_le_iff.2 (by rw [key_iabs]; exact g.2)
    have ab' := abs_le.1 ab
    refine ⟨d.1, ?_, ?_⟩
    · rw [d.2, ← rndK_toReal o1, ← rndK_neg, o.2]
      exact rndK_mono mw ew (by rw [le_div_iff₀ pr]; linarith)
    · rw [d.2, ← rndK_toReal o1, o.2]
      exact rndK_mono mw ew (by rw [div_le_iff₀ pr]; linarith)

theorem addz_key {a b : Flt mw ew} (ha : a.isFin = true) (hb : b.isFin = true) (k : b.key = 0) :
    (a + b).isNaN = false ∧ (a + b).key = a.key := by
  have h := add_fin ha hb
  rw [← add_def, toReal_eq_zero_iff.2 k, add_zero, rndK_toReal (notNaN_of_isFin ha)] at h
  exact h

theorem sum_axis : ∀ {n : Nat} {f : Fin n → Flt mw ew} {c : ℤ}, (∀ i, (f i).isFin = true) →
    ((∀ i, (f i).key = 0) ∧ c = 0 ∨ ∃ k, (f k).key = c ∧ ∀ i, i ≠ k → (f i).key = 0) →
    (sumLoop n f).isFin = true ∧ (sumLoop n f).key = c
  | 0, f, c, _, h => by
    rcases h with h | ⟨k, _⟩
    · exact ⟨isFin_szero, by rw [h.2]; exact key_szero⟩
    · exact k.elim0
  | n + 1, f, c, hf, h => by
    have close : ∀ {a b : Flt mw ew} {c : ℤ}, a.isFin = true → b.isFin = true → (b.key = 0 ∧ a.key = c ∨ a.key = 0 ∧ b.key = c) →
        (a + b).isFin = true ∧ (a + b).key = c := by
      intro a b c ha hb h
      have ka := isFin_iff_key.1 ha
      have kb := isFin_iff_key.1 hb
      rcases h with ⟨h, e⟩ | ⟨h, e⟩
      · have := addz_key ha hb h
        exact ⟨isFin_iff_key.2 (by omega), by omega⟩
      · have t := add_fin ha hb
        rw [← add_def, toReal_eq_zero_iff.2 h, zero_add, rndK_toReal (notNaN_of_isFin hb)] at t
        exact ⟨isFin_iff_key.2 (by omega), by omega⟩
    have ihf : ∀ i : _root_.Fin n, (f i.castSucc).isFin = true := fun i => hf _
    rcases h with ⟨h, hc⟩ | ⟨k, hk, hz⟩
    · have ih := sum_axis (f := fun i : _root_.Fin n => f i.castSucc) (c := 0) ihf (Or.inl ⟨fun i => h _, rfl⟩)
      exact close ih.1 (hf _) (Or.inl ⟨h _, by omega⟩)
    · rcases Fin.eq_castSucc_or_eq_last k with ⟨j, rfl⟩ | rfl
      · have ih := sum_axis (f := fun i : _root_.Fin n => f i.castSucc) (c := c) ihf
          (Or.inr ⟨j, hk, fun i hi => hz _ fun e => hi (Fin.castSucc_injective n e)⟩)
        exact close ih.1 (hf _) (Or.inl ⟨hz _ (Fin.castSucc_lt_last j).ne', ih.2⟩)
      · have ih := sum_axis (f := fun i : _root_.Fin n => f i.castSucc) (c := 0) ihf
          (Or.inl ⟨fun i => hz _ (Fin.castSucc_lt_last i).ne, rfl⟩)
        exact close ih.1 (hf _) (Or.inr ⟨ih.2, hk⟩)

/-- **C162**: a vector along a coordinate axis has exactly the norm `|a|`, and normalizes exactly to plus or minus
the axis. -/
theorem C162_axis (hm : 10 ≤ mw) (hw : mw + 3 ≤ 2 ^ (ew - 1)) {v : GVec (Flt mw ew) n U} {k : Fin n}
    (hf : (v.vec k).isFin = true) (hz : ∀ i, i ≠ k → Scalar.eq (v.vec i) Scalar.zero = true)
    (hN : NormalSq (v.vec k)) (hy : (Scalar.square (v.vec k)).isFin = true) :
    Scalar.eq v.norm (Inherent.abs (v.vec k)) = true ∧
    Scalar.eq (v.normalize.vec k) (if Scalar.gt (v.vec k) Scalar.zero then Scalar.one else -Scalar.one) = true ∧
    ∀ i, i ≠ k → Scalar.eq (v.normalize.vec i) Scalar.zero = true := by
  have z1 := notNaN_of_isFin (isFin_szero (mw := mw) (ew := ew))
  have hz' : ∀ i, i ≠ k → (v.vec i).isFin = true ∧ (v.vec i).key = 0 := fun i hi => by
    have h := (seq_iff.1 (hz i hi)).2.2
    rw [key_szero] at h
    exact ⟨isFin_of_key_zero h, h⟩
  have sq0 : ∀ i, i ≠ k → (Scalar.square (v.vec i) : Flt mw ew).key = 0 := fun i hi => by
    have h := hz' i hi
    have t := (mul_fin h.1 h.1).2
    rw [← mul_def, toReal_eq_zero_iff.2 h.2, mul_zero, rndK_zero] at t
    exact t
  have s := sum_axis (f := fun i => Scalar.square (v.vec i)) (c := (Scalar.square (v.vec k) : Flt mw ew).key)
    (fun i => by
      by_cases h : i = k
      · rw [h]; exact hy
      · exact isFin_of_key_zero (sq0 i h)) (Or.inr ⟨k, rfl, sq0⟩)
  have q := sq_nn hf
  have r := C162_sq_sqrt hm hw hf hy hN
  have ss : v.squareNorm.isFin = true ∧ v.squareNorm.key = (Scalar.square (v.vec k) : Flt mw ew).key := s
  have e1 := sqrt_fin ss.1 (by rw [ss.2]; exact q.2)
  have e2 := sqrt_fin hy q.2
  have te : v.squareNorm.toReal = (Scalar.square (v.vec k) : Flt mw ew).toReal := toReal_eq_iff.2 ss.2
  have nk : v.norm.key = |(v.vec k).key| := by
    rw [← r.2]
    show (GFloat.sqrt v.squareNorm).key = _
    rw [sqrt_def, sqrt_def, e1.2, e2.2, te]
  have hk0 : (v.vec k).key ≠ 0 := fun h => by
    have := normalSq_eta hN
    rw [toReal_eq_zero_iff.2 h] at this
    have he : 0 < etaRnd mw ew := by unfold etaRnd; positivity
    simp at this; linarith
  have bk := isFin_iff_key.1 hf
  have nf : v.norm.isFin = true := isFin_iff_key.2 (by
    rw [nk]; rcases abs_cases (v.vec k).key with h | h <;> omega)
  have nr : v.norm.toReal = |(v.vec k).toReal| := by
    rw [← toReal_iabs]; exact toReal_eq_iff.2 (by rw [key_iabs]; exact nk)
  have hk0' : (v.vec k).toReal ≠ 0 := fun h => hk0 (toReal_eq_zero_iff.1 h)
  have n0 : v.norm.key ≠ 0 := by rw [nk]; exact abs_ne_zero.2 hk0
  have o := sone_spec (mw := mw) (ew := ew)
  have o1 := notNaN_of_isFin o.1
  refine ⟨seq_iff.2 ⟨notNaN_of_isFin nf, ?_, ?_⟩, ?_, fun i hi => ?_⟩
  · show (v.vec k).iabs.isNaN = false
    rw [isNaN_iabs]; exact notNaN_of_isFin hf
  · show _ = (v.vec k).iabs.key
    rw [key_iabs]; exact nk
  · have d := div_fin hf nf n0
    rw [← div_def, nr] at d
    show Scalar.eq (v.vec k / v.norm) _ = true
    split
    · rename_i h
      have := (sgt_iff.1 h).2.2
      rw [key_szero] at this
      have pr := toReal_pos_iff.2 this
      rw [abs_of_pos pr, div_self pr.ne', ← o.2, rndK_toReal o1] at d
      exact seq_iff.2 ⟨d.1, o1, d.2⟩
    · rename_i h
      have : (v.vec k).key < 0 := by
        by_contra hc
        exact h (sgt_iff.2 ⟨notNaN_of_isFin hf, z1, by rw [key_szero]; omega⟩)
      have ng : (v.vec k).toReal < 0 := by
        by_contra hc
        have := toReal_nonneg_iff.1 (not_lt.1 hc); omega
      rw [abs_of_neg ng, div_neg, div_self ng.ne, rndK_neg, ← o.2, rndK_toReal o1] at d
      exact seq_iff.2 ⟨d.1, by rw [isNaN_negop]; exact o1, by rw [key_negop]; exact d.2⟩
  · have d := div_fin (hz' i hi).1 nf n0
    rw [← div_def, toReal_eq_zero_iff.2 (hz' i hi).2, zero_div, rndK_zero] at d
    exact seq_iff.2 ⟨d.1, z1, by rw [key_szero]; exact d.2⟩

end flt

/-! ### non-trivial cases, and what goes wrong for tiny vectors -/

theorem normalSq_of_one_le {x : F32} (h : Scalar.ge x Scalar.one = true) : NormalSq x := by
  have o := sone_spec (mw := 23) (ew := 8)
  have h1 : (1 : ℝ) ≤ x.toReal := by rw [← o.2]; exact toReal_le_iff.2 (sge_iff.1 h).2.2
  have h2 : (minNormal 23 8).toReal ≤ (Scalar.one : F32).toReal := toReal_le_iff.2 (by decide +kernel)
  rw [o.2] at h2
  unfold NormalSq
  nlinarith

/-- `1.25 * 2⁻⁷⁴` as an `f32`, about 6.6e-23 -/
def f32Small : F32 := Flt.ofIdx 23 8 false (53 * 2 ^ 23 + 2 ^ 21)
/-- `2⁻⁷⁶` as an `f32`, about 1.3e-23 -/
def f32Tiny : F32 := Flt.ofIdx 23 8 false (51 * 2 ^ 23)

/-- one large component suffices: here one is tiny and one so large that the sum of squares overflows -/
example : ∀ k, Scalar.ge (GVec.new3 (F32.lit 3) f32Tiny (F32.lit (2 ^ 100)) : Vec F32 3).norm
    (Inherent.abs ((GVec.new3 (F32.lit 3) f32Tiny (F32.lit (2 ^ 100)) : Vec F32 3).vec k)) = true :=
  C162_norm_ge (by norm_num) (by norm_num) (by decide +kernel) ⟨0, normalSq_of_one_le (by decide +kernel)⟩

example : Scalar.square (F32.lit (2 ^ 100)) = Flt.inf 23 8 false := by decide +kernel

example : Scalar.eq (GVec.new3 Scalar.zero (F32.lit 3) Scalar.zero : Vec F32 3).norm (F32.lit 3) = true :=
  (C162_axis (k := 1) (v := (GVec.new3 Scalar.zero (F32.lit 3) Scalar.zero : Vec F32 3)) (by norm_num) (by norm_num)
    (by decide +kernel) (by decide +kernel) (normalSq_of_one_le (by decide +kernel)) (by decide +kernel)).1

example : Scalar.ge ((GVec.new2 (F32.lit 1) (F32.lit 8) : Vec F32 2).distance (GVec.new2 (F32.lit 5) (F32.lit 1))) (F32.lit 7) = true :=
  C162_distance_ge (by norm_num) (by norm_num) (by decide +kernel) ⟨1, normalSq_of_one_le (by decide +kernel)⟩ 1

/-- **C162**, why the condition is there: a tiny `f32` vector has a norm below its only component and normalizes to a
component above 1; a still smaller one has norm 0 and normalizes to infinity. -/
theorem C162_tiny_refuted :
    Scalar.lt (GVec.new3 f32Small Scalar.zero Scalar.zero : Vec F32 3).norm f32Small = true ∧
    Scalar.gt ((GVec.new3 f32Small Scalar.zero Scalar.zero : Vec F32 3).normalize.vec 0) Scalar.one = true ∧
    Scalar.gt f32Tiny Scalar.zero = true ∧
    Scalar.eq (GVec.new3 f32Tiny Scalar.zero Scalar.zero : Vec F32 3).norm Scalar.zero = true ∧
    ((GVec.new3 f32Tiny Scalar.zero Scalar.zero : Vec F32 3).normalize.vec 0).isInf = true := by
  decide +kernel

end Scarlet
