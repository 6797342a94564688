import Verif.Props.NormMono
import Verif.Props.FloatNorm
import Verif.Props.ParallelBox

/-! C84: what `normalize` returns for the vectors whose sum of squares underflows or overflows. -/

set_option linter.unusedSectionVars false

namespace Scarlet
open Flt

variable {mw ew : Nat} [FltImpl mw ew] [LawfulFlt mw ew] {n : Nat} {U : Marker}

/-- a finite float divided by zero is NaN or infinite -/
theorem div_zero_notFin {x y : Flt mw ew} (hx : x.isFin = true) (hy : y.key = 0) : (x / y).isFin = false := by
  change (x.div y).isFin = false
  have hyn : y.isNaN = false := notNaN_of_isFin (isFin_of_key_zero hy)
  have hyi : y.isInf = false := notInf_of_isFin (isFin_of_key_zero hy)
  by_cases h0 : x.key = 0
  · have := div_zero_zero h0 hy
    change (x.div y).isNaN = true at this
    rw [Bool.eq_false_iff]; intro h
    rw [notNaN_of_isFin h] at this; exact absurd this (by decide)
  · have hz : x.isZero = false := by rw [Bool.eq_false_iff, ne_eq, isZero_iff_key]; exact h0
    have hI : ∀ s, (Flt.inf mw ew s).isFin = false := fun s => by
      rw [Bool.eq_false_iff]; intro h
      have := notInf_of_isFin h
      rw [isInf_inf] at this; exact absurd this (by decide)
    unfold Flt.div
    rw [isZero_iff_key.2 hy, notNaN_of_isFin hx, hyn, notInf_of_isFin hx, hyi, hz]
    simp [hI]

/-- the root of a positive float, from below -/
theorem root_from_below (hm : 10 ≤ mw) (hw : mw + 3 ≤ 2 ^ (ew - 1)) {s : Flt mw ew} (hs : s.isFin = true) (h0 : 0 < s.key) :
    (GFloat.sqrt s).isFin = true ∧ 2 * etaRnd mw ew ≤ s.toReal ∧
    (1 - uRnd mw) * Real.sqrt s.toReal ≤ (GFloat.sqrt s).toReal := by
  have sp := toReal_pos_iff.2 h0
  have e := sqrt_err hs sp.le
  have low : 2 * etaRnd mw ew ≤ s.toReal := by
    obtain ⟨k, hk⟩ : ∃ k : ℕ, s.key = k := ⟨s.key.toNat, by omega⟩
    have hk1 : 1 ≤ k := by omega
    rw [toReal_eq_key, hk, valZ_nat]
    have : 0 < magN mw k := magN_pos hk1
    have c : (1 : ℝ) ≤ magN mw k := by exact_mod_cast this
    unfold etaRnd
    rw [pow_succ, le_div_iff₀ (by positivity)]
    have : 2 * (1 / ((2 : ℝ) ^ fK mw ew * 2)) * 2 ^ fK mw ew = 1 := by field_simp
    linarith
  refine ⟨e.1, low, ?_⟩
  have eu : etaRnd mw ew ≤ uRnd mw * Real.sqrt s.toReal := by
    have h2 : etaRnd mw ew ≤ 2 * uRnd mw ^ 2 := by
      unfold etaRnd uRnd
      rw [div_pow, one_pow, ← pow_mul, ← mul_div_assoc, mul_one, div_le_div_iff₀ (by positivity) (by positivity), one_mul, ← pow_succ']
      refine pow_le_pow_right₀ (by norm_num) ?_
      unfold fK; omega
    have ep := etaRnd_pos (mw := mw) (ew := ew)
    have up := uRnd_pos (mw := mw)
    rw [← div_le_iff₀' up]
    refine Real.le_sqrt_of_sq_le (le_trans ?_ low)
    rw [div_pow, div_le_iff₀ (by positivity)]
    nlinarith
  rw [max_eq_right eu] at e
  have := (_root_.abs_le.1 e.2).1
  linarith

/-- **C84**, the whole picture for finite vectors of any dimension: no component of the result is finite if the sum of squares
underflows to zero (exactly when, is C164), every component is zero if it overflows, and otherwise every component is finite and at most
5/4 in magnitude. -/
theorem C84_exact (hm : 10 ≤ mw) (hw : mw + 3 ≤ 2 ^ (ew - 1)) {v : GVec (Flt mw ew) n U} (hf : ∀ i, (v.vec i).isFin = true) :
    (Scalar.eq v.norm Scalar.zero = true → ∀ i, (v.normalize.vec i).isFin = false) ∧
    (v.squareNorm.isInf = true → ∀ i, Scalar.eq (v.normalize.vec i) Scalar.zero = true) ∧
    (Scalar.eq v.norm Scalar.zero = false → v.squareNorm.isInf = false → ∀ i, (v.normalize.vec i).isFin = true ∧
      |(v.normalize.vec i).toReal| ≤ 5 / 4) := by
  have hK := kInf_pos (mw := mw) (ew := ew)
  have z1 := notNaN_of_isFin (isFin_szero (mw := mw) (ew := ew))
  have hv := fun i => sq_nn (hf i)
  have a : v.squareNorm.isNaN = false ∧ 0 ≤ v.squareNorm.key ∧ ∀ i, (Scalar.square (v.vec i) : Flt mw ew).key ≤ v.squareNorm.key := sum_nn hv
  refine ⟨fun h i => ?_, fun h i => ?_, fun h h' i => ?_⟩
  · have := (seq_iff.1 h).2.2
    rw [key_szero] at this
    exact div_zero_notFin (hf i) this
  · have e : v.squareNorm.key = kInf mw ew := by rcases isInf_iff_key.1 h with e | e <;> omega
    have s := sqrt_inf a.1 e
    have d := div_by_inf (hf i) (isInf_iff_key.2 (Or.inl s.2))
    exact seq_iff.2 ⟨d.1, z1, by rw [key_szero]; exact d.2⟩
  · have fs : v.squareNorm.isFin = true := by
      rcases isFin_or_isInf a.1 with f | f
      · exact f
      · rw [h'] at f; exact absurd f (by decide)
    have pos : 0 < v.squareNorm.key := by
      by_contra hc
      have k0 : v.squareNorm.key = 0 := by omega
      have s := sqrt_fin fs a.2.1
      rw [toReal_eq_zero_iff.2 k0, Real.sqrt_zero, rndK_zero] at s
      have : Scalar.eq v.norm Scalar.zero = true := seq_iff.2 ⟨s.1, z1, by rw [key_szero]; exact s.2⟩
      rw [h] at this; exact absurd this (by decide)
    obtain ⟨nf, low, lo⟩ := root_from_below hm hw fs pos
    change v.norm.isFin = true at nf
    change _ ≤ v.norm.toReal at lo
    have sp := toReal_pos_iff.2 pos
    have up := uRnd_pos (mw := mw)
    have ep := etaRnd_pos (mw := mw) (ew := ew)
    have u1 : uRnd mw ≤ 1 / 2048 := by
      unfold uRnd
      refine one_div_le_one_div_of_le (by norm_num) ?_
      calc (2048 : ℝ) = 2 ^ 11 := by norm_num
        _ ≤ 2 ^ (mw + 1) := pow_le_pow_right₀ (by norm_num) (by omega)
    have e1 : etaRnd mw ew ≤ 1 / 2048 := by
      refine le_trans ?_ u1
      unfold uRnd etaRnd
      refine one_div_le_one_div_of_le (by positivity) (pow_le_pow_right₀ (by norm_num) ?_)
      unfold fK; omega
    -- the square of the component against the sum
    have qf : (Scalar.square (v.vec i) : Flt mw ew).isFin = true := by
      have := isFin_iff_key.1 fs
      have := a.2.2 i
      have := (hv i).2
      exact isFin_iff_key.2 ⟨by omega, by omega⟩
    have m := (mul_fin (hf i) (hf i)).2
    have q := err_of_key (z := Scalar.square (v.vec i)) qf m
    have qs : (Scalar.square (v.vec i) : Flt mw ew).toReal ≤ v.squareNorm.toReal := toReal_le_iff.2 (a.2.2 i)
    rw [abs_of_nonneg (mul_self_nonneg (v.vec i).toReal)] at q
    have x2 : (v.vec i).toReal * (v.vec i).toReal ≤ 3 / 2 * v.squareNorm.toReal := by
      have q1 := (_root_.abs_le.1 q).1
      have nn := mul_self_nonneg (v.vec i).toReal
      rcases max_cases (etaRnd mw ew) (uRnd mw * ((v.vec i).toReal * (v.vec i).toReal)) with c | c
      · rw [c.1] at q1; linarith
      · rw [c.1] at q1
        have : uRnd mw * ((v.vec i).toReal * (v.vec i).toReal) ≤ 1 / 2048 * ((v.vec i).toReal * (v.vec i).toReal) :=
          mul_le_mul_of_nonneg_right u1 nn
        linarith
    have rs := Real.sqrt_pos.2 sp
    have np : 0 < v.norm.toReal := lt_of_lt_of_le (mul_pos (by linarith) rs) lo
    have n2 : 2047 / 2048 * Real.sqrt v.squareNorm.toReal ≤ v.norm.toReal :=
      le_trans (mul_le_mul_of_nonneg_right (by linarith) rs.le) lo
    have ss := Real.mul_self_sqrt sp.le
    have ab : |(v.vec i).toReal| ≤ 124 / 100 * v.norm.toReal := by
      refine abs_le_of_sq_le_sq ?_ (by positivity)
      have : (2047 / 2048 * Real.sqrt v.squareNorm.toReal) ^ 2 ≤ v.norm.toReal ^ 2 :=
        pow_le_pow_left₀ (by positivity) n2 2
      rw [mul_pow, sq (Real.sqrt _), ss] at this
      rw [mul_pow, sq (v.vec i).toReal]
      linarith
    have quot : |(v.vec i).toReal / v.norm.toReal| ≤ 124 / 100 := by
      rw [abs_div, abs_of_pos np, div_le_iff₀ np]; exact ab
    have df : (v.vec i / v.norm).isFin = true := div_isFin (hf i) nf np.ne' (by linarith)
    refine ⟨df, ?_⟩
    have d := (div_fin (hf i) nf (fun h => np.ne' (toReal_eq_zero_iff.2 h))).2
    have er := err_of_key df d
    have mx : max (etaRnd mw ew) (uRnd mw * |(v.vec i).toReal / v.norm.toReal|) ≤ 1 / 100 := by
      refine max_le (by linarith) ?_
      calc uRnd mw * |(v.vec i).toReal / v.norm.toReal| ≤ 1 / 2048 * (124 / 100) :=
            mul_le_mul u1 quot (abs_nonneg _) (by norm_num)
        _ ≤ 1 / 100 := by norm_num
    have q1 := _root_.abs_le.1 (er.trans mx)
    have q2 := _root_.abs_le.1 quot
    change |(v.vec i / v.norm).toReal| ≤ 5 / 4
    exact _root_.abs_le.2 ⟨by linarith [q1.1], by linarith [q1.2]⟩

/-- **C84**: so `normalize` of a finite vector is finite exactly if the square of some component is above half the smallest positive
float. -/
theorem C84_finite_iff (hm : 10 ≤ mw) (hw : mw + 3 ≤ 2 ^ (ew - 1)) {v : GVec (Flt mw ew) (n + 1) U} (hf : ∀ i, (v.vec i).isFin = true) :
    (∀ i, (v.normalize.vec i).isFin = true) ↔
      ∃ i, 1 / 2 * (GFloat.nextUp (Scalar.zero : Flt mw ew)).toReal < (v.vec i).toReal ^ 2 := by
  have E := C84_exact hm hw hf
  have Z := C164_zero_iff hm hw hf
  constructor
  · intro h
    by_contra hc
    push Not at hc
    have := E.1 (Z.2 hc) 0
    rw [h 0] at this; exact absurd this (by decide)
  · rintro ⟨j, hj⟩ i
    have nz : Scalar.eq v.norm Scalar.zero = false := by
      rw [Bool.eq_false_iff]; intro h
      exact absurd (Z.1 h j) (not_le.2 hj)
    cases hi : v.squareNorm.isInf with
    | true => exact isFin_of_key_zero (by have := (seq_iff.1 (E.2.1 hi i)).2.2; rwa [key_szero] at this)
    | false => exact (E.2.2 nz hi i).1

/-- the three cases occur on `f32`: underflow, overflow, and a tiny vector whose result exceeds 1 -/
example : Scalar.eq (GVec.new2 f32Tiny f32Tiny : Vec F32 2).norm Scalar.zero = true ∧
    (GVec.new2 (F32.lit (2 ^ 70)) (F32.lit 1) : Vec F32 2).squareNorm.isInf = true ∧
    Scalar.eq (GVec.new2 f32Small Scalar.zero : Vec F32 2).norm Scalar.zero = false ∧
    (GVec.new2 f32Small Scalar.zero : Vec F32 2).squareNorm.isInf = false ∧
    Scalar.gt ((GVec.new2 f32Small Scalar.zero : Vec F32 2).normalize.vec 0) Scalar.one = true := by decide +kernel

end Scarlet
