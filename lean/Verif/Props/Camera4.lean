import Verif.Props.Camera1
import Verif.Props.Interval5

/-! C69, C70 with floats (`Float = f32`, any libm that is accurate to one float): for samples in the unit square both disk
samplings are free of divisions by zero, overflow and NaN, and both coordinates lie in `[-1, 1]` up to one float. -/

set_option linter.unusedSectionVars false

namespace Scarlet
open GVec Flt

section
variable {mw ew : Nat} [Fmt mw ew]

/-- A correctly rounded result is bounded by every float that bounds the exact result. -/
theorem rounded_bound {z c : Flt mw ew} {r : ℝ} (hz : z.isNaN = false ∧ z.key = rndK mw ew r) (hc : c.isFin = true)
    (h : |r| ≤ c.toReal) : z.isFin = true ∧ |z.toReal| ≤ c.toReal := by
  obtain ⟨h1, h2⟩ := abs_le.1 h
  have k1 := rndK_mono mw ew h1
  have k2 := rndK_mono mw ew h2
  rw [rndK_neg, rndK_toReal (notNaN_of_isFin hc)] at k1
  rw [rndK_toReal (notNaN_of_isFin hc)] at k2
  have hf := isFin_iff_key.1 hc
  have fin : z.isFin = true := isFin_iff_key.2 (by rw [hz.2]; omega)
  refine ⟨fin, abs_le.2 ⟨?_, ?_⟩⟩
  · have : (-c).toReal ≤ z.toReal := toReal_le_iff.2 (by rw [key_negop, hz.2]; exact k1)
    rwa [toReal_negop] at this
  · exact toReal_le_iff.2 (by rw [hz.2]; exact k2)

theorem key_iabs (x : Flt mw ew) : x.iabs.key = |x.key| := by
  have h := key_natAbs x
  have h' := key_natAbs x.iabs
  rw [idx_iabs, ← h] at h'
  have hs : 0 ≤ x.iabs.key := by unfold key; rw [sgn_iabs]; simp
  rw [Int.abs_eq_natAbs]; omega

theorem toReal_iabs (x : Flt mw ew) : x.iabs.toReal = |x.toReal| := by
  rcases le_or_gt 0 x.key with h | h
  · rw [abs_of_nonneg (toReal_nonneg_iff.2 h), toReal_eq_key, key_iabs, abs_of_nonneg h, ← toReal_eq_key]
  · have hn : x.toReal < 0 := not_le.1 fun h' => absurd (toReal_nonneg_iff.1 h') (not_le.2 h)
    rw [abs_of_neg hn, ← toReal_negop, toReal_eq_key, key_iabs, abs_of_neg h, ← key_negop, ← toReal_eq_key]

theorem isFin_iabs (x : Flt mw ew) : x.iabs.isFin = x.isFin := by unfold isFin; rw [idx_iabs]
theorem isNaN_iabs (x : Flt mw ew) : x.iabs.isNaN = x.isNaN := by unfold isNaN; rw [idx_iabs]

end

/-- A libm result within one float of a value in `[-1, 1]` is at most one float outside `[-1, 1]`. -/
theorem accurate_bound {fl : F32 → F32} {f : ℝ → ℝ} {x : F32}
    (h : AccurateAt fl f x) (hf : |f x.toReal| ≤ 1) :
    (fl x).isFin = true ∧ |(fl x).toReal| ≤ (GFloat.nextUp (Scalar.one : F32)).toReal := by
  have hn : (fl x).isNaN = false := by
    have := h.lo.1
    rwa [isNaN_nextDown] at this
  obtain ⟨h1, h2⟩ := abs_le.1 hf
  have o := sone_spec (mw := 23) (ew := 8)
  have one_k : rndK 23 8 1 = (Scalar.one : F32).key := by rw [← o.2, rndK_toReal (notNaN_of_isFin o.1)]
  have k1 := h.lo.le_rndK.trans (rndK_mono 23 8 h2)
  have k2 := (rndK_mono 23 8 h1).trans h.hi.rndK_le
  rw [(nextDown_key hn).2, one_k] at k1
  rw [(nextUp_key hn).2, rndK_neg, one_k] at k2
  have ob := isFin_iff_key.1 o.1
  have hb := key_bounds hn
  have hp : (Scalar.one : F32).key + 1 < kInf 23 8 := by decide +kernel
  have nk := (nextUp_key (notNaN_of_isFin o.1)).2
  refine ⟨isFin_iff_key.2 (by omega), abs_le.2 ⟨?_, ?_⟩⟩
  · have : (-(GFloat.nextUp (Scalar.one : F32))).toReal ≤ (fl x).toReal := toReal_le_iff.2 (by
      rw [key_negop, nk]; omega)
    rwa [toReal_negop] at this
  · exact toReal_le_iff.2 (by rw [nk]; omega)

/-- The unit square of floats. -/
def InSquareF (p : Point F32 2) : Prop :=
  (p.x.isFin = true ∧ 0 ≤ p.x.toReal ∧ p.x.toReal ≤ 1) ∧ (p.y.isFin = true ∧ 0 ≤ p.y.toReal ∧ p.y.toReal ≤ 1)

/-- Within `[-1, 1]` up to one float (and in particular neither infinite nor NaN). -/
def NearUnit (x : F32) : Prop := x.isFin = true ∧ |x.toReal| ≤ (GFloat.nextUp (Scalar.one : F32)).toReal

/-- The bound is `1 + 2⁻²³`. -/
theorem nearUnit_bound : (GFloat.nextUp (Scalar.one : F32)).toReal = 1 + 1 / 2 ^ 23 := by
  have e : GFloat.nextUp (Scalar.one : F32) = F32.lit 8388609 / F32.lit 8388608 := by decide +kernel
  rw [e]
  have h1 := toReal_lit (n := 8388609) (by norm_num)
  have h2 := toReal_lit (n := 8388608) (by norm_num)
  refine (exact_of_repr (mw := 23) (ew := 8) (repr_of_mul_pow 8388609 126 (by norm_num) (by decide +kernel) ?_) ?_).2
  · have : fK 23 8 = 149 := by decide +kernel
    rw [this]; norm_num
  · have := (div_fin (x := F32.lit 8388609) (y := F32.lit 8388608) (by decide +kernel) (by decide +kernel) (by decide +kernel)).2
    rw [h1, h2] at this
    rw [div_def, this]
    congr 1; norm_num

example : InSquareF (let n : Int → F32 := GFloat.fromI64; new2 (n 1 / n 4) (n 0)) := by
  have one := (sone_spec (mw := 23) (ew := 8)).2
  refine ⟨⟨by decide +kernel, toReal_nonneg_iff.2 (by decide +kernel), ?_⟩, by decide +kernel, toReal_nonneg_iff.2 (by decide +kernel), ?_⟩
  · rw [← one]; exact toReal_le_iff.2 (by decide +kernel)
  · rw [← one]; exact toReal_le_iff.2 (by decide +kernel)

section
variable [Libm 23 8] [LawfulLibm 23 8]

theorem mul_unit {x c : F32} (hx : x.isFin = true ∧ |x.toReal| ≤ 1) (hc : NearUnit c) : NearUnit (x * c) := by
  refine rounded_bound (c := GFloat.nextUp (Scalar.one : F32)) (mul_fin hx.1 hc.1) (by decide +kernel) ?_
  rw [abs_mul]
  have h1 := abs_nonneg c.toReal
  have h2 := hx.2
  have h3 := hc.2
  nlinarith [abs_nonneg x.toReal]

theorem lit_two_cast : (GFloat.fromF32 (F32.lit 2) : F32) = F32.lit 2 := by decide +kernel
theorem lit_two64_cast : (GFloat.fromF64 (F64.lit 2) : F32) = F32.lit 2 := by decide +kernel

theorem centred {x : F32} (h : x.isFin = true ∧ 0 ≤ x.toReal ∧ x.toReal ≤ 1) :
    ((Scalar.one : F32) - GFloat.fromF32 (F32.lit 2) * x).isFin = true ∧ |((Scalar.one : F32) - GFloat.fromF32 (F32.lit 2) * x).toReal| ≤ 1 := by
  rw [lit_two_cast]
  obtain ⟨hx, h0, h1⟩ := h
  have hm := mul_fin (x := F32.lit 2) (y := x) (by decide +kernel) hx
  have two := toReal_lit_small.2.1
  have o := sone_spec (mw := 23) (ew := 8)
  have b := rounded_bound hm (c := F32.lit 2) (by decide +kernel) (by rw [two, abs_le]; constructor <;> linarith)
  have nn : 0 ≤ (F32.lit 2 * x).toReal := by
    refine toReal_nonneg_iff.2 ?_
    change 0 ≤ ((F32.lit 2).mul x).key
    rw [hm.2]
    exact rndK_nonneg (by rw [two]; linarith)
  have hb := abs_le.1 b.2
  rw [two] at hb
  have hs := sub_fin o.1 b.1
  have := rounded_bound hs (c := (Scalar.one : F32)) o.1 (by
    rw [o.2, abs_le]
    change -1 ≤ (1 : ℝ) - (F32.lit 2 * x).toReal ∧ (1 : ℝ) - (F32.lit 2 * x).toReal ≤ 1
    constructor
    · have : (F32.lit 2 * x).toReal ≤ 2 := hb.2
      linarith
    · linarith)
  rw [o.2] at this
  exact this

theorem polar_unit {r θ : F32} (hr : r.isFin = true ∧ |r.toReal| ≤ 1) (hθ : θ.isFin = true) :
    NearUnit (r * GTrig.cos θ) ∧ NearUnit (r * GTrig.sin θ) :=
  ⟨mul_unit hr (accurate_bound (LawfulLibm.cos θ hθ) (Real.abs_cos_le_one _)),
   mul_unit hr (accurate_bound (LawfulLibm.sin θ hθ) (Real.abs_sin_le_one _))⟩

/-- C69 with floats: for every sample in the unit square, including the centre and the diagonals, the result is finite
(nothing is divided by zero) and its coordinates are in `[-1, 1]` up to one float. -/
theorem C69_float (p : Point F32 2) (hp : InSquareF p) :
    NearUnit (concentricSampleDisk p).x ∧ NearUnit (concentricSampleDisk p).y := by
  have hx := centred hp.1
  have hy := centred hp.2
  unfold concentricSampleDisk
  generalize (Scalar.one : F32) - GFloat.fromF32 (F32.lit 2) * p.x = x at *
  generalize (Scalar.one : F32) - GFloat.fromF32 (F32.lit 2) * p.y = y at *
  dsimp only
  have o := sone_spec (mw := 23) (ew := 8)
  have q4 : (GFloat.fracPi4 : F32).isFin = true ∧ 0 ≤ (GFloat.fracPi4 : F32).toReal ∧ (GFloat.fracPi4 : F32).toReal ≤ 1 := by
    refine ⟨by decide +kernel, toReal_nonneg_iff.2 (by decide +kernel), ?_⟩
    rw [← (sone_spec (mw := 23) (ew := 8)).2]
    exact toReal_le_iff.2 (by decide +kernel)
  have q2 : (GFloat.fracPi2 : F32).isFin = true ∧ 0 ≤ (GFloat.fracPi2 : F32).toReal ∧ (GFloat.fracPi2 : F32).toReal ≤ 2 := by
    refine ⟨by decide +kernel, toReal_nonneg_iff.2 (by decide +kernel), ?_⟩
    rw [← toReal_lit_small.2.1]
    exact toReal_le_iff.2 (by decide +kernel)
  split
  · have z : NearUnit (Scalar.zero : F32) := ⟨by decide +kernel, by
      rw [toReal_szero, abs_zero]; exact toReal_nonneg_iff.2 (by decide +kernel)⟩
    exact ⟨z, z⟩
  · rename_i hne
    by_cases hc : Scalar.gt (Inherent.abs x) (Inherent.abs y) = true
    · rw [if_pos hc]
      have hlt : |y.toReal| < |x.toReal| := by
        have := (sgt_iff.1 hc).2.2
        rw [← toReal_iabs, ← toReal_iabs]
        exact toReal_lt_iff.2 this
      have hx0 : x.toReal ≠ 0 := fun h0 => by rw [h0, abs_zero] at hlt; exact absurd hlt (not_lt.2 (abs_nonneg _))
      refine polar_unit hx ?_
      have h1 := rounded_bound (mul_fin q4.1 hy.1) (c := x.iabs) ((isFin_iabs x).trans hx.1) (by
        rw [toReal_iabs, abs_mul, abs_of_nonneg q4.2.1]
        nlinarith [abs_nonneg y.toReal])
      rw [toReal_iabs] at h1
      exact (rounded_bound (div_fin h1.1 hx.1 (fun h0 => hx0 (toReal_eq_zero_iff.2 h0))) (c := (Scalar.one : F32)) o.1 (by
        rw [o.2, abs_div, div_le_one (abs_pos.2 hx0)]; exact h1.2)).1
    · rw [if_neg hc]
      have hle : |x.toReal| ≤ |y.toReal| := by
        rw [← toReal_iabs, ← toReal_iabs]
        refine toReal_le_iff.2 (not_lt.1 fun h => hc (sgt_iff.2 ⟨?_, ?_, h⟩))
        · exact (isNaN_iabs x).trans (notNaN_of_isFin hx.1)
        · exact (isNaN_iabs y).trans (notNaN_of_isFin hy.1)
      have hy0 : y.toReal ≠ 0 := fun h0 => by
        rw [h0, abs_zero] at hle
        refine hne ?_
        have hz : ∀ u : F32, u.isFin = true → u.toReal = 0 → Scalar.isZero u = true := fun u hu h =>
          seq_iff.2 ⟨notNaN_of_isFin hu, notNaN_of_isFin isFin_szero, by rw [key_szero]; exact toReal_eq_zero_iff.1 h⟩
        rw [Bool.and_eq_true]
        exact ⟨hz x hx.1 (abs_nonpos_iff.1 hle), hz y hy.1 h0⟩
      refine polar_unit hy ?_
      have h1 := rounded_bound (div_fin hx.1 hy.1 (fun h0 => hy0 (toReal_eq_zero_iff.2 h0))) (c := (Scalar.one : F32)) o.1 (by
        rw [o.2, abs_div, div_le_one (abs_pos.2 hy0)]; exact hle)
      rw [o.2] at h1
      have h2 := rounded_bound (mul_fin h1.1 q4.1) (c := (Scalar.one : F32)) o.1 (by
        rw [o.2, abs_mul, abs_of_nonneg q4.2.1]
        nlinarith [abs_nonneg (x.div y).toReal])
      rw [o.2] at h2
      have hb := abs_le.1 h2.2
      exact (rounded_bound (sub_fin q2.1 h2.1) (c := F32.lit 3) (by decide +kernel) (by
        rw [toReal_lit_small.2.2, abs_le]; constructor <;> linarith)).1

/-- C70 with floats: for every sample in the unit square the result is finite and its coordinates are in `[-1, 1]` up to
one float. -/
theorem C70_float (p : Point F32 2) (hp : InSquareF p) :
    NearUnit (uniformSampleDisk p).x ∧ NearUnit (uniformSampleDisk p).y := by
  obtain ⟨⟨hx, hx0, hx1⟩, hy, hy0, hy1⟩ := hp
  unfold uniformSampleDisk
  rw [lit_two64_cast]
  have o := sone_spec (mw := 23) (ew := 8)
  have hr := rounded_bound (sqrt_fin hy (toReal_nonneg_iff.1 hy0)) (c := (Scalar.one : F32)) o.1 (by
    rw [o.2, abs_of_nonneg (Real.sqrt_nonneg _)]; exact Real.sqrt_le_one.2 hy1)
  rw [o.2] at hr
  have hpi : (F32.lit 2 * GFloat.pi : F32).isFin = true := by decide +kernel
  have hpi0 : 0 ≤ (F32.lit 2 * GFloat.pi : F32).toReal := toReal_nonneg_iff.2 (by decide +kernel)
  have ht := rounded_bound (mul_fin hpi hx) (c := F32.lit 2 * GFloat.pi) hpi (by
    rw [abs_of_nonneg (mul_nonneg hpi0 hx0)]; nlinarith)
  exact polar_unit hr ht.1

end
end Scarlet
