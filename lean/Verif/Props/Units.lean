import Verif.Props.Mirror
import Verif.Props.SphereLine

/-! C122: the box and sphere tests on floats do not depend on the unit of length, for units that differ by a power of two. -/

set_option linter.unusedSectionVars false

namespace Scarlet
open Flt GVec

/-! ### rounding commutes with powers of two -/
section rounding
variable {mw : Nat}

theorem magN_double {i : Nat} (h : 2 ^ mw ≤ i) : magN mw (i + 2 ^ mw) = 2 * magN mw i := by
  rcases idx_cases mw i with h' | ⟨e, m, hm, rfl⟩
  · omega
  have e1 : (e + 1) * 2 ^ mw + m + 2 ^ mw = (e + 1 + 1) * 2 ^ mw + m := by ring
  rw [e1, magN_block mw (e + 1) m hm.le, magN_block mw e m hm.le, pow_succ]
  ring

theorem rndIdx_double (hmw : 1 ≤ mw) {x : ℝ} (hx : (2 : ℝ) ^ mw ≤ x) : rndIdx mw (2 * x) = rndIdx mw x + 2 ^ mw := by
  have h0 : 0 ≤ x := le_trans (by positivity) hx
  obtain ⟨f1, f2⟩ := floor_bounds mw h0
  have g1 : (magN mw (2 ^ mw) : ℝ) = 2 ^ mw := by
    have := magN_block mw 0 0 (Nat.zero_le _)
    simp at this
    rw [this]; push_cast; ring
  have hi : 2 ^ mw ≤ floorIdx mw ⌊x⌋₊ := by
    by_contra hc
    have : floorIdx mw ⌊x⌋₊ + 1 ≤ 2 ^ mw := by omega
    have h2 : (magN mw (floorIdx mw ⌊x⌋₊ + 1) : ℝ) ≤ magN mw (2 ^ mw) := by
      exact_mod_cast (magN_strictMono mw).monotone this
    linarith
  have e1 := magN_double hi
  have e2 := magN_double (show 2 ^ mw ≤ floorIdx mw ⌊x⌋₊ + 1 by omega)
  rw [show floorIdx mw ⌊x⌋₊ + 1 + 2 ^ mw = floorIdx mw ⌊x⌋₊ + 2 ^ mw + 1 by ring] at e2
  have hfl : floorIdx mw ⌊2 * x⌋₊ = floorIdx mw ⌊x⌋₊ + 2 ^ mw := by
    apply floorIdx_unique
    · rw [e1]
      apply Nat.le_floor
      push_cast
      linarith
    · rw [e2, Nat.floor_lt (by linarith)]
      push_cast
      linarith
  have hpar : (floorIdx mw ⌊x⌋₊ + 2 ^ mw) % 2 = floorIdx mw ⌊x⌋₊ % 2 := by
    obtain ⟨k, rfl⟩ : ∃ k, mw = k + 1 := ⟨mw - 1, by omega⟩
    rw [pow_succ]; omega
  unfold rndIdx
  dsimp only
  rw [hfl, e1, e2, hpar]
  push_cast
  generalize (magN mw (floorIdx mw ⌊x⌋₊) : ℝ) = a
  generalize (magN mw (floorIdx mw ⌊x⌋₊ + 1) : ℝ) = b
  have c1 : (2 * (2 * x) < 2 * a + 2 * b) ↔ 2 * x < a + b := by constructor <;> intro h <;> linarith
  have c2 : (2 * a + 2 * b < 2 * (2 * x)) ↔ a + b < 2 * x := by constructor <;> intro h <;> linarith
  simp only [c1, c2]
  split
  · rfl
  split
  · omega
  split
  · rfl
  · omega

theorem rndZ_double (hmw : 1 ≤ mw) {x : ℝ} (hx : (2 : ℝ) ^ mw ≤ |x|) : valZ mw (rndZ mw (2 * x)) = 2 * valZ mw (rndZ mw x) := by
  have pos : ∀ y : ℝ, (2 : ℝ) ^ mw ≤ y → valZ mw (rndZ mw (2 * y)) = 2 * valZ mw (rndZ mw y) := by
    intro y hy
    have h0 : 0 ≤ y := le_trans (by positivity) hy
    rw [rndZ_of_nonneg h0, rndZ_of_nonneg (by linarith), valZ_nat, valZ_nat, rndIdx_double hmw hy, magN_double]
    · push_cast; rfl
    · have := rndIdx_mono mw (x := 2 ^ mw) (by positivity) hy
      have g1 : magN mw (2 ^ mw) = 2 ^ mw := by
        have := magN_block mw 0 0 (Nat.zero_le _)
        simpa using this
      have g2 := rndIdx_magN mw (2 ^ mw)
      rw [g1] at g2
      push_cast at g2
      omega
  rcases le_total 0 x with h | h
  · rw [abs_of_nonneg h] at hx
    exact pos x hx
  · rw [abs_of_nonpos h] at hx
    have := pos (-x) hx
    rw [mul_neg, rndZ_neg, rndZ_neg, valZ_neg, valZ_neg] at this
    linarith

/-- the real number is a value of the format, or not smaller than the smallest normal value (in smallest-subnormal units) -/
def NormalOr (mw : Nat) (x : ℝ) : Prop := 2 ^ mw ≤ |x| ∨ ∃ j, x = valZ mw j

theorem NormalOr.double {x : ℝ} (h : NormalOr mw x) : NormalOr mw (2 * x) := by
  rcases h with h | ⟨j, rfl⟩
  · left; rw [abs_mul, abs_of_pos (show (0 : ℝ) < 2 by norm_num)]; linarith [abs_nonneg x]
  · obtain ⟨j', e⟩ := valZ_double (mw := mw) j
    exact .inr ⟨j', e.symm⟩

theorem rndZ_scale (hmw : 1 ≤ mw) (n : Nat) {x : ℝ} (h : NormalOr mw x) :
    valZ mw (rndZ mw (2 ^ n * x)) = 2 ^ n * valZ mw (rndZ mw x) ∧ NormalOr mw (2 ^ n * x) := by
  induction n with
  | zero => simpa using h
  | succ n ih =>
    obtain ⟨h1, h2⟩ := ih
    rw [pow_succ, mul_comm ((2 : ℝ) ^ n) 2, mul_assoc, mul_assoc, ← h1]
    refine ⟨?_, h2.double⟩
    rcases h2 with h2 | ⟨j, h2⟩
    · exact rndZ_double hmw h2
    · rw [h2]
      obtain ⟨j', e⟩ := valZ_double (mw := mw) j
      rw [← e, rndZ_valZ, rndZ_valZ, e]
end rounding

section ops
variable {mw ew : Nat} [FltImpl mw ew] [LawfulFlt mw ew]

/-- Specification: both floats are finite and the second denotes `2^n` times the number that the first denotes; they also agree in the
sign bit when they are zero. -/
def ScaledBy (n : Nat) (x x' : Flt mw ew) : Prop :=
  x.isFin = true ∧ x'.isFin = true ∧ x'.sgn = x.sgn ∧ x'.toReal = 2 ^ n * x.toReal

theorem ScaledBy.neg {n : Nat} {x x' : Flt mw ew} (h : ScaledBy n x x') : ScaledBy n (-x) (-x') :=
  ⟨by rw [isFin_negop]; exact h.1, by rw [isFin_negop]; exact h.2.1,
    by rw [Flt.neg_def, Flt.neg_def, sgn_neg, sgn_neg, h.2.2.1], by rw [toReal_negop, toReal_negop, h.2.2.2]; ring⟩

theorem ScaledBy.refl {x : Flt mw ew} (h : x.isFin = true) : ScaledBy 0 x x := ⟨h, h, rfl, by simp⟩

theorem normalOr_of_normalised {r : ℝ} (h : Normalised mw ew r) : NormalOr mw (r * 2 ^ fK mw ew) := by
  rcases h with rfl | h
  · exact .inr ⟨0, by simp⟩
  · left
    rw [abs_mul, abs_of_pos (a := (2 : ℝ) ^ fK mw ew) (by positivity)]
    unfold etaRnd uRnd at h
    rw [div_le_iff₀ (by positivity), pow_succ, pow_succ] at h
    have : 1 / (2 ^ mw * 2) * |r| * (2 ^ fK mw ew * 2) = |r| * 2 ^ fK mw ew / (2 : ℝ) ^ mw := by field_simp
    rw [this, le_div_iff₀ (by positivity), one_mul] at h
    exact h

theorem normalOr_toReal (x : Flt mw ew) : NormalOr mw (x.toReal * 2 ^ fK mw ew) :=
  .inr ⟨x.key, by rw [toReal_eq_key, div_mul_cancel₀ _ (by positivity)]⟩

theorem normalOr_int (a : ℤ) : NormalOr mw (a : ℝ) := by
  by_cases h : (2 : ℝ) ^ mw ≤ |(a : ℝ)|
  · exact .inl h
  · right
    have h' : a.natAbs < 2 ^ mw := by
      have : ((a.natAbs : ℕ) : ℝ) < 2 ^ mw := by rw [Nat.cast_natAbs, Int.cast_abs]; exact not_le.1 h
      exact_mod_cast this
    refine ⟨a, ?_⟩
    unfold valZ
    rw [magN_of_lt h', Nat.cast_natAbs, Int.cast_abs]
    split
    · rename_i ha
      rw [abs_of_neg (by exact_mod_cast ha)]; ring
    · rename_i ha
      rw [abs_of_nonneg (by exact_mod_cast not_lt.1 ha)]

theorem scaled_round {n : Nat} {r : ℝ} {z z' : Flt mw ew} (hz : z.isNaN = false ∧ z.key = rndK mw ew r)
    (hz' : z'.isNaN = false ∧ z'.key = rndK mw ew (2 ^ n * r)) (hs : z'.sgn = z.sgn) (hr : NormalOr mw (r * 2 ^ fK mw ew))
    (hf : z'.isFin = true) : ScaledBy n z z' := by
  have hmw : 1 ≤ mw := by have := (inferInstance : Fmt mw ew).hmw; omega
  obtain ⟨e, -⟩ := rndZ_scale hmw n hr
  rw [← mul_assoc] at e
  obtain ⟨l, u⟩ := isFin_iff_key.1 hf
  have hp := kInf_pos (mw := mw) (ew := ew)
  have k' : z'.key = rndZ mw (2 ^ n * r * 2 ^ fK mw ew) := by
    rw [hz'.2] at l u ⊢
    unfold rndK at l u ⊢
    omega
  have le : |valZ mw (rndZ mw (r * 2 ^ fK mw ew))| ≤ |valZ mw z'.key| := by
    rw [k', e, abs_mul, abs_of_pos (a := (2 : ℝ) ^ n) (by positivity)]
    have : (1 : ℝ) ≤ 2 ^ n := one_le_pow₀ (by norm_num)
    nlinarith [abs_nonneg (valZ mw (rndZ mw (r * 2 ^ fK mw ew)))]
  have b : |valZ mw z'.key| < valZ mw (kInf mw ew) := by
    rw [abs_lt]
    exact ⟨by rw [← valZ_neg]; exact valZ_lt.2 l, valZ_lt.2 u⟩
  obtain ⟨b1, b2⟩ := abs_lt.1 (lt_of_le_of_lt le b)
  rw [← valZ_neg] at b1
  have b1' := valZ_lt.1 b1
  have b2' := valZ_lt.1 b2
  have k : z.key = rndZ mw (r * 2 ^ fK mw ew) := by
    rw [hz.2]; unfold rndK; omega
  refine ⟨isFin_iff_key.2 ⟨by omega, by omega⟩, hf, hs, ?_⟩
  rw [toReal_eq_key, toReal_eq_key, k', k, e]
  ring

theorem sgn_add_fin {x y : Flt mw ew} (hx : x.isFin = true) (hy : y.isFin = true) :
    (x + y).sgn = if x.toReal + y.toReal = 0 then x.sgn && y.sgn else decide (x.toReal + y.toReal < 0) := by
  have hs : ((x.sval + y.sval : ℤ) : ℝ) = (x.toReal + y.toReal) * 2 ^ fK mw ew := by
    push_cast; rw [sval_cast, sval_cast]; ring
  have hc : (0 : ℝ) < 2 ^ fK mw ew := by positivity
  have h0 : x.sval + y.sval = 0 ↔ x.toReal + y.toReal = 0 := by
    rw [← Int.cast_eq_zero (α := ℝ), hs, mul_eq_zero]
    exact or_iff_left hc.ne'
  have h1 : x.sval + y.sval < 0 ↔ x.toReal + y.toReal < 0 := by
    rw [← Int.cast_lt_zero (R := ℝ), hs]
    constructor
    · intro h; by_contra hn; exact absurd h (not_lt.2 (mul_nonneg (not_lt.1 hn) hc.le))
    · intro h; exact mul_neg_of_neg_of_pos h hc
  rw [add_def]
  unfold Flt.add
  rw [notNaN_of_isFin hx, notNaN_of_isFin hy, notInf_of_isFin hx, notInf_of_isFin hy]
  simp only [Bool.or_self, Bool.false_eq_true, if_false, h0]
  split
  · exact sgn_ofIdx (Nat.two_pow_pos _)
  · rw [sgn_pack]
    exact decide_eq_decide.2 h1

theorem ScaledBy.add {n : Nat} {x x' y y' : Flt mw ew} (hx : ScaledBy n x x') (hy : ScaledBy n y y') (hf : (x' + y').isFin = true) :
    ScaledBy n (x + y) (x' + y') := by
  have h1 := add_fin hx.1 hy.1
  have h2 := add_fin hx.2.1 hy.2.1
  rw [hx.2.2.2, hy.2.2.2, ← mul_add] at h2
  refine scaled_round h1 h2 ?_ ?_ hf
  · have hc : (0 : ℝ) < 2 ^ n := by positivity
    rw [sgn_add_fin hx.1 hy.1, sgn_add_fin hx.2.1 hy.2.1, hx.2.2.2, hy.2.2.2, ← mul_add, hx.2.2.1, hy.2.2.1]
    have c1 : (2 ^ n * (x.toReal + y.toReal) = 0) ↔ x.toReal + y.toReal = 0 := by
      rw [mul_eq_zero]; exact or_iff_right hc.ne'
    have c2 : (2 ^ n * (x.toReal + y.toReal) < 0) ↔ x.toReal + y.toReal < 0 := by
      constructor
      · intro h; by_contra hn; exact absurd h (not_lt.2 (mul_nonneg hc.le (not_lt.1 hn)))
      · intro h; exact mul_neg_of_pos_of_neg hc h
    simp only [c1, c2]
  · obtain ⟨a, ha⟩ := toReal_int x
    obtain ⟨b, hb⟩ := toReal_int y
    have := normalOr_int (mw := mw) (a + b)
    rwa [Int.cast_add, ← ha, ← hb, ← add_mul] at this

theorem ScaledBy.sub {n : Nat} {x x' y y' : Flt mw ew} (hx : ScaledBy n x x') (hy : ScaledBy n y y') (hf : (x' - y').isFin = true) :
    ScaledBy n (x - y) (x' - y') := by
  rw [Flt.sub_eq_add_neg] at hf ⊢
  rw [Flt.sub_eq_add_neg]
  exact hx.add hy.neg hf

theorem sgn_mul_fin {x y : Flt mw ew} (hx : x.isFin = true) (hy : y.isFin = true) : (x * y).sgn = (x.sgn != y.sgn) := by
  rw [mul_def]
  unfold Flt.mul
  rw [notNaN_of_isFin hx, notNaN_of_isFin hy, notInf_of_isFin hx, notInf_of_isFin hy]
  simp only [Bool.or_self, Bool.false_eq_true, if_false]
  rw [sgn_pack]

theorem ScaledBy.mul {n m : Nat} {x x' y y' : Flt mw ew} (hx : ScaledBy n x x') (hy : ScaledBy m y y')
    (hr : NormalOr mw (x.toReal * y.toReal * 2 ^ fK mw ew)) (hf : (x' * y').isFin = true) : ScaledBy (n + m) (x * y) (x' * y') := by
  have h1 := mul_fin hx.1 hy.1
  have h2 := mul_fin hx.2.1 hy.2.1
  rw [hx.2.2.2, hy.2.2.2, show (2 : ℝ) ^ n * x.toReal * (2 ^ m * y.toReal) = 2 ^ (n + m) * (x.toReal * y.toReal) by rw [pow_add]; ring] at h2
  exact scaled_round h1 h2 (by rw [sgn_mul_fin hx.1 hy.1, sgn_mul_fin hx.2.1 hy.2.1, hx.2.2.1, hy.2.2.1]) hr hf

/-- the length times a power of two -/
theorem scaled_input {k : Nat} {s x : Flt mw ew} (hv : s.toReal = 2 ^ k) (hf : (x * s).isFin = true) : ScaledBy k x (x * s) := by
  obtain ⟨fx, fs⟩ := isFin_of_mul hf
  have h := mul_fin fx fs
  rw [hv, mul_comm] at h
  refine scaled_round ⟨notNaN_of_isFin fx, (rndK_toReal (notNaN_of_isFin fx)).symm⟩ h ?_ (normalOr_toReal x) hf
  have ss : s.sgn = false := by
    by_contra hc
    rw [Bool.not_eq_false] at hc
    have := toReal_sign s
    rw [hc, hv] at this
    simp only [if_true] at this
    have h1 : (0 : ℝ) < 2 ^ k := by positivity
    linarith [abs_nonneg ((2 : ℝ) ^ k)]
  rw [sgn_mul_fin fx fs, ss]
  cases x.sgn <;> rfl

theorem ScaledBy.zero_iff {n : Nat} {x x' : Flt mw ew} (h : ScaledBy n x x') : x'.key = 0 ↔ x.key = 0 := by
  have hc : (0 : ℝ) < 2 ^ n := by positivity
  rw [← toReal_eq_zero_iff, ← toReal_eq_zero_iff, h.2.2.2, mul_eq_zero]
  exact or_iff_right hc.ne'

theorem ScaledBy.nonneg_iff {n : Nat} {x x' : Flt mw ew} (h : ScaledBy n x x') : 0 ≤ x'.toReal ↔ 0 ≤ x.toReal := by
  have hc : (0 : ℝ) < 2 ^ n := by positivity
  rw [h.2.2.2]
  exact mul_nonneg_iff_of_pos_left hc

/-- quotients of two lengths (or areas, …) are the same bit for bit -/
theorem ScaledBy.div {n : Nat} {x x' y y' : Flt mw ew} (hx : ScaledBy n x x') (hy : ScaledBy n y y') : x' / y' = x / y := by
  have hc : (0 : ℝ) < 2 ^ n := by positivity
  have e : ∀ u v : Flt mw ew, u.isFin = true → v.isFin = true → u / v =
      if v.isZero then (if u.isZero then nan mw ew else Flt.inf mw ew (u.sgn != v.sgn))
      else pack mw ew (u.sgn != v.sgn) (roundRat mw (magN mw u.idx * 2 ^ fK mw ew) (magN mw v.idx)) := by
    intro u v fu fv
    rw [div_def]
    unfold Flt.div
    rw [notNaN_of_isFin fu, notNaN_of_isFin fv, notInf_of_isFin fu, notInf_of_isFin fv]
    simp
  have z : ∀ {u u' : Flt mw ew}, ScaledBy n u u' → u'.isZero = u.isZero := by
    intro u u' h
    rw [Bool.eq_iff_iff, isZero_iff_key, isZero_iff_key, h.zero_iff]
  rw [e _ _ hx.1 hy.1, e _ _ hx.2.1 hy.2.1, z hx, z hy, hx.2.2.1, hy.2.2.1]
  by_cases h0 : y.isZero = true
  · rw [if_pos h0, if_pos h0]
  rw [if_neg h0, if_neg h0]
  congr 1
  have m : ∀ {u u' : Flt mw ew}, ScaledBy n u u' → magN mw u'.idx = 2 ^ n * magN mw u.idx := by
    intro u u' h
    have h2 : (magN mw u'.idx : ℝ) = 2 ^ n * magN mw u.idx := by
      have a := toReal_abs u'
      rw [h.2.2.2, abs_mul, abs_of_pos hc, ← toReal_abs u, ← mul_div_assoc] at a
      exact (div_left_inj' (by positivity)).1 a
    exact_mod_cast h2
  have hy0 : 0 < magN mw y.idx := magN_pos (Nat.pos_of_ne_zero fun h => h0 (isZero_iff.2 h))
  rw [m hx, m hy, roundRat_eq _ _ _ hy0, roundRat_eq _ _ _ (Nat.mul_pos (Nat.two_pow_pos n) hy0)]
  congr 1
  push_cast
  rw [mul_assoc, mul_div_mul_left _ _ hc.ne']

/-! ### boxes -/

/-- Specification: the vector with every length multiplied by `s`. -/
def scaleVec {U : Marker} (s : Flt mw ew) (v : GVec (Flt mw ew) 3 U) : GVec (Flt mw ew) 3 U := ⟨fun i => v.vec i * s⟩
/-- Specification: the ray in the other unit; parameters along it stay the same. -/
def scaleRay (s : Flt mw ew) (ray : Ray (Flt mw ew)) : Ray (Flt mw ew) := ⟨scaleVec s ray.origin, scaleVec s ray.direction, ray.tmax⟩
/-- Specification: the box in the other unit. -/
def scaleBox (s : Flt mw ew) (b : Bbox (Flt mw ew)) : Bbox (Flt mw ew) := ⟨scaleVec s b.pmin, scaleVec s b.pmax⟩

/-- C122: multiplying every length of box and ray by the same power of two does not change the result of the slab test, bit for bit, as
long as nothing overflows. -/
theorem C122_box (k : Nat) (s : Flt mw ew) (hv : s.toReal = 2 ^ k) (b : Bbox (Flt mw ew)) (ray : Ray (Flt mw ew))
    (hd : ∀ i, (ray.direction.vec i * s).isFin = true)
    (h1 : ∀ i, (b.pmin.vec i * s - ray.origin.vec i * s).isFin = true)
    (h2 : ∀ i, (b.pmax.vec i * s - ray.origin.vec i * s).isFin = true) :
    (scaleBox s b).intersectRay (scaleRay s ray) = b.intersectRay ray ∧
    (scaleBox s b).doIntersect (scaleRay s ray) = b.doIntersect ray := by
  have q : ∀ (p : Point (Flt mw ew) 3) i, (p.vec i * s - ray.origin.vec i * s).isFin = true →
      (p.vec i * s - ray.origin.vec i * s) / (ray.direction.vec i * s) = (p.vec i - ray.origin.vec i) / ray.direction.vec i := by
    intro p i f
    obtain ⟨g1, g2⟩ := isFin_of_sub f
    exact ((scaled_input hv g1).sub (scaled_input hv g2) f).div (scaled_input hv (hd i))
  have e1 : (((scaleBox s b).pmin - (scaleRay s ray).origin) / (scaleRay s ray).direction) = ((b.pmin - ray.origin) / ray.direction) :=
    GVec.ext (funext fun i => q b.pmin i (h1 i))
  have e2 : (((scaleBox s b).pmax - (scaleRay s ray).origin) / (scaleRay s ray).direction) = ((b.pmax - ray.origin) / ray.direction) :=
    GVec.ext (funext fun i => q b.pmax i (h2 i))
  have h : (scaleBox s b).intersectRay (scaleRay s ray) = b.intersectRay ray := by
    unfold Bbox.intersectRay
    rw [e1, e2]
    rfl
  refine ⟨h, ?_⟩
  unfold Bbox.doIntersect
  rw [h]

/-! ### spheres -/

theorem ScaledBy.zero (n : Nat) : ScaledBy n (Scalar.zero : Flt mw ew) Scalar.zero :=
  ⟨isFin_szero, isFin_szero, rfl, by rw [toReal_szero, mul_zero]⟩

theorem scaled_sum {n m : Nat} {f f' : _root_.Fin m → Flt mw ew} (h : ∀ i, ScaledBy n (f i) (f' i)) (hf : (sumLoop m f').isFin = true) :
    ScaledBy n (sumLoop m f) (sumLoop m f') := by
  induction m with
  | zero => exact ScaledBy.zero n
  | succ m ih =>
    have hf' : (sumLoop m (fun i => f' i.castSucc) + f' (Fin.last m)).isFin = true := hf
    exact (ih (fun i => h i.castSucc) (isFin_of_add hf').1).add (h (Fin.last m)) hf'

variable [Libm mw ew]

theorem ScaledBy.mul_two {n : Nat} {x x' : Flt mw ew} (h : ScaledBy n x x') (hf : (x' * GFloat.fromI64 2).isFin = true) :
    ScaledBy n (x * GFloat.fromI64 2) (x' * GFloat.fromI64 2) := by
  refine h.mul (m := 0) (ScaledBy.refl two_spec.1) ?_ hf
  rw [two_spec.2, mul_comm x.toReal 2, mul_assoc]
  exact (normalOr_toReal x).double

theorem ScaledBy.mul_four {n : Nat} {x x' : Flt mw ew} (h : ScaledBy n x x') (hf : (x' * GFloat.fromI64 4).isFin = true) :
    ScaledBy n (x * GFloat.fromI64 4) (x' * GFloat.fromI64 4) := by
  refine h.mul (m := 0) (ScaledBy.refl four_spec.1) ?_ hf
  rw [four_spec.2, show x.toReal * 4 * 2 ^ fK mw ew = 2 * (2 * (x.toReal * 2 ^ fK mw ew)) by ring]
  exact (normalOr_toReal x).double.double

theorem ScaledBy.sqrt (hw : mw + 3 ≤ 2 ^ (ew - 1)) {n : Nat} {x x' : Flt mw ew} (h : ScaledBy (n + n) x x') (h0 : 0 ≤ x.toReal) :
    ScaledBy n (GFloat.sqrt x) (GFloat.sqrt x') := by
  have h0' := h.nonneg_iff.2 h0
  have s1 := sqrt_fin h.1 (toReal_nonneg_iff.1 h0)
  have s2 := sqrt_fin h.2.1 (toReal_nonneg_iff.1 h0')
  rw [h.2.2.2, pow_add, Real.sqrt_mul (by positivity), Real.sqrt_mul_self (by positivity)] at s2
  refine scaled_round s1 s2 ?_ ?_ (sqrt_err h.2.1 h0').1
  · change x'.sqrt.sgn = x.sqrt.sgn
    unfold Flt.sqrt
    have z : x'.isZero = x.isZero := by rw [Bool.eq_iff_iff, isZero_iff_key, isZero_iff_key, h.zero_iff]
    rw [notNaN_of_isFin h.1, notNaN_of_isFin h.2.1, notInf_of_isFin h.1, notInf_of_isFin h.2.1, z, h.2.2.1]
    simp only [Bool.false_eq_true, if_false]
    split
    · exact h.2.2.1
    split
    · rfl
    · rw [sgn_pack, sgn_pack]
  · rcases eq_or_lt_of_le h0 with hz | hp
    · rw [← hz, Real.sqrt_zero, zero_mul]; exact .inr ⟨0, by simp⟩
    · left
      have hK : 2 * mw ≤ fK mw ew := by unfold fK; omega
      have hq := Real.sqrt_nonneg x.toReal
      rw [abs_of_nonneg (by positivity)]
      apply le_of_sq_le _ (by positivity)
      rw [mul_pow, Real.sq_sqrt h0]
      have one : 1 ≤ x.toReal * 2 ^ fK mw ew := by
        obtain ⟨a, ha⟩ := toReal_int x
        have hp' : 0 < x.toReal * 2 ^ fK mw ew := by positivity
        rw [ha] at hp' ⊢
        exact_mod_cast hp'
      have two : (2 : ℝ) ^ (2 * mw) ≤ 2 ^ fK mw ew := pow_le_pow_right₀ (by norm_num) hK
      have hc : (0 : ℝ) < 2 ^ fK mw ew := by positivity
      rw [← pow_mul, mul_comm mw 2]
      nlinarith

theorem scaled_nonneg {n : Nat} {x x' : Flt mw ew} (h : ScaledBy n x x') : Scalar.isNonnegative x' = Scalar.isNonnegative x := by
  rw [Bool.eq_iff_iff]
  change Scalar.ge x' Scalar.zero = true ↔ Scalar.ge x Scalar.zero = true
  rw [sge_iff, sge_iff, key_szero]
  simp only [notNaN_of_isFin h.1, notNaN_of_isFin h.2.1, true_and]
  rw [← toReal_nonneg_iff, ← toReal_nonneg_iff, h.nonneg_iff]

/-- the quadratic with all coefficients scaled has the same solutions, bit for bit -/
theorem scaled_quadratic (hm : 9 ≤ mw) (hw : mw + 3 ≤ 2 ^ (ew - 1)) {n : Nat} {a b c a' b' c' : Flt mw ew}
    (ha : ScaledBy n a a') (hb : ScaledBy n b b') (hc : ScaledBy n c c')
    (fd : (Scalar.square b' - a' * c' * GFloat.fromI64 4).isFin = true) (fc : (c' + c').isFin = true)
    (fp : (b' + GFloat.sqrt (Scalar.square b' - a' * c' * GFloat.fromI64 4)).isFin = true)
    (fm : (-b' + GFloat.sqrt (Scalar.square b' - a' * c' * GFloat.fromI64 4)).isFin = true)
    (nb : Normalised mw ew (b.toReal ^ 2)) (nc : Normalised mw ew (a.toReal * c.toReal)) :
    solveQuadratic a' b' c' = solveQuadratic a b c := by
  have fd' : (b' * b' - a' * c' * GFloat.fromI64 4).isFin = true := fd
  obtain ⟨f1, f2⟩ := isFin_of_sub fd'
  obtain ⟨f3, -⟩ := isFin_of_mul f2
  have sd : ScaledBy (n + n) (Scalar.square b - a * c * GFloat.fromI64 4) (Scalar.square b' - a' * c' * GFloat.fromI64 4) :=
    (hb.mul hb (by rw [← sq]; exact normalOr_of_normalised nb) f1).sub
      ((ha.mul hc (normalOr_of_normalised nc) f3).mul_four f2) fd'
  have scc := hc.add hc fc
  obtain ⟨fh, vh⟩ := half_spec (mw := mw) (ew := ew)
  have half : ∀ p p' : Flt mw ew, p.toReal = |b.toReal| → ScaledBy n p p' → 0 ≤ (Scalar.square b - a * c * GFloat.fromI64 4).toReal →
      (p' + GFloat.sqrt (Scalar.square b' - a' * c' * GFloat.fromI64 4)).isFin = true →
      ScaledBy n (p + GFloat.sqrt (Scalar.square b - a * c * GFloat.fromI64 4))
        (p' + GFloat.sqrt (Scalar.square b' - a' * c' * GFloat.fromI64 4)) ∧
      NormalOr mw ((p + GFloat.sqrt (Scalar.square b - a * c * GFloat.fromI64 4)).toReal / 2 * 2 ^ fK mw ew) := by
    intro p p' hp sp h0 fw
    have sw := sp.add (sd.sqrt hw h0) fw
    refine ⟨sw, ?_⟩
    by_cases w0 : (p + GFloat.sqrt (Scalar.square b - a * c * GFloat.fromI64 4)).toReal = 0
    · rw [w0, zero_div, zero_mul]; exact .inr ⟨0, by simp⟩
    · obtain ⟨-, -, -, -, -, -, -, -, hn⟩ := quad_w hm hw hp sd.1 h0 sw.1 w0 nb nc
      exact normalOr_of_normalised hn
  unfold solveQuadratic
  dsimp only
  rw [scaled_nonneg sd, scaled_nonneg hb]
  split
  swap
  · rfl
  rename_i hd0
  have h0 : 0 ≤ (Scalar.square b - a * c * GFloat.fromI64 4).toReal := by
    have hd0' : Scalar.ge (Scalar.square b - a * c * GFloat.fromI64 4) Scalar.zero = true := hd0
    rw [sge_iff, key_szero] at hd0'
    exact toReal_nonneg_iff.2 hd0'.2.2
  -- halving the sum is exact in both
  have fhalf : ∀ {x : Flt mw ew}, x.isFin = true → (x * GFloat.half).isFin = true := by
    intro x hx
    have h := mul_fin hx fh
    rw [vh] at h
    have hk := rndK_toReal (notNaN_of_isFin hx)
    have hb := isFin_iff_key.1 hx
    have m := rndK_mono mw ew
    rw [isFin_iff_key]
    change _ < (x.mul GFloat.half).key ∧ (x.mul GFloat.half).key < _
    rw [h.2]
    rcases le_total 0 x.toReal with hx0 | hx0
    · have a1 := m (show x.toReal * (1 / 2) ≤ x.toReal by linarith)
      have a2 := rndK_nonneg (mw := mw) (ew := ew) (show 0 ≤ x.toReal * (1 / 2) by linarith)
      have := kInf_pos (mw := mw) (ew := ew)
      omega
    · have a1 := m (show x.toReal ≤ x.toReal * (1 / 2) by linarith)
      have a2 := rndK_nonpos (mw := mw) (ew := ew) (show x.toReal * (1 / 2) ≤ 0 by linarith)
      have := kInf_pos (mw := mw) (ew := ew)
      omega
  split
  · rename_i hb0
    have hb0' : 0 ≤ b.toReal := by
      have hb1 : Scalar.ge b Scalar.zero = true := hb0
      rw [sge_iff, key_szero] at hb1
      exact toReal_nonneg_iff.2 hb1.2.2
    obtain ⟨sw, nw⟩ := half b b' (abs_of_nonneg hb0').symm hb h0 fp
    have sq : ScaledBy n (-(b + GFloat.sqrt (Scalar.square b - a * c * GFloat.fromI64 4)) * GFloat.half)
        (-(b' + GFloat.sqrt (Scalar.square b' - a' * c' * GFloat.fromI64 4)) * GFloat.half) := by
      refine sw.neg.mul (m := 0) (ScaledBy.refl fh) ?_ (fhalf sw.neg.2.1)
      rw [vh, toReal_negop]
      rcases nw with nw | ⟨j, nw⟩
      · left
        rw [← abs_neg]
        convert nw using 2
        ring
      · exact .inr ⟨-j, by rw [valZ_neg, ← nw]; ring⟩
    rw [sq.div ha, scc.neg.div sw]
  · rename_i hb0
    have hb0' : b.toReal ≤ 0 := by
      by_contra hcn
      apply hb0
      change Scalar.ge b Scalar.zero = true
      rw [sge_iff, key_szero]
      exact ⟨notNaN_of_isFin hb.1, notNaN_of_isFin isFin_szero, toReal_nonneg_iff.1 (not_le.1 hcn).le⟩
    obtain ⟨sw, nw⟩ := half (-b) (-b') (by rw [toReal_negop, abs_of_nonpos hb0']) hb.neg h0 fm
    have sq : ScaledBy n ((-b + GFloat.sqrt (Scalar.square b - a * c * GFloat.fromI64 4)) * GFloat.half)
        ((-b' + GFloat.sqrt (Scalar.square b' - a' * c' * GFloat.fromI64 4)) * GFloat.half) := by
      refine sw.mul (m := 0) (ScaledBy.refl fh) ?_ (fhalf sw.2.1)
      rw [vh]
      convert nw using 2
      ring
    rw [sq.div ha, scc.div sw]

/-- Specification: the sphere in the other unit; the angles stay the same. -/
def scaleSphere (u : Flt mw ew) (s : Sphere (Flt mw ew)) : Sphere (Flt mw ew) :=
  { s with radius := s.radius * u, zMin := s.zMin * u, zMax := s.zMax * u }

/-- the coefficients of the quadratic of a sphere test -/
def coeffA (ray : Ray (Flt mw ew)) : Flt mw ew := ray.direction.squareNorm
def coeffB (ray : Ray (Flt mw ew)) : Flt mw ew := (GVec.conv .vector ray.origin).dot ray.direction * GFloat.fromI64 2
def coeffC (s : Sphere (Flt mw ew)) (ray : Ray (Flt mw ew)) : Flt mw ew :=
  (GVec.conv .vector ray.origin).squareNorm - Scalar.square s.radius
/-- the discriminant -/
def discriminant (s : Sphere (Flt mw ew)) (ray : Ray (Flt mw ew)) : Flt mw ew :=
  Scalar.square (coeffB ray) - coeffA ray * coeffC s ray * GFloat.fromI64 4

/-- Hypothesis of C122 for spheres: no product underflows in the smaller unit, nothing overflows in the larger one. -/
structure UnitsRegular (u : Flt mw ew) (s : Sphere (Flt mw ew)) (ray : Ray (Flt mw ew)) : Prop where
  nd : ∀ i, Normalised mw ew ((ray.direction.vec i).toReal ^ 2)
  no : ∀ i, Normalised mw ew ((ray.origin.vec i).toReal ^ 2)
  nod : ∀ i, Normalised mw ew ((ray.origin.vec i).toReal * (ray.direction.vec i).toReal)
  nr : Normalised mw ew (s.radius.toReal ^ 2)
  nb : Normalised mw ew ((coeffB ray).toReal ^ 2)
  nc : Normalised mw ew ((coeffA ray).toReal * (coeffC s ray).toReal)
  fd : (discriminant (scaleSphere u s) (scaleRay u ray)).isFin = true
  fc : (coeffC (scaleSphere u s) (scaleRay u ray) + coeffC (scaleSphere u s) (scaleRay u ray)).isFin = true
  fp : (coeffB (scaleRay u ray) + GFloat.sqrt (discriminant (scaleSphere u s) (scaleRay u ray))).isFin = true
  fm : (-coeffB (scaleRay u ray) + GFloat.sqrt (discriminant (scaleSphere u s) (scaleRay u ray))).isFin = true
  fz : (s.zMin * u).isFin = true ∧ (s.zMax * u).isFin = true
  /-- the points where the ray meets the sphere, as far as they are on the ray -/
  pts : ∀ t0 t1, solveQuadratic (coeffA ray) (coeffB ray) (coeffC s ray) = some (t0, t1) → ∀ t, t = t0 ∨ t = t1 →
    Scalar.inRange t Scalar.zero ray.tmax = true → ∀ i, Normalised mw ew ((ray.direction.vec i).toReal * t.toReal) ∧
      (((scaleRay u ray).eval t).vec i).isFin = true

/-- Specification: the hit in the other unit: the same parameter, bit for bit, and the point with every coordinate scaled. -/
def ScaledHit (k : Nat) (r r' : IntersectionResult (Flt mw ew)) : Prop :=
  r'.tRay = r.tRay ∧ ∀ i, ScaledBy k (r.surfaceInteraction.p.vec i) (r'.surfaceInteraction.p.vec i)

theorem scaled_inRange {n : Nat} {x x' l l' h h' : Flt mw ew} (hx : ScaledBy n x x') (hl : ScaledBy n l l') (hh : ScaledBy n h h') :
    Scalar.inRange x' l' h' = Scalar.inRange x l h := by
  have hc : (0 : ℝ) < 2 ^ n := by positivity
  have le : ∀ {y y' z z' : Flt mw ew}, ScaledBy n y y' → ScaledBy n z z' → (y'.key ≤ z'.key ↔ y.key ≤ z.key) := by
    intro y y' z z' h1 h2
    rw [← toReal_le_iff, ← toReal_le_iff, h1.2.2.2, h2.2.2.2]
    exact mul_le_mul_iff_right₀ hc
  rw [Bool.eq_iff_iff]
  unfold Scalar.inRange
  rw [Bool.and_eq_true, Bool.and_eq_true, sge_iff, sle_iff, sge_iff, sle_iff, le hl hx, le hx hh]
  simp only [notNaN_of_isFin hx.1, notNaN_of_isFin hx.2.1, notNaN_of_isFin hl.1, notNaN_of_isFin hl.2.1, notNaN_of_isFin hh.1,
    notNaN_of_isFin hh.2.1]

theorem scaled_dot {k : Nat} {u : Flt mw ew} {U I : Marker} {v : GVec (Flt mw ew) 3 U} {w : GVec (Flt mw ew) 3 I}
    (hv : ∀ i, ScaledBy k (v.vec i) (v.vec i * u)) (hw : ∀ i, ScaledBy k (w.vec i) (w.vec i * u))
    (hn : ∀ i, Normalised mw ew ((v.vec i).toReal * (w.vec i).toReal)) (hf : ((scaleVec u v).dot (scaleVec u w)).isFin = true) :
    ScaledBy (k + k) (v.dot w) ((scaleVec u v).dot (scaleVec u w)) := by
  have ht : ∀ i, ((v.vec i * u) * (w.vec i * u)).isFin = true := by unfold dot at hf; exact fun i => sumLoop_fin hf i
  unfold dot at hf ⊢
  exact scaled_sum (f := fun i => v.vec i * w.vec i) (f' := fun i => (v.vec i * u) * (w.vec i * u))
    (fun i => (hv i).mul (hw i) (normalOr_of_normalised (hn i)) (ht i)) hf

theorem dot_fin {u : Flt mw ew} {U I : Marker} {v : GVec (Flt mw ew) 3 U} {w : GVec (Flt mw ew) 3 I}
    (hf : ((scaleVec u v).dot (scaleVec u w)).isFin = true) (i : _root_.Fin 3) : (v.vec i * u).isFin = true ∧ (w.vec i * u).isFin = true := by
  unfold dot at hf
  exact isFin_of_mul (sumLoop_fin (f := fun i => (v.vec i * u) * (w.vec i * u)) hf i)

theorem squareNorm_dot {U : Marker} (v : GVec (Flt mw ew) 3 U) : v.squareNorm = v.dot v := by unfold squareNorm dot; rfl

/-- the inputs and the coefficients in the other unit -/
theorem scaled_coeffs (k : Nat) (u : Flt mw ew) (hv : u.toReal = 2 ^ k) (s : Sphere (Flt mw ew)) (ray : Ray (Flt mw ew))
    (hr : UnitsRegular u s ray) :
    (∀ i, ScaledBy k (ray.direction.vec i) (ray.direction.vec i * u)) ∧ (∀ i, ScaledBy k (ray.origin.vec i) (ray.origin.vec i * u)) ∧
    ScaledBy (k + k) (coeffA ray) (coeffA (scaleRay u ray)) ∧ ScaledBy (k + k) (coeffB ray) (coeffB (scaleRay u ray)) ∧
    ScaledBy (k + k) (coeffC s ray) (coeffC (scaleSphere u s) (scaleRay u ray)) := by
  have fdd : (coeffB (scaleRay u ray) * coeffB (scaleRay u ray) -
    coeffA (scaleRay u ray) * coeffC (scaleSphere u s) (scaleRay u ray) * GFloat.fromI64 4).isFin = true := hr.fd
  obtain ⟨f1, f2⟩ := isFin_of_sub fdd
  obtain ⟨fb, -⟩ := isFin_of_mul f1
  obtain ⟨f3, -⟩ := isFin_of_mul f2
  obtain ⟨fa, fc⟩ := isFin_of_mul f3
  have fb' : ((GVec.conv .vector (scaleRay u ray).origin).dot (scaleRay u ray).direction * GFloat.fromI64 2).isFin = true := fb
  obtain ⟨fb2, -⟩ := isFin_of_mul fb'
  have fc' : ((GVec.conv .vector (scaleRay u ray).origin).squareNorm - Scalar.square (s.radius * u)).isFin = true := fc
  obtain ⟨fc2, fc3⟩ := isFin_of_sub fc'
  have fc4 : (s.radius * u * (s.radius * u)).isFin = true := fc3
  have fa' : ((scaleVec u ray.direction).dot (scaleVec u ray.direction)).isFin = true := by rw [← squareNorm_dot]; exact fa
  have fo' : ((scaleVec u (GVec.conv .vector ray.origin)).dot (scaleVec u (GVec.conv .vector ray.origin))).isFin = true := by
    rw [← squareNorm_dot]; exact fc2
  have fod' : ((scaleVec u (GVec.conv .vector ray.origin)).dot (scaleVec u ray.direction)).isFin = true := fb2
  have sd : ∀ i, ScaledBy k (ray.direction.vec i) (ray.direction.vec i * u) := fun i => scaled_input hv (dot_fin fa' i).1
  have so : ∀ i, ScaledBy k (ray.origin.vec i) (ray.origin.vec i * u) := fun i => scaled_input hv (dot_fin fo' i).1
  have sr : ScaledBy k s.radius (s.radius * u) := scaled_input hv (isFin_of_mul fc4).1
  refine ⟨sd, so, ?_, ?_, ?_⟩
  · have := scaled_dot sd sd (fun i => by rw [← sq]; exact hr.nd i) fa'
    rw [← squareNorm_dot, ← squareNorm_dot] at this
    exact this
  · exact ScaledBy.mul_two (scaled_dot (v := GVec.conv .vector ray.origin) so sd hr.nod fod') fb'
  · have := scaled_dot (v := GVec.conv .vector ray.origin) (w := GVec.conv .vector ray.origin) so so
      (fun i => by rw [← sq]; exact hr.no i) fo'
    rw [← squareNorm_dot, ← squareNorm_dot] at this
    exact this.sub (sr.mul sr (by rw [← sq]; exact normalOr_of_normalised hr.nr) fc4) fc'

/-- two hits that correspond -/
def ScaledHit' (k : Nat) (h h' : SphereHit (Flt mw ew)) : Prop := h'.tRay = h.tRay ∧ ∀ i, ScaledBy k (h.p.vec i) (h'.p.vec i)

/-- one candidate parameter in the other unit -/
theorem scaled_candidate (k : Nat) (u : Flt mw ew) (hv : u.toReal = 2 ^ k) (s : Sphere (Flt mw ew)) (ray : Ray (Flt mw ew))
    (hφ : ∀ y x : Flt mw ew, Scalar.gt (GTrig.atan2 y x) s.phiMax = false)
    (sd : ∀ i, ScaledBy k (ray.direction.vec i) (ray.direction.vec i * u)) (so : ∀ i, ScaledBy k (ray.origin.vec i) (ray.origin.vec i * u))
    (z1 : (s.zMin * u).isFin = true) (z2 : (s.zMax * u).isFin = true) (t : Flt mw ew)
    (hp : Scalar.inRange t Scalar.zero ray.tmax = true → ∀ i, Normalised mw ew ((ray.direction.vec i).toReal * t.toReal) ∧
      (((scaleRay u ray).eval t).vec i).isFin = true) :
    Option.Rel (ScaledHit' k) (s.getIntersection ray t) ((scaleSphere u s).getIntersection (scaleRay u ray) t) := by
  have e1 : s.getIntersection ray t = if (!Scalar.inRange t Scalar.zero ray.tmax) = true then none else
      if (!Scalar.inRange (ray.eval t).z s.zMin s.zMax) = true then none else
      if Scalar.gt (GTrig.atan2 (ray.eval t).y (ray.eval t).x) s.phiMax = true then none else
      some ⟨t, ray.eval t, GTrig.atan2 (ray.eval t).y (ray.eval t).x⟩ := rfl
  have e2 : (scaleSphere u s).getIntersection (scaleRay u ray) t = if (!Scalar.inRange t Scalar.zero ray.tmax) = true then none else
      if (!Scalar.inRange ((scaleRay u ray).eval t).z (s.zMin * u) (s.zMax * u)) = true then none else
      if Scalar.gt (GTrig.atan2 ((scaleRay u ray).eval t).y ((scaleRay u ray).eval t).x) s.phiMax = true then none else
      some ⟨t, (scaleRay u ray).eval t, GTrig.atan2 ((scaleRay u ray).eval t).y ((scaleRay u ray).eval t).x⟩ := rfl
  rw [e1, e2, hφ, hφ]
  cases hin : Scalar.inRange t Scalar.zero ray.tmax
  · exact .none
  have sp : ∀ i, ScaledBy k ((ray.eval t).vec i) (((scaleRay u ray).eval t).vec i) := by
    intro i
    obtain ⟨n1, n2⟩ := hp hin i
    change (ray.origin.vec i * u + ray.direction.vec i * u * t).isFin = true at n2
    obtain ⟨n3, n4⟩ := isFin_of_add n2
    exact (so i).add ((sd i).mul (m := 0) (ScaledBy.refl (isFin_of_mul n4).2) (normalOr_of_normalised n1) n4) n2
  have ez : Scalar.inRange ((scaleRay u ray).eval t).z (s.zMin * u) (s.zMax * u) = Scalar.inRange (ray.eval t).z s.zMin s.zMax :=
    scaled_inRange (sp 2) (scaled_input hv z1) (scaled_input hv z2)
  rw [ez]
  cases Scalar.inRange (ray.eval t).z s.zMin s.zMax
  · exact .none
  · exact .some ⟨rfl, sp⟩

/-- C122: multiplying every length of sphere and ray by the same power of two changes neither whether the ray hits nor `t_ray`, bit for
bit, and multiplies the coordinates of the hit point by exactly that power, when no intermediate result underflows in the smaller unit or
overflows in the larger. -/
theorem C122_sphere (hm : 9 ≤ mw) (hw : mw + 3 ≤ 2 ^ (ew - 1)) (k : Nat) (u : Flt mw ew) (hv : u.toReal = 2 ^ k)
    (s : Sphere (Flt mw ew)) (ray : Ray (Flt mw ew)) (hr : UnitsRegular u s ray)
    (hφ : ∀ y x : Flt mw ew, Scalar.gt (Libm.atan2 y x) s.phiMax = false) :
    Option.Rel (ScaledHit k) (s.intersect ray) ((scaleSphere u s).intersect (scaleRay u ray)) ∧
    (scaleSphere u s).doIntersect (scaleRay u ray) = s.doIntersect ray := by
  obtain ⟨sd, so, sa, sb, sc⟩ := scaled_coeffs k u hv s ray hr
  have eq := scaled_quadratic hm hw sa sb sc hr.fd hr.fc hr.fp hr.fm hr.nb hr.nc
  have g : ∀ t0 t1, solveQuadratic (coeffA ray) (coeffB ray) (coeffC s ray) = some (t0, t1) → ∀ t, t = t0 ∨ t = t1 →
      Option.Rel (ScaledHit' k) (s.getIntersection ray t) ((scaleSphere u s).getIntersection (scaleRay u ray) t) :=
    fun t0 t1 hq t ht => scaled_candidate k u hv s ray hφ sd so hr.fz.1 hr.fz.2 t (hr.pts t0 t1 hq t ht)
  have h : Option.Rel (ScaledHit' k)
      (s.intersectRay ray) ((scaleSphere u s).intersectRay (scaleRay u ray)) := by
    unfold coeffA coeffB coeffC at eq g
    unfold Sphere.intersectRay
    dsimp only
    rw [eq]
    generalize solveQuadratic ray.direction.squareNorm ((GVec.conv .vector ray.origin).dot ray.direction * GFloat.fromI64 2)
      ((GVec.conv .vector ray.origin).squareNorm - Scalar.square s.radius) = q at g
    cases hq : q with
    | none => exact .none
    | some tt =>
      obtain ⟨t0, t1⟩ := tt
      have g0 := g t0 t1 hq t0 (.inl rfl)
      have g1 := g t0 t1 hq t1 (.inr rfl)
      dsimp only
      revert g0
      cases s.getIntersection ray t0 <;> cases (scaleSphere u s).getIntersection (scaleRay u ray) t0 <;> intro g0
      · exact g1
      · cases g0
      · cases g0
      · exact g0
  constructor
  · unfold Sphere.intersect
    revert h
    cases s.intersectRay ray <;> cases (scaleSphere u s).intersectRay (scaleRay u ray) <;> intro h
    · exact .none
    · cases h
    · cases h
    · cases h with
      | some h => exact .some h
  · unfold Sphere.doIntersect
    revert h
    cases s.intersectRay ray <;> cases (scaleSphere u s).intersectRay (scaleRay u ray) <;> intro h
    · rfl
    · cases h
    · cases h
    · rfl
end ops

/-! ### examples -/

/-- The hypotheses of C122 for boxes hold for an oblique ray and the factor 4; it hits. -/
example : let b : Bbox F32 := ⟨new3 (F32.lit 0) (F32.lit 0) (F32.lit 0), new3 (F32.lit 2) (F32.lit 2) (F32.lit 2)⟩
    let ray : Ray F32 := ⟨new3 (-F32.lit 1) (F32.lit 1) (-F32.lit 1), new3 (F32.lit 1) (F32.lit 0) (F32.lit 1), F32.lit 9⟩
    let s : F32 := F32.lit 4
    s.toReal = 2 ^ 2 ∧ (∀ i, (ray.direction.vec i * s).isFin = true) ∧ (∀ i, (b.pmin.vec i * s - ray.origin.vec i * s).isFin = true) ∧
    (∀ i, (b.pmax.vec i * s - ray.origin.vec i * s).isFin = true) ∧ b.intersectRay ray = some (F32.lit 1, F32.lit 3) ∧
    (scaleBox s b).pmax.vec 0 = F32.lit 8 := by
  refine ⟨?_, by decide +kernel, by decide +kernel, by decide +kernel, by decide +kernel, by decide +kernel⟩
  rw [toReal_lit (by decide)]
  norm_num

/-- The hypotheses of C122 for spheres hold for a sphere of radius 3, a ray towards it and the factor 4. -/
example [Libm 23 8] :
    let ray : Ray F32 := ⟨new3 (F32.lit 0) (F32.lit 0) (-F32.lit 5), new3 (F32.lit 0) (F32.lit 0) (F32.lit 1), F32.lit 9⟩
    let s : Sphere F32 := ⟨F32.lit 3, -F32.lit 4, F32.lit 4, F32.lit 0, F32.lit 0, Flt.inf 23 8 false⟩
    UnitsRegular (F32.lit 4) s ray ∧ (F32.lit 4).toReal = 2 ^ 2 ∧ (∀ y x : F32, Scalar.gt (Libm.atan2 y x) s.phiMax = false) := by
  intro ray s
  have h0 : (F32.lit 0).toReal = 0 := by rw [toReal_lit (by decide)]; norm_num
  have h1 : (F32.lit 1).toReal = 1 := by rw [toReal_lit (by decide)]; norm_num
  have h2 : (F32.lit 2).toReal = 2 := by rw [toReal_lit (by decide)]; norm_num
  have h3 : (F32.lit 3).toReal = 3 := by rw [toReal_lit (by decide)]; norm_num
  have h5 : (F32.lit 5).toReal = 5 := by rw [toReal_lit (by decide)]; norm_num
  have h8 : (F32.lit 8).toReal = 8 := by rw [toReal_lit (by decide)]; norm_num
  have h10 : (F32.lit 10).toReal = 10 := by rw [toReal_lit (by decide)]; norm_num
  have h16 : (F32.lit 16).toReal = 16 := by rw [toReal_lit (by decide)]; norm_num
  have ed : ∀ i, (ray.direction.vec i).toReal = ![0, 0, 1] i := by
    intro i; fin_cases i
    · exact h0
    · exact h0
    · exact h1
  have eo : ∀ i, (ray.origin.vec i).toReal = ![0, 0, -5] i := by
    intro i; fin_cases i
    · exact h0
    · exact h0
    · change (-F32.lit 5).toReal = -5; rw [toReal_negop, h5]
  have eb : coeffB ray = -F32.lit 10 := by decide +kernel
  have ea : coeffA ray = F32.lit 1 := by decide +kernel
  have ec : coeffC s ray = F32.lit 16 := by decide +kernel
  have eq : solveQuadratic (F32.lit 1) (-F32.lit 10) (F32.lit 16) = some (F32.lit 2, F32.lit 8) := by decide +kernel
  refine ⟨⟨?_, ?_, ?_, ?_, ?_, ?_, by decide +kernel, by decide +kernel, by decide +kernel, by decide +kernel,
    ⟨by decide +kernel, by decide +kernel⟩, ?_⟩, ?_, fun y x => gt_inf _⟩
  · intro i; rw [ed]; fin_cases i
    · left; simp
    · left; simp
    · right; exact ((normal_f32 (r := 1) (by norm_num)).resolve_left (by norm_num)).trans (by simp)
  · intro i; rw [eo]; fin_cases i
    · left; simp
    · left; simp
    · exact normal_f32 (by norm_num)
  · intro i; rw [eo, ed]; fin_cases i
    · left; simp
    · left; simp
    · exact normal_f32 (by norm_num)
  · change Normalised 23 8 ((F32.lit 3).toReal ^ 2)
    rw [h3]; exact normal_f32 (by norm_num)
  · rw [eb, toReal_negop, h10]; exact normal_f32 (by norm_num)
  · rw [ea, ec, h1, h16]; exact normal_f32 (by norm_num)
  · intro t0 t1 hq t ht _ i
    rw [ea, eb, ec, eq] at hq
    cases hq
    rw [ed]
    rcases ht with rfl | rfl
    · refine ⟨?_, ?_⟩
      · rw [h2]; fin_cases i
        · left; simp
        · left; simp
        · exact normal_f32 (by norm_num)
      · revert i; decide +kernel
    · refine ⟨?_, ?_⟩
      · rw [h8]; fin_cases i
        · left; simp
        · left; simp
        · exact normal_f32 (by norm_num)
      · revert i; decide +kernel
  · rw [toReal_lit (by decide)]; norm_num

/-- `2^-k` in `f32` (for `k ≤ 126`) -/
def negPow (k : Nat) : F32 := Flt.ofIdx 23 8 false ((127 - k) * 2 ^ 23)

/-- C122 for spheres without the condition on underflow is false of the code: the square of a radius of `2^-76` underflows, and in the
larger unit (factor `2^20`) the same sphere is hit earlier. -/
theorem C122_sphere_refuted [Libm 23 8] :
    ¬ ∀ (k : Nat) (u : F32), u.toReal = 2 ^ k → ∀ (s : Sphere F32) (ray : Ray F32),
      (∀ y x : F32, Scalar.gt (Libm.atan2 y x) s.phiMax = false) → (discriminant (scaleSphere u s) (scaleRay u ray)).isFin = true →
      ((scaleSphere u s).intersect (scaleRay u ray)).map (fun r => r.tRay) = (s.intersect ray).map (fun r => r.tRay) := by
  intro h
  have hit : ∀ (s : Sphere F32) (ray : Ray F32) (t0 t1 : F32), s.phiMax = Flt.inf 23 8 false →
      solveQuadratic (coeffA ray) (coeffB ray) (coeffC s ray) = some (t0, t1) → Scalar.inRange t0 Scalar.zero ray.tmax = true →
      Scalar.inRange (ray.eval t0).z s.zMin s.zMax = true → (s.intersect ray).map (fun r => r.tRay) = some t0 := by
    intro s ray t0 t1 hp hq c1 c2
    have c3 : Scalar.gt (GTrig.atan2 (ray.eval t0).y (ray.eval t0).x) s.phiMax = false := by rw [hp]; exact gt_inf _
    have g : s.intersectRay ray = some ⟨t0, ray.eval t0, GTrig.atan2 (ray.eval t0).y (ray.eval t0).x⟩ := by
      unfold coeffA coeffB coeffC at hq
      unfold Sphere.intersectRay
      dsimp only
      rw [hq]
      dsimp only
      unfold Sphere.getIntersection
      dsimp only
      rw [c1, c2, c3]
      rfl
    unfold Sphere.intersect
    rw [g]
    rfl
  let s : Sphere F32 := ⟨negPow 76, -F32.lit 4, F32.lit 4, F32.lit 0, F32.lit 0, Flt.inf 23 8 false⟩
  let ray : Ray F32 := ⟨new3 (F32.lit 0) (F32.lit 0) (-negPow 74), new3 (F32.lit 0) (F32.lit 0) (F32.lit 1), F32.lit 9⟩
  have hu : (F32.lit (2 ^ 20)).toReal = 2 ^ 20 := by rw [toReal_lit (by decide)]; norm_num
  have q1 : solveQuadratic (coeffA ray) (coeffB ray) (coeffC s ray) = some (negPow 74, negPow 74) := by decide +kernel
  have q2 : (solveQuadratic (coeffA (scaleRay (F32.lit (2 ^ 20)) ray)) (coeffB (scaleRay (F32.lit (2 ^ 20)) ray))
    (coeffC (scaleSphere (F32.lit (2 ^ 20)) s) (scaleRay (F32.lit (2 ^ 20)) ray))).map Prod.fst =
      some (negPow 75 + negPow 76) := by decide +kernel
  obtain ⟨⟨t0, t1⟩, q3, rfl⟩ := Option.map_eq_some_iff.1 q2
  have := h 20 (F32.lit (2 ^ 20)) hu s ray (fun y x => gt_inf _) (by decide +kernel)
  rw [hit s ray _ _ rfl q1 (by decide +kernel) (by decide +kernel)] at this
  rw [hit (scaleSphere (F32.lit (2 ^ 20)) s) (scaleRay (F32.lit (2 ^ 20)) ray) _ _ rfl q3] at this
  · revert this
    decide +kernel
  · decide +kernel
  · decide +kernel
end Scarlet
