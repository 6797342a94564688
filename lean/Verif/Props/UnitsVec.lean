import Verif.Props.Units
import Verif.Props.NormExact

/-! C165: the length of a vector given as an axis or as an up direction does not matter on floats, up to powers of two. -/

set_option linter.unusedSectionVars false

namespace Scarlet
open Flt

section flt
variable {mw ew : Nat} [FltImpl mw ew] [LawfulFlt mw ew] {n : Nat} {U : Marker}

/-- the norms of componentwise scaled vectors -/
theorem scaled_norm (hw : mw + 3 ≤ 2 ^ (ew - 1)) {k : Nat} {v w : GVec (Flt mw ew) n U} (h : ∀ i, ScaledBy k (v.vec i) (w.vec i))
    (hn : ∀ i, Normalised mw ew ((v.vec i).toReal ^ 2)) (hf : w.squareNorm.isFin = true) : ScaledBy k v.norm w.norm := by
  have ht : ∀ i, (Scalar.square (w.vec i) : Flt mw ew).isFin = true := by unfold GVec.squareNorm at hf; exact fun i => sumLoop_fin hf i
  have hs : ScaledBy (k + k) v.squareNorm w.squareNorm := by
    unfold GVec.squareNorm at hf ⊢
    exact scaled_sum (f := fun i => Scalar.square (v.vec i)) (f' := fun i => Scalar.square (w.vec i))
      (fun i => (h i).mul (h i) (normalOr_of_normalised (by have := hn i; rwa [sq] at this)) (ht i)) hf
  have a : 0 ≤ v.squareNorm.key := (sum_nn (f := fun i => Scalar.square (v.vec i)) fun i => sq_nn (h i).1).2.1
  -- any libm will do, the square root does not use it
  let _ : Libm mw ew := ⟨id, id, id, id, id, id, fun x _ => x⟩
  exact hs.sqrt hw (toReal_nonneg_iff.2 a)

theorem scaled_normalize (hw : mw + 3 ≤ 2 ^ (ew - 1)) {k : Nat} {v w : GVec (Flt mw ew) n U} (h : ∀ i, ScaledBy k (v.vec i) (w.vec i))
    (hn : ∀ i, Normalised mw ew ((v.vec i).toReal ^ 2)) (hf : w.squareNorm.isFin = true) : w.normalize = v.normalize := by
  have s := scaled_norm hw h hn hf
  have : ∀ i, w.normalize.vec i = v.normalize.vec i := fun i => (h i).div s
  cases hv : v.normalize; cases hw' : w.normalize
  rw [hv, hw'] at this
  congr; exact funext this

/-- a vector times a power of two -/
theorem scaled_of_mul {k : Nat} {u : Flt mw ew} (hu : u.toReal = 2 ^ k) {v : GVec (Flt mw ew) n U} (hf : (v * u).squareNorm.isFin = true)
    (i : Fin n) : ScaledBy k (v.vec i) ((v * u).vec i) := by
  have ht : ∀ i, (Scalar.square ((v * u).vec i) : Flt mw ew).isFin = true := by unfold GVec.squareNorm at hf; exact fun i => sumLoop_fin hf i
  exact scaled_input hu (isFin_of_mul (ht i)).1

/-- **C165**: the norm of `v` times a power of two is exactly that power times the norm, if no square underflows before and nothing
overflows after. -/
theorem C165_norm (hw : mw + 3 ≤ 2 ^ (ew - 1)) (k : Nat) (u : Flt mw ew) (hu : u.toReal = 2 ^ k) (v : GVec (Flt mw ew) n U)
    (hn : ∀ i, Normalised mw ew ((v.vec i).toReal ^ 2)) (hf : (v * u).squareNorm.isFin = true) :
    (v * u).norm.isFin = true ∧ (v * u).norm.toReal = 2 ^ k * v.norm.toReal := by
  have s := scaled_norm hw (scaled_of_mul hu hf) hn hf
  exact ⟨s.2.1, s.2.2.2⟩

/-- **C165**: `normalize` returns the same bits. -/
theorem C165_normalize (hw : mw + 3 ≤ 2 ^ (ew - 1)) (k : Nat) (u : Flt mw ew) (hu : u.toReal = 2 ^ k) (v : GVec (Flt mw ew) n U)
    (hn : ∀ i, Normalised mw ew ((v.vec i).toReal ^ 2)) (hf : (v * u).squareNorm.isFin = true) :
    (v * u).normalize = v.normalize := scaled_normalize hw (scaled_of_mul hu hf) hn hf

/-- **C165**: `distance` between scaled points is the scaled distance, exactly. -/
theorem C165_distance (hw : mw + 3 ≤ 2 ^ (ew - 1)) (k : Nat) (u : Flt mw ew) (hu : u.toReal = 2 ^ k) (a b : Vec (Flt mw ew) n)
    (hn : ∀ i, Normalised mw ew ((a.vec i - b.vec i).toReal ^ 2)) (hf : ((a * u) - (b * u)).squareNorm.isFin = true) :
    ((a * u).distance (b * u)).isFin = true ∧ ((a * u).distance (b * u)).toReal = 2 ^ k * (a.distance b).toReal := by
  have ht : ∀ i, (Scalar.square (a.vec i * u - b.vec i * u) : Flt mw ew).isFin = true := by
    unfold GVec.squareNorm at hf; exact fun i => sumLoop_fin hf i
  have h : ∀ i, ScaledBy k ((a - b).vec i) ((a * u - b * u).vec i) := fun i => by
    have f := (isFin_of_mul (ht i)).1
    have g := isFin_of_sub f
    exact (scaled_input hu g.1).sub (scaled_input hu g.2) f
  have s := scaled_norm hw h hn hf
  exact ⟨s.2.1, s.2.2.2⟩

variable [Libm mw ew]

/-- **C165**: the length of the axis does not matter to `rotate`, bit for bit. -/
theorem C165_rotate (hw : mw + 3 ≤ 2 ^ (ew - 1)) (k : Nat) (u : Flt mw ew) (hu : u.toReal = 2 ^ k) (axis : Vec (Flt mw ew) 3)
    (angle : Flt mw ew) (hn : ∀ i, Normalised mw ew ((axis.vec i).toReal ^ 2)) (hf : (axis * u).squareNorm.isFin = true) :
    Transform.rotate (axis * u) angle = Transform.rotate axis angle := by
  unfold Transform.rotate
  rw [C165_normalize hw k u hu axis hn hf]

/-- **C165**: the lengths of the up direction and of the line of sight do not matter to `look_at`, bit for bit. -/
theorem C165_lookAt (hw : mw + 3 ≤ 2 ^ (ew - 1)) (k l : Nat) (s u : Flt mw ew) (hs : s.toReal = 2 ^ k) (hu : u.toReal = 2 ^ l)
    (pos target target' : Point (Flt mw ew) 3) (up : Vec (Flt mw ew) 3)
    (hn : ∀ i, Normalised mw ew ((up.vec i).toReal ^ 2)) (hf : (up * u).squareNorm.isFin = true)
    (ht : pos - target' = (pos - target) * s)
    (hn' : ∀ i, Normalised mw ew (((pos - target : Vec (Flt mw ew) 3).vec i).toReal ^ 2))
    (hf' : ((pos - target : Vec (Flt mw ew) 3) * s).squareNorm.isFin = true) :
    Transform.lookAt pos target' (up * u) = Transform.lookAt pos target up := by
  unfold Transform.lookAt
  rw [C165_normalize hw l u hu up hn hf, ht, C165_normalize hw k s hs _ hn' hf']

end flt

/-- **C165**, why powers of two and why no underflow: on `f32` the result of `normalize` changes when the vector is multiplied by 3, or,
if it is tiny, by 4. -/
theorem C165_refuted :
    Scalar.eq ((GVec.new2 (F32.lit 1) (F32.lit 1) * F32.lit 3 : Vec F32 2).normalize.vec 0)
      ((GVec.new2 (F32.lit 1) (F32.lit 1) : Vec F32 2).normalize.vec 0) = false ∧
    Scalar.eq ((GVec.new2 f32Small Scalar.zero * F32.lit 4 : Vec F32 2).normalize.vec 0)
      ((GVec.new2 f32Small Scalar.zero : Vec F32 2).normalize.vec 0) = false := by decide +kernel

/-- squares of floats that are at least 1 do not underflow -/
theorem normalised_of_one_le {r : ℝ} (h : 1 ≤ |r|) : Normalised 23 8 (r ^ 2) := by
  right
  have h2 : 1 ≤ |r ^ 2| := by rw [abs_pow]; exact one_le_pow₀ h
  have e : etaRnd 23 8 ≤ uRnd 23 * 1 := by
    unfold etaRnd uRnd
    rw [mul_one]
    exact one_div_le_one_div_of_le (by positivity) (pow_le_pow_right₀ (by norm_num) (by decide))
  exact e.trans (mul_le_mul_of_nonneg_left h2 (uRnd_pos (mw := 23)).le)

/-- the hypotheses are met: the axis `(1, 2, 3)` against `(1024, 2048, 3072)` -/
example [Libm 23 8] (angle : F32) : Transform.rotate (GVec.new3 (F32.lit 1) (F32.lit 2) (F32.lit 3) * F32.lit 1024) angle =
    Transform.rotate (GVec.new3 (F32.lit 1) (F32.lit 2) (F32.lit 3)) angle := by
  refine C165_rotate (by norm_num) 10 (F32.lit 1024) (by rw [toReal_lit (by norm_num)]; norm_num) _ angle (fun i => normalised_of_one_le ?_)
    (by decide +kernel)
  fin_cases i
  · show 1 ≤ |(F32.lit 1).toReal|
    rw [toReal_lit (by norm_num)]; norm_num
  · show 1 ≤ |(F32.lit 2).toReal|
    rw [toReal_lit (by norm_num)]; norm_num
  · show 1 ≤ |(F32.lit 3).toReal|
    rw [toReal_lit (by norm_num)]; norm_num

end Scarlet
