import Verif.Model.Scalar
import Verif.Spec.Atan2
import Verif.Float.Ops
import Mathlib.Analysis.SpecialFunctions.Trigonometric.Arctan
import Mathlib.Analysis.SpecialFunctions.Trigonometric.Inverse
import Mathlib.Analysis.Real.Sqrt

/-!
The ideal instance of scarlet's scalar traits: `ℝ` with exact operations.  It does not model any code of /repo; it is
the instance at which the generic code is read as mathematics ("in exact arithmetic").

`lowest`/`highest` are those of `f32`.  There is no real NaN or infinity: the corresponding constants are given the
dummy value `0` and no modelled function that is instantiated at `ℝ` uses them.  Lean's `x / 0 = 0`, `sqrt` of a
negative number is `0` etc. differ from IEEE arithmetic, so theorems about `ℝ` carry the hypotheses that exclude
these cases.
-/

namespace Scarlet
open Classical

/-- `f32::MAX` as a real number. -/
noncomputable def maxR : ℝ := (Flt.maxFin 23 8 false).toReal

noncomputable instance : Scalar ℝ where
  zero := 0
  one := 1
  lowest := -maxR
  highest := maxR
  eq a b := decide (a = b)
  pcmp a b := if a < b then some .lt else if a = b then some .eq else some .gt
  square x := x * x

noncomputable instance : SignedScalar ℝ := ⟨fun x => |x|⟩

noncomputable instance : Inherent ℝ where
  min := fun a b => Min.min a b
  max := fun a b => Max.max a b
  abs := fun x => |x|
  clamp := fun x lo hi => Max.max lo (Min.min x hi)

noncomputable instance : GFloat ℝ where
  nextUp := id
  nextDown := id
  toI64 x := if 0 ≤ x then ⌊x⌋ else ⌈x⌉
  toF32 x := if h : ∃ f : F32, f.isFin = true ∧ f.toReal = x then h.choose else Flt.nan 23 8
  toF64 x := if h : ∃ f : F64, f.isFin = true ∧ f.toReal = x then h.choose else Flt.nan 52 11
  fromI64 n := n
  fromF32 x := x.toReal
  fromF64 x := x.toReal
  nan := 0
  infinity := 0
  negInfinity := 0
  negZero := 0
  minPositive := 0
  isNan _ := false
  isFinite _ := true
  isInfinite _ := false
  half := 1 / 2
  pi := Real.pi
  tau := 2 * Real.pi
  fracPi2 := Real.pi / 2
  fracPi4 := Real.pi / 4
  absEpsilon := 1 / 1000000
  relEpsilon := 1 / 10000
  sqrt := Real.sqrt

noncomputable instance : GTrig ℝ where
  sin := Real.sin
  cos := Real.cos
  sinCos x := (Real.sin x, Real.cos x)
  tan := Real.tan
  asin := Real.arcsin
  acos := Real.arccos
  atan := Real.arctan
  atan2 := atan2R

section
/-! The trait vocabulary at `ℝ` is the usual one. -/
@[simp] theorem rzero : (Scalar.zero : ℝ) = 0 := rfl
@[simp] theorem rone : (Scalar.one : ℝ) = 1 := rfl
@[simp] theorem rhalf : (GFloat.half : ℝ) = 1 / 2 := rfl
@[simp] theorem rpi : (GFloat.pi : ℝ) = Real.pi := rfl
@[simp] theorem rfracPi2 : (GFloat.fracPi2 : ℝ) = Real.pi / 2 := rfl
@[simp] theorem rfracPi4 : (GFloat.fracPi4 : ℝ) = Real.pi / 4 := rfl
@[simp] theorem rsqrt (x : ℝ) : GFloat.sqrt x = Real.sqrt x := rfl
@[simp] theorem rsquare (x : ℝ) : Scalar.square x = x * x := rfl
@[simp] theorem rsin (x : ℝ) : GTrig.sin x = Real.sin x := rfl
@[simp] theorem rcos (x : ℝ) : GTrig.cos x = Real.cos x := rfl
@[simp] theorem rsinCos (x : ℝ) : GTrig.sinCos x = (Real.sin x, Real.cos x) := rfl
@[simp] theorem rtan (x : ℝ) : GTrig.tan x = Real.tan x := rfl
@[simp] theorem racos (x : ℝ) : GTrig.acos x = Real.arccos x := rfl
@[simp] theorem ratan2 (y x : ℝ) : GTrig.atan2 y x = atan2R y x := rfl
@[simp] theorem rrecip (x : ℝ) : GFloat.recip x = 1 / x := rfl
@[simp] theorem rimin (a b : ℝ) : Inherent.min a b = min a b := rfl
@[simp] theorem rimax (a b : ℝ) : Inherent.max a b = max a b := rfl
@[simp] theorem riabs (a : ℝ) : Inherent.abs a = |a| := rfl
@[simp] theorem riclamp (x a b : ℝ) : Inherent.clamp x a b = max a (min x b) := rfl
@[simp] theorem rfromI64 (n : Int) : (GFloat.fromI64 n : ℝ) = n := rfl

theorem req_iff {a b : ℝ} : Scalar.eq a b = true ↔ a = b := decide_eq_true_iff

theorem rpcmp (a b : ℝ) : Scalar.pcmp a b = if a < b then some .lt else if a = b then some .eq else some .gt := rfl

@[simp] theorem rlt_iff {a b : ℝ} : Scalar.lt a b = true ↔ a < b := by
  unfold Scalar.lt; rw [rpcmp]; split_ifs with h h' <;> simp [h]
@[simp] theorem rgt_iff {a b : ℝ} : Scalar.gt a b = true ↔ b < a := by
  unfold Scalar.gt; rw [rpcmp]; split_ifs with h h'
  · simp [h.le]
  · simp [h']
  · simp; exact lt_of_le_of_ne (not_lt.1 h) (Ne.symm h')
@[simp] theorem rle_iff {a b : ℝ} : Scalar.le a b = true ↔ a ≤ b := by
  unfold Scalar.le; rw [rpcmp]; split_ifs with h h'
  · simp [h.le]
  · simp [h']
  · simp; exact lt_of_le_of_ne (not_lt.1 h) (Ne.symm h')
@[simp] theorem rge_iff {a b : ℝ} : Scalar.ge a b = true ↔ b ≤ a := by
  unfold Scalar.ge; rw [rpcmp]; split_ifs with h h'
  · simp [h]
  · simp [h']
  · simp; exact not_lt.1 h
theorem rmin (a b : ℝ) : Scalar.min a b = min a b := by
  show (if Scalar.lt a b then a else b) = _
  by_cases h : a < b
  · rw [if_pos (rlt_iff.2 h), min_eq_left h.le]
  · rw [if_neg (fun h' => h (rlt_iff.1 h')), min_eq_right (not_lt.1 h)]
theorem rmax (a b : ℝ) : Scalar.max a b = max a b := by
  show (if Scalar.gt a b then a else b) = _
  by_cases h : b < a
  · rw [if_pos (rgt_iff.2 h), max_eq_left h.le]
  · rw [if_neg (fun h' => h (rgt_iff.1 h')), max_eq_right (not_lt.1 h)]
theorem rminMax (a b : ℝ) : Scalar.minMax a b = (min a b, max a b) := by
  unfold Scalar.minMax
  by_cases h : a < b
  · rw [if_pos (rlt_iff.2 h), min_eq_left h.le, max_eq_right h.le]
  · rw [if_neg (fun h' => h (rlt_iff.1 h')), min_eq_right (not_lt.1 h), max_eq_left (not_lt.1 h)]
@[simp] theorem rinRange {x a b : ℝ} : Scalar.inRange x a b = true ↔ a ≤ x ∧ x ≤ b := by
  unfold Scalar.inRange; simp
@[simp] theorem risZero {x : ℝ} : Scalar.isZero x = true ↔ x = 0 := req_iff
@[simp] theorem risNonneg {x : ℝ} : Scalar.isNonnegative x = true ↔ 0 ≤ x := rge_iff
end

end Scarlet
