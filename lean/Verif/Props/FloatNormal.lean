import Verif.Props.FloatObject
import Mathlib.Data.Fintype.Basic

/-! C127: mapped normals on floats. -/

set_option linter.unusedSectionVars false

namespace Scarlet
open Flt GVec

section core
variable {u η : ℝ}

/-- three rounded products, the third of three factors, summed in order with rounding -/
theorem nrm_core {a b c d e s r A B C z : ℝ} (hu : 0 < u) (hη : 0 < η)
    (ha : |a - A| ≤ u * |A| + η) (hb : |b - B| ≤ u * |B| + η) (hd : |d - C| ≤ u * |C| + η) (hc : |c - d * z| ≤ u * |d * z| + η)
    (hs : |s - (a + b)| ≤ u * |a + b|) (hr : |r - (s + c)| ≤ u * |s + c|) (he : e = A + B + C * z) :
    |r - e| ≤ ((1 + u) ^ 4 - 1) * (|A| + |B| + |C * z|) + η * (1 + u) ^ 2 * (3 + (1 + u) * |z|) := by
  have A0 := abs_nonneg A
  have B0 := abs_nonneg B
  have C0 := abs_nonneg (C * z)
  have z0 := abs_nonneg z
  have hdz : |d * z - C * z| ≤ u * |C * z| + η * |z| := by
    rw [← sub_mul, abs_mul, abs_mul]
    have := mul_le_mul_of_nonneg_right hd z0
    linarith
  have hdz' : |d * z| ≤ (1 + u) * |C * z| + η * |z| := by
    have := abs_add_le (C * z) (d * z - C * z)
    rw [add_sub_cancel] at this
    linarith
  have hc' : |c - C * z| ≤ ((1 + u) ^ 2 - 1) * |C * z| + η * (1 + (1 + u) * |z|) := by
    have e1 : c - C * z = (c - d * z) + (d * z - C * z) := by ring
    rw [e1]
    have h1 := abs_add_le (c - d * z) (d * z - C * z)
    have h2 := mul_le_mul_of_nonneg_left hdz' hu.le
    linarith
  have hab : |a + b - (A + B)| ≤ u * (|A| + |B|) + 2 * η := by
    have e1 : a + b - (A + B) = (a - A) + (b - B) := by ring
    rw [e1]
    have := abs_add_le (a - A) (b - B)
    linarith
  have hab' : |a + b| ≤ (1 + u) * (|A| + |B|) + 2 * η := by
    have := abs_add_le (A + B) (a + b - (A + B))
    rw [add_sub_cancel] at this
    have := abs_add_le A B
    linarith
  have hs' : |s - (A + B)| ≤ ((1 + u) ^ 2 - 1) * (|A| + |B|) + 2 * η * (1 + u) := by
    have e1 : s - (A + B) = (s - (a + b)) + (a + b - (A + B)) := by ring
    rw [e1]
    have h1 := abs_add_le (s - (a + b)) (a + b - (A + B))
    have h2 := mul_le_mul_of_nonneg_left hab' hu.le
    linarith
  set K := |A| + |B| + |C * z| with hK
  have hK0 : 0 ≤ K := by positivity
  have hsc : |s + c - e| ≤ ((1 + u) ^ 2 - 1) * K + η * (1 + u) * (3 + (1 + u) * |z|) := by
    have e1 : s + c - e = (s - (A + B)) + (c - C * z) := by rw [he]; ring
    rw [e1]
    have h1 := abs_add_le (s - (A + B)) (c - C * z)
    have h3 : 0 ≤ η * u * (1 + (1 + u) * |z|) := by positivity
    rw [hK]
    linarith
  have hE : |e| ≤ K := by
    rw [he]
    have h1 := abs_add_le (A + B) (C * z)
    have h2 := abs_add_le A B
    linarith
  have hsc' : |s + c| ≤ (1 + u) ^ 2 * K + η * (1 + u) * (3 + (1 + u) * |z|) := by
    have := abs_add_le e (s + c - e)
    rw [add_sub_cancel] at this
    linarith
  have e1 : r - e = (r - (s + c)) + (s + c - e) := by ring
  rw [e1]
  have h1 := abs_add_le (r - (s + c)) (s + c - e)
  have h2 := mul_le_mul_of_nonneg_left hsc' hu.le
  have h3 : (1 + u) ^ 3 * K ≤ (1 + u) ^ 4 * K := by
    refine mul_le_mul_of_nonneg_right ?_ hK0
    rw [pow_succ (1 + u) 3]
    exact le_mul_of_one_le_right (by positivity) (by linarith)
  have h4 : u * ((1 + u) ^ 2 * K + η * (1 + u) * (3 + (1 + u) * |z|)) +
      (((1 + u) ^ 2 - 1) * K + η * (1 + u) * (3 + (1 + u) * |z|)) =
      (1 + u) ^ 3 * K - K + η * (1 + u) ^ 2 * (3 + (1 + u) * |z|) := by ring
  linarith

/-- the product of two perturbed numbers -/
theorem dot_core {n v a b α β γ δ A B : ℝ} (hA : |a| ≤ A) (hB : |b| ≤ B) (hα : 0 ≤ α) (hγ : 0 ≤ γ) (hβ : 0 ≤ β) (hδ : 0 ≤ δ)
    (h1 : |n - a| ≤ α * A + β) (h2 : |v - b| ≤ γ * B + δ) :
    |n * v - a * b| ≤ ((1 + α) * (1 + γ) - 1) * (A * B) + (1 + γ) * β * B + (1 + α) * δ * A + β * δ := by
  have A0 := (abs_nonneg a).trans hA
  have B0 := (abs_nonneg b).trans hB
  have e : n * v - a * b = (n - a) * (v - b) + (n - a) * b + a * (v - b) := by ring
  rw [e]
  have k1 := abs_add_le ((n - a) * (v - b) + (n - a) * b) (a * (v - b))
  have k2 := abs_add_le ((n - a) * (v - b)) ((n - a) * b)
  rw [abs_mul, abs_mul] at k2
  rw [abs_mul a] at k1
  have m1 := mul_le_mul h1 h2 (abs_nonneg _) (by positivity)
  have m2 := mul_le_mul h1 hB (abs_nonneg _) (by positivity)
  have m3 := mul_le_mul hA h2 (abs_nonneg _) A0
  have e2 : (α * A + β) * (γ * B + δ) + (α * A + β) * B + A * (γ * B + δ) =
      ((1 + α) * (1 + γ) - 1) * (A * B) + (1 + γ) * β * B + (1 + α) * δ * A + β * δ := by ring
  linarith
end core

variable {mw ew : Nat} [FltImpl mw ew] [LawfulFlt mw ew]

/-- Specification: coordinate `j` of the transpose of the upper 3×3 part of `m`, applied to `(x, y, z)`. -/
noncomputable def trR (m : Mat4 (Flt mw ew)) (x y z : ℝ) (j : _root_.Fin 3) : ℝ :=
  x * (m.data 0 j.castSucc).toReal + y * (m.data 1 j.castSucc).toReal + z * (m.data 2 j.castSucc).toReal
/-- Specification: the sizes of its terms. -/
noncomputable def trAbs (m : Mat4 (Flt mw ew)) (x y z : ℝ) (j : _root_.Fin 3) : ℝ :=
  |x * (m.data 0 j.castSucc).toReal| + |y * (m.data 1 j.castSucc).toReal| + |z * (m.data 2 j.castSucc).toReal|

theorem trR_abs (m : Mat4 (Flt mw ew)) (x y z : ℝ) (j : _root_.Fin 3) : |trR m x y z j| ≤ trAbs m x y z j := by
  unfold trR trAbs
  refine (abs_add_le _ _).trans (add_le_add (abs_add_le _ _) le_rfl)

theorem nrm_row {x y z p q w : Flt mw ew} (h : (x * p + y * q + z * w * z).isFin = true) :
    |(x * p + y * q + z * w * z).toReal - (x.toReal * p.toReal + y.toReal * q.toReal + z.toReal ^ 2 * w.toReal)| ≤
      ((1 + uRnd mw) ^ 4 - 1) * (|x.toReal * p.toReal| + |y.toReal * q.toReal| + |z.toReal ^ 2 * w.toReal|) +
        etaRnd mw ew * (1 + uRnd mw) ^ 2 * (3 + (1 + uRnd mw) * |z.toReal|) := by
  have f1 := isFin_of_add h
  have f2 := isFin_of_add f1.1
  have f3 := isFin_of_mul f1.2
  have e : z.toReal ^ 2 * w.toReal = z.toReal * w.toReal * z.toReal := by ring
  rw [e]
  exact nrm_core uRnd_pos etaRnd_pos (mul_err' f2.1) (mul_err' f2.2) (mul_err' f3.1) (mul_err' f1.2) (add_err f2.1 f2.2 f1.1)
    (add_err f1.1 f1.2 h) rfl

/-- C127: what `map` of a normal computes on floats: the transpose of the stored inverse applied to `(x, y, z²)` (not to `(x, y, z)`, the
error of C40), with four roundings of the sizes of the terms. -/
theorem C127_rounding (t : Transform (Flt mw ew)) (n : Normal (Flt mw ew) 3) (j : _root_.Fin 3) (hf : ((t.mapNormal n).vec j).isFin = true) :
    |((t.mapNormal n).vec j).toReal - trR t.minv n.x.toReal n.y.toReal (n.z.toReal ^ 2) j| ≤
      ((1 + uRnd mw) ^ 4 - 1) * trAbs t.minv n.x.toReal n.y.toReal (n.z.toReal ^ 2) j +
        etaRnd mw ew * (1 + uRnd mw) ^ 2 * (3 + (1 + uRnd mw) * |n.z.toReal|) := by
  fin_cases j <;> exact nrm_row hf

theorem z_sq {z : ℝ} (h : z = 0 ∨ z = 1) : z ^ 2 = z ∧ |z| ≤ 1 := by
  rcases h with rfl | rfl <;> norm_num

/-- C127: for the normals whose z component is 0 or 1 that is the inverse transpose, up to rounding. -/
theorem C127_transpose (t : Transform (Flt mw ew)) (n : Normal (Flt mw ew) 3) (hz : n.z.toReal = 0 ∨ n.z.toReal = 1) (j : _root_.Fin 3)
    (hf : ((t.mapNormal n).vec j).isFin = true) :
    |((t.mapNormal n).vec j).toReal - trR t.minv n.x.toReal n.y.toReal n.z.toReal j| ≤
      ((1 + uRnd mw) ^ 4 - 1) * trAbs t.minv n.x.toReal n.y.toReal n.z.toReal j +
        etaRnd mw ew * (1 + uRnd mw) ^ 2 * (4 + uRnd mw) := by
  have h := C127_rounding t n j hf
  have hu := uRnd_pos (mw := mw)
  have hη := etaRnd_pos (mw := mw) (ew := ew)
  rw [(z_sq hz).1] at h
  refine h.trans (add_le_add le_rfl (mul_le_mul_of_nonneg_left ?_ (by positivity)))
  have := mul_le_mul_of_nonneg_left (z_sq hz).2 (by linarith : 0 ≤ 1 + uRnd mw)
  linarith

/-- Specification: how far the stored inverse is from being one: `n · (N M − 1) v` for the upper 3×3 parts. -/
noncomputable def nrmDefect (t : Transform (Flt mw ew)) (n : Normal (Flt mw ew) 3) (v : Vec (Flt mw ew) 3) : ℝ :=
  ∑ j : _root_.Fin 3, trR t.minv n.x.toReal n.y.toReal n.z.toReal j * affR t.m (fun k => (v.vec k).toReal) 0 j.castSucc -
    ∑ i, (n.vec i).toReal * (v.vec i).toReal

/-- Specification: the size of all the products involved. -/
noncomputable def nrmCond (t : Transform (Flt mw ew)) (n : Normal (Flt mw ew) 3) (v : Vec (Flt mw ew) 3) (j : _root_.Fin 3) : ℝ :=
  trAbs t.minv n.x.toReal n.y.toReal n.z.toReal j * affAbs t.m (fun k => (v.vec k).toReal) 0 j.castSucc

/-- C127: mapped normals against mapped vectors (tangents), z component 0 or 1: the exact inner product of the two float results is the
inner product of the originals, up to the defect of the stored inverse and seven roundings of the sizes of the products, and underflow. -/
theorem C127_tangent (t : Transform (Flt mw ew)) (hm : t.m.AffineF) (n : Normal (Flt mw ew) 3)
    (hz : n.z.toReal = 0 ∨ n.z.toReal = 1) (v w : Vec (Flt mw ew) 3) (hv : ∀ i, (v.vec i).isFin = true) (hw : t.mapVec v = some w)
    (fn : ∀ i, ((t.mapNormal n).vec i).isFin = true) (fw : ∀ i, (w.vec i).isFin = true) :
    |∑ i, ((t.mapNormal n).vec i).toReal * (w.vec i).toReal - ∑ i, (n.vec i).toReal * (v.vec i).toReal| ≤
      |nrmDefect t n v| + ((1 + uRnd mw) ^ 7 - 1) * ∑ j, nrmCond t n v j +
      etaRnd mw ew * (1 + uRnd mw) ^ 6 * (4 + uRnd mw) * ∑ j : _root_.Fin 3,
        (affAbs t.m (fun k => (v.vec k).toReal) 0 j.castSucc + trAbs t.minv n.x.toReal n.y.toReal n.z.toReal j + 3 * etaRnd mw ew) := by
  have hu := uRnd_pos (mw := mw)
  have hη := etaRnd_pos (mw := mw) (ew := ew)
  have o1 : ∀ k : ℕ, 1 ≤ (1 + uRnd mw) ^ k := fun k => one_le_pow₀ (by linarith)
  have row : ∀ j : _root_.Fin 3, |((t.mapNormal n).vec j).toReal * (w.vec j).toReal -
      trR t.minv n.x.toReal n.y.toReal n.z.toReal j * affR t.m (fun k => (v.vec k).toReal) 0 j.castSucc| ≤
      ((1 + uRnd mw) ^ 7 - 1) * nrmCond t n v j + etaRnd mw ew * (1 + uRnd mw) ^ 6 * (4 + uRnd mw) *
        (affAbs t.m (fun k => (v.vec k).toReal) 0 j.castSucc + trAbs t.minv n.x.toReal n.y.toReal n.z.toReal j + 3 * etaRnd mw ew) := by
    intro j
    have k := dot_core (trR_abs t.minv n.x.toReal n.y.toReal n.z.toReal j) (affR_abs t.m (fun k => (v.vec k).toReal) 0 j.castSucc)
      (by linarith [o1 4]) (by linarith [o1 3]) (by positivity) (by positivity) (C127_transpose t n hz j (fn j))
      (C85_vector t.m hm v w hv hw j (fw j))
    refine k.trans ?_
    unfold nrmCond
    have A0 := (abs_nonneg _).trans (trR_abs t.minv n.x.toReal n.y.toReal n.z.toReal j)
    have B0 := (abs_nonneg _).trans (affR_abs t.m (fun k => (v.vec k).toReal) 0 j.castSucc)
    generalize trAbs t.minv n.x.toReal n.y.toReal n.z.toReal j = A at *
    generalize affAbs t.m (fun k => (v.vec k).toReal) 0 j.castSucc = B at *
    generalize etaRnd mw ew = η at *
    generalize uRnd mw = u at *
    clear k
    have e0 : (1 + ((1 + u) ^ 4 - 1)) * (1 + ((1 + u) ^ 3 - 1)) - 1 = (1 + u) ^ 7 - 1 := by ring
    rw [e0]
    have m1 : (1 + ((1 + u) ^ 3 - 1)) * (η * (1 + u) ^ 2 * (4 + u)) * B ≤ η * (1 + u) ^ 6 * (4 + u) * B := by
      have e1 : (1 + ((1 + u) ^ 3 - 1)) * (η * (1 + u) ^ 2 * (4 + u)) * B = η * (1 + u) ^ 5 * (4 + u) * B := by ring
      rw [e1]
      gcongr
      · linarith
      · norm_num
    have m2 : (1 + ((1 + u) ^ 4 - 1)) * (3 * η * (1 + u) ^ 2) * A ≤ η * (1 + u) ^ 6 * (4 + u) * A := by
      have e1 : (1 + ((1 + u) ^ 4 - 1)) * (3 * η * (1 + u) ^ 2) * A = η * (1 + u) ^ 6 * 3 * A := by ring
      rw [e1]
      gcongr
      linarith
    have m3 : η * (1 + u) ^ 2 * (4 + u) * (3 * η * (1 + u) ^ 2) ≤ η * (1 + u) ^ 6 * (4 + u) * (3 * η) := by
      have e1 : η * (1 + u) ^ 2 * (4 + u) * (3 * η * (1 + u) ^ 2) = η * (1 + u) ^ 4 * (4 + u) * (3 * η) := by ring
      rw [e1]
      gcongr
      · linarith
      · norm_num
    linarith
  have e : ∑ i, ((t.mapNormal n).vec i).toReal * (w.vec i).toReal - ∑ i, (n.vec i).toReal * (v.vec i).toReal =
      ∑ j, (((t.mapNormal n).vec j).toReal * (w.vec j).toReal -
        trR t.minv n.x.toReal n.y.toReal n.z.toReal j * affR t.m (fun k => (v.vec k).toReal) 0 j.castSucc) + nrmDefect t n v := by
    unfold nrmDefect
    rw [Finset.sum_sub_distrib]
    ring
  rw [e]
  refine (abs_add_le _ _).trans ?_
  have k := (Finset.abs_sum_le_sum_abs _ _).trans (Finset.sum_le_sum fun j (_ : j ∈ Finset.univ) => row j)
  rw [Finset.sum_add_distrib, ← Finset.mul_sum, ← Finset.mul_sum] at k
  linarith

section examples
/-- the scaling by (2, 3, 5) -/
def nrmT : Transform F32 := Transform.scale (new3 (F32.lit 2) (F32.lit 3) (F32.lit 5))
/-- the normal (3, −1, 1) and the tangent (1, 2, −1) -/
def nrmN : Normal F32 3 := new3 (F32.lit 3) (-F32.lit 1) (F32.lit 1)
def nrmV : Vec F32 3 := new3 (F32.lit 1) (F32.lit 2) (-F32.lit 1)
theorem nrmW_some : (nrmT.mapVec nrmV).isSome = true := by decide +kernel

/-- Non-vacuity: a scaling with inexact inverse, a normal with z = 1 and a tangent meet the hypotheses of `C127_tangent`. -/
example : nrmT.m.AffineF ∧ nrmN.z.toReal = 1 ∧ (∀ i, (nrmV.vec i).isFin = true) ∧
    nrmT.mapVec nrmV = some ((nrmT.mapVec nrmV).get nrmW_some) ∧ (∀ i, ((nrmT.mapNormal nrmN).vec i).isFin = true) ∧
    (∀ i, (((nrmT.mapVec nrmV).get nrmW_some).vec i).isFin = true) ∧ ∑ i, (nrmN.vec i).toReal * (nrmV.vec i).toReal = 0 := by
  refine ⟨affineF_of rfl rfl rfl rfl, toReal_lit_small.1, by decide +kernel, (Option.some_get _).symm, by decide +kernel, by decide +kernel, ?_⟩
  rw [Fin.sum_univ_three, show nrmN.vec 0 = F32.lit 3 by rfl, show nrmN.vec 1 = -F32.lit 1 by rfl, show nrmN.vec 2 = F32.lit 1 by rfl,
    show nrmV.vec 0 = F32.lit 1 by rfl, show nrmV.vec 1 = F32.lit 2 by rfl, show nrmV.vec 2 = -F32.lit 1 by rfl]
  have e : ∀ x : F32, (-x).toReal = -x.toReal := fun x => toReal_negop x
  rw [e, toReal_lit_small.1, toReal_lit_small.2.1, toReal_lit_small.2.2]
  norm_num

/-- C127: the condition on z is needed, on `f32` as over the reals: the identity maps the normal (0, 0, 2) to (0, 0, 4), and the normal
(1, 0, 2), perpendicular to (2, 0, −1), to (1, 0, 4), which is not. -/
theorem C127_refuted : ((Transform.identity : Transform F32).mapNormal (new3 (F32.lit 0) (F32.lit 0) (F32.lit 2))).vec 2 = F32.lit 4 ∧
    ((Transform.identity : Transform F32).mapNormal (new3 (F32.lit 1) (F32.lit 0) (F32.lit 2))).dot (new3 (F32.lit 2) (F32.lit 0) (-F32.lit 1) : Vec F32 3) =
      -F32.lit 2 := by
  decide +kernel
end examples

end Scarlet
