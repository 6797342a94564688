import Verif.Theory.Vec
import Verif.Props.Interval3

/-! C29 (vector algebra), C30 (affine laws), C31 (component-wise min/max), C76 (interval vectors). -/

set_option linter.unusedSectionVars false

namespace Scarlet
open Flt Scarlet.Interval GVec

/-! ### C29 -/
section exact
variable {T : Type} {n : Nat} {U I J : Marker}
variable [Add T] [Sub T] [Mul T] [Neg T] [Scalar T] [ExactRing T]

/-- C29: `cross` is anticommutative, in every exact arithmetic. -/
theorem C29_cross_anticomm (a b : GVec T 3 U) : a.cross b = -(b.cross a) := by
  let _ := ExactRing.ring T
  refine ext3 ?_ ?_ ?_
  · change a.y * b.z - a.z * b.y = -(b.y * a.z - b.z * a.y); ring
  · change a.z * b.x - a.x * b.z = -(b.z * a.x - b.x * a.z); ring
  · change a.x * b.y - a.y * b.x = -(b.x * a.y - b.y * a.x); ring

/-- C29: `cross` is orthogonal to both arguments. -/
theorem C29_cross_orthogonal (a b : GVec T 3 U) :
    a.dot (a.cross b) = Scalar.zero ∧ b.dot (a.cross b) = Scalar.zero := by
  let _ := ExactRing.ring T
  constructor
  · change (0 : T) + a.x * (a.y * b.z - a.z * b.y) + a.y * (a.z * b.x - a.x * b.z) + a.z * (a.x * b.y - a.y * b.x) = 0
    ring
  · change (0 : T) + b.x * (a.y * b.z - a.z * b.y) + b.y * (a.z * b.x - a.x * b.z) + b.z * (a.x * b.y - a.y * b.x) = 0
    ring

/-- C29: Lagrange's identity `|a × b|² = |a|²|b|² − (a·b)²`. -/
theorem C29_lagrange (a b : GVec T 3 U) :
    (a.cross b).squareNorm = a.squareNorm * b.squareNorm - a.dot b * a.dot b := by
  let _ := ExactRing.ring T
  change Scalar.zero + Scalar.square (a.y * b.z - a.z * b.y) + Scalar.square (a.z * b.x - a.x * b.z)
      + Scalar.square (a.x * b.y - a.y * b.x) =
    (Scalar.zero + Scalar.square a.x + Scalar.square a.y + Scalar.square a.z) *
      (Scalar.zero + Scalar.square b.x + Scalar.square b.y + Scalar.square b.z) -
      (Scalar.zero + a.x * b.x + a.y * b.y + a.z * b.z) * (Scalar.zero + a.x * b.x + a.y * b.y + a.z * b.z)
  simp only [ExactRing.square_eq]
  rw [show (Scalar.zero : T) = 0 from rfl]
  ring

/-- C29: `dot` is symmetric, in every dimension. -/
theorem C29_dot_comm (a : GVec T n U) (b : GVec T n I) : a.dot b = b.dot a := by
  unfold dot
  congr 1
  funext i
  exact ExactRing.mul_comm _ _

/-- C29: `dot` is additive and homogeneous in its first argument (with symmetry: bilinear), in every dimension. -/
theorem C29_dot_linear (a b : GVec T n U) (c : GVec T n I) (t : T) :
    (a + b).dot c = a.dot c + b.dot c ∧ (a * t).dot c = t * a.dot c := by
  let _ := ExactRing.ring T
  simp only [dot, sumLoop_exact, vec_add, vec_smul]
  constructor
  · rw [← Finset.sum_add_distrib]
    exact Finset.sum_congr rfl fun i _ => add_mul _ _ _
  · rw [Finset.mul_sum]
    exact Finset.sum_congr rfl fun i _ => by ring

/-- C29: `square_norm` is `dot` with itself, in every dimension. -/
theorem C29_squareNorm_dot (a : GVec T n U) : a.squareNorm = a.dot a := by
  unfold squareNorm dot
  congr 1
  funext i
  exact ExactRing.square_eq _

end exact

section real
variable {n : Nat} {U I : Marker}

/-- C29: `dot` is the mathematical dot product, `cross` the mathematical cross product and `norm` the Euclidean
norm (Mathlib's notions, in exact arithmetic). -/
theorem C29_spec (a : GVec ℝ n U) (b : GVec ℝ n I) (u v : GVec ℝ 3 U) :
    a.dot b = a.vec ⬝ᵥ b.vec ∧ (u.cross v).vec = crossProduct u.vec v.vec ∧
      a.norm = Real.sqrt (∑ i, a.vec i ^ 2) := by
  refine ⟨dot_real a b, ?_, ?_⟩
  · rw [cross_apply]; rfl
  · rw [norm_real, squareNorm_real]; simp only [sq]

/-- C29: normalising a nonzero vector gives a vector of length 1 in the same direction. -/
theorem C29_normalize (a : GVec ℝ n U) (h : ∃ i, a.vec i ≠ 0) :
    a.normalize.norm = 1 ∧ ∃ k : ℝ, 0 < k ∧ ∀ i, a.normalize.vec i = k * a.vec i := by
  refine ⟨by rw [norm_real, squareNorm_normalize h, Real.sqrt_one], 1 / a.norm, one_div_pos.2 (norm_pos h), fun i => ?_⟩
  rw [normalize_vec]; ring

/-- The hypothesis of `C29_normalize` is met by (3,4,0), which has norm 5. -/
example : (∃ i, (new3 3 4 0 : Vec ℝ 3).vec i ≠ 0) ∧ (new3 3 4 0 : Vec ℝ 3).norm = 5 := by
  refine ⟨⟨0, by simp⟩, ?_⟩
  rw [norm_real, squareNorm3]; simp only [x_new3, y_new3, z_new3]
  rw [show (3 * 3 + 4 * 4 + 0 * 0 : ℝ) = 5 * 5 by norm_num]; exact Real.sqrt_mul_self (by norm_num)

end real

/-! ### C30 -/
section exact
variable {T : Type} {n : Nat} {U I : Marker}
variable [Add T] [Sub T] [Mul T] [Neg T] [Scalar T] [ExactRing T]

/-- C30: the affine laws of points and vectors, in every exact arithmetic and every dimension. -/
theorem C30_affine (p q : Point T n) (v : Vec T n) :
    ((p + v : Point T n) - p : Vec T n) = v ∧ (p + (q - p : Vec T n) : Point T n) = q ∧
      ((p - v : Point T n) + v : Point T n) = p ∧ (v + p : Point T n) = (p + v : Point T n) := by
  let _ := ExactRing.ring T
  refine ⟨?_, ?_, ?_, ?_⟩ <;> ext i <;> simp only [vec_psub, vec_padd, vec_pvsub, vec_vadd] <;> ring

/-- C30: conversions keep the components (hence converting back is the identity). -/
theorem C30_conv (V : Marker) (a : GVec T n U) :
    (∀ i, (conv V a).vec i = a.vec i) ∧ conv U (conv V a) = a := ⟨fun _ => rfl, rfl⟩
end exact

/-- C30 in the executable integer instance: wrapping 32-bit points, with wrap-around. -/
example : ((new3 (2147483647 : Int32) 0 5 : Point Int32 3) + (new3 1 2 3 : Vec Int32 3) : Point Int32 3).x = -2147483648 := by
  decide

/-! ### C31 -/
section flt
variable {mw ew n : Nat} {U : Marker} [FltImpl mw ew] [LawfulFlt mw ew]

/-- C31: `min` is a lower bound, `max` an upper bound, and each component is one of the arguments' components. -/
theorem C31_min_max (a b : GVec (Flt mw ew) n U) (ha : ∀ i, (a.vec i).isNaN = false) (hb : ∀ i, (b.vec i).isNaN = false)
    (i : Fin n) :
    ((a.min b).vec i).isNaN = false ∧ ((a.max b).vec i).isNaN = false ∧
    ((a.min b).vec i).val ≤ (a.vec i).val ∧ ((a.min b).vec i).val ≤ (b.vec i).val ∧
    (a.vec i).val ≤ ((a.max b).vec i).val ∧ (b.vec i).val ≤ ((a.max b).vec i).val ∧
    ((a.min b).vec i = a.vec i ∨ (a.min b).vec i = b.vec i) ∧
    ((a.max b).vec i = a.vec i ∨ (a.max b).vec i = b.vec i) := by
  obtain ⟨m1, m2⟩ := smin_spec (ha i) (hb i)
  obtain ⟨M1, M2⟩ := smax_spec (ha i) (hb i)
  refine ⟨m1, M1, m2.trans_le (min_le_left _ _), m2.trans_le (min_le_right _ _), (le_max_left _ _).trans_eq M2.symm,
    (le_max_right _ _).trans_eq M2.symm, ?_, ?_⟩
  · change Scalar.min _ _ = _ ∨ Scalar.min _ _ = _
    rw [smin_def]; split <;> simp
  · change Scalar.max _ _ = _ ∨ Scalar.max _ _ = _
    rw [smax_def]; split <;> simp

/-- The hypotheses of C31 are met by a vector with an infinite and a negative component. -/
example : ∀ i, ((new3 (Flt.inf 23 8 false) (F32.lit 1) (-F32.lit 2) : Vec F32 3).vec i).isNaN = false := by
  decide +kernel

/-! ### C76 -/

/-- The real vector `x` lies in the interval vector `A` component by component. -/
def GVec.Encl (A : GVec (Interval (Flt mw ew)) n U) (x : Fin n → ℝ) : Prop := ∀ i, x i ∈ A.vec i

/-- C76: `From<GenericVector<T>> for GenericVector<Interval<T>>` encloses (and is the single point). -/
theorem C76_toInterval (a : GVec (Flt mw ew) n U) (ha : ∀ i, (a.vec i).isFin = true) (x : Fin n → ℝ) :
    a.toInterval.Encl x ↔ ∀ i, x i = (a.vec i).toReal := by
  refine forall_congr' fun i => ⟨fun h => ?_, fun h => ?_⟩
  · exact le_antisymm ((upperOf_fin (ha i)).1 h.2) ((lowerOf_fin (ha i)).1 h.1)
  · rw [h]; exact ⟨LowerOf.of_fin (ha i), UpperOf.of_fin (ha i)⟩

/-- C76: sums, differences, and products and quotients with a float enclose, in every dimension. -/
theorem C76_ops (A B : Vec (Interval (Flt mw ew)) n) (x y : Fin n → ℝ) (hA : A.Encl x) (hB : B.Encl y)
    (t : Flt mw ew) (ht : t.isFin = true) :
    (A + B).Encl (fun i => x i + y i) ∧ (A - B).Encl (fun i => x i - y i) ∧
    ((t.toReal ≠ 0 ∨ ∀ i, Interval.Finite (A.vec i)) → (A * t).Encl (fun i => x i * t.toReal)) ∧
    (t.toReal ≠ 0 → (A / t).Encl (fun i => x i / t.toReal)) :=
  ⟨fun i => C11_add _ _ _ _ (hA i) (hB i), fun i => C11_sub _ _ _ _ (hA i) (hB i),
   fun h i => C13_mul_scalar_partial _ _ _ (hA i) ht (h.elim Or.inr fun h => Or.inl (h i)), fun h0 i => C15_div_scalar _ _ _ (hA i) ht h0⟩

/-- C76: `square_norm` of an interval vector contains the exact squared length of every member, in every dimension. -/
theorem C76_squareNorm (A : GVec (Interval (Flt mw ew)) n U) (x : Fin n → ℝ) (hA : A.Encl x) :
    (∑ i, x i * x i) ∈ A.squareNorm := by
  unfold squareNorm
  have h : ∀ (f : Fin n → Interval (Flt mw ew)) (y : Fin n → ℝ), (∀ i, y i ∈ f i) → (∑ i, y i) ∈ sumLoop n f := by
    clear hA A x
    induction n with
    | zero =>
      intro f y _
      simp only [Finset.univ_eq_empty, Finset.sum_empty]
      exact ⟨(lowerOf_fin isFin_szero).2 (by rw [toReal_szero]), (upperOf_fin isFin_szero).2 (by rw [toReal_szero])⟩
    | succ n ih =>
      intro f y hy
      rw [Fin.sum_univ_castSucc]
      exact C11_add _ _ _ _ (ih _ _ fun i => hy _) (hy _)
  exact h _ _ fun i => C16_square _ _ (hA i)

end flt

/-- The hypotheses of C76 are met by a vector of three different intervals, one of them `[-1, 2]`. -/
example : (new3 exA exB exA : Vec (Interval F32) 3).Encl ![0, -1, 1] ∧
    ∀ i, Interval.Finite ((new3 exA exB exA : Vec (Interval F32) 3).vec i) := by
  obtain ⟨e1, e2, e3⟩ := toReal_lit_small
  have hA : ∀ x : ℝ, -1 ≤ x → x ≤ 2 → x ∈ exA := fun x h1 h2 =>
    ⟨(lowerOf_fin (by decide +kernel)).2 (by change (-F32.lit 1).toReal ≤ _; rw [toReal_negop, e1]; exact h1),
     (upperOf_fin (by decide +kernel)).2 (by change _ ≤ (F32.lit 2).toReal; rw [e2]; exact h2)⟩
  have hB : ∀ x : ℝ, -3 ≤ x → x ≤ 1 → x ∈ exB := fun x h1 h2 =>
    ⟨(lowerOf_fin (by decide +kernel)).2 (by change (-F32.lit 3).toReal ≤ _; rw [toReal_negop, e3]; exact h1),
     (upperOf_fin (by decide +kernel)).2 (by change _ ≤ (F32.lit 1).toReal; rw [e1]; exact h2)⟩
  constructor
  · intro i; fin_cases i
    · exact hA 0 (by norm_num) (by norm_num)
    · exact hB (-1) (by norm_num) (by norm_num)
    · exact hA 1 (by norm_num) (by norm_num)
  · intro i; unfold Interval.Finite; revert i; decide +kernel
end Scarlet
