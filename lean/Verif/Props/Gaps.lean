import Verif.Props.MapBox
import Mathlib.Analysis.InnerProductSpace.PiL2

/-! Theorems added because a mutant of the model survived the earlier ones (see `seeded/LOG.jsonl`): comparisons of an
interval with a float (C19), distances (C29), `map_inverse` of boxes (C41). -/

set_option linter.unusedSectionVars false

namespace Scarlet
open Flt GVec

/-! ### C19 -/
section
open Scarlet.Interval
variable {mw ew : Nat} [FltImpl mw ew] [LawfulFlt mw ew]

/-- C19: comparison of an interval with a finite float: `A == t` exactly when `t` is the only point of `A`. -/
theorem C19_eq_scalar (A : Interval (Flt mw ew)) (t : Flt mw ew) (ht : t.isFin = true) (hA : ∃ x : ℝ, x ∈ A) :
    (Interval.eqS A t = true ↔ ∀ x : ℝ, x ∈ A ↔ x = t.toReal) ∧ (Interval.pcmpS A t = some .eq ↔ Interval.eqS A t = true) := by
  obtain ⟨x0, hx⟩ := hA
  obtain ⟨a1, a2, -, -, a5, a6, aO⟩ := mem_facts hx
  have kt := isFin_iff_key.1 ht
  constructor
  · unfold Interval.eqS Interval.isExact
    rw [Bool.and_eq_true, seq_iff, seq_iff]
    constructor
    · rintro ⟨⟨-, -, h1⟩, -, -, h2⟩ x
      have fi : A.inf.isFin = true := isFin_iff_key.2 ⟨by omega, by omega⟩
      have fs : A.sup.isFin = true := isFin_iff_key.2 ⟨by omega, by omega⟩
      have e1 : A.inf.toReal = t.toReal := toReal_eq_iff.2 h2
      have e2 : A.sup.toReal = t.toReal := toReal_eq_iff.2 (h1.symm.trans h2)
      constructor
      · intro hm
        have g1 := (lowerOf_fin fi).1 hm.1
        have g2 := (upperOf_fin fs).1 hm.2
        linarith
      · rintro rfl
        exact ⟨(lowerOf_fin fi).2 e1.le, (upperOf_fin fs).2 e2.ge⟩
    · intro h
      have fi : A.inf.isFin = true := by
        rcases inf_cases hx with hk | hf
        · have e1 := (h _).1 hx
          have e2 := (h _).1 (mem_below hx hk (show x0 - 1 ≤ x0 by linarith))
          linarith
        · exact hf
      have fs : A.sup.isFin = true := by
        rcases sup_cases hx with hk | hf
        · have e1 := (h _).1 hx
          have e2 := (h _).1 (mem_above hx hk (show x0 ≤ x0 + 1 by linarith))
          linarith
        · exact hf
      have e1 := (h _).1 (mem_of_inf_fin hx fi)
      have e2 := (h _).1 (mem_of_sup_fin hx fs)
      exact ⟨⟨a1, a2, toReal_eq_iff.1 (e1.trans e2.symm)⟩, a1, notNaN_of_isFin ht, toReal_eq_iff.1 e1⟩
  · unfold Interval.pcmpS
    constructor
    · intro h
      by_contra hc
      rw [if_neg hc] at h
      split at h
      · exact absurd h (by decide)
      · split at h <;> exact absurd h (by decide)
    · intro h; rw [if_pos h]

/-- C19: `A > t` exactly when every point of `A` is above `t`. -/
theorem C19_gt_scalar (A : Interval (Flt mw ew)) (t : Flt mw ew) (ht : t.isFin = true) (hA : ∃ x : ℝ, x ∈ A) :
    Interval.pcmpS A t = some .gt ↔ ∀ x : ℝ, x ∈ A → t.toReal < x := by
  rw [← lt_inf_iff hA]
  obtain ⟨x, hx⟩ := hA
  obtain ⟨a1, a2, -, -, a5, a6, aO⟩ := mem_facts hx
  rw [← val_of_isFin ht, val_lt_iff (notNaN_of_isFin ht) a1]
  unfold Interval.pcmpS
  by_cases he : Interval.eqS A t = true
  · rw [if_pos he]
    unfold Interval.eqS Interval.isExact at he
    rw [Bool.and_eq_true, seq_iff, seq_iff] at he
    constructor
    · intro h; exact absurd h (by decide)
    · intro h; omega
  · rw [if_neg he]
    by_cases h : Scalar.lt A.sup t = true
    · rw [if_pos h]; rw [slt_iff] at h
      exact ⟨fun h => absurd h (by decide), fun h => by omega⟩
    · rw [if_neg h]
      by_cases h2 : Scalar.lt t A.inf = true
      · rw [if_pos h2]; rw [slt_iff] at h2; exact ⟨fun _ => h2.2.2, fun _ => rfl⟩
      · rw [if_neg h2]; rw [slt_iff] at h2
        exact ⟨fun h => absurd h (by decide), fun h => absurd ⟨notNaN_of_isFin ht, a1, h⟩ h2⟩

/-- C19: an interval and a float that are not certainly ordered are incomparable: there are points of `A` on both sides, or
`t` is one of several points. -/
theorem C19_none_scalar (A : Interval (Flt mw ew)) (t : Flt mw ew) (ht : t.isFin = true) (hA : ∃ x : ℝ, x ∈ A) :
    Interval.pcmpS A t = none ↔
      (∃ x : ℝ, x ∈ A ∧ x ≤ t.toReal) ∧ (∃ x : ℝ, x ∈ A ∧ t.toReal ≤ x) ∧ ∃ x : ℝ, x ∈ A ∧ x ≠ t.toReal := by
  have h1 := C19_lt_scalar A t ht hA
  have h2 := C19_gt_scalar A t ht hA
  obtain ⟨h3, h4⟩ := C19_eq_scalar A t ht hA
  have mid : (∃ x : ℝ, x ∈ A ∧ x ≤ t.toReal) → (∃ x : ℝ, x ∈ A ∧ t.toReal ≤ x) → t.toReal ∈ A := by
    rintro ⟨x, hx, hxt⟩ ⟨y, hy, hty⟩
    exact ⟨⟨hx.1.1, hx.1.2.trans (by exact_mod_cast hxt)⟩, ⟨hy.2.1, le_trans (by exact_mod_cast hty) hy.2.2⟩⟩
  rw [h3] at h4
  cases hc : Interval.pcmpS A t with
  | none =>
    rw [hc] at h1 h2 h4
    simp only [reduceCtorEq, false_iff, not_forall, not_lt] at h1 h2
    obtain ⟨x, hx, hxt⟩ := h1
    obtain ⟨y, hy, hyt⟩ := h2
    refine ⟨fun _ => ⟨⟨y, hy, hyt⟩, ⟨x, hx, hxt⟩, ?_⟩, fun _ => rfl⟩
    by_contra hall
    push Not at hall
    have : (none : Option Ordering) = some .eq := h4.2 fun z => ⟨hall z, fun e => e ▸ mid ⟨y, hy, hyt⟩ ⟨x, hx, hxt⟩⟩
    exact absurd this (by decide)
  | some o =>
    rw [hc] at h1 h2 h4
    refine ⟨fun h => absurd h (by simp), ?_⟩
    rintro ⟨⟨x, hx, hxt⟩, ⟨y, hy, hyt⟩, z, hz, hzt⟩
    exfalso
    cases o with
    | lt => exact absurd (h1.1 rfl y hy) (not_lt.2 hyt)
    | gt => exact absurd (h2.1 rfl x hx) (not_lt.2 hxt)
    | eq => exact hzt ((h4.1 rfl z).1 hz)

/-- All four outcomes occur: `[-1,2]` against `3`, `-3` and `1`, and `[2,2]` against `2`. -/
example : Interval.pcmpS (⟨-F32.lit 1, F32.lit 2⟩ : Interval F32) (F32.lit 3) = some .lt ∧
    Interval.pcmpS (⟨-F32.lit 1, F32.lit 2⟩ : Interval F32) (-F32.lit 3) = some .gt ∧
    Interval.pcmpS (⟨-F32.lit 1, F32.lit 2⟩ : Interval F32) (F32.lit 1) = none ∧
    Interval.pcmpS (⟨F32.lit 2, F32.lit 2⟩ : Interval F32) (F32.lit 2) = some .eq := by decide +kernel

end

/-! ### C29 -/

variable {n : Nat}

/-- C29: `distance` is the Euclidean distance, in every dimension (hence a metric). -/
theorem C29_distance (a b : Vec ℝ n) :
    squareDistance a b = ∑ i, (a.vec i - b.vec i) ^ 2 ∧ distance a b = dist (WithLp.toLp 2 a.vec : EuclideanSpace ℝ (_root_.Fin n)) (WithLp.toLp 2 b.vec) := by
  have h : squareDistance a b = ∑ i, (a.vec i - b.vec i) ^ 2 := by
    unfold squareDistance
    rw [C29_squareNorm_dot, (C29_spec (a - b) (a - b) (new3 0 0 0 : GVec ℝ 3 .vector) (new3 0 0 0)).1, dotProduct]
    exact Finset.sum_congr rfl fun i _ => by rw [vec_sub]; ring
  refine ⟨h, ?_⟩
  rw [EuclideanSpace.dist_eq]
  change Real.sqrt (squareDistance a b) = _
  rw [h]
  congr 1
  exact Finset.sum_congr rfl fun i _ => by rw [Real.dist_eq, sq_abs]

/-- C29: `distance` satisfies the laws of a distance. -/
theorem C29_metric (a b c : Vec ℝ n) :
    0 ≤ distance a b ∧ (distance a b = 0 ↔ a = b) ∧ distance a b = distance b a ∧ distance a c ≤ distance a b + distance b c := by
  simp only [(C29_distance _ _).2]
  refine ⟨dist_nonneg, ?_, dist_comm _ _, dist_triangle _ _ _⟩
  rw [dist_eq_zero]
  exact ⟨fun h => GVec.ext (congrArg WithLp.ofLp h), fun h => by rw [h]⟩

/-- a 3-4-5 triangle -/
example : distance (new3 1 1 1 : Vec ℝ 3) (new3 4 5 1) = 5 := by
  change Real.sqrt (squareDistance _ _) = 5
  rw [(C29_distance _ _).1, Fin.sum_univ_three]
  change Real.sqrt ((1 - 4) ^ 2 + (1 - 5) ^ 2 + (1 - 1) ^ 2) = 5
  rw [show ((1 - 4) ^ 2 + (1 - 5) ^ 2 + (1 - 1) ^ 2 : ℝ) = 5 ^ 2 by norm_num, Real.sqrt_sq (by norm_num)]

/-! ### C41 -/

/-- C41 for `map_inverse`, exactly when it holds: the box mapped back contains the point mapped back for every point of every
box if and only if the linear part of the inverse matrix is diagonal. -/
theorem C41_inverse_exact (t : Transform ℝ) (ha : t.minv.Affine) :
    (∀ (b : Bbox ℝ) (p : Point ℝ 3), b.inside p = true → ∃ q, t.mapPointInv p = some q ∧ (t.mapBoxInv b).inside q = true) ↔
      ∀ i j : _root_.Fin 3, i ≠ j → t.minv.data i.castSucc j.castSucc = 0 := C41_exact t.inverse ha

/-- `scale (2,3,4)` meets the hypotheses, and mapping the box `[2,4] × [3,6] × [4,8]` back gives `[1,2]³`. -/
example : (Transform.scale (new3 2 3 4) : Transform ℝ).minv.Affine ∧
    (∀ i j : _root_.Fin 3, i ≠ j → (Transform.scale (new3 2 3 4) : Transform ℝ).minv.data i.castSucc j.castSucc = 0) := by
  refine ⟨⟨rfl, rfl, rfl, rfl⟩, ?_⟩
  intro i j hij
  fin_cases i <;> fin_cases j <;> first | exact absurd rfl hij | rfl

end Scarlet
