import Verif.Props.FloatRay
import Verif.Props.SphereFloat
import Verif.Model.Primitive

/-! C119: hits and misses of transformed spheres on floats, up to rounding. -/

set_option linter.unusedSectionVars false

namespace Scarlet
open Flt GVec

section core
variable {u η : ℝ}

/-- one coordinate of the mapped ray -/
theorem axis_core {o d t X Y A B : ℝ} (hu : 0 < u) (hu1 : u ≤ 1 / 1024) (hη : 0 < η) (hX : |X| ≤ A) (hY : |Y| ≤ B)
    (ho : |o - X| ≤ ((1 + u) ^ 4 - 1) * A + 4 * η * (1 + u) ^ 3) (hd : |d - Y| ≤ ((1 + u) ^ 3 - 1) * B + 3 * η * (1 + u) ^ 2) :
    |(o + d * t) - (X + Y * t)| ≤ 4.01 * (u * (A + B * |t|)) + 4.04 * (η * (1 + |t|)) ∧
    |o| + |d * t| ≤ 1.004 * (A + B * |t|) + 4.04 * (η * (1 + |t|)) ∧
    |o| + |d * t| ≤ (A + B * |t|) + 4.01 * (u * (A + B * |t|)) + 4.04 * (η * (1 + |t|)) := by
  have A0 := (abs_nonneg X).trans hX
  have B0 := (abs_nonneg Y).trans hY
  have t0 := abs_nonneg t
  have c2 : (1 + u) ^ 2 ≤ 1.01 := by nlinarith
  have c3 : (1 + u) ^ 3 ≤ 1.01 := by
    have : (1 + u) ^ 3 = (1 + u) ^ 2 * (1 + u) := by ring
    nlinarith [sq_nonneg u]
  have d3 : (1 + u) ^ 3 - 1 ≤ 3.01 * u := by
    have e : (1 + u) ^ 3 - 1 = u * (3 + 3 * u + u * u) := by ring
    rw [e, mul_comm]
    exact mul_le_mul_of_nonneg_right (by nlinarith) hu.le
  have d4 : (1 + u) ^ 4 - 1 ≤ 4.01 * u := by
    have e : (1 + u) ^ 4 - 1 = u * (4 + 6 * u + 4 * (u * u) + u * (u * u)) := by ring
    rw [e, mul_comm]
    have : u * u ≤ (1 / 1024) * u := mul_le_mul_of_nonneg_right hu1 hu.le
    have : u * (u * u) ≤ (1 / 1024) * (u * u) := mul_le_mul_of_nonneg_right hu1 (by positivity)
    exact mul_le_mul_of_nonneg_right (by linarith) hu.le
  have uA := mul_nonneg hu.le A0
  have uB := mul_nonneg hu.le B0
  have ho' : |o - X| ≤ 4.01 * (u * A) + 4.04 * η := by
    have h1 := mul_le_mul_of_nonneg_right d4 A0
    have h2 := mul_le_mul_of_nonneg_left c3 hη.le
    linarith
  have hd' : |d - Y| ≤ 3.01 * (u * B) + 3.03 * η := by
    have h1 := mul_le_mul_of_nonneg_right d3 B0
    have h2 := mul_le_mul_of_nonneg_left c2 hη.le
    linarith
  set BT := B * |t| with hBT
  set ηT := η * |t| with hηT
  have BT0 : 0 ≤ BT := mul_nonneg B0 t0
  have ηT0 : 0 ≤ ηT := mul_nonneg hη.le t0
  have uBT := mul_nonneg hu.le BT0
  have eε : η * (1 + |t|) = η + ηT := by rw [hηT]; ring
  have hdt : |d * t - Y * t| ≤ 3.01 * (u * BT) + 3.03 * ηT := by
    rw [← sub_mul, abs_mul]
    refine (mul_le_mul_of_nonneg_right hd' t0).trans (le_of_eq ?_)
    rw [hBT, hηT]; ring
  have hYt : |Y * t| ≤ BT := by rw [abs_mul]; exact mul_le_mul_of_nonneg_right hY t0
  have k1 : u * A ≤ (1 / 1024) * A := mul_le_mul_of_nonneg_right hu1 A0
  have k2 : u * BT ≤ (1 / 1024) * BT := mul_le_mul_of_nonneg_right hu1 BT0
  rw [eε]
  constructor
  · have e : (o + d * t) - (X + Y * t) = (o - X) + (d * t - Y * t) := by ring
    rw [e]
    have := abs_add_le (o - X) (d * t - Y * t)
    linarith
  · have g1 := abs_add_le (Y * t) (d * t - Y * t)
    have g2 := abs_add_le X (o - X)
    rw [add_sub_cancel] at g1 g2
    constructor <;> linarith

/-- the sum over the coordinates -/
theorem object_core {ε : ℝ} (P Q W o e : _root_.Fin 3 → ℝ) (hu : 0 < u) (hu1 : u ≤ 1 / 1024) (hε : 0 ≤ ε) (hP : ∀ i, |P i| ≤ W i)
    (hQ : ∀ i, |Q i - P i| ≤ 4.01 * (u * W i) + 4.04 * ε) (ho : ∀ i, |o i| + |e i| ≤ 1.004 * W i + 4.04 * ε)
    (hs : 3 * ε ^ 2 ≤ u ^ 2 * ∑ i, W i ^ 2) :
    |∑ i, Q i ^ 2 - ∑ i, P i ^ 2| ≤ 16.25 * (u * ∑ i, W i ^ 2) ∧ ∑ i, o i ^ 2 + ∑ i, e i ^ 2 ≤ 1.03 * ∑ i, W i ^ 2 := by
  set f := ε ^ 2 / u with hf
  have f0 : 0 ≤ f := by positivity
  have ef : ε ^ 2 = u * f := by rw [hf]; field_simp
  have hs' : 3 * f ≤ u * ∑ i, W i ^ 2 := by
    rw [ef] at hs
    have : u * (3 * f) ≤ u * (u * ∑ i, W i ^ 2) := by nlinarith
    exact le_of_mul_le_mul_left this hu
  have ef' : ε ^ 2 ≤ f / 1024 := by
    rw [ef]
    have := mul_le_mul_of_nonneg_right hu1 f0
    linarith
  have hWε : ∀ i, W i * ε ≤ u * W i ^ 2 / 2 + f / 2 := by
    intro i
    have h1 : u * (u * W i ^ 2 + f - 2 * (W i * ε)) = (u * W i - ε) ^ 2 := by
      have : u * f = ε ^ 2 := ef.symm
      linear_combination this
    have h2 : 0 ≤ u * W i ^ 2 + f - 2 * (W i * ε) := by
      by_contra hc
      have := mul_neg_of_pos_of_neg hu (not_le.1 hc)
      rw [h1] at this
      exact absurd (sq_nonneg _) (not_le.2 this)
    linarith
  have W0 : ∀ i, 0 ≤ W i := fun i => (abs_nonneg _).trans (hP i)
  constructor
  · have key : ∀ i, |Q i ^ 2 - P i ^ 2| ≤ 12.2 * (u * W i ^ 2) + 4.1 * f - 0.05 * (u * W i ^ 2) - 0.02 * f := by
      intro i
      have e : Q i ^ 2 - P i ^ 2 = (Q i - P i) * (2 * P i + (Q i - P i)) := by ring
      have uW := mul_nonneg hu.le (W0 i)
      have k : u * W i ≤ (1 / 1024) * W i := mul_le_mul_of_nonneg_right hu1 (W0 i)
      have h1 : |2 * P i + (Q i - P i)| ≤ 2.004 * W i + 4.04 * ε := by
        refine (abs_add_le _ _).trans ?_
        rw [abs_mul, abs_two]
        have := hP i
        have := hQ i
        linarith
      rw [e, abs_mul]
      refine (mul_le_mul (hQ i) h1 (abs_nonneg _) (by positivity)).trans ?_
      have e2 : (4.01 * (u * W i) + 4.04 * ε) * (2.004 * W i + 4.04 * ε) =
          8.03604 * (u * W i ^ 2) + 16.2004 * (u * (W i * ε)) + 8.09616 * (W i * ε) + 16.3216 * ε ^ 2 := by ring
      rw [e2]
      have k2 : u * (W i * ε) ≤ (1 / 1024) * (W i * ε) := mul_le_mul_of_nonneg_right hu1 (mul_nonneg (W0 i) hε)
      have k3 := hWε i
      have k4 : 0 ≤ u * W i ^ 2 := by positivity
      linarith
    rw [← Finset.sum_sub_distrib]
    refine (Finset.abs_sum_le_sum_abs _ _).trans ?_
    have := Finset.sum_le_sum fun i (_ : i ∈ Finset.univ) => key i
    refine this.trans ?_
    simp only [Fin.sum_univ_three] at hs' ⊢
    linarith
  · have key : ∀ i, o i ^ 2 + e i ^ 2 ≤ 1.0121 * W i ^ 2 + 4.1 * f := by
      intro i
      have h1 : o i ^ 2 + e i ^ 2 ≤ (|o i| + |e i|) ^ 2 := by
        rw [← sq_abs (o i), ← sq_abs (e i)]
        nlinarith [mul_nonneg (abs_nonneg (o i)) (abs_nonneg (e i))]
      have h2 := pow_le_pow_left₀ (by positivity) (ho i) 2
      have e2 : (1.004 * W i + 4.04 * ε) ^ 2 = 1.008016 * W i ^ 2 + 8.11232 * (W i * ε) + 16.3216 * ε ^ 2 := by ring
      rw [e2] at h2
      have k3 := hWε i
      have k4 : u * W i ^ 2 ≤ (1 / 1024) * W i ^ 2 := mul_le_mul_of_nonneg_right hu1 (sq_nonneg _)
      linarith [sq_nonneg (W i)]
    rw [← Finset.sum_add_distrib]
    refine (Finset.sum_le_sum fun i (_ : i ∈ Finset.univ) => key i).trans ?_
    have S0 : 0 ≤ ∑ i, W i ^ 2 := Finset.sum_nonneg fun i _ => sq_nonneg _
    have k4 : u * ∑ i, W i ^ 2 ≤ (1 / 1024) * ∑ i, W i ^ 2 := mul_le_mul_of_nonneg_right hu1 S0
    simp only [Fin.sum_univ_three] at hs' k4 ⊢
    nlinarith [sq_nonneg (W 0), sq_nonneg (W 1), sq_nonneg (W 2)]
end core

variable {mw ew : Nat} [FltImpl mw ew] [LawfulFlt mw ew]

/-- Specification: coordinate `i` of the exact image, under the affine map stored in `m`, of the exact point `origin + t direction`. -/
noncomputable def objPoint (m : Mat4 (Flt mw ew)) (r : Ray (Flt mw ew)) (t : ℝ) (i : _root_.Fin 3) : ℝ :=
  affR m (fun j => (r.origin.vec j).toReal + (r.direction.vec j).toReal * t) 1 i.castSucc

/-- Specification: the sizes of all the terms of that coordinate. -/
noncomputable def objSize (m : Mat4 (Flt mw ew)) (r : Ray (Flt mw ew)) (t : ℝ) (i : _root_.Fin 3) : ℝ :=
  affAbs m (fun j => (r.origin.vec j).toReal) 1 i.castSucc + affAbs m (fun j => (r.direction.vec j).toReal * t) 0 i.castSucc

/-- the object-space ray of the code against the exact image of the world ray, per coordinate -/
theorem object_axis (hw : 9 ≤ mw) (T : Transform (Flt mw ew)) (hT : T.minv.AffineF) (r obj : Ray (Flt mw ew)) (ho : T.mapRayInv r = some obj)
    (hp : ∀ i, (r.origin.vec i).isFin = true) (hd : ∀ i, (r.direction.vec i).isFin = true)
    (i : _root_.Fin 3) (hp' : (obj.origin.vec i).isFin = true) (hd' : (obj.direction.vec i).isFin = true) (t : ℝ) :
    |objPoint T.minv r t i| ≤ objSize T.minv r t i ∧
    |((obj.origin.vec i).toReal + (obj.direction.vec i).toReal * t) - objPoint T.minv r t i| ≤
      4.01 * (uRnd mw * objSize T.minv r t i) + 4.04 * (etaRnd mw ew * (1 + |t|)) ∧
    |(obj.origin.vec i).toReal| + |(obj.direction.vec i).toReal * t| ≤ 1.004 * objSize T.minv r t i + 4.04 * (etaRnd mw ew * (1 + |t|)) ∧
    |(obj.origin.vec i).toReal| + |(obj.direction.vec i).toReal * t| ≤
      objSize T.minv r t i + 4.01 * (uRnd mw * objSize T.minv r t i) + 4.04 * (etaRnd mw ew * (1 + |t|)) := by
  have hmap : mapPt T.minv r.origin = some obj.origin ∧ mapVector T.minv r.direction = some obj.direction := by
    unfold Transform.mapRayInv Transform.mapPointInv Transform.mapVecInv at ho
    cases h1 : mapPt T.minv r.origin with
    | none => rw [h1] at ho; cases ho
    | some q =>
      cases h2 : mapVector T.minv r.direction with
      | none => rw [h1, h2] at ho; cases ho
      | some v => rw [h1, h2] at ho; cases ho; exact ⟨rfl, rfl⟩
  have ax := axis_core (t := t) uRnd_pos (uRnd_small hw) etaRnd_pos (affR_abs T.minv _ _ _) (affR_abs T.minv _ _ _)
    (C85_point T.minv hT _ _ hp hmap.1 i hp') (C85_vector T.minv hT _ _ hd hmap.2 i hd')
  have e1 : objPoint T.minv r t i = affR T.minv (fun j => (r.origin.vec j).toReal) 1 i.castSucc +
      affR T.minv (fun j => (r.direction.vec j).toReal) 0 i.castSucc * t := by
    unfold objPoint affR; ring
  have e2 : objSize T.minv r t i = affAbs T.minv (fun j => (r.origin.vec j).toReal) 1 i.castSucc +
      affAbs T.minv (fun j => (r.direction.vec j).toReal) 0 i.castSucc * |t| := by
    unfold objSize affAbs; simp only [abs_mul]; ring
  rw [e1, e2]
  refine ⟨(abs_add_le _ _).trans (add_le_add (affR_abs _ _ _ _) ?_), ax⟩
  rw [abs_mul]
  exact mul_le_mul_of_nonneg_right (affR_abs _ _ _ _) (abs_nonneg _)

/-- the same, summed -/
theorem object_err (hw : 9 ≤ mw) (T : Transform (Flt mw ew)) (hT : T.minv.AffineF) (r obj : Ray (Flt mw ew)) (ho : T.mapRayInv r = some obj)
    (hp : ∀ i, (r.origin.vec i).isFin = true) (hd : ∀ i, (r.direction.vec i).isFin = true)
    (hp' : ∀ i, (obj.origin.vec i).isFin = true) (hd' : ∀ i, (obj.direction.vec i).isFin = true) (t : ℝ)
    (hε : 3 * (etaRnd mw ew * (1 + |t|)) ^ 2 ≤ uRnd mw ^ 2 * ∑ i, objSize T.minv r t i ^ 2) :
    |∑ i, ((obj.origin.vec i).toReal + (obj.direction.vec i).toReal * t) ^ 2 - ∑ i, objPoint T.minv r t i ^ 2| ≤
      16.25 * (uRnd mw * ∑ i, objSize T.minv r t i ^ 2) ∧
    ∑ i, (obj.origin.vec i).toReal ^ 2 + ∑ i, ((obj.direction.vec i).toReal * t) ^ 2 ≤ 1.03 * ∑ i, objSize T.minv r t i ^ 2 := by
  have hη := etaRnd_pos (mw := mw) (ew := ew)
  have ax := fun i => object_axis hw T hT r obj ho hp hd i (hp' i) (hd' i) t
  exact object_core (fun i => objPoint T.minv r t i) (fun i => (obj.origin.vec i).toReal + (obj.direction.vec i).toReal * t)
    (fun i => objSize T.minv r t i) (fun i => (obj.origin.vec i).toReal) (fun i => (obj.direction.vec i).toReal * t) uRnd_pos (uRnd_small hw)
    (ε := etaRnd mw ew * (1 + |t|)) (by positivity) (fun i => (ax i).1) (fun i => (ax i).2.1) (fun i => (ax i).2.2.1) hε

/-- Specification: how far the test of a transformed box may move the planes of axis `i`: the margin of the slab test on the
object-space ray of the code, and the error of mapping the ray. -/
noncomputable def objMargin (b : Bbox (Flt mw ew)) (T : Transform (Flt mw ew)) (r obj : Ray (Flt mw ew)) (t : ℝ) (i : _root_.Fin 3) : ℝ :=
  slabMargin b obj i + 4.01 * (uRnd mw * objSize T.minv r t i) + 4.04 * (etaRnd mw ew * (1 + |t|))

/-- finite slab quotients come from finite rays -/
theorem slab_origin {b : Bbox (Flt mw ew)} {ray : Ray (Flt mw ew)} (h : SlabFinite b ray) (i : _root_.Fin 3) : (ray.origin.vec i).isFin = true :=
  (isFin_of_sub (isFin_of_div (h i).2.1).1).2

/-- C119: if the exact world ray, within its length, passes through the exact transformed box with its planes moved inwards by the
margin, the transformed box reports a hit. -/
theorem C119_box_hit (hw : 9 ≤ mw) (b : Bbox (Flt mw ew)) (T : Transform (Flt mw ew)) (hT : T.minv.AffineF) (r obj : Ray (Flt mw ew))
    (ho : T.mapRayInv r = some obj) (hp : ∀ i, (r.origin.vec i).isFin = true) (hd : ∀ i, (r.direction.vec i).isFin = true)
    (h : SlabFinite b obj) (hb : ∀ i, (b.pmin.vec i).toReal ≤ (b.pmax.vec i).toReal) (ht : r.tmax.isNaN = false) (t : ℝ) (h0 : 0 ≤ t)
    (h1 : (t : EReal) ≤ r.tmax.val)
    (hin : ∀ i, (b.pmin.vec i).toReal + objMargin b T r obj t i ≤ objPoint T.minv r t i ∧
      objPoint T.minv r t i ≤ (b.pmax.vec i).toReal - objMargin b T r obj t i) :
    (b.prim.transformed T).doIntersect r = some true ∧ ∃ res, (b.prim.transformed T).intersect r = some (some res) := by
  have htm : obj.tmax = r.tmax := by
    obtain ⟨s, hs, e, -⟩ := C118_map_inverse hw T hT r hp hd
    rw [ho] at hs
    cases hs
    exact e
  have key : (b.intersectRay obj).isSome = true := by
    refine C92_hit b obj h hb (by rw [htm]; exact ht) t h0 (by rw [htm]; exact h1) fun i => ?_
    have a := _root_.abs_le.1 (object_axis hw T hT r obj ho hp hd i (slab_origin h i) (h i).1 t).2.1
    have := hin i
    unfold objMargin at this
    unfold exactAt
    constructor <;> linarith [a.1, a.2, this.1, this.2]
  obtain ⟨x, hx⟩ := Option.isSome_iff_exists.1 key
  unfold Primitive.transformed
  simp only [ho, Option.bind_eq_bind, Option.bind_some]
  unfold Bbox.prim Bbox.doIntersect Bbox.hit
  dsimp only
  rw [hx]
  exact ⟨rfl, _, rfl⟩

/-- C119: where a transformed box reports a hit, the exact world ray is inside the exact transformed box with its planes moved
outwards by the margin. -/
theorem C119_box_range (hw : 9 ≤ mw) (b : Bbox (Flt mw ew)) (T : Transform (Flt mw ew)) (hT : T.minv.AffineF) (r obj : Ray (Flt mw ew))
    (ho : T.mapRayInv r = some obj) (hp : ∀ i, (r.origin.vec i).isFin = true) (hd : ∀ i, (r.direction.vec i).isFin = true)
    (h : SlabFinite b obj) (hb : ∀ i, (b.pmin.vec i).toReal ≤ (b.pmax.vec i).toReal) (ht : r.tmax.isNaN = false) (h0 : 0 ≤ r.tmax.val)
    (res : IntersectionResult (Flt mw ew)) (hr : (b.prim.transformed T).intersect r = some (some res)) (i : _root_.Fin 3) :
    (b.pmin.vec i).toReal - objMargin b T r obj res.tRay.toReal i ≤ objPoint T.minv r res.tRay.toReal i ∧
      objPoint T.minv r res.tRay.toReal i ≤ (b.pmax.vec i).toReal + objMargin b T r obj res.tRay.toReal i := by
  have htm : obj.tmax = r.tmax := by
    obtain ⟨s, hs, e, -⟩ := C118_map_inverse hw T hT r hp hd
    rw [ho] at hs
    cases hs
    exact e
  obtain ⟨t1, he⟩ : ∃ t1, b.intersectRay obj = some (res.tRay, t1) := by
    unfold Primitive.transformed at hr
    simp only [ho, Option.bind_eq_bind, Option.bind_some] at hr
    unfold Bbox.prim Bbox.hit at hr
    have hr := Option.some.inj hr
    cases hx : b.intersectRay obj with
    | none => rw [hx] at hr; cases hr
    | some x => rw [hx] at hr; cases hr; exact ⟨x.2, rfl⟩
  obtain ⟨⟨-, -, -, h01, -⟩, hin⟩ := C92_range b obj h hb (by rw [htm]; exact ht) (by rw [htm]; exact h0) _ _ he
  have a := _root_.abs_le.1 (object_axis hw T hT r obj ho hp hd i (slab_origin h i) (h i).1 res.tRay.toReal).2.1
  have := hin res.tRay.toReal le_rfl h01 i
  unfold exactAt at this
  unfold objMargin
  constructor <;> linarith [a.1, a.2, this.1, this.2]

variable [Libm mw ew]

theorem regular_finite (hm : 9 ≤ mw) {s : Sphere (Flt mw ew)} {ray : Ray (Flt mw ew)} (hs : SphereRegular s ray) :
    (∀ i, (ray.origin.vec i).isFin = true) ∧ ∀ i, (ray.direction.vec i).isFin = true := by
  obtain ⟨fa, -, fc, -⟩ := disc_err hm hs.disc hs.hb hs.hc
  exact ⟨fun i => (isFin_of_mul (sumLoop_fin (isFin_of_sub fc).1 i)).1, fun i => (isFin_of_mul (sumLoop_fin fa i)).1⟩

/-- C119: what a transformed sphere reports as a hit is on the transformed sphere, up to rounding: at the reported `t_ray`, the exact
point of the *world* ray, taken to object space by the exact affine map, satisfies the equation of the sphere to within `83u` of
the squared sizes of the terms involved.  `obj` is the object-space ray of the code, on which nothing overflows or underflows. -/
theorem C119_hit (hm : 9 ≤ mw) (hw : mw + 3 ≤ 2 ^ (ew - 1)) (s : Sphere (Flt mw ew)) (T : Transform (Flt mw ew)) (hT : T.minv.AffineF)
    (r obj : Ray (Flt mw ew)) (ho : T.mapRayInv r = some obj)
    (hp : ∀ i, (r.origin.vec i).isFin = true) (hd : ∀ i, (r.direction.vec i).isFin = true) (hs : SphereRegular s obj)
    (hf : ∀ t0 t1, solveQuadratic obj.direction.squareNorm ((GVec.conv .vector obj.origin).dot obj.direction * GFloat.fromI64 2)
      ((GVec.conv .vector obj.origin).squareNorm - Scalar.square s.radius) = some (t0, t1) → t0.isFin = true ∧ t1.isFin = true)
    (res : IntersectionResult (Flt mw ew)) (hr : (s.prim.transformed T).intersect r = some (some res))
    (hn : etaRnd mw ew ≤ uRnd mw * |res.tRay.toReal|)
    (hε : 3 * (etaRnd mw ew * (1 + |res.tRay.toReal|)) ^ 2 ≤ uRnd mw ^ 2 * ∑ i, objSize T.minv r res.tRay.toReal i ^ 2) :
    |∑ i, objPoint T.minv r res.tRay.toReal i ^ 2 - s.radius.toReal ^ 2| ≤
      83 * uRnd mw * (∑ i, objSize T.minv r res.tRay.toReal i ^ 2 + s.radius.toReal ^ 2) := by
  have hu := uRnd_pos (mw := mw)
  obtain ⟨g1, g2⟩ := regular_finite hm hs
  obtain ⟨k1, k2⟩ := object_err hm T hT r obj ho hp hd g1 g2 _ hε
  have hr' : s.intersect obj = some res := by
    unfold Primitive.transformed at hr
    simp only [ho, Option.bind_eq_bind, Option.bind_some] at hr
    unfold Sphere.prim at hr
    exact Option.some.inj hr
  obtain ⟨h, hh, he⟩ : ∃ h, s.intersectRay obj = some h ∧ res.tRay = h.tRay := by
    unfold Sphere.intersect at hr'
    cases hh : s.intersectRay obj with
    | none => rw [hh] at hr'; cases hr'
    | some h => rw [hh] at hr'; cases hr'; exact ⟨h, rfl, rfl⟩
  rw [he] at hn hε k1 k2 ⊢
  have k3 := (C102_hit_partial hm hw s obj h hh hs hf hn).1
  unfold sphereDefect sphereScale at k3
  have R0 := sq_nonneg s.radius.toReal
  have S0 : 0 ≤ ∑ i, objSize T.minv r h.tRay.toReal i ^ 2 := Finset.sum_nonneg fun i _ => sq_nonneg _
  generalize ∑ i, objSize T.minv r h.tRay.toReal i ^ 2 = S at *
  generalize ∑ i, objPoint T.minv r h.tRay.toReal i ^ 2 = P at *
  generalize ∑ i, ((obj.origin.vec i).toReal + (obj.direction.vec i).toReal * h.tRay.toReal) ^ 2 = Q at *
  have k4 := mul_le_mul_of_nonneg_left k2 hu.le
  have uS := mul_nonneg hu.le S0
  have uR := mul_nonneg hu.le R0
  rw [_root_.abs_le] at *
  constructor <;> linarith [k1.1, k1.2, k3.1, k3.2]

/-- C119: if the solver finds no root for the object-space ray, the world ray misses the transformed sphere up to rounding: at no `t`
does the exact image of the exact point lie inside the sphere by more than `50u` of the squared sizes. -/
theorem C119_miss (hm : 9 ≤ mw) (s : Sphere (Flt mw ew)) (T : Transform (Flt mw ew)) (hT : T.minv.AffineF)
    (r obj : Ray (Flt mw ew)) (ho : T.mapRayInv r = some obj)
    (hp : ∀ i, (r.origin.vec i).isFin = true) (hd : ∀ i, (r.direction.vec i).isFin = true) (hs : SphereRegular s obj)
    (hq : solveQuadratic obj.direction.squareNorm ((GVec.conv .vector obj.origin).dot obj.direction * GFloat.fromI64 2)
      ((GVec.conv .vector obj.origin).squareNorm - Scalar.square s.radius) = none) (t : ℝ)
    (hε : 3 * (etaRnd mw ew * (1 + |t|)) ^ 2 ≤ uRnd mw ^ 2 * ∑ i, objSize T.minv r t i ^ 2) :
    s.radius.toReal ^ 2 - 50 * uRnd mw * (∑ i, objSize T.minv r t i ^ 2 + s.radius.toReal ^ 2) ≤ ∑ i, objPoint T.minv r t i ^ 2 := by
  have hu := uRnd_pos (mw := mw)
  obtain ⟨g1, g2⟩ := regular_finite hm hs
  obtain ⟨k1, k2⟩ := object_err hm T hT r obj ho hp hd g1 g2 _ hε
  have k3 := C102_miss_partial hm s obj hs hq t
  unfold sphereDefect at k3
  have R0 := sq_nonneg s.radius.toReal
  have S0 : 0 ≤ ∑ i, objSize T.minv r t i ^ 2 := Finset.sum_nonneg fun i _ => sq_nonneg _
  have E0 : 0 ≤ ∑ i, ((obj.direction.vec i).toReal * t) ^ 2 := Finset.sum_nonneg fun i _ => sq_nonneg _
  generalize ∑ i, objSize T.minv r t i ^ 2 = S at *
  generalize ∑ i, objPoint T.minv r t i ^ 2 = P at *
  generalize ∑ i, ((obj.origin.vec i).toReal + (obj.direction.vec i).toReal * t) ^ 2 = Q at *
  generalize ∑ i, ((obj.direction.vec i).toReal * t) ^ 2 = E at *
  have k4 := mul_le_mul_of_nonneg_left (show ∑ i, (obj.origin.vec i).toReal ^ 2 ≤ 1.03 * S by linarith) hu.le
  have uS := mul_nonneg hu.le S0
  have uR := mul_nonneg hu.le R0
  linarith [(_root_.abs_le.1 k1).2]

section examples
/-- the translation by (7, 0, 0) -/
def objT : Transform F32 := Transform.translate (new3 (F32.lit 7) (F32.lit 0) (F32.lit 0))
/-- a ray from (7, 0, −3) along the z axis -/
def objW : Ray F32 := ⟨new3 (F32.lit 7) (F32.lit 0) (-F32.lit 3), new3 (F32.lit 0) (F32.lit 0) (F32.lit 1), F32.lit 10⟩
theorem objR_some : (objT.mapRayInv objW).isSome = true := by decide +kernel
/-- its image in object space, from (0, 0, −3) along the z axis -/
def objR : Ray F32 := (objT.mapRayInv objW).get objR_some

/-- Non-vacuity: the unit sphere moved to (7, 0, 0) and a ray through its centre meet the hypotheses of `C119_hit` on `f32`; the hit is
at distance 2. -/
theorem objR_hit : letI : Libm 23 8 := ⟨id, id, id, id, id, id, fun y _ => y⟩
    objT.minv.AffineF ∧ objT.mapRayInv objW = some objR ∧ (∀ i, (objW.origin.vec i).isFin = true) ∧ (∀ i, (objW.direction.vec i).isFin = true) ∧
    SphereRegular exSphF objR ∧
    (∀ t0 t1, solveQuadratic objR.direction.squareNorm ((GVec.conv .vector objR.origin).dot objR.direction * GFloat.fromI64 2)
      ((GVec.conv .vector objR.origin).squareNorm - Scalar.square exSphF.radius) = some (t0, t1) → t0.isFin = true ∧ t1.isFin = true) ∧
    ((exSphF.prim.transformed objT).intersect objW).map (fun o => o.map (·.tRay)) = some (some (F32.lit 2)) ∧
    etaRnd 23 8 ≤ uRnd 23 * |(F32.lit 2).toReal| ∧
    3 * (etaRnd 23 8 * (1 + |(F32.lit 2).toReal|)) ^ 2 ≤ uRnd 23 ^ 2 * ∑ i, objSize objT.minv objW (F32.lit 2).toReal i ^ 2 := by
  have hu := uRnd_pos (mw := 23)
  have hη : 3 * etaRnd 23 8 ≤ uRnd 23 * 1 := by unfold etaRnd uRnd fK; norm_num
  have hη0 := etaRnd_pos (mw := 23) (ew := 8)
  have h0 : (F32.lit 0).toReal = 0 := by rw [toReal_lit (by decide)]; norm_num
  refine ⟨affineF_of rfl rfl rfl rfl, (Option.some_get _).symm, by decide +kernel, by decide +kernel, ⟨?_, ?_, by decide +kernel, ?_, ?_⟩, ?_,
    by decide +kernel, ?_, ?_⟩
  · rw [Fin.sum_univ_three, show objR.direction.vec 0 = F32.lit 0 by decide +kernel, show objR.direction.vec 1 = F32.lit 0 by decide +kernel,
      show objR.direction.vec 2 = F32.lit 1 by decide +kernel, h0, toReal_lit_small.1]
    linarith
  · rw [Fin.sum_univ_three, show objR.origin.vec 0 = F32.lit 0 by decide +kernel, show objR.origin.vec 1 = F32.lit 0 by decide +kernel,
      show objR.origin.vec 2 = -F32.lit 3 by decide +kernel, show exSphF.radius = F32.lit 1 by rfl, h0, toReal_lit_small.1, toReal_negop,
      toReal_lit_small.2.2]
    linarith
  · have e : (GVec.conv .vector objR.origin).dot objR.direction * GFloat.fromI64 2 = -F32.lit 6 := by decide +kernel
    rw [e, toReal_negop, toReal_lit (by decide)]
    exact normal_f32 (by norm_num)
  · have e : objR.direction.squareNorm = F32.lit 1 := by decide +kernel
    have e2 : (GVec.conv .vector objR.origin).squareNorm - Scalar.square exSphF.radius = F32.lit 8 := by decide +kernel
    rw [e, e2, toReal_lit (by decide), toReal_lit (by decide)]
    exact normal_f32 (by norm_num)
  · have e : solveQuadratic objR.direction.squareNorm ((GVec.conv .vector objR.origin).dot objR.direction * GFloat.fromI64 2)
      ((GVec.conv .vector objR.origin).squareNorm - Scalar.square exSphF.radius) = some (F32.lit 2, F32.lit 4) := by decide +kernel
    intro t0 t1 h
    rw [e] at h
    cases h
    decide +kernel
  · rw [toReal_lit_small.2.1]
    norm_num
    linarith
  · rw [toReal_lit_small.2.1]
    have h1 : (3 : ℝ) ≤ objSize objT.minv objW 2 2 := by
      unfold objSize affAbs
      have e : |(objW.origin.vec 2).toReal * (objT.minv.data (_root_.Fin.castSucc 2) 2).toReal| = 3 := by
        rw [show objW.origin.vec 2 = -F32.lit 3 by rfl, show objT.minv.data (_root_.Fin.castSucc 2) 2 = F32.lit 1 by decide +kernel,
          toReal_negop, toReal_lit_small.1, toReal_lit_small.2.2]
        norm_num
      rw [e]
      have h : ∀ a b c d e f g : ℝ, 0 ≤ a → 0 ≤ b → 0 ≤ c → 0 ≤ d → 0 ≤ e → 0 ≤ f → 0 ≤ g → 3 ≤ a + b + 3 + c + (d + e + f + g) := by
        intros; linarith
      exact h _ _ _ _ _ _ _ (abs_nonneg _) (abs_nonneg _) (abs_nonneg _) (abs_nonneg _) (abs_nonneg _) (abs_nonneg _) (abs_nonneg _)
    have h2 : objSize objT.minv objW 2 2 ^ 2 ≤ ∑ i, objSize objT.minv objW 2 i ^ 2 :=
      Finset.single_le_sum (f := fun i => objSize objT.minv objW 2 i ^ 2) (fun i _ => sq_nonneg _) (Finset.mem_univ 2)
    have h3 : (9 : ℝ) ≤ ∑ i, objSize objT.minv objW 2 i ^ 2 := by nlinarith
    have h4 := mul_le_mul_of_nonneg_left h3 (sq_nonneg (uRnd 23))
    norm_num
    nlinarith

/-- the cube [−1, 1]³ -/
def objB : Bbox F32 := ⟨new3 (-F32.lit 1) (-F32.lit 1) (-F32.lit 1), new3 (F32.lit 1) (F32.lit 1) (F32.lit 1)⟩
/-- a ray from (4, −3, −3) along (1, 1, 1) -/
def objD : Ray F32 := ⟨new3 (F32.lit 4) (-F32.lit 3) (-F32.lit 3), new3 (F32.lit 1) (F32.lit 1) (F32.lit 1), F32.lit 10⟩
theorem objS_some : (objT.mapRayInv objD).isSome = true := by decide +kernel
/-- its image in object space -/
def objS : Ray F32 := (objT.mapRayInv objD).get objS_some

/-- the image of the ray in object space at distance 3, the sizes of its terms and the margin of the box test -/
theorem objB_facts (i : _root_.Fin 3) : objPoint objT.minv objD 3 i = 0 ∧ objSize objT.minv objD 3 i ≤ 14 ∧ slabMargin objB objS i ≤ 1 / 4 ∧
    (objB.pmin.vec i).toReal = -1 ∧ (objB.pmax.vec i).toReal = 1 := by
  have h0 : (F32.lit 0).toReal = 0 := by rw [toReal_lit (by decide)]; norm_num
  have h4 : (F32.lit 4).toReal = 4 := by rw [toReal_lit (by decide)]; norm_num
  have h7 : (F32.lit 7).toReal = 7 := by rw [toReal_lit (by decide)]; norm_num
  obtain ⟨h1, h2, h3⟩ := toReal_lit_small
  have eo : ∀ i, (objS.origin.vec i).toReal = -3 ∧ (objS.direction.vec i).toReal = 1 := by
    intro i
    have : objS.origin.vec i = -F32.lit 3 ∧ objS.direction.vec i = F32.lit 1 := by revert i; decide +kernel
    rw [this.1, this.2, toReal_negop, h3, h1]
    exact ⟨rfl, rfl⟩
  have ed : ∀ i, (objD.direction.vec i).toReal = 1 := by
    intro i
    have : objD.direction.vec i = F32.lit 1 := by revert i; decide +kernel
    rw [this, h1]
  have eb : (objB.pmin.vec i).toReal = -1 ∧ (objB.pmax.vec i).toReal = 1 := by
    have : objB.pmin.vec i = -F32.lit 1 ∧ objB.pmax.vec i = F32.lit 1 := by revert i; decide +kernel
    rw [this.1, this.2, toReal_negop, h1]
    exact ⟨rfl, rfl⟩
  have dia : ∀ i j : _root_.Fin 3, (objT.minv.data i.castSucc j.castSucc).toReal = if i = j then 1 else 0 := by
    intro i j
    have : objT.minv.data i.castSucc j.castSucc = if i = j then F32.lit 1 else F32.lit 0 := by revert i j; decide +kernel
    rw [this]
    split
    · exact h1
    · exact h0
  have tr : objT.minv.data 0 3 = -F32.lit 7 ∧ (objT.minv.data 1 3).key = 0 ∧ (objT.minv.data 2 3).key = 0 := by decide +kernel
  have tr0 : (objT.minv.data 0 3).toReal = -7 := by rw [tr.1, toReal_negop, h7]
  have tr1 := toReal_eq_zero_iff.2 tr.2.1
  have tr2 := toReal_eq_zero_iff.2 tr.2.2
  have oo : (objD.origin.vec 0).toReal = 4 ∧ (objD.origin.vec 1).toReal = -3 ∧ (objD.origin.vec 2).toReal = -3 := by
    rw [show objD.origin.vec 0 = F32.lit 4 by rfl, show objD.origin.vec 1 = -F32.lit 3 by rfl, show objD.origin.vec 2 = -F32.lit 3 by rfl,
      toReal_negop, h4, h3]
    exact ⟨rfl, rfl, rfl⟩
  have d00 := dia 0 0
  have d01 := dia 0 1
  have d02 := dia 0 2
  have d10 := dia 1 0
  have d11 := dia 1 1
  have d12 := dia 1 2
  have d20 := dia 2 0
  have d21 := dia 2 1
  have d22 := dia 2 2
  simp only [_root_.Fin.castSucc_zero, _root_.Fin.castSucc_one, show (_root_.Fin.castSucc (2 : _root_.Fin 3)) = (2 : _root_.Fin 4) from rfl, reduceIte, show ¬ ((0 : _root_.Fin 3) = 1) by decide,
    show ¬ ((0 : _root_.Fin 3) = 2) by decide, show ¬ ((1 : _root_.Fin 3) = 0) by decide, show ¬ ((1 : _root_.Fin 3) = 2) by decide,
    show ¬ ((2 : _root_.Fin 3) = 0) by decide, show ¬ ((2 : _root_.Fin 3) = 1) by decide] at d00 d01 d02 d10 d11 d12 d20 d21 d22
  have pt : objPoint objT.minv objD 3 i = 0 := by
    unfold objPoint affR
    simp only [ed, oo.1, oo.2.1, oo.2.2]
    fin_cases i
    · change _ * (objT.minv.data 0 0).toReal + _ * (objT.minv.data 0 1).toReal + _ * (objT.minv.data 0 2).toReal + _ * (objT.minv.data 0 3).toReal = 0
      rw [d00, d01, d02, tr0]; norm_num
    · change _ * (objT.minv.data 1 0).toReal + _ * (objT.minv.data 1 1).toReal + _ * (objT.minv.data 1 2).toReal + _ * (objT.minv.data 1 3).toReal = 0
      rw [d10, d11, d12, tr1]; norm_num
    · change _ * (objT.minv.data 2 0).toReal + _ * (objT.minv.data 2 1).toReal + _ * (objT.minv.data 2 2).toReal + _ * (objT.minv.data 2 3).toReal = 0
      rw [d20, d21, d22, tr2]; norm_num
  have sz : objSize objT.minv objD 3 i ≤ 14 := by
    unfold objSize affAbs
    simp only [ed, oo.1, oo.2.1, oo.2.2]
    fin_cases i
    · change |_ * (objT.minv.data 0 0).toReal| + |_ * (objT.minv.data 0 1).toReal| + |_ * (objT.minv.data 0 2).toReal| + |_ * (objT.minv.data 0 3).toReal| +
        (|_ * (objT.minv.data 0 0).toReal| + |_ * (objT.minv.data 0 1).toReal| + |_ * (objT.minv.data 0 2).toReal| + |_ * (objT.minv.data 0 3).toReal|) ≤ 14
      rw [d00, d01, d02, tr0]; norm_num
    · change |_ * (objT.minv.data 1 0).toReal| + |_ * (objT.minv.data 1 1).toReal| + |_ * (objT.minv.data 1 2).toReal| + |_ * (objT.minv.data 1 3).toReal| +
        (|_ * (objT.minv.data 1 0).toReal| + |_ * (objT.minv.data 1 1).toReal| + |_ * (objT.minv.data 1 2).toReal| + |_ * (objT.minv.data 1 3).toReal|) ≤ 14
      rw [d10, d11, d12, tr1]; norm_num
    · change |_ * (objT.minv.data 2 0).toReal| + |_ * (objT.minv.data 2 1).toReal| + |_ * (objT.minv.data 2 2).toReal| + |_ * (objT.minv.data 2 3).toReal| +
        (|_ * (objT.minv.data 2 0).toReal| + |_ * (objT.minv.data 2 1).toReal| + |_ * (objT.minv.data 2 2).toReal| + |_ * (objT.minv.data 2 3).toReal|) ≤ 14
      rw [d20, d21, d22, tr2]; norm_num
  refine ⟨pt, sz, ?_, eb⟩
  have hu := uRnd_pos (mw := 23)
  have hu1 : uRnd 23 ≤ 1 / 1024 := uRnd_small (by norm_num)
  have hη : etaRnd 23 8 ≤ 1 / 1024 := by unfold etaRnd fK; norm_num
  unfold slabMargin
  rw [eb.1, eb.2, (eo i).1, (eo i).2]
  norm_num
  have : (1 + uRnd 23) ^ 2 - 1 ≤ 3 / 1024 := by nlinarith
  linarith

/-- Non-vacuity: the cube moved to (7, 0, 0) and a ray through its centre at distance 3 meet the hypotheses of `C119_box_hit` (and
of `C119_box_range`). -/
theorem objB_hit : objT.minv.AffineF ∧ objT.mapRayInv objD = some objS ∧ (∀ i, (objD.origin.vec i).isFin = true) ∧
    (∀ i, (objD.direction.vec i).isFin = true) ∧ SlabFinite objB objS ∧ (∀ i, (objB.pmin.vec i).toReal ≤ (objB.pmax.vec i).toReal) ∧
    objD.tmax.isNaN = false ∧ ((3 : ℝ) : EReal) ≤ objD.tmax.val ∧
    ∀ i, (objB.pmin.vec i).toReal + objMargin objB objT objD objS 3 i ≤ objPoint objT.minv objD 3 i ∧
      objPoint objT.minv objD 3 i ≤ (objB.pmax.vec i).toReal - objMargin objB objT objD objS 3 i := by
  have h10 : (F32.lit 10).toReal = 10 := by rw [toReal_lit (by decide)]; norm_num
  refine ⟨affineF_of rfl rfl rfl rfl, (Option.some_get _).symm, by decide +kernel, by decide +kernel, by unfold SlabFinite; decide +kernel, ?_,
    by decide +kernel, ?_, ?_⟩
  · intro i
    rw [toReal_le_iff]
    revert i
    decide +kernel
  · rw [val_of_isFin (by decide +kernel), show objD.tmax = F32.lit 10 by rfl, h10]
    exact_mod_cast (show (3 : ℝ) ≤ 10 by norm_num)
  · intro i
    obtain ⟨pt, sz, sm, eb1, eb2⟩ := objB_facts i
    have mg : objMargin objB objT objD objS 3 i ≤ 1 / 2 := by
      have hu := uRnd_pos (mw := 23)
      have hu1 : uRnd 23 ≤ 1 / 1024 := uRnd_small (by norm_num)
      have hη : etaRnd 23 8 ≤ 1 / 1024 := by unfold etaRnd fK; norm_num
      have hη0 := etaRnd_pos (mw := 23) (ew := 8)
      have k := mul_le_mul_of_nonneg_left sz hu.le
      unfold objMargin
      norm_num
      linarith
    rw [pt, eb1, eb2]
    constructor <;> linarith
end examples
end Scarlet
