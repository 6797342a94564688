import Verif.Props.QuadFloat
import Verif.Props.CameraFloat

/-! C118: mapping a ray commutes with evaluating it on floats, up to rounding. -/

set_option linter.unusedSectionVars false

namespace Scarlet
open Flt GVec

section core
variable {u η : ℝ}

/-- evaluating the mapped ray -/
theorem rayA_core {o d t x X Y A B : ℝ} (hu : 0 < u) (hu1 : u ≤ 1 / 1024) (hη : 0 < η) (hX : |X| ≤ A) (hY : |Y| ≤ B)
    (ho : |o - X| ≤ ((1 + u) ^ 4 - 1) * A + 4 * η * (1 + u) ^ 3) (hd : |d - Y| ≤ ((1 + u) ^ 3 - 1) * B + 3 * η * (1 + u) ^ 2)
    (h : |x - (o + d * t)| ≤ u * |o + d * t| + (1 + u) * max η (u * |d * t|)) :
    |x - (X + Y * t)| ≤ 5.2 * u * (A + B * |t|) + 5.2 * η * (1 + |t|) := by
  have A0 := (abs_nonneg X).trans hX
  have B0 := (abs_nonneg Y).trans hY
  have t0 := abs_nonneg t
  have c2 : (1 + u) ^ 2 ≤ 1.01 := by nlinarith
  have c3 : (1 + u) ^ 3 ≤ 1.01 := by
    have : (1 + u) ^ 3 = (1 + u) ^ 2 * (1 + u) := by ring
    nlinarith [sq_nonneg u]
  have d3 : (1 + u) ^ 3 - 1 ≤ 3.01 * u := by
    have e : (1 + u) ^ 3 - 1 = u * (3 + 3 * u + u * u) := by ring
    rw [e, mul_comm]
    exact mul_le_mul_of_nonneg_right (by nlinarith) hu.le
  have d4 : (1 + u) ^ 4 - 1 ≤ 4.01 * u := by
    have e : (1 + u) ^ 4 - 1 = u * (4 + 6 * u + 4 * (u * u) + u * (u * u)) := by ring
    rw [e, mul_comm]
    have : u * u ≤ (1 / 1024) * u := mul_le_mul_of_nonneg_right hu1 hu.le
    have : u * (u * u) ≤ (1 / 1024) * (u * u) := mul_le_mul_of_nonneg_right hu1 (by positivity)
    exact mul_le_mul_of_nonneg_right (by linarith) hu.le
  have uA := mul_nonneg hu.le A0
  have uB := mul_nonneg hu.le B0
  have ho' : |o - X| ≤ 4.01 * (u * A) + 4.04 * η := by
    have h1 := mul_le_mul_of_nonneg_right d4 A0
    have h2 := mul_le_mul_of_nonneg_left c3 hη.le
    linarith
  have hd' : |d - Y| ≤ 3.01 * (u * B) + 3.03 * η := by
    have h1 := mul_le_mul_of_nonneg_right d3 B0
    have h2 := mul_le_mul_of_nonneg_left c2 hη.le
    linarith
  set BT := B * |t| with hBT
  set ηT := η * |t| with hηT
  have BT0 : 0 ≤ BT := mul_nonneg B0 t0
  have ηT0 : 0 ≤ ηT := mul_nonneg hη.le t0
  have uBT := mul_nonneg hu.le BT0
  have hdt : |d * t - Y * t| ≤ 3.01 * (u * BT) + 3.03 * ηT := by
    rw [← sub_mul, abs_mul]
    refine (mul_le_mul_of_nonneg_right hd' t0).trans (le_of_eq ?_)
    rw [hBT, hηT]; ring
  have hYt : |Y * t| ≤ BT := by rw [abs_mul]; exact mul_le_mul_of_nonneg_right hY t0
  have k1 : u * (u * A) ≤ (1 / 1024) * (u * A) := mul_le_mul_of_nonneg_right hu1 uA
  have k2 : u * (u * BT) ≤ (1 / 1024) * (u * BT) := mul_le_mul_of_nonneg_right hu1 uBT
  have k3 : u * η ≤ (1 / 1024) * η := mul_le_mul_of_nonneg_right hu1 hη.le
  have k4 : u * ηT ≤ (1 / 1024) * ηT := mul_le_mul_of_nonneg_right hu1 ηT0
  have g1 : |d * t| ≤ BT + (3.01 * (u * BT) + 3.03 * ηT) := by
    have := abs_add_le (Y * t) (d * t - Y * t)
    rw [add_sub_cancel] at this
    linarith
  have g2 : |o| ≤ A + (4.01 * (u * A) + 4.04 * η) := by
    have := abs_add_le X (o - X)
    rw [add_sub_cancel] at this
    linarith
  have g3 := abs_add_le o (d * t)
  have g4 := mul_le_mul_of_nonneg_left g1 hu.le
  have g5 := mul_le_mul_of_nonneg_left g2 hu.le
  have g6 := mul_le_mul_of_nonneg_left g3 hu.le
  have g7 : max η (u * |d * t|) ≤ η + u * |d * t| := max_le (by linarith [mul_nonneg hu.le (abs_nonneg (d * t))]) (by linarith)
  have g8 := mul_le_mul_of_nonneg_left g7 (show 0 ≤ 1 + u by linarith)
  have g9 : u * (u * |d * t|) ≤ (1 / 1024) * (u * |d * t|) := mul_le_mul_of_nonneg_right hu1 (mul_nonneg hu.le (abs_nonneg _))
  have e : x - (X + Y * t) = (x - (o + d * t)) + ((o - X) + (d * t - Y * t)) := by ring
  rw [e]
  have a1 := abs_add_le (x - (o + d * t)) ((o - X) + (d * t - Y * t))
  have a2 := abs_add_le (o - X) (d * t - Y * t)
  linarith

/-- mapping the evaluated point: three coordinates -/
theorem rayB_core {a0 a1 a2 b p0 p1 p2 o0 o1 o2 e0 e1 e2 x : ℝ} (hu : 0 < u) (hu1 : u ≤ 1 / 1024) (hη : 0 < η)
    (h0 : |p0 - (o0 + e0)| ≤ u * |o0 + e0| + (1 + u) * max η (u * |e0|))
    (h1 : |p1 - (o1 + e1)| ≤ u * |o1 + e1| + (1 + u) * max η (u * |e1|))
    (h2 : |p2 - (o2 + e2)| ≤ u * |o2 + e2| + (1 + u) * max η (u * |e2|))
    (h : |x - (p0 * a0 + p1 * a1 + p2 * a2 + b)| ≤
      ((1 + u) ^ 4 - 1) * (|p0 * a0| + |p1 * a1| + |p2 * a2| + |b|) + 4 * η * (1 + u) ^ 3) :
    |x - ((o0 + e0) * a0 + (o1 + e1) * a1 + (o2 + e2) * a2 + b)| ≤
      6.2 * u * (|o0 * a0| + |o1 * a1| + |o2 * a2| + |b| + (|e0 * a0| + |e1 * a1| + |e2 * a2|)) +
      1.1 * η * (|a0| + |a1| + |a2|) + 4.1 * η := by
  have c3 : (1 + u) ^ 3 ≤ 1.01 := by
    have : (1 + u) ^ 3 = (1 + u) ^ 2 * (1 + u) := by ring
    nlinarith [sq_nonneg u]
  have d4 : (1 + u) ^ 4 - 1 ≤ 4.01 * u := by
    have e : (1 + u) ^ 4 - 1 = u * (4 + 6 * u + 4 * (u * u) + u * (u * u)) := by ring
    rw [e, mul_comm]
    have : u * u ≤ (1 / 1024) * u := mul_le_mul_of_nonneg_right hu1 hu.le
    have : u * (u * u) ≤ (1 / 1024) * (u * u) := mul_le_mul_of_nonneg_right hu1 (by positivity)
    exact mul_le_mul_of_nonneg_right (by linarith) hu.le
  have key : ∀ p o e a : ℝ, |p - (o + e)| ≤ u * |o + e| + (1 + u) * max η (u * |e|) →
      |(p - (o + e)) * a| ≤ 2.01 * (u * (|o * a| + |e * a|)) + 1.01 * (η * |a|) := by
    intro p o e a h
    have e0 := abs_nonneg e
    have ue := mul_nonneg hu.le e0
    have uo := mul_nonneg hu.le (abs_nonneg o)
    have g1 := mul_le_mul_of_nonneg_left (abs_add_le o e) hu.le
    have g7 : max η (u * |e|) ≤ η + u * |e| := max_le (by linarith) (by linarith)
    have g8 := mul_le_mul_of_nonneg_left g7 (show 0 ≤ 1 + u by linarith)
    have k3 : u * η ≤ (1 / 1024) * η := mul_le_mul_of_nonneg_right hu1 hη.le
    have k4 : u * (u * |e|) ≤ (1 / 1024) * (u * |e|) := mul_le_mul_of_nonneg_right hu1 ue
    have g2 : |p - (o + e)| ≤ 2.01 * (u * (|o| + |e|)) + 1.01 * η := by linarith
    rw [abs_mul, abs_mul, abs_mul]
    refine (mul_le_mul_of_nonneg_right g2 (abs_nonneg a)).trans (le_of_eq (by ring))
  have k0 := key p0 o0 e0 a0 h0
  have k1 := key p1 o1 e1 a1 h1
  have k2 := key p2 o2 e2 a2 h2
  have key2 : ∀ p o e a : ℝ, |p * a| ≤ |o * a| + |e * a| + |(p - (o + e)) * a| := by
    intro p o e a
    have : p * a = o * a + e * a + (p - (o + e)) * a := by ring
    rw [this]
    exact abs_add_three _ _ _
  have j0 := key2 p0 o0 e0 a0
  have j1 := key2 p1 o1 e1 a1
  have j2 := key2 p2 o2 e2 a2
  have e : x - ((o0 + e0) * a0 + (o1 + e1) * a1 + (o2 + e2) * a2 + b) = (x - (p0 * a0 + p1 * a1 + p2 * a2 + b)) +
      ((p0 - (o0 + e0)) * a0 + (p1 - (o1 + e1)) * a1 + (p2 - (o2 + e2)) * a2) := by ring
  rw [e]
  refine (abs_add_le _ _).trans ?_
  have l := abs_add_three ((p0 - (o0 + e0)) * a0) ((p1 - (o1 + e1)) * a1) ((p2 - (o2 + e2)) * a2)
  have b0 := abs_nonneg b
  have P0 : 0 ≤ |p0 * a0| + |p1 * a1| + |p2 * a2| + |b| := by positivity
  have m1 := mul_le_mul_of_nonneg_right d4 P0
  have m2 := mul_le_mul_of_nonneg_left c3 hη.le
  have W0 : 0 ≤ |o0 * a0| + |o1 * a1| + |o2 * a2| + |b| + (|e0 * a0| + |e1 * a1| + |e2 * a2|) := by positivity
  have Q0 : 0 ≤ η * (|a0| + |a1| + |a2|) := by positivity
  set W := |o0 * a0| + |o1 * a1| + |o2 * a2| + |b| + (|e0 * a0| + |e1 * a1| + |e2 * a2|) with hW
  set Q := η * (|a0| + |a1| + |a2|) with hQ
  have uW := mul_nonneg hu.le W0
  have ub := mul_nonneg hu.le b0
  have kk : |(p0 - (o0 + e0)) * a0| + |(p1 - (o1 + e1)) * a1| + |(p2 - (o2 + e2)) * a2| ≤ 2.01 * (u * W) + 1.01 * Q := by
    rw [hW, hQ]; linarith
  have m3 : |p0 * a0| + |p1 * a1| + |p2 * a2| + |b| ≤ W + (2.01 * (u * W) + 1.01 * Q) := by
    rw [hW] at kk ⊢; linarith
  have m4 := mul_le_mul_of_nonneg_left m3 hu.le
  have n1 : u * (u * W) ≤ (1 / 1024) * (u * W) := mul_le_mul_of_nonneg_right hu1 uW
  have n2 : u * Q ≤ (1 / 1024) * Q := mul_le_mul_of_nonneg_right hu1 Q0
  have f1 : 1.1 * η * (|a0| + |a1| + |a2|) = 1.1 * Q := by rw [hQ]; ring
  rw [f1]
  linarith
end core

variable {mw ew : Nat} [FltImpl mw ew] [LawfulFlt mw ew]

/-- Specification: the exact image of the exact point `origin + t direction` under the affine map stored in `m`. -/
noncomputable def rayImage (m : Mat4 (Flt mw ew)) (r : Ray (Flt mw ew)) (t : Flt mw ew) (i : _root_.Fin 3) : ℝ :=
  affR m (fun j => (r.origin.vec j).toReal + (r.direction.vec j).toReal * t.toReal) 1 i.castSucc

/-- Specification: the sizes of all the terms of that image. -/
noncomputable def rayImageAbs (m : Mat4 (Flt mw ew)) (r : Ray (Flt mw ew)) (t : Flt mw ew) (i : _root_.Fin 3) : ℝ :=
  affAbs m (fun j => (r.origin.vec j).toReal) 1 i.castSucc + affAbs m (fun j => (r.direction.vec j).toReal * t.toReal) 0 i.castSucc

theorem affR_abs (m : Mat4 (Flt mw ew)) (x : _root_.Fin 3 → ℝ) (b : ℝ) (i : _root_.Fin 4) : |affR m x b i| ≤ affAbs m x b i := by
  unfold affR affAbs
  refine (abs_add_le _ _).trans ?_
  have := abs_add_three (x 0 * (m.data i 0).toReal) (x 1 * (m.data i 1).toReal) (x 2 * (m.data i 2).toReal)
  linarith

theorem eval_mapped (hw : 9 ≤ mw) (m : Mat4 (Flt mw ew)) (hm : m.AffineF) (r s : Ray (Flt mw ew)) (hp : ∀ i, (r.origin.vec i).isFin = true)
    (hd : ∀ i, (r.direction.vec i).isFin = true) (h1 : mapPt m r.origin = some s.origin)
    (h2 : mapVector m r.direction = some s.direction) (t : Flt mw ew) (i : _root_.Fin 3) (hf : ((s.eval t).vec i).isFin = true) :
    |((s.eval t).vec i).toReal - rayImage m r t i| ≤
      5.2 * uRnd mw * rayImageAbs m r t i + 5.2 * etaRnd mw ew * (1 + |t.toReal|) := by
  have e : (s.eval t).vec i = s.origin.vec i + s.direction.vec i * t := rfl
  have f := isFin_of_add (e ▸ hf)
  have g := isFin_of_mul f.2
  have := rayA_core uRnd_pos (uRnd_small hw) etaRnd_pos (affR_abs m _ _ _) (affR_abs m _ _ _) (C85_point m hm _ _ hp h1 i f.1)
    (C85_vector m hm _ _ hd h2 i g.1) (C86_eval _ t i hf)
  have e1 : rayImage m r t i = affR m (fun j => (r.origin.vec j).toReal) 1 i.castSucc +
      affR m (fun j => (r.direction.vec j).toReal) 0 i.castSucc * t.toReal := by
    unfold rayImage affR; ring
  have e2 : rayImageAbs m r t i = affAbs m (fun j => (r.origin.vec j).toReal) 1 i.castSucc +
      affAbs m (fun j => (r.direction.vec j).toReal) 0 i.castSucc * |t.toReal| := by
    unfold rayImageAbs affAbs; simp only [abs_mul]; ring
  rw [e1, e2]
  exact this

theorem map_eval (hw : 9 ≤ mw) (m : Mat4 (Flt mw ew)) (hm : m.AffineF) (r : Ray (Flt mw ew)) (t : Flt mw ew)
    (he : ∀ i, ((r.eval t).vec i).isFin = true) {q : Point (Flt mw ew) 3} (h : mapPt m (r.eval t) = some q) (i : _root_.Fin 3)
    (hf : (q.vec i).isFin = true) :
    |(q.vec i).toReal - rayImage m r t i| ≤ 6.2 * uRnd mw * rayImageAbs m r t i +
      1.1 * etaRnd mw ew * (|(m.data i.castSucc 0).toReal| + |(m.data i.castSucc 1).toReal| + |(m.data i.castSucc 2).toReal|) + 4.1 * etaRnd mw ew := by
  have h5 := C85_point m hm _ q he h i hf
  unfold affR affAbs at h5
  rw [one_mul] at h5
  have := rayB_core uRnd_pos (uRnd_small hw) etaRnd_pos (C86_eval r t 0 (he 0)) (C86_eval r t 1 (he 1)) (C86_eval r t 2 (he 2)) h5
  unfold rayImage rayImageAbs affR affAbs
  simp only [zero_mul, one_mul, abs_zero, add_zero]
  exact this

/-- C118: mapping a finite ray by an affine transform does not panic and keeps `tmax`, and evaluating the mapped ray and mapping
the evaluated point both give the exact image of the exact point of the ray, up to `5.2u` and `6.2u` of the sizes of the terms
(and underflow). -/
theorem C118_map (hw : 9 ≤ mw) (T : Transform (Flt mw ew)) (hm : T.m.AffineF) (r : Ray (Flt mw ew))
    (hp : ∀ i, (r.origin.vec i).isFin = true) (hd : ∀ i, (r.direction.vec i).isFin = true) :
    ∃ s, T.mapRay r = some s ∧ s.tmax = r.tmax ∧ ∀ t : Flt mw ew,
      (∀ i, ((s.eval t).vec i).isFin = true → |((s.eval t).vec i).toReal - rayImage T.m r t i| ≤
        5.2 * uRnd mw * rayImageAbs T.m r t i + 5.2 * etaRnd mw ew * (1 + |t.toReal|)) ∧
      ∀ q, T.mapPoint (r.eval t) = some q → (∀ i, ((r.eval t).vec i).isFin = true) → ∀ i, (q.vec i).isFin = true →
        |(q.vec i).toReal - rayImage T.m r t i| ≤ 6.2 * uRnd mw * rayImageAbs T.m r t i +
          1.1 * etaRnd mw ew * (|(T.m.data i.castSucc 0).toReal| + |(T.m.data i.castSucc 1).toReal| + |(T.m.data i.castSucc 2).toReal|) +
          4.1 * etaRnd mw ew := by
  obtain ⟨c1, c2⟩ := C43_float_exact T.m hm r.origin r.direction
  obtain ⟨q, hq⟩ := Option.ne_none_iff_exists'.1 c1
  obtain ⟨v, hv⟩ := Option.ne_none_iff_exists'.1 (fun h => by
    obtain ⟨i, hi⟩ := c2.1 h
    rw [hd i] at hi; cases hi)
  refine ⟨⟨q, v, r.tmax⟩, ?_, rfl, fun t => ⟨fun i hf => ?_, fun q hq he i hf => ?_⟩⟩
  · unfold Transform.mapRay Transform.mapPoint Transform.mapVec
    rw [hq, hv]; rfl
  · exact eval_mapped hw T.m hm r ⟨q, v, r.tmax⟩ hp hd hq hv t i hf
  · exact map_eval hw T.m hm r t he hq i hf

/-- C118: the same for `map_inverse`, with the inverse matrix. -/
theorem C118_map_inverse (hw : 9 ≤ mw) (T : Transform (Flt mw ew)) (hm : T.minv.AffineF) (r : Ray (Flt mw ew))
    (hp : ∀ i, (r.origin.vec i).isFin = true) (hd : ∀ i, (r.direction.vec i).isFin = true) :
    ∃ s, T.mapRayInv r = some s ∧ s.tmax = r.tmax ∧ ∀ t : Flt mw ew,
      (∀ i, ((s.eval t).vec i).isFin = true → |((s.eval t).vec i).toReal - rayImage T.minv r t i| ≤
        5.2 * uRnd mw * rayImageAbs T.minv r t i + 5.2 * etaRnd mw ew * (1 + |t.toReal|)) ∧
      ∀ q, T.mapPointInv (r.eval t) = some q → (∀ i, ((r.eval t).vec i).isFin = true) → ∀ i, (q.vec i).isFin = true →
        |(q.vec i).toReal - rayImage T.minv r t i| ≤ 6.2 * uRnd mw * rayImageAbs T.minv r t i +
          1.1 * etaRnd mw ew * (|(T.minv.data i.castSucc 0).toReal| + |(T.minv.data i.castSucc 1).toReal| + |(T.minv.data i.castSucc 2).toReal|) +
          4.1 * etaRnd mw ew :=
  C118_map hw T.inverse hm r hp hd

/-- C118: so the two ways of computing the image differ by at most `11.4u` of the sizes of the terms, and underflow. -/
theorem C118_commute (hw : 9 ≤ mw) (T : Transform (Flt mw ew)) (hm : T.m.AffineF) (r s : Ray (Flt mw ew)) (q : Point (Flt mw ew) 3) (t : Flt mw ew)
    (hp : ∀ i, (r.origin.vec i).isFin = true) (hd : ∀ i, (r.direction.vec i).isFin = true) (hs : T.mapRay r = some s)
    (he : ∀ i, ((r.eval t).vec i).isFin = true) (hq : T.mapPoint (r.eval t) = some q) (i : _root_.Fin 3)
    (f1 : ((s.eval t).vec i).isFin = true) (f2 : (q.vec i).isFin = true) :
    |((s.eval t).vec i).toReal - (q.vec i).toReal| ≤ 11.4 * uRnd mw * rayImageAbs T.m r t i +
      etaRnd mw ew * (9.3 + 5.2 * |t.toReal| +
        1.1 * (|(T.m.data i.castSucc 0).toReal| + |(T.m.data i.castSucc 1).toReal| + |(T.m.data i.castSucc 2).toReal|)) := by
  obtain ⟨s', e, -, h⟩ := C118_map hw T hm r hp hd
  rw [hs] at e
  cases e
  have h1 := (h t).1 i f1
  have h2 := (h t).2 q hq he i f2
  rw [_root_.abs_le] at *
  constructor <;> linarith [h1.1, h1.2, h2.1, h2.2]

/-- Non-vacuity: a translation, a ray and a parameter on `f32`, with the two results equal here. -/
example : let T := Transform.translate (new3 (F32.lit 1) (F32.lit 2) (F32.lit 3) : Vec F32 3)
    let r : Ray F32 := ⟨new3 (F32.lit 4) (F32.lit 5) (F32.lit 6), new3 (F32.lit 1) (F32.lit 0) (F32.lit 1), F32.lit 10⟩
    T.m.AffineF ∧ (∀ i, (r.origin.vec i).isFin = true) ∧ (∀ i, (r.direction.vec i).isFin = true) ∧
    (∀ i, ((r.eval (F32.lit 2)).vec i).isFin = true) ∧
    (T.mapRay r).map (fun s => ((s.eval (F32.lit 2)).vec 0, (s.eval (F32.lit 2)).vec 1, (s.eval (F32.lit 2)).vec 2)) =
      some (F32.lit 7, F32.lit 7, F32.lit 11) ∧
    (T.mapPoint (r.eval (F32.lit 2))).map (fun q => (q.vec 0, q.vec 1, q.vec 2)) = some (F32.lit 7, F32.lit 7, F32.lit 11) :=
  ⟨affineF_of rfl rfl rfl rfl, by decide +kernel, by decide +kernel, by decide +kernel, by decide +kernel, by decide +kernel⟩

end Scarlet
