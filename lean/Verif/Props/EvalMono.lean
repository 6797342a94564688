import Verif.Props.FloatMapBox

/-! C167: a ray on floats never turns back, and a box that contains two of its points contains the points between them. -/

set_option linter.unusedSectionVars false

namespace Scarlet
open Flt GVec

section flt
variable {mw ew : Nat} [FltImpl mw ew] [LawfulFlt mw ew]

theorem mul_up {d t t' : Flt mw ew} (hd : d.isFin = true) (ht : t.isFin = true) (ht' : t'.isFin = true) (h0 : 0 ≤ d.toReal)
    (h : t.toReal ≤ t'.toReal) : FLe (d * t) (d * t') := by
  have a := mul_fin hd ht
  have b := mul_fin hd ht'
  rw [← mul_def] at a b
  exact ⟨a.1, b.1, by rw [a.2, b.2]; exact rndK_mono mw ew (mul_le_mul_of_nonneg_left h h0)⟩

theorem mul_down {d t t' : Flt mw ew} (hd : d.isFin = true) (ht : t.isFin = true) (ht' : t'.isFin = true) (h0 : d.toReal ≤ 0)
    (h : t.toReal ≤ t'.toReal) : FLe (d * t') (d * t) := by
  have a := mul_fin hd ht
  have b := mul_fin hd ht'
  rw [← mul_def] at a b
  exact ⟨b.1, a.1, by rw [a.2, b.2]; exact rndK_mono mw ew (mul_le_mul_of_nonpos_left h h0)⟩

theorem mul_self_fle {d t : Flt mw ew} (hd : d.isFin = true) (ht : t.isFin = true) : FLe (d * t) (d * t) :=
  ⟨(mul_fin hd ht).1, (mul_fin hd ht).1, le_rfl⟩

variable {ray : Ray (Flt mw ew)}

theorem eval_dir (ho : ∀ i, (ray.origin.vec i).isFin = true) (hd : ∀ i, (ray.direction.vec i).isFin = true) {t t' : Flt mw ew}
    (ht : t.isFin = true) (ht' : t'.isFin = true) (h : t.toReal ≤ t'.toReal) (i : _root_.Fin 3) :
    (0 ≤ (ray.direction.vec i).toReal → FLe ((ray.eval t).vec i) ((ray.eval t').vec i)) ∧
    ((ray.direction.vec i).toReal ≤ 0 → FLe ((ray.eval t').vec i) ((ray.eval t).vec i)) :=
  ⟨fun h0 => add_fin_mono (ho i) (mul_up (hd i) ht ht' h0 h), fun h0 => add_fin_mono (ho i) (mul_down (hd i) ht ht' h0 h)⟩

/-- **C167**: along an axis the ray runs up, it never comes down, and the other way round; compared as floats, also when coordinates
overflow. -/
theorem C167_forward (ho : ∀ i, (ray.origin.vec i).isFin = true) (hd : ∀ i, (ray.direction.vec i).isFin = true) {t t' : Flt mw ew}
    (ht : t.isFin = true) (ht' : t'.isFin = true) (h : Scalar.le t t' = true) (i : _root_.Fin 3) :
    (Scalar.ge (ray.direction.vec i) Scalar.zero = true → Scalar.le ((ray.eval t).vec i) ((ray.eval t').vec i) = true) ∧
    (Scalar.le (ray.direction.vec i) Scalar.zero = true → Scalar.ge ((ray.eval t).vec i) ((ray.eval t').vec i) = true) := by
  have e := eval_dir ho hd ht ht' (toReal_le_iff.2 (sle_iff.1 h).2.2) i
  constructor
  · intro h0
    have := (sge_iff.1 h0).2.2
    rw [key_szero] at this
    exact sle_iff.2 (e.1 (toReal_nonneg_iff.2 this))
  · intro h0
    have := (sle_iff.1 h0).2.2
    have f := e.2 (by rw [← toReal_szero (mw := mw) (ew := ew)]; exact toReal_le_iff.2 this)
    exact sge_iff.2 ⟨f.2.1, f.1, f.2.2⟩

/-- **C167**: a box that contains the points of the ray at two parameters contains those at all parameters between, without tolerance. -/
theorem C167_convex (ho : ∀ i, (ray.origin.vec i).isFin = true) (hd : ∀ i, (ray.direction.vec i).isFin = true) {t0 t t1 : Flt mw ew}
    (h0 : t0.isFin = true) (h1 : t1.isFin = true) (ha : Scalar.le t0 t = true) (hb : Scalar.le t t1 = true) (b : Bbox (Flt mw ew))
    (i0 : b.inside (ray.eval t0) = true) (i1 : b.inside (ray.eval t1) = true) : b.inside (ray.eval t) = true := by
  have a := sle_iff.1 ha
  have c := sle_iff.1 hb
  have ht : t.isFin = true := by
    have k0 := isFin_iff_key.1 h0
    have k1 := isFin_iff_key.1 h1
    exact isFin_iff_key.2 ⟨by omega, by omega⟩
  rw [Bbox.insideF_iff] at i0 i1 ⊢
  intro i
  have e0 := eval_dir ho hd h0 ht (toReal_le_iff.2 a.2.2) i
  have e1 := eval_dir ho hd ht h1 (toReal_le_iff.2 c.2.2) i
  rcases le_total 0 (ray.direction.vec i).toReal with s | s
  · exact ⟨(i0 i).1.trans (e0.1 s), (e1.1 s).trans (i1 i).2⟩
  · exact ⟨(i1 i).1.trans (e1.2 s), (e0.2 s).trans (i0 i).2⟩

/-- **C167**: in particular the box of two points of the ray contains the points between them. -/
theorem C167_between (ho : ∀ i, (ray.origin.vec i).isFin = true) (hd : ∀ i, (ray.direction.vec i).isFin = true) {t0 t t1 : Flt mw ew}
    (h0 : t0.isFin = true) (h1 : t1.isFin = true) (ha : Scalar.le t0 t = true) (hb : Scalar.le t t1 = true) :
    (Bbox.new (ray.eval t0) (ray.eval t1)).inside (ray.eval t) = true := by
  have n0 : ∀ i, ((ray.eval t0).vec i).isNaN = false := fun i => (add_fin_mono (ho i) (mul_self_fle (hd i) h0)).1
  have n1 : ∀ i, ((ray.eval t1).vec i).isNaN = false := fun i => (add_fin_mono (ho i) (mul_self_fle (hd i) h1)).1
  have c := C44_contains (ray.eval t0) (ray.eval t1) n0 n1
  exact C167_convex ho hd h0 h1 ha hb _ c.2.1 c.2.2

/-- **C167**: at 0 the ray is at its origin, exactly. -/
theorem C167_start (ho : ∀ i, (ray.origin.vec i).isFin = true) (hd : ∀ i, (ray.direction.vec i).isFin = true) (i : _root_.Fin 3) :
    Scalar.eq ((ray.eval Scalar.zero).vec i) (ray.origin.vec i) = true := by
  have m := mul_fin (hd i) (isFin_szero (mw := mw) (ew := ew))
  rw [← mul_def, toReal_szero, mul_zero, rndK_zero] at m
  have s := add_fin (ho i) (isFin_of_key_zero m.2)
  rw [← add_def, toReal_eq_zero_iff.2 m.2, add_zero, rndK_toReal (notNaN_of_isFin (ho i))] at s
  exact seq_iff.2 ⟨s.1, notNaN_of_isFin (ho i), s.2⟩

end flt

/-- a ray far out on the x axis, along it -/
def stillRay : Ray F32 :=
  ⟨GVec.new3 (F32.lit (2 ^ 24)) Scalar.zero Scalar.zero, GVec.new3 Scalar.one Scalar.zero Scalar.zero, GFloat.infinity⟩

/-- **C167**, what cannot be added on `f32`: the ray can stand still, and at an infinite parameter (which `tmax` may be) a
coordinate along which it does not move is NaN, so no box contains the point. -/
theorem C167_refuted :
    Scalar.lt (Scalar.zero : F32) Scalar.one = true ∧
    Scalar.eq ((stillRay.eval Scalar.zero).vec 0) ((stillRay.eval Scalar.one).vec 0) = true ∧
    ((stillRay.eval stillRay.tmax).vec 1).isNaN = true := by decide +kernel

/-- the hypotheses are met by the ray above, and the box of two of its points has more than one point -/
example : (Bbox.new (stillRay.eval Scalar.zero) (stillRay.eval (F32.lit 5))).inside (stillRay.eval (F32.lit 3)) = true :=
  C167_between (by decide +kernel) (by decide +kernel) (by decide +kernel) (by decide +kernel) (by decide +kernel) (by decide +kernel)

end Scarlet
