import Verif.Props.Contracts
import Verif.Props.FloatXform

/-! C138 on floats: which of the laws of the transform constructors hold there under `==`. -/

set_option linter.unusedSectionVars false

namespace Scarlet
open Flt GVec

variable {mw ew : Nat} [FltImpl mw ew] [LawfulFlt mw ew]

namespace Laws

theorem zero_mul_s {p : Flt mw ew} (hp : p.isFin = true) : Same ((Scalar.zero : Flt mw ew) * p) Scalar.zero := by
  rw [Flt.mul_comm']; exact mul_zero_same hp
theorem one_mul_s {p : Flt mw ew} (hp : p.isFin = true) : Same ((Scalar.one : Flt mw ew) * p) p := by
  rw [Flt.mul_comm']; exact mul_one_same hp

variable {a b c d t : Flt mw ew}

theorem sum0 (ha : Same a t) (hb : Same b Scalar.zero) (hc : Same c Scalar.zero) (hd : Same d Scalar.zero) :
    Same ((Scalar.zero : Flt mw ew) + a + b + c + d) t :=
  add_zero_same (add_zero_same (add_zero_same (zero_add_same szero_same ha) hb) hc) hd
theorem sum1 (ha : Same a Scalar.zero) (hb : Same b t) (hc : Same c Scalar.zero) (hd : Same d Scalar.zero) :
    Same ((Scalar.zero : Flt mw ew) + a + b + c + d) t :=
  add_zero_same (add_zero_same (zero_add_same (zero_add_same szero_same ha) hb) hc) hd
theorem sum2 (ha : Same a Scalar.zero) (hb : Same b Scalar.zero) (hc : Same c t) (hd : Same d Scalar.zero) :
    Same ((Scalar.zero : Flt mw ew) + a + b + c + d) t :=
  add_zero_same (zero_add_same (zero_add_same (zero_add_same szero_same ha) hb) hc) hd
theorem sum3 (ha : Same a Scalar.zero) (hb : Same b Scalar.zero) (hc : Same c Scalar.zero) (hd : Same d t) :
    Same ((Scalar.zero : Flt mw ew) + a + b + c + d) t :=
  zero_add_same (zero_add_same (zero_add_same (zero_add_same szero_same ha) hb) hc) hd

variable {p x : Flt mw ew}
theorem two0 (ha : Same a p) (hb : Same b Scalar.zero) (hc : Same c Scalar.zero) (hd : Same d x) (hp : p.isFin = true)
    (hx : x.isFin = true) (ht : t = p + x) : Same ((Scalar.zero : Flt mw ew) + a + b + c + d) t :=
  ht ▸ add_same (add_zero_same (add_zero_same (zero_add_same szero_same ha) hb) hc) hd hp hx
theorem two1 (ha : Same a Scalar.zero) (hb : Same b p) (hc : Same c Scalar.zero) (hd : Same d x) (hp : p.isFin = true)
    (hx : x.isFin = true) (ht : t = p + x) : Same ((Scalar.zero : Flt mw ew) + a + b + c + d) t :=
  ht ▸ add_same (add_zero_same (zero_add_same (zero_add_same szero_same ha) hb) hc) hd hp hx
theorem two2 (ha : Same a Scalar.zero) (hb : Same b Scalar.zero) (hc : Same c p) (hd : Same d x) (hp : p.isFin = true)
    (hx : x.isFin = true) (ht : t = p + x) : Same ((Scalar.zero : Flt mw ew) + a + b + c + d) t :=
  ht ▸ add_same (zero_add_same (zero_add_same (zero_add_same szero_same ha) hb) hc) hd hp hx

/-- Two matrices equal as numbers. -/
def SameM (m n : Mat4 (Flt mw ew)) : Prop := ∀ i j, Same (m.data i j) (n.data i j)

theorem SameM.eq {m n : Mat4 (Flt mw ew)} (h : SameM m n) : Mat4.eq m n = true := meq_iff.2 fun i j => seq_iff.2 (h i j)

theorem mul_identity (m : Mat4 (Flt mw ew)) (h : ∀ i j, (m.data i j).isFin = true) : SameM (m * Mat4.identity) m := by
  intro i j
  rw [Mat4.mul_data, sumLoop_four]
  fin_cases j
  · exact sum0 (mul_one_same (h i 0)) (mul_zero_same (h i 1)) (mul_zero_same (h i 2)) (mul_zero_same (h i 3))
  · exact sum1 (mul_zero_same (h i 0)) (mul_one_same (h i 1)) (mul_zero_same (h i 2)) (mul_zero_same (h i 3))
  · exact sum2 (mul_zero_same (h i 0)) (mul_zero_same (h i 1)) (mul_one_same (h i 2)) (mul_zero_same (h i 3))
  · exact sum3 (mul_zero_same (h i 0)) (mul_zero_same (h i 1)) (mul_zero_same (h i 2)) (mul_one_same (h i 3))

theorem identity_mul (m : Mat4 (Flt mw ew)) (h : ∀ i j, (m.data i j).isFin = true) : SameM (Mat4.identity * m) m := by
  intro i j
  rw [Mat4.mul_data, sumLoop_four]
  fin_cases i
  · exact sum0 (one_mul_s (h 0 j)) (zero_mul_s (h 1 j)) (zero_mul_s (h 2 j)) (zero_mul_s (h 3 j))
  · exact sum1 (zero_mul_s (h 0 j)) (one_mul_s (h 1 j)) (zero_mul_s (h 2 j)) (zero_mul_s (h 3 j))
  · exact sum2 (zero_mul_s (h 0 j)) (zero_mul_s (h 1 j)) (one_mul_s (h 2 j)) (zero_mul_s (h 3 j))
  · exact sum3 (zero_mul_s (h 0 j)) (zero_mul_s (h 1 j)) (zero_mul_s (h 2 j)) (one_mul_s (h 3 j))

/-- The matrix of a translation, `z` and `o` being zero and one. -/
def tm (z o x y w : Flt mw ew) : Mat4 (Flt mw ew) := Mat4.mk4 o z z x z o z y z z o w z z z o
/-- The matrix of a scaling. -/
def sm (z o x y w : Flt mw ew) : Mat4 (Flt mw ew) := Mat4.mk4 x z z z z y z z z z w z z z z o

section
variable {z o : Flt mw ew} (hz : Same z Scalar.zero) (ho : Same o Scalar.one)
include hz
theorem Z1 {p : Flt mw ew} (hp : p.isFin = true) : Same (p * z) Scalar.zero := mul_zero_same' hp hz
theorem Z2 {p : Flt mw ew} (hp : p.isFin = true) : Same (z * p) Scalar.zero := by rw [Flt.mul_comm']; exact Z1 hz hp
omit hz
include ho
theorem O1 {p : Flt mw ew} (hp : p.isFin = true) : Same (p * o) p := by
  have h := mul_fin hp (ho.isFin sone_spec.1)
  rw [← mul_def, ho.toReal, sone_spec.2, mul_one, rndK_toReal (notNaN_of_isFin hp)] at h
  exact ⟨h.1, notNaN_of_isFin hp, h.2⟩
theorem O2 {p : Flt mw ew} (hp : p.isFin = true) : Same (o * p) p := by rw [Flt.mul_comm']; exact O1 ho hp
include hz

theorem tm_mul {x y w p q r : Flt mw ew} (hx : x.isFin = true) (hy : y.isFin = true) (hw : w.isFin = true) (hp : p.isFin = true)
    (hq : q.isFin = true) (hr : r.isFin = true) {a b c : Flt mw ew} (ha : a = p + x) (hb : b = q + y) (hc : c = r + w) :
    SameM (tm z o x y w * tm z o p q r) (tm z o a b c) := by
  have f0 : z.isFin = true := hz.isFin isFin_szero
  have f1 : o.isFin = true := ho.isFin sone_spec.1
  have s := hz.symm
  have oo : Same (o * o) o := O1 ho f1
  intro i j
  rw [Mat4.mul_data, sumLoop_four]
  fin_cases i <;> fin_cases j
  · exact sum0 oo (Z1 hz f0) (Z1 hz f0) (Z1 hz hx)
  · exact sum1 (Z1 hz f1) ((Z2 hz f1).trans s) (Z1 hz f0) (Z1 hz hx)
  · exact sum2 (Z1 hz f1) (Z1 hz f0) ((Z2 hz f1).trans s) (Z1 hz hx)
  · exact two0 (O2 ho hp) (Z2 hz hq) (Z2 hz hr) (O1 ho hx) hp hx ha
  · exact sum0 ((Z2 hz f1).trans s) (Z1 hz f1) (Z1 hz f0) (Z1 hz hy)
  · exact sum1 (Z1 hz f0) oo (Z1 hz f0) (Z1 hz hy)
  · exact sum2 (Z1 hz f0) (Z1 hz f1) ((Z2 hz f1).trans s) (Z1 hz hy)
  · exact two1 (Z2 hz hp) (O2 ho hq) (Z2 hz hr) (O1 ho hy) hq hy hb
  · exact sum0 ((Z2 hz f1).trans s) (Z1 hz f0) (Z1 hz f1) (Z1 hz hw)
  · exact sum1 (Z1 hz f0) ((Z2 hz f1).trans s) (Z1 hz f1) (Z1 hz hw)
  · exact sum2 (Z1 hz f0) (Z1 hz f0) oo (Z1 hz hw)
  · exact two2 (Z2 hz hp) (Z2 hz hq) (O2 ho hr) (O1 ho hw) hr hw hc
  · exact sum0 ((Z2 hz f1).trans s) (Z1 hz f0) (Z1 hz f0) (Z1 hz f1)
  · exact sum1 (Z1 hz f0) ((Z2 hz f1).trans s) (Z1 hz f0) (Z1 hz f1)
  · exact sum2 (Z1 hz f0) (Z1 hz f0) ((Z2 hz f1).trans s) (Z1 hz f1)
  · exact sum3 (Z2 hz hp) (Z2 hz hq) (Z2 hz hr) oo

theorem sm_mul {x y w p q r : Flt mw ew} (hx : x.isFin = true) (hy : y.isFin = true) (hw : w.isFin = true) (hp : p.isFin = true)
    (hq : q.isFin = true) (hr : r.isFin = true) : SameM (sm z o x y w * sm z o p q r) (sm z o (x * p) (y * q) (w * r)) := by
  have f0 : z.isFin = true := hz.isFin isFin_szero
  have f1 : o.isFin = true := ho.isFin sone_spec.1
  have s := hz.symm
  have nn : ∀ {x p : Flt mw ew}, x.isFin = true → p.isFin = true → Same (x * p) (x * p) := fun hx hp => Same.refl (mul_fin hx hp).1
  intro i j
  rw [Mat4.mul_data, sumLoop_four]
  fin_cases i <;> fin_cases j
  · exact sum0 (nn hx hp) (Z1 hz f0) (Z1 hz f0) (Z1 hz f0)
  · exact sum1 (Z1 hz hx) ((Z2 hz hq).trans s) (Z1 hz f0) (Z1 hz f0)
  · exact sum2 (Z1 hz hx) (Z1 hz f0) ((Z2 hz hr).trans s) (Z1 hz f0)
  · exact sum3 (Z1 hz hx) (Z1 hz f0) (Z1 hz f0) ((Z2 hz f1).trans s)
  · exact sum0 ((Z2 hz hp).trans s) (Z1 hz hy) (Z1 hz f0) (Z1 hz f0)
  · exact sum1 (Z1 hz f0) (nn hy hq) (Z1 hz f0) (Z1 hz f0)
  · exact sum2 (Z1 hz f0) (Z1 hz hy) ((Z2 hz hr).trans s) (Z1 hz f0)
  · exact sum3 (Z1 hz f0) (Z1 hz hy) (Z1 hz f0) ((Z2 hz f1).trans s)
  · exact sum0 ((Z2 hz hp).trans s) (Z1 hz f0) (Z1 hz hw) (Z1 hz f0)
  · exact sum1 (Z1 hz f0) ((Z2 hz hq).trans s) (Z1 hz hw) (Z1 hz f0)
  · exact sum2 (Z1 hz f0) (Z1 hz f0) (nn hw hr) (Z1 hz f0)
  · exact sum3 (Z1 hz f0) (Z1 hz f0) (Z1 hz hw) ((Z2 hz f1).trans s)
  · exact sum0 ((Z2 hz hp).trans s) (Z1 hz f0) (Z1 hz f0) (Z1 hz f1)
  · exact sum1 (Z1 hz f0) ((Z2 hz hq).trans s) (Z1 hz f0) (Z1 hz f1)
  · exact sum2 (Z1 hz f0) (Z1 hz f0) ((Z2 hz hr).trans s) (Z1 hz f1)
  · exact sum3 (Z1 hz f0) (Z1 hz f0) (Z1 hz f0) (O1 ho f1)
end

theorem SameM.trans {m n o : Mat4 (Flt mw ew)} (h : SameM m n) (h' : SameM n o) : SameM m o := fun i j => (h i j).trans (h' i j)

theorem tm_same {z o x y w p q r : Flt mw ew} (hz : z.isNaN = false) (ho : o.isNaN = false) (hx : Same x p) (hy : Same y q)
    (hw : Same w r) : SameM (tm z o x y w) (tm z o p q r) := by
  have s0 := Same.refl hz
  have s1 := Same.refl ho
  intro i j
  fin_cases i <;> fin_cases j
  · exact s1
  · exact s0
  · exact s0
  · exact hx
  · exact s0
  · exact s1
  · exact s0
  · exact hy
  · exact s0
  · exact s0
  · exact s1
  · exact hw
  · exact s0
  · exact s0
  · exact s0
  · exact s1

theorem translate_tm (u : Vec (Flt mw ew) 3) : Transform.translate u = ⟨tm Scalar.zero Scalar.one (u.vec 0) (u.vec 1) (u.vec 2),
    tm Scalar.zero Scalar.one (-u.vec 0) (-u.vec 1) (-u.vec 2)⟩ := rfl
theorem scale_sm (u : Vec (Flt mw ew) 3) : (Transform.scale u).m = sm Scalar.zero Scalar.one (u.vec 0) (u.vec 1) (u.vec 2) := rfl

/-- Rounding is symmetric: `-u + -v` and `-(u + v)` are the same number. -/
theorem neg_add_same {u v : Flt mw ew} (hu : u.isFin = true) (hv : v.isFin = true) : Same (-u + -v) (-(v + u)) := by
  have h := add_fin (x := -u) (y := -v) (by rw [isFin_negop]; exact hu) (by rw [isFin_negop]; exact hv)
  have h' := add_fin hv hu
  rw [← add_def] at h h'
  refine ⟨h.1, by rw [isNaN_negop]; exact h'.1, ?_⟩
  rw [h.2, key_negop, h'.2, toReal_negop, toReal_negop, ← rndK_neg]
  congr 1; ring

end Laws
open Laws

/-- C138 on floats: multiplying by the identity changes nothing (numbers compared, all entries finite). -/
theorem C138_float_identity (t : Transform (Flt mw ew)) (h : ∀ i j, (t.m.data i j).isFin = true)
    (h' : ∀ i j, (t.minv.data i j).isFin = true) :
    Transform.eq (t * .identity) t = true ∧ Transform.eq (.identity * t) t = true := by
  unfold Transform.eq
  rw [Bool.and_eq_true, Bool.and_eq_true]
  exact ⟨⟨(mul_identity _ h).eq, (identity_mul _ h').eq⟩, (identity_mul _ h).eq, (mul_identity _ h').eq⟩

/-- C138 on floats: translations add, with one rounding: composing two translations is translating by the float sum, in
the matrix and in the inverse alike; and the inverse of a translation is, bit for bit, the opposite translation. -/
theorem C138_float_translate (u v : Vec (Flt mw ew) 3) (hu : ∀ i, (u.vec i).isFin = true) (hv : ∀ i, (v.vec i).isFin = true) :
    Transform.eq (.translate u * .translate v) (.translate (v + u)) = true ∧
    (Transform.translate u).inverse = .translate (-u) := by
  have fn : ∀ {x : Flt mw ew}, x.isFin = true → (-x).isFin = true := fun h => by rw [isFin_negop]; exact h
  have e : (Transform.translate u * Transform.translate v : Transform (Flt mw ew)) =
    ⟨(Transform.translate u).m * (Transform.translate v).m, (Transform.translate v).minv * (Transform.translate u).minv⟩ := rfl
  constructor
  · unfold Transform.eq
    rw [Bool.and_eq_true, e, translate_tm, translate_tm, translate_tm]
    constructor
    · exact (tm_mul szero_same sone_same (hu 0) (hu 1) (hu 2) (hv 0) (hv 1) (hv 2) rfl rfl rfl).eq
    · exact ((tm_mul szero_same sone_same (fn (hv 0)) (fn (hv 1)) (fn (hv 2)) (fn (hu 0)) (fn (hu 1)) (fn (hu 2)) rfl rfl rfl).trans
        (tm_same (notNaN_of_isFin isFin_szero) (notNaN_of_isFin sone_spec.1) (neg_add_same (hu 0) (hv 0)) (neg_add_same (hu 1) (hv 1))
          (neg_add_same (hu 2) (hv 2)))).eq
  · have n : ∀ i, - -u.vec i = u.vec i := fun i => Flt.neg_neg _
    have e' : (-u).vec = fun i => -u.vec i := rfl
    rw [translate_tm, translate_tm, e']
    unfold Transform.inverse
    dsimp only
    rw [n, n, n]

/-- C138 on floats: scalings multiply in the matrix, with one rounding. -/
theorem C138_float_scale (u v : Vec (Flt mw ew) 3) (hu : ∀ i, (u.vec i).isFin = true) (hv : ∀ i, (v.vec i).isFin = true) :
    Mat4.eq (Transform.scale u * Transform.scale v).m (Transform.scale (u * v)).m = true := by
  have e : (Transform.scale u * Transform.scale v : Transform (Flt mw ew)).m = (Transform.scale u).m * (Transform.scale v).m := rfl
  rw [e, scale_sm, scale_sm, scale_sm]
  exact (sm_mul szero_same sone_same (hu 0) (hu 1) (hu 2) (hv 0) (hv 1) (hv 2)).eq

/-- C138 on floats: the inverses do not: scaling by 3 and by 7 is not quite scaling by 21, because `1/7 * 1/3` and `1/21`
round differently. -/
theorem C138_float_scale_refuted : ¬ ∀ u v : Vec F32 3, (∀ i, (u.vec i).isFin = true) → (∀ i, (v.vec i).isFin = true) →
    Transform.eq (Transform.scale u * Transform.scale v) (Transform.scale (u * v)) = true := by
  intro h
  have := h (new3 (F32.lit 3) (F32.lit 3) (F32.lit 3)) (new3 (F32.lit 7) (F32.lit 7) (F32.lit 7)) (by decide +kernel) (by decide +kernel)
  revert this
  decide +kernel

/-- The hypotheses of the float laws hold of, for example, translations by 0.1 and 0.2 (the sum is rounded). -/
example : Transform.eq (.translate (new3 (F64.lit 1 / F64.lit 10) (F64.lit 7) (F64.lit 0)) * .translate (new3 (F64.lit 1 / F64.lit 5) (F64.lit 8) (F64.lit 0)))
    (.translate (new3 (F64.lit 1 / F64.lit 5 + F64.lit 1 / F64.lit 10) (F64.lit 15) (F64.lit 0)) : Transform F64) = true := by decide +kernel

end Scarlet
