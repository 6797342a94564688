import Verif.Props.FloatPersp
import Verif.Props.FloatInverse

/-! C111: the inverse that `perspective` stores, on floats. -/

set_option linter.unusedSectionVars false

namespace Scarlet
open Flt GVec
variable {mw ew : Nat} [FltImpl mw ew] [LawfulFlt mw ew]

namespace Flt

/-- numerically zero -/
abbrev Z (x : Flt mw ew) : Prop := Same x (Scalar.zero : Flt mw ew)

theorem z_fin {x : Flt mw ew} (h : Z x) : x.isFin = true := h.isFin isFin_szero
theorem z_neg {x : Flt mw ew} (h : Z x) : Z (-x) := same_zero' (by rw [toReal_negop, h.toReal, toReal_szero, neg_zero])
theorem z_add {x y : Flt mw ew} (hx : Z x) (hy : Z y) : Z (x + y) := add_zero_same hx hy
theorem z_sub {x y : Flt mw ew} (hx : Z x) (hy : Z y) : Z (x - y) := by rw [Flt.sub_eq_add_neg]; exact z_add hx (z_neg hy)
theorem z_mul_l {x y : Flt mw ew} (hx : Z x) (hy : y.isFin = true) : Z (x * y) := by rw [Flt.mul_comm']; exact mul_zero_same' hy hx
theorem z_mul_r {x y : Flt mw ew} (hx : x.isFin = true) (hy : Z y) : Z (x * y) := mul_zero_same' hx hy

theorem same_sub_z {x z y : Flt mw ew} (hx : Same x y) (hz : Z z) : Same (x - z) y := by
  rw [Flt.sub_eq_add_neg]; exact add_zero_same hx (z_neg hz)
theorem same_z_sub {x z y : Flt mw ew} (hz : Z z) (hx : Same (-x) y) : Same (z - x) y := by
  rw [Flt.sub_eq_add_neg]; exact zero_add_same hz hx
theorem Same.neg {x y : Flt mw ew} (h : Same x y) : Same (-x) (-y) :=
  ⟨by rw [neg_def, isNaN_neg]; exact h.1, by rw [neg_def, isNaN_neg]; exact h.2.1, by rw [key_negop, key_negop, h.2.2]⟩
theorem mul_same {x x' y y' : Flt mw ew} (hx : Same x x') (hy : Same y y') (fx : x'.isFin = true) (fy : y'.isFin = true) :
    Same (x * y) (x' * y') := by
  have a := mul_fin (hx.isFin fx) (hy.isFin fy)
  have b := mul_fin fx fy
  rw [← mul_def] at a b
  exact ⟨a.1, b.1, by rw [a.2, b.2, hx.toReal, hy.toReal]⟩
theorem fin_neg {x : Flt mw ew} (h : x.isFin = true) : (-x).isFin = true := by rw [isFin_negop]; exact h
theorem fin_sub_z {x z : Flt mw ew} (hx : x.isFin = true) (hz : Z z) : (x - z).isFin = true :=
  (same_sub_z (Same.refl (notNaN_of_isFin hx)) hz).isFin hx
theorem fin_z_sub {x z : Flt mw ew} (hz : Z z) (hx : x.isFin = true) : (z - x).isFin = true :=
  (same_z_sub hz (Same.refl (notNaN_of_isFin (fin_neg hx)))).isFin (fin_neg hx)
theorem fin_mul_one {x : Flt mw ew} (hx : x.isFin = true) : (x * Scalar.one).isFin = true := (mul_one_same hx).isFin hx
theorem z_zero : Z (Scalar.zero : Flt mw ew) := szero_same
theorem fin_one : (Scalar.one : Flt mw ew).isFin = true := sone_spec.1

end Flt

/-- the shape of the matrix that `perspective` builds -/
def pmat (e a b : Flt mw ew) : Mat4 (Flt mw ew) :=
  Mat4.mk4 (-e) Scalar.zero Scalar.zero Scalar.zero Scalar.zero (-e) Scalar.zero Scalar.zero
    Scalar.zero Scalar.zero a b Scalar.zero Scalar.zero Scalar.one Scalar.zero

/-- closes goals "numerically zero" and "finite" about sums and products with zeros -/
syntax "zsolve" : tactic
macro_rules
  | `(tactic| zsolve) => `(tactic| with_reducible first
      | assumption
      | exact Flt.z_zero
      | exact Flt.fin_one
      | (refine Flt.z_add ?_ ?_ <;> zsolve)
      | (refine Flt.z_sub ?_ ?_ <;> zsolve)
      | (refine Flt.z_mul_l ?_ ?_ <;> zsolve)
      | (refine Flt.z_mul_r ?_ ?_ <;> zsolve)
      | (refine Flt.fin_neg ?_; zsolve)
      | (refine Flt.fin_sub_z ?_ ?_ <;> zsolve)
      | (refine Flt.fin_z_sub ?_ ?_ <;> zsolve)
      | (refine Flt.fin_mul_one ?_; zsolve)
      | (refine Flt.z_fin ?_; zsolve))

section
variable {e a b : Flt mw ew}

theorem pmat_zero (he : e.isFin = true) (ha : a.isFin = true) (hb : b.isFin = true) (hea : (-e * a).isFin = true)
    (heb : (-e * b).isFin = true) (i j : _root_.Fin 4)
    (h : (i, j) ∉ ([(0, 0), (1, 1), (2, 3), (3, 2), (3, 3)] : List (_root_.Fin 4 × _root_.Fin 4))) :
    Z (minorT (pmat e a b).data i j) := by
  fin_cases i <;> fin_cases j <;> first | exact absurd (by decide) h | skip
  · change Z (Scalar.zero * (a * Scalar.zero - b * Scalar.one) - Scalar.zero * (Scalar.zero * Scalar.zero - b * Scalar.zero) +
      Scalar.zero * (Scalar.zero * Scalar.one - a * Scalar.zero))
    zsolve
  · change Z (Scalar.zero * (Scalar.zero * Scalar.zero - b * Scalar.zero) - -e * (Scalar.zero * Scalar.zero - b * Scalar.zero) +
      Scalar.zero * (Scalar.zero * Scalar.zero - Scalar.zero * Scalar.zero))
    zsolve
  · change Z (Scalar.zero * (Scalar.zero * Scalar.one - a * Scalar.zero) - -e * (Scalar.zero * Scalar.one - a * Scalar.zero) +
      Scalar.zero * (Scalar.zero * Scalar.zero - Scalar.zero * Scalar.zero))
    zsolve
  · change Z (Scalar.zero * (a * Scalar.zero - b * Scalar.one) - Scalar.zero * (Scalar.zero * Scalar.zero - b * Scalar.zero) +
      Scalar.zero * (Scalar.zero * Scalar.one - a * Scalar.zero))
    zsolve
  · change Z (-e * (Scalar.zero * Scalar.zero - b * Scalar.zero) - Scalar.zero * (Scalar.zero * Scalar.zero - b * Scalar.zero) +
      Scalar.zero * (Scalar.zero * Scalar.zero - Scalar.zero * Scalar.zero))
    zsolve
  · change Z (-e * (Scalar.zero * Scalar.one - a * Scalar.zero) - Scalar.zero * (Scalar.zero * Scalar.one - a * Scalar.zero) +
      Scalar.zero * (Scalar.zero * Scalar.zero - Scalar.zero * Scalar.zero))
    zsolve
  · change Z (Scalar.zero * (Scalar.zero * Scalar.zero - Scalar.zero * Scalar.one) - Scalar.zero * (-e * Scalar.zero - Scalar.zero * Scalar.zero) +
      Scalar.zero * (-e * Scalar.one - Scalar.zero * Scalar.zero))
    zsolve
  · change Z (-e * (Scalar.zero * Scalar.zero - Scalar.zero * Scalar.one) - Scalar.zero * (Scalar.zero * Scalar.zero - Scalar.zero * Scalar.zero) +
      Scalar.zero * (Scalar.zero * Scalar.one - Scalar.zero * Scalar.zero))
    zsolve
  · change Z (-e * (-e * Scalar.zero - Scalar.zero * Scalar.zero) - Scalar.zero * (Scalar.zero * Scalar.zero - Scalar.zero * Scalar.zero) +
      Scalar.zero * (Scalar.zero * Scalar.zero - -e * Scalar.zero))
    zsolve
  · change Z (Scalar.zero * (Scalar.zero * b - Scalar.zero * a) - Scalar.zero * (-e * b - Scalar.zero * Scalar.zero) +
      Scalar.zero * (-e * a - Scalar.zero * Scalar.zero))
    zsolve
  · change Z (-e * (Scalar.zero * b - Scalar.zero * a) - Scalar.zero * (Scalar.zero * b - Scalar.zero * Scalar.zero) +
      Scalar.zero * (Scalar.zero * a - Scalar.zero * Scalar.zero))
    zsolve

theorem pmat_minor (he : e.isFin = true) (ha : a.isFin = true) (hb : b.isFin = true) (hea : (-e * a).isFin = true)
    (heb : (-e * b).isFin = true) :
    Same (minorT (pmat e a b).data 0 0) (-e * -b) ∧ Same (minorT (pmat e a b).data 1 1) (-e * -b) ∧
    Same (minorT (pmat e a b).data 2 3) (-e * -e) ∧ Same (minorT (pmat e a b).data 3 2) (-e * (-e * b)) ∧
    Same (minorT (pmat e a b).data 3 3) (-e * (-e * a)) := by
  have fe := fin_neg he
  have fb := fin_neg hb
  have rf : ∀ {x : Flt mw ew}, x.isFin = true → Same x x := fun h => Same.refl (notNaN_of_isFin h)
  refine ⟨?_, ?_, ?_, ?_, ?_⟩
  · change Same (-e * (a * Scalar.zero - b * Scalar.one) - Scalar.zero * (Scalar.zero * Scalar.zero - b * Scalar.zero) +
      Scalar.zero * (Scalar.zero * Scalar.one - a * Scalar.zero)) _
    exact add_zero_same (same_sub_z (mul_same (rf fe) (same_z_sub (by zsolve) (mul_one_same hb).neg) fe fb) (by zsolve)) (by zsolve)
  · change Same (-e * (a * Scalar.zero - b * Scalar.one) - Scalar.zero * (Scalar.zero * Scalar.zero - b * Scalar.zero) +
      Scalar.zero * (Scalar.zero * Scalar.one - a * Scalar.zero)) _
    exact add_zero_same (same_sub_z (mul_same (rf fe) (same_z_sub (by zsolve) (mul_one_same hb).neg) fe fb) (by zsolve)) (by zsolve)
  · change Same (-e * (-e * Scalar.one - Scalar.zero * Scalar.zero) - Scalar.zero * (Scalar.zero * Scalar.one - Scalar.zero * Scalar.zero) +
      Scalar.zero * (Scalar.zero * Scalar.zero - -e * Scalar.zero)) _
    exact add_zero_same (same_sub_z (mul_same (rf fe) (same_sub_z (mul_one_same fe) (by zsolve)) fe fe) (by zsolve)) (by zsolve)
  · change Same (-e * (-e * b - Scalar.zero * Scalar.zero) - Scalar.zero * (Scalar.zero * b - Scalar.zero * Scalar.zero) +
      Scalar.zero * (Scalar.zero * Scalar.zero - -e * Scalar.zero)) _
    exact add_zero_same (same_sub_z (mul_same (rf fe) (same_sub_z (rf heb) (by zsolve)) fe heb) (by zsolve)) (by zsolve)
  · change Same (-e * (-e * a - Scalar.zero * Scalar.zero) - Scalar.zero * (Scalar.zero * a - Scalar.zero * Scalar.zero) +
      Scalar.zero * (Scalar.zero * Scalar.zero - -e * Scalar.zero)) _
    exact add_zero_same (same_sub_z (mul_same (rf fe) (same_sub_z (rf hea) (by zsolve)) fe hea) (by zsolve)) (by zsolve)

theorem pmat_det (he : e.isFin = true) (ha : a.isFin = true) (hb : b.isFin = true) (hea : (-e * a).isFin = true)
    (heb : (-e * b).isFin = true) (hebb : (-e * -b).isFin = true) : Same (det4 (pmat e a b).data) (-e * (-e * -b)) := by
  obtain ⟨m0, -, -, -, -⟩ := pmat_minor he ha hb hea heb
  have z1 := pmat_zero he ha hb hea heb 0 1 (by decide)
  have z2 := pmat_zero he ha hb hea heb 0 2 (by decide)
  have z3 := pmat_zero he ha hb hea heb 0 3 (by decide)
  have fe := fin_neg he
  change Same (-e * minorT (pmat e a b).data 0 0 - Scalar.zero * minorT (pmat e a b).data 0 1 +
    Scalar.zero * minorT (pmat e a b).data 0 2 - Scalar.zero * minorT (pmat e a b).data 0 3) _
  generalize minorT (pmat e a b).data 0 0 = x0 at *
  generalize minorT (pmat e a b).data 0 1 = x1 at *
  generalize minorT (pmat e a b).data 0 2 = x2 at *
  generalize minorT (pmat e a b).data 0 3 = x3 at *
  exact same_sub_z (add_zero_same (same_sub_z (mul_same (Same.refl (notNaN_of_isFin fe)) m0 fe hebb) (by zsolve)) (by zsolve)) (by zsolve)

/-- a relation to a float and a relation of that float to a real -/
theorem Rel.trans (hm : 9 ≤ mw) {x : Flt mw ew} {X Y k l m : ℝ} (h : Rel x X k) (h' : |X - Y| ≤ l * uRnd mw * |Y|) (hk : 0 ≤ k) (hl : 0 ≤ l)
    (hmm : k + l + k * l / 1024 ≤ m) : Rel x Y m := by
  have u0 := uRnd_pos (mw := mw)
  have u1 := uRnd_small hm
  refine ⟨h.1, ?_⟩
  have a := abs_sub_le x.toReal X Y
  have b : |X| ≤ (1 + l * uRnd mw) * |Y| := by
    have := abs_add_le (X - Y) Y; rw [sub_add_cancel] at this; linarith
  have c := mul_le_mul_of_nonneg_left b (mul_nonneg hk u0.le)
  have d : k * uRnd mw * ((1 + l * uRnd mw) * |Y|) ≤ (k + k * l / 1024) * uRnd mw * |Y| := by
    have := mul_le_mul_of_nonneg_left u1 (show 0 ≤ k * l * (uRnd mw * |Y|) by positivity)
    linarith
  have e := mul_le_mul_of_nonneg_right hmm (mul_nonneg u0.le (abs_nonneg Y))
  linarith [h.2]

theorem rel_low (hm : 9 ≤ mw) {x : Flt mw ew} {X k : ℝ} (h : Rel x X k) (hk : 0 ≤ k) (hk' : k ≤ 16) : 98 / 100 * |X| ≤ |x.toReal| := by
  have u1 := uRnd_small hm
  have a := abs_sub_abs_le_abs_sub X x.toReal
  rw [abs_sub_comm] at a
  have b := h.2
  have : k * uRnd mw ≤ 16 * (1 / 1024) := mul_le_mul hk' u1 uRnd_pos.le (by norm_num)
  have := mul_le_mul_of_nonneg_right this (abs_nonneg X)
  linarith [abs_nonneg X]

theorem rel_high (hm : 9 ≤ mw) {x : Flt mw ew} {X k : ℝ} (h : Rel x X k) (hk : 0 ≤ k) (hk' : k ≤ 16) : |x.toReal| ≤ 102 / 100 * |X| := by
  have u1 := uRnd_small hm
  have a := h.abs_le
  have : k * uRnd mw ≤ 16 * (1 / 1024) := mul_le_mul hk' u1 uRnd_pos.le (by norm_num)
  have := mul_le_mul_of_nonneg_right this (abs_nonneg X)
  linarith [abs_nonneg X]

/-- product of two known numbers whose exact product is twice a normal number -/
theorem rel_mul_big (hm : 9 ≤ mw) {x y : Flt mw ew} {X Y k l m : ℝ} (hx : Rel x X k) (hy : Rel y Y l) (hf : (x * y).isFin = true)
    (hb : 2 * etaRnd mw ew ≤ uRnd mw * |X * Y|) (hk : 0 ≤ k) (hl : 0 ≤ l) (hk' : k ≤ 16) (hl' : l ≤ 16)
    (h : (k + l + k * l / 1024) + 1 + (k + l + k * l / 1024) / 1024 ≤ m) : Rel (x * y) (X * Y) m := by
  refine rel_mul hm hx hy hf (Or.inr ?_) hk hl h
  have a := rel_low hm hx hk hk'
  have b := rel_low hm hy hl hl'
  have c : (98 / 100 * |X|) * (98 / 100 * |Y|) ≤ |x.toReal| * |y.toReal| := mul_le_mul a b (by positivity) (abs_nonneg _)
  rw [abs_mul] at hb ⊢
  have := mul_le_mul_of_nonneg_left c (uRnd_pos (mw := mw)).le
  have : 0 ≤ uRnd mw * (|X| * |Y|) := by have := uRnd_pos (mw := mw); positivity
  linarith

theorem rel_recip_big (hm : 9 ≤ mw) {y : Flt mw ew} {Y l m : ℝ} (hy : Rel y Y l) (hf : ((Scalar.one : Flt mw ew) / y).isFin = true)
    (hb : 2 * etaRnd mw ew * |Y| ≤ uRnd mw) (hY : Y ≠ 0) (hl : 0 ≤ l) (hl' : l ≤ 8)
    (h : l * 1.01 + 1 + l * 1.01 / 1024 ≤ m) : Rel ((Scalar.one : Flt mw ew) / y) (1 / Y) m := by
  have ho := sone_spec (mw := mw) (ew := ew)
  have y0 := rel_ne_zero hm hy hY hl hl'
  refine rel_div hm (k := 0) ((rel_exact ho.1).eq ho.2) hy hf (Or.inr ?_) le_rfl hl hY hl' (by linarith)
  have a := rel_high hm hy hl (hl'.trans (by norm_num))
  have yp := abs_pos.2 y0
  rw [ho.2, abs_div, abs_one, mul_one_div, le_div_iff₀ yp]
  have e0 := etaRnd_pos (mw := mw) (ew := ew)
  have := mul_le_mul_of_nonneg_left a e0.le
  have : 0 ≤ etaRnd mw ew * |Y| := by positivity
  linarith

/-- no underflow inside the inverse, in terms of the three entries -/
structure PNormal (mw ew : Nat) (c e a b : ℝ) : Prop where
  eb : c * etaRnd mw ew ≤ uRnd mw * |e * b|
  ea : c * etaRnd mw ew ≤ uRnd mw * |e * a|
  ee : c * etaRnd mw ew ≤ uRnd mw * |e * e|
  eeb : c * etaRnd mw ew ≤ uRnd mw * |e * (e * b)|
  eea : c * etaRnd mw ew ≤ uRnd mw * |e * (e * a)|
  det : c * etaRnd mw ew * |e * (e * b)| ≤ uRnd mw
  ri : c * etaRnd mw ew * |e| ≤ uRnd mw
  rb : c * etaRnd mw ew * |b| ≤ uRnd mw
  rab : c * etaRnd mw ew * |b| ≤ uRnd mw * |a|

theorem pmat_fin (hf : ∀ i j, ((pmat e a b).inverse.data i j).isFin = true) (hz : ∃ i j, ((pmat e a b).inverse.data i j).toReal ≠ 0) :
    (Scalar.one / det4 (pmat e a b).data).isFin = true ∧ (det4 (pmat e a b).data).isFin = true ∧
    (∀ i j, (minorT (pmat e a b).data i j).isFin = true) := by
  have hv : (Scalar.one / det4 (pmat e a b).data : Flt mw ew).isFin = true := by
    have := hf 0 0
    rw [inverse_form] at this
    exact (isFin_of_mul this).2
  obtain ⟨-, nn, nz⟩ := isFin_of_div hv
  refine ⟨hv, ?_, fun i j => ?_⟩
  · rcases isFin_or_isInf nn with h | h
    · exact h
    · exfalso
      have z := one_div_inf nn h
      obtain ⟨i, j, hij⟩ := hz
      have hfij := hf i j
      rw [inverse_form] at hij hfij
      have := mul_zero_same' (isFin_of_mul hfij).1 (same_zero' z)
      exact hij (this.toReal.trans toReal_szero)
  · have := hf j i
    rw [inverse_form] at this
    have := (isFin_of_mul this).1
    rwa [signT_fin] at this

theorem pmat_inv (hm : 9 ≤ mw) (hw : mw + 3 ≤ 2 ^ (ew - 1)) (N : PNormal mw ew 2 e.toReal a.toReal b.toReal)
    (hf : ∀ i j, ((pmat e a b).inverse.data i j).isFin = true) (hz : ∃ i j, ((pmat e a b).inverse.data i j).toReal ≠ 0) :
    Rel ((pmat e a b).inverse.data 0 0) (-(1 / e.toReal)) 5.2 ∧ Rel ((pmat e a b).inverse.data 1 1) (-(1 / e.toReal)) 5.2 ∧
    Rel ((pmat e a b).inverse.data 2 3) 1 6.2 ∧ Rel ((pmat e a b).inverse.data 3 2) (1 / b.toReal) 5.2 ∧
    Rel ((pmat e a b).inverse.data 3 3) (-(a.toReal / b.toReal)) 6.2 ∧
    (∀ i j, (i, j) ∉ ([(0, 0), (1, 1), (2, 3), (3, 2), (3, 3)] : List (_root_.Fin 4 × _root_.Fin 4)) →
      Z ((pmat e a b).inverse.data i j)) := by
  have u0 := uRnd_pos (mw := mw)
  have u1 := uRnd_small hm
  have e0 := etaRnd_pos (mw := mw) (ew := ew)
  obtain ⟨fv, fd, fm⟩ := pmat_fin hf hz
  -- finiteness of the parts
  have g33 := fm 3 3
  have g00 := fm 0 0
  have g32 := fm 3 2
  change (-e * (-e * a - Scalar.zero * Scalar.zero) - Scalar.zero * (Scalar.zero * a - Scalar.zero * Scalar.zero) +
    Scalar.zero * (Scalar.zero * Scalar.zero - -e * Scalar.zero)).isFin = true at g33
  change (-e * (-e * b - Scalar.zero * Scalar.zero) - Scalar.zero * (Scalar.zero * b - Scalar.zero * Scalar.zero) +
    Scalar.zero * (Scalar.zero * Scalar.zero - -e * Scalar.zero)).isFin = true at g32
  have fea : (-e * a).isFin = true := (isFin_of_sub (isFin_of_mul (isFin_of_sub (isFin_of_add g33).1).1).2).1
  have feb : (-e * b).isFin = true := (isFin_of_sub (isFin_of_mul (isFin_of_sub (isFin_of_add g32).1).1).2).1
  have fe' := (isFin_of_mul fea).1
  have fe : e.isFin = true := by rwa [isFin_negop] at fe'
  have fa := (isFin_of_mul fea).2
  have fb := (isFin_of_mul feb).2
  obtain ⟨m00, m11, m23, m32, m33⟩ := pmat_minor fe fa fb fea feb
  have f00 : (-e * -b).isFin = true := m00.symm.isFin (fm 0 0)
  have f23 : (-e * -e).isFin = true := m23.symm.isFin (fm 2 3)
  have f32 : (-e * (-e * b)).isFin = true := m32.symm.isFin (fm 3 2)
  have f33 : (-e * (-e * a)).isFin = true := m33.symm.isFin (fm 3 3)
  have sd := pmat_det fe fa fb fea feb f00
  have fD : (-e * (-e * -b)).isFin = true := sd.symm.isFin fd
  have re : Rel (-e) (-e.toReal) 0 := (rel_exact fe).neg
  have rb : Rel b b.toReal 0 := rel_exact fb
  have ra : Rel a a.toReal 0 := rel_exact fa
  have nm : ∀ x y : ℝ, |-x * y| = |x * y| := fun x y => by rw [neg_mul, abs_neg]
  have nn : ∀ x y : ℝ, |-x * -y| = |x * y| := fun x y => by rw [neg_mul_neg]
  generalize hE : e.toReal = E at *
  generalize hA : a.toReal = A at *
  generalize hB : b.toReal = B at *
  have E0 : E ≠ 0 := by rintro rfl; have := N.ee; simp at this; linarith
  have B0 : B ≠ 0 := by rintro rfl; have := N.eb; simp at this; linarith
  have r00 : Rel (-e * -b) (-E * -B) 1 := rel_mul_big hm re rb.neg f00 (by rw [nn]; exact N.eb) le_rfl le_rfl (by norm_num) (by norm_num) (by norm_num)
  have r23 : Rel (-e * -e) (-E * -E) 1 := rel_mul_big hm re re f23 (by rw [nn]; exact N.ee) le_rfl le_rfl (by norm_num) (by norm_num) (by norm_num)
  have rEB : Rel (-e * b) (-E * B) 1 := rel_mul_big hm re rb feb (by rw [nm]; exact N.eb) le_rfl le_rfl (by norm_num) (by norm_num) (by norm_num)
  have rEA : Rel (-e * a) (-E * A) 1 := rel_mul_big hm re ra fea (by rw [nm]; exact N.ea) le_rfl le_rfl (by norm_num) (by norm_num) (by norm_num)
  have r32 : Rel (-e * (-e * b)) (-E * (-E * B)) 2.01 := rel_mul_big hm re rEB f32
    (by rw [show -E * (-E * B) = E * (E * B) by ring]; exact N.eeb) le_rfl (by norm_num) (by norm_num) (by norm_num) (by norm_num)
  have r33 : Rel (-e * (-e * a)) (-E * (-E * A)) 2.01 := rel_mul_big hm re rEA f33
    (by rw [show -E * (-E * A) = E * (E * A) by ring]; exact N.eea) le_rfl (by norm_num) (by norm_num) (by norm_num) (by norm_num)
  have rD : Rel (-e * (-e * -b)) (-E * (-E * -B)) 2.01 := rel_mul_big hm re r00 fD
    (by rw [show -E * (-E * -B) = -(E * (E * B)) by ring, abs_neg]; exact N.eeb) le_rfl (by norm_num) (by norm_num) (by norm_num) (by norm_num)
  have D0 : -E * (-E * -B) ≠ 0 := mul_ne_zero (neg_ne_zero.2 E0) (mul_ne_zero (neg_ne_zero.2 E0) (neg_ne_zero.2 B0))
  have rV := rel_recip_big hm (m := 3.05) (rD.congr sd) fv
    (by rw [show -E * (-E * -B) = -(E * (E * B)) by ring, abs_neg]; exact N.det) D0 (by norm_num) (by norm_num) (by norm_num)
  have eu := eta_le_sq (mw := mw) (ew := ew) hw
  have eu' : 2 * etaRnd mw ew ≤ uRnd mw := by nlinarith
  have fin : ∀ i j, (signT i j (minorT (pmat e a b).data j i) * (Scalar.one / det4 (pmat e a b).data)).isFin = true := fun i j => by
    rw [← inverse_form]; exact hf i j
  have half : ∀ {x : ℝ}, x ≠ 0 → 2 * etaRnd mw ew * |x| ≤ uRnd mw → 2 * etaRnd mw ew ≤ uRnd mw * |-(1 / x)| := fun {x} hx h => by
    rw [abs_neg, abs_div, abs_one, mul_one_div, le_div_iff₀ (abs_pos.2 hx)]; exact h
  refine ⟨?_, ?_, ?_, ?_, ?_, ?_⟩
  · rw [inverse_form]
    have e1 : -E * -B * (1 / (-E * (-E * -B))) = -(1 / E) := by field_simp
    refine (rel_mul_big hm (r00.congr m00) rV (fin 0 0) ?_ (by norm_num) (by norm_num) (by norm_num) (by norm_num) (by norm_num)).eq e1
    rw [e1]; exact half E0 N.ri
  · rw [inverse_form]
    have e1 : -E * -B * (1 / (-E * (-E * -B))) = -(1 / E) := by field_simp
    refine (rel_mul_big hm (r00.congr m11) rV (fin 1 1) ?_ (by norm_num) (by norm_num) (by norm_num) (by norm_num) (by norm_num)).eq e1
    rw [e1]; exact half E0 N.ri
  · rw [inverse_form]
    have e1 : -(-E * (-E * B)) * (1 / (-E * (-E * -B))) = 1 := by field_simp
    refine (rel_mul_big hm (r32.congr m32).neg rV (fin 2 3) ?_ (by norm_num) (by norm_num) (by norm_num) (by norm_num) (by norm_num)).eq e1
    rw [e1, abs_one, mul_one]; exact eu'
  · rw [inverse_form]
    have e1 : -(-E * -E) * (1 / (-E * (-E * -B))) = 1 / B := by field_simp
    refine (rel_mul_big hm (r23.congr m23).neg rV (fin 3 2) ?_ (by norm_num) (by norm_num) (by norm_num) (by norm_num) (by norm_num)).eq e1
    rw [e1, ← abs_neg]; exact half B0 N.rb
  · rw [inverse_form]
    have e1 : -E * (-E * A) * (1 / (-E * (-E * -B))) = -(A / B) := by field_simp
    refine (rel_mul_big hm (r33.congr m33) rV (fin 3 3) ?_ (by norm_num) (by norm_num) (by norm_num) (by norm_num) (by norm_num)).eq e1
    rw [e1, abs_neg, abs_div, ← mul_div_assoc, le_div_iff₀ (abs_pos.2 B0)]; exact N.rab
  · intro i j hij
    rw [inverse_form]
    refine z_mul_l ?_ fv
    have := pmat_zero fe fa fb fea feb j i (by
      intro h; apply hij; revert h
      fin_cases i <;> fin_cases j <;> decide)
    unfold signT
    split
    · exact this
    · exact z_neg this

/-- the condition passes from the exact entries to the computed ones -/
theorem pnormal_of_rel (hm : 9 ≤ mw) {E A B ke ka kb : ℝ} (re : Rel e E ke) (ra : Rel a A ka) (rb : Rel b B kb)
    (he : 0 ≤ ke ∧ ke ≤ 16) (ha : 0 ≤ ka ∧ ka ≤ 16) (hb : 0 ≤ kb ∧ kb ≤ 16) (N : PNormal mw ew 3 E A B) :
    PNormal mw ew 2 e.toReal a.toReal b.toReal := by
  have u0 := uRnd_pos (mw := mw)
  have e0 := etaRnd_pos (mw := mw) (ew := ew)
  have le := rel_low hm re he.1 he.2
  have la := rel_low hm ra ha.1 ha.2
  have lb := rel_low hm rb hb.1 hb.2
  have ue := rel_high hm re he.1 he.2
  have ub := rel_high hm rb hb.1 hb.2
  have pE := abs_nonneg E
  have pA := abs_nonneg A
  have pB := abs_nonneg B
  have pe := abs_nonneg e.toReal
  have pa := abs_nonneg a.toReal
  have pb := abs_nonneg b.toReal
  obtain ⟨n1, n2, n3, n4, n5, n6, n7, n8, n9⟩ := N
  simp only [abs_mul] at *
  have low : ∀ {p q r : ℝ}, 3 * etaRnd mw ew ≤ uRnd mw * p → r * p ≤ q → 2 / 3 ≤ r → 2 * etaRnd mw ew ≤ uRnd mw * q := by
    intro p q r h1 h2 h3
    have p0 : 0 ≤ p := by
      by_contra hc
      have := mul_neg_of_pos_of_neg u0 (not_le.1 hc); linarith
    have : 2 / 3 * p ≤ q := (mul_le_mul_of_nonneg_right h3 p0).trans h2
    have := mul_le_mul_of_nonneg_left this u0.le
    linarith
  have xy2 : ∀ {p q p' q' : ℝ}, 0 ≤ p → 0 ≤ q → 98 / 100 * p ≤ p' → 98 / 100 * q ≤ q' → (98 / 100 * (98 / 100)) * (p * q) ≤ p' * q' := by
    intro p q p' q' hp hq h1 h2
    have := mul_le_mul h1 h2 (by positivity) (le_trans (by positivity) h1)
    linarith
  have xy3 : ∀ {p q p' q' : ℝ}, 0 ≤ p → 0 ≤ q → 98 / 100 * p ≤ p' → 98 / 100 * q ≤ q' →
      (98 / 100 * (98 / 100) * (98 / 100)) * (p * (p * q)) ≤ p' * (p' * q') := by
    intro p q p' q' hp hq h1 h2
    have := mul_le_mul h1 (xy2 hp hq h1 h2) (by positivity) (le_trans (by positivity) h1)
    linarith
  refine ⟨?_, ?_, ?_, ?_, ?_, ?_, ?_, ?_, ?_⟩ <;> (try simp only [abs_mul])
  · exact low n1 (xy2 pE pB le lb) (by norm_num)
  · exact low n2 (xy2 pE pA le la) (by norm_num)
  · exact low n3 (xy2 pE pE le le) (by norm_num)
  · exact low n4 (xy3 pE pB le lb) (by norm_num)
  · exact low n5 (xy3 pE pA le la) (by norm_num)
  · have h1 : |e.toReal| * |b.toReal| ≤ (102 / 100 * |E|) * (102 / 100 * |B|) := mul_le_mul ue ub pb (by positivity)
    have h2 : |e.toReal| * (|e.toReal| * |b.toReal|) ≤ (102 / 100 * |E|) * ((102 / 100 * |E|) * (102 / 100 * |B|)) := mul_le_mul ue h1 (by positivity) (by positivity)
    have h3 : |e.toReal| * (|e.toReal| * |b.toReal|) ≤ 3 / 2 * (|E| * (|E| * |B|)) := by
      have : 0 ≤ |E| * (|E| * |B|) := by positivity
      linarith
    have := mul_le_mul_of_nonneg_left h3 (show 0 ≤ 2 * etaRnd mw ew by positivity)
    linarith
  · have := mul_le_mul_of_nonneg_left ue (show 0 ≤ 2 * etaRnd mw ew by positivity)
    have : 0 ≤ etaRnd mw ew * |E| := by positivity
    linarith
  · have := mul_le_mul_of_nonneg_left ub (show 0 ≤ 2 * etaRnd mw ew by positivity)
    have : 0 ≤ etaRnd mw ew * |B| := by positivity
    linarith
  · have h1 := mul_le_mul_of_nonneg_left ub (show 0 ≤ 2 * etaRnd mw ew by positivity)
    have h2 := mul_le_mul_of_nonneg_left la u0.le
    have : 0 ≤ etaRnd mw ew * |B| := by positivity
    have : 0 ≤ uRnd mw * |A| := by positivity
    linarith

theorem pmat_e_fin (hf : ∀ i j, ((pmat e a b).inverse.data i j).isFin = true) : e.isFin = true := by
  have := hf 3 3
  rw [inverse_form] at this
  have g33 := (isFin_of_mul this).1
  rw [signT_fin] at g33
  change (-e * (-e * a - Scalar.zero * Scalar.zero) - Scalar.zero * (Scalar.zero * a - Scalar.zero * Scalar.zero) +
    Scalar.zero * (Scalar.zero * Scalar.zero - -e * Scalar.zero)).isFin = true at g33
  have h := (isFin_of_mul (isFin_of_sub (isFin_of_add g33).1).1).1
  rwa [isFin_negop] at h
end

variable [Libm mw ew] {fov near far : Flt mw ew}

/-- reciprocals and quotients of relatively known reals -/
theorem quot_rel (hm : 9 ≤ mw) {x y X Y k l m : ℝ} (hx : |x - X| ≤ k * uRnd mw * |X|) (hy : |y - Y| ≤ l * uRnd mw * |Y|) (hk : 0 ≤ k)
    (hl : 0 ≤ l) (hY : Y ≠ 0) (hl8 : l ≤ 8) (h : (k + l) * 1.01 + 1 + (k + l) * 1.01 / 1024 ≤ m) : |x / y - X / Y| ≤ m * uRnd mw * |X / Y| :=
  (rel_div_core (uRnd_pos (mw := mw)) (uRnd_small hm) hx hy
    (by rw [sub_self, abs_zero]; exact mul_nonneg uRnd_pos.le (abs_nonneg _)) hk hl hY hl8 h).2

theorem pmat_minv (fov near far : Flt mw ew) : ∃ e a b : Flt mw ew,
    e = GFloat.recip (Libm.tan (fov * GFloat.half)) ∧ a = far / (far - near) ∧ b = far * near / (far - near) ∧
    (Transform.perspective fov near far).minv = (pmat e a b).inverse := ⟨_, _, _, rfl, rfl, rfl, rfl⟩

/-- C111: the inverse matrix that `perspective` stores, on floats: the five entries that should be nonzero have a relative error
of at most 13 units of rounding, all others are zero. -/
theorem C111_entries (hm : 9 ≤ mw) (hw : mw + 3 ≤ 2 ^ (ew - 1)) (h : PerspRegular fov near far)
    (N : PNormal mw ew 3 (1 / Real.tan (fov.toReal / 2)) (far.toReal / (far.toReal - near.toReal))
      (far.toReal * near.toReal / (far.toReal - near.toReal)))
    (hf : ∀ i j, ((Transform.perspective fov near far).minv.data i j).isFin = true)
    (hz : ∃ i j, ((Transform.perspective fov near far).minv.data i j).toReal ≠ 0) :
    Rel ((Transform.perspective fov near far).minv.data 0 0) (-Real.tan (fov.toReal / 2)) 10 ∧
    Rel ((Transform.perspective fov near far).minv.data 1 1) (-Real.tan (fov.toReal / 2)) 10 ∧
    Rel ((Transform.perspective fov near far).minv.data 2 3) 1 7 ∧
    Rel ((Transform.perspective fov near far).minv.data 3 2) ((far.toReal - near.toReal) / (far.toReal * near.toReal)) 10 ∧
    Rel ((Transform.perspective fov near far).minv.data 3 3) (-(1 / near.toReal)) 13 ∧
    (∀ i j, (i, j) ∉ ([(0, 0), (1, 1), (2, 3), (3, 2), (3, 3)] : List (_root_.Fin 4 × _root_.Fin 4)) →
      ((Transform.perspective fov near far).minv.data i j).toReal = 0) := by
  obtain ⟨e, a, b, he, ha, hb, E⟩ := pmat_minv fov near far
  rw [E] at hf hz ⊢
  have fe := pmat_e_fin hf
  have re : Rel e (perspE fov.toReal) 3.04 := by rw [he] at fe ⊢; exact persp_e hm h fe
  obtain ⟨rA, rB⟩ := persp_ab hm hw h
  rw [← ha] at rA
  rw [← hb] at rB
  have N' := pnormal_of_rel hm re rA rB ⟨by norm_num, by norm_num⟩ ⟨by norm_num, by norm_num⟩ ⟨by norm_num, by norm_num⟩ N
  obtain ⟨q0, q1, q2, q3, q4, q5⟩ := pmat_inv hm hw N' hf hz
  obtain ⟨-, -, T0⟩ := persp_tan hm h
  have n0 := h.nearPos
  have nf := h.nearFar
  have d0 : 0 < far.toReal - near.toReal := by linarith
  have f0 : 0 < far.toReal := by linarith
  have eE : 1 / perspE fov.toReal = Real.tan (fov.toReal / 2) := by unfold perspE; rw [one_div_one_div]
  have E0 : perspE fov.toReal ≠ 0 := by unfold perspE; positivity
  have B0 : far.toReal * near.toReal / (far.toReal - near.toReal) ≠ 0 := by positivity
  have ie := quot_rel hm (x := 1) (X := 1) (k := 0) (m := 4.1) (by simp) re.2 le_rfl (by norm_num) E0 (by norm_num) (by norm_num)
  have ib := quot_rel hm (x := 1) (X := 1) (k := 0) (m := 4.2) (by simp) rB.2 le_rfl (by norm_num) B0 (by norm_num) (by norm_num)
  have iab := quot_rel hm (m := 6.3) rA.2 rB.2 (by norm_num) (by norm_num) B0 (by norm_num) (by norm_num)
  rw [eE] at ie
  have eB : 1 / (far.toReal * near.toReal / (far.toReal - near.toReal)) = (far.toReal - near.toReal) / (far.toReal * near.toReal) := by
    rw [one_div_div]
  have eAB : far.toReal / (far.toReal - near.toReal) / (far.toReal * near.toReal / (far.toReal - near.toReal)) = 1 / near.toReal := by
    field_simp
  rw [eB] at ib
  rw [eAB] at iab
  have ngr : ∀ {x y k : ℝ}, |x - y| ≤ k * uRnd mw * |y| → |-x - -y| ≤ k * uRnd mw * |-y| := fun {x y k} h => by
    rw [neg_sub_neg, abs_sub_comm, abs_neg]; exact h
  exact ⟨q0.trans hm (ngr ie) (by norm_num) (by norm_num) (by norm_num), q1.trans hm (ngr ie) (by norm_num) (by norm_num) (by norm_num),
    q2.mono (by norm_num), q3.trans hm ib (by norm_num) (by norm_num) (by norm_num),
    q4.trans hm (ngr iab) (by norm_num) (by norm_num) (by norm_num), fun i j hij => (q5 i j hij).toReal.trans toReal_szero⟩

/-- a quotient of two nearly known numbers -/
theorem quot2_core {u η N W q N0 w0 S : ℝ} (hu : 0 < u) (hu1 : u ≤ 1 / 1024) (he : 0 < η) (hw : 0 < |w0|) (hN : |N - N0| ≤ 11.1 * u * |N0| + η)
    (hW : |W - w0| ≤ 14.5 * u * S) (hS : |w0| ≤ S) (hc : 29 * u * S ≤ |w0|) (hq : |q - N / W| ≤ u * |N / W| + η) :
    |q - N0 / w0| ≤ 55 * u * (S / |w0|) * |N0 / w0| + 2.1 * (η / |w0|) + η := by
  have w0' : w0 ≠ 0 := abs_pos.1 hw
  have Wl : |w0| / 2 ≤ |W| := by
    have := abs_sub_abs_le_abs_sub w0 W
    rw [abs_sub_comm] at this
    linarith
  have Wp : 0 < |W| := by linarith
  have W' : W ≠ 0 := abs_pos.1 Wp
  have iW : 1 / |W| ≤ 2 / |w0| := by
    rw [div_le_div_iff₀ Wp hw]; linarith
  have e1 : |N / W - N0 / w0| ≤ (11.1 * u * |N0| + η) * (2 / |w0|) + |N0| / |w0| * (14.5 * u * S) * (2 / |w0|) := by
    rw [show N / W - N0 / w0 = (N - N0) / W + N0 / w0 * (w0 - W) / W by field_simp; ring]
    refine (abs_add_le _ _).trans (add_le_add ?_ ?_)
    · rw [abs_div, div_eq_mul_one_div]
      exact mul_le_mul hN iW (by positivity) (by positivity)
    · rw [abs_div, div_eq_mul_one_div, abs_mul, abs_div, abs_sub_comm w0 W]
      exact mul_le_mul (mul_le_mul_of_nonneg_left hW (by positivity)) iW (by positivity)
        (mul_nonneg (by positivity) ((abs_nonneg _).trans hW))
  rw [abs_div]
  have eR : (11.1 * u * |N0| + η) * (2 / |w0|) + |N0| / |w0| * (14.5 * u * S) * (2 / |w0|) =
      22.2 * (u * (|N0| / |w0|)) + 2 * (η / |w0|) + 29 * (u * (S / |w0|) * (|N0| / |w0|)) := by field_simp; ring
  rw [eR] at e1
  have e2 := abs_add_le (N / W - N0 / w0) (N0 / w0)
  rw [sub_add_cancel, abs_div N0 w0] at e2
  have e3 := abs_sub_le q (N / W) (N0 / w0)
  have k1 : 1 ≤ S / |w0| := by rwa [one_le_div hw]
  have kc : u * (S / |w0|) ≤ 1 / 29 := by
    rw [← mul_div_assoc, div_le_iff₀ hw]; linarith
  have R0 : 0 ≤ |N0| / |w0| := by positivity
  have h0 : 0 ≤ η / |w0| := by positivity
  generalize |N0| / |w0| = R at *
  generalize η / |w0| = g at *
  generalize S / |w0| = κ at *
  generalize N / W = Q at *
  have p1 : u * R ≤ u * κ * R := by
    have := mul_le_mul_of_nonneg_right k1 (show 0 ≤ u * R by positivity); linarith
  have p2 : u * κ * R ≤ 1 / 29 * R := mul_le_mul_of_nonneg_right kc R0
  have p3 : |Q| ≤ 2.8 * R + 2 * g := by linarith
  have p4 := mul_le_mul_of_nonneg_left p3 hu.le
  have p5 := mul_le_mul_of_nonneg_right hu1 h0
  have p6 : 0 ≤ u * R := by positivity
  linarith

/-- the divisor -/
theorem unproj_w_core {u η z h32 h33 p W iB iN : ℝ} (hu : 0 < u) (hu1 : u ≤ 1 / 1024) (he : 0 < η) (hB : 0 < iB) (hN : 0 < iN)
    (h1 : |h32 - iB| ≤ 10 * u * |iB|) (h2 : |h33 - -iN| ≤ 13 * u * |-iN|) (hη : 3 * η ≤ u * iN)
    (hp : |p - z * h32| ≤ u * |z * h32| + η) :
    |z * h32| ≤ 1.1 * (|z| * iB + iN) ∧ |p + h33| ≤ 1.1 * (|z| * iB + iN) ∧
    (|W - (p + h33)| ≤ u * |p + h33| → |W - (z * iB - iN)| ≤ 14.5 * u * (|z| * iB + iN)) := by
  rw [abs_neg, abs_of_pos hN] at h2
  rw [abs_of_pos hB] at h1
  have z0 := abs_nonneg z
  have Z0 : 0 ≤ |z| * iB := by positivity
  have a1 : |z * h32 - z * iB| ≤ 10 * u * (|z| * iB) := by
    rw [← mul_sub, abs_mul]
    have := mul_le_mul_of_nonneg_left h1 z0
    linarith
  have a2 : |z * h32| ≤ 1.01 * (|z| * iB) := by
    have := abs_add_le (z * h32 - z * iB) (z * iB)
    rw [sub_add_cancel, abs_mul z iB, abs_of_pos hB] at this
    have := mul_le_mul_of_nonneg_right hu1 Z0
    linarith
  have a3 := mul_le_mul_of_nonneg_left a2 hu.le
  have a4 := abs_sub_le p (z * h32) (z * iB)
  have a5 : |p + h33 - (z * iB - iN)| ≤ |p - z * iB| + |h33 - -iN| := by
    rw [show p + h33 - (z * iB - iN) = (p - z * iB) + (h33 - -iN) by ring]; exact abs_add_le _ _
  have a6 : |z * iB - iN| ≤ |z| * iB + iN := by
    refine (abs_sub _ _).trans ?_
    rw [abs_mul, abs_of_pos hB, abs_of_pos hN]
  have u2 := mul_le_mul_of_nonneg_right hu1 Z0
  have u3 := mul_le_mul_of_nonneg_right hu1 hN.le
  have uz : 0 ≤ u * (|z| * iB) := by positivity
  have un : 0 ≤ u * iN := by positivity
  have a7 := abs_add_le (p + h33 - (z * iB - iN)) (z * iB - iN)
  rw [sub_add_cancel] at a7
  have a8 : |p + h33| ≤ 1.02 * (|z| * iB + iN) := by linarith
  refine ⟨by linarith, by linarith, fun hW => ?_⟩
  have a9 := mul_le_mul_of_nonneg_left a8 hu.le
  have := abs_sub_le W (p + h33) (z * iB - iN)
  linarith

theorem mapPt_form (M : Mat4 (Flt mw ew)) (q : Point (Flt mw ew) 3) : ∃ w : Flt mw ew,
    w = q.x * M.data 3 0 + q.y * M.data 3 1 + q.z * M.data 3 2 + M.data 3 3 ∧
    mapPt M q = if Scalar.eq w (Scalar.zero : Flt mw ew) = true then none else some (new3
      ((q.x * M.data 0 0 + q.y * M.data 0 1 + q.z * M.data 0 2 + M.data 0 3) / w)
      ((q.x * M.data 1 0 + q.y * M.data 1 1 + q.z * M.data 1 2 + M.data 1 3) / w)
      ((q.x * M.data 2 0 + q.y * M.data 2 1 + q.z * M.data 2 2 + M.data 2 3) / w)) := ⟨_, rfl, rfl⟩

/-- C111: unprojecting with `perspective` on floats (`map_inverse` of a point).  The exact preimage of `q = (x, y, z)` is
`(-T x / w, -T y / w, 1 / w)` with `T = tan(fov/2)` and `w = z / B - 1 / near`.  The computed one has a relative error of at
most `55 u κ`, where `κ` is the condition of the subtraction in `w`. -/
theorem C111_unproject (hm : 9 ≤ mw) (hw : mw + 3 ≤ 2 ^ (ew - 1)) (h : PerspRegular fov near far)
    (N : PNormal mw ew 3 (1 / Real.tan (fov.toReal / 2)) (far.toReal / (far.toReal - near.toReal))
      (far.toReal * near.toReal / (far.toReal - near.toReal)))
    (hf : ∀ i j, ((Transform.perspective fov near far).minv.data i j).isFin = true)
    (hz : ∃ i j, ((Transform.perspective fov near far).minv.data i j).toReal ≠ 0)
    {q : Point (Flt mw ew) 3} (hq : ∀ i, (q.vec i).isFin = true) {big : Flt mw ew} (fb : big.isFin = true) {iB w S : ℝ}
    (hiB : iB = (far.toReal - near.toReal) / (far.toReal * near.toReal))
    (hw0 : w = (q.vec 2).toReal * iB - 1 / near.toReal) (hS : S = |(q.vec 2).toReal| * iB + 1 / near.toReal)
    (hbig : 2 * S ≤ big.toReal) (hc : 29 * uRnd mw * S ≤ |w|) :
    ∃ p, (Transform.perspective fov near far).mapPointInv q = some p ∧
      ∀ i, (p.vec i).isFin = true →
        |(p.vec i).toReal - ![-(Real.tan (fov.toReal / 2) * (q.vec 0).toReal), -(Real.tan (fov.toReal / 2) * (q.vec 1).toReal), 1] i / w| ≤
        55 * uRnd mw * (S / |w|) * |![-(Real.tan (fov.toReal / 2) * (q.vec 0).toReal), -(Real.tan (fov.toReal / 2) * (q.vec 1).toReal), 1] i / w| +
          2.1 * (etaRnd mw ew / |w|) + etaRnd mw ew := by
  obtain ⟨r0, r1, r2, r3, r4, rz⟩ := C111_entries hm hw h N hf hz
  have u0 := uRnd_pos (mw := mw)
  have u1 := uRnd_small hm
  have e0 := etaRnd_pos (mw := mw) (ew := ew)
  have n0 := h.nearPos
  have nf := h.nearFar
  have d0 : 0 < far.toReal - near.toReal := by linarith
  have f0 : 0 < far.toReal := by linarith
  obtain ⟨-, -, T0⟩ := persp_tan hm h
  have iB0 : 0 < iB := by rw [hiB]; positivity
  have iN0 : 0 < 1 / near.toReal := by positivity
  have S0 : 0 < S := by rw [hS]; positivity
  have wp : 0 < |w| := lt_of_lt_of_le (by positivity) hc
  have wS : |w| ≤ S := by
    rw [hw0, hS]
    refine (abs_sub _ _).trans ?_
    rw [abs_mul, abs_of_pos iB0, abs_of_pos iN0]
  have hη : 3 * etaRnd mw ew ≤ uRnd mw * (1 / near.toReal) := by
    have := N.rab
    rw [abs_of_pos (by positivity), abs_of_pos (by positivity)] at this
    rw [mul_one_div, le_div_iff₀ n0]
    have e : 3 * etaRnd mw ew * (far.toReal * near.toReal / (far.toReal - near.toReal)) =
        (3 * etaRnd mw ew * near.toReal) * (far.toReal / (far.toReal - near.toReal)) := by ring
    rw [e] at this
    exact le_of_mul_le_mul_right this (by positivity)
  rw [← hiB] at r3
  unfold Transform.mapPointInv
  generalize (Transform.perspective fov near far).minv = M at *
  have zz : ∀ i j, (i, j) ∉ ([(0, 0), (1, 1), (2, 3), (3, 2), (3, 3)] : List (_root_.Fin 4 × _root_.Fin 4)) → Z (M.data i j) :=
    fun i j hij => same_zero' (rz i j hij)
  have q0 := hq 0
  have q1 := hq 1
  have q2 := hq 2
  -- the divisor
  have hS' : S = |q.z.toReal| * iB + 1 / near.toReal := hS
  have hw0' : w = q.z.toReal * iB - 1 / near.toReal := hw0
  have mk := mul_fin q2 r3.1
  obtain ⟨c1, -, -⟩ := unproj_w_core (p := (q.vec 2).toReal * (M.data 3 2).toReal) (W := 0) u0 u1 e0 iB0 iN0 r3.2 r4.2 hη
    (by rw [sub_self, abs_zero]; positivity)
  have fp : (q.z * M.data 3 2).isFin = true :=
    fin_below fb (by rw [mul_def]; exact mk.2) (c1.trans (by rw [← hS]; linarith))
  have ak := add_fin fp r4.1
  obtain ⟨-, c2, c3⟩ := unproj_w_core (W := (q.z * M.data 3 2 + M.data 3 3).toReal) u0 u1 e0 iB0 iN0 r3.2 r4.2 hη (mul_err' fp)
  have fs : (q.z * M.data 3 2 + M.data 3 3).isFin = true :=
    fin_below fb (by rw [add_def]; exact ak.2) (c2.trans (by rw [← hS']; linarith))
  have hW := c3 (add_err fp r4.1 fs)
  obtain ⟨ww, hww, hmap⟩ := mapPt_form M q
  have sw : Same ww (q.z * M.data 3 2 + M.data 3 3) := by
    rw [hww]
    exact add_same (zero_add_same (z_add (z_mul_r q0 (zz 3 0 (by decide))) (z_mul_r q1 (zz 3 1 (by decide)))) (Same.refl (notNaN_of_isFin fp)))
      (Same.refl (notNaN_of_isFin r4.1)) fp r4.1
  rw [← hS', ← hw0', ← sw.toReal] at hW
  have fw := sw.isFin fs
  have wn : ww.toReal ≠ 0 := by
    intro hc0
    rw [hc0, zero_sub, abs_neg] at hW
    have : 0 < uRnd mw * S := by positivity
    linarith
  rw [hmap, if_neg (by
    intro hc
    have := (seq_iff.1 hc).2.2
    rw [← toReal_eq_iff, toReal_szero] at this
    exact wn this)]
  refine ⟨_, rfl, ?_⟩
  clear hmap
  have key : ∀ {x : Flt mw ew} {N0 : ℝ}, |x.toReal - N0| ≤ 11.1 * uRnd mw * |N0| + etaRnd mw ew → (x / ww).isFin = true →
      |(x / ww).toReal - N0 / w| ≤ 55 * uRnd mw * (S / |w|) * |N0 / w| + 2.1 * (etaRnd mw ew / |w|) + etaRnd mw ew := by
    intro x N0 hx hf
    refine quot2_core u0 u1 e0 wp hx hW wS hc ?_
    exact (div_err (isFin_of_div hf).1 fw wn hf).trans (max_le (by
      have := mul_nonneg u0.le (abs_nonneg (x.toReal / ww.toReal)); linarith) (by
      have := mul_nonneg u0.le (abs_nonneg (x.toReal / ww.toReal)); linarith))
  have num : ∀ {c hh x : Flt mw ew}, c.isFin = true → Rel hh (-Real.tan (fov.toReal / 2)) 10 → Same x (c * hh) → x.isFin = true →
      |x.toReal - -(Real.tan (fov.toReal / 2) * c.toReal)| ≤ 11.1 * uRnd mw * |-(Real.tan (fov.toReal / 2) * c.toReal)| + etaRnd mw ew := by
    intro c hh x hc rh hx fx
    have m := mul_err' (hx.symm.isFin fx)
    rw [← hx.toReal] at m
    have r := rh.2
    generalize Real.tan (fov.toReal / 2) = T at *
    rw [abs_neg]
    rw [abs_neg] at r
    have a1 : |c.toReal * hh.toReal - -(T * c.toReal)| ≤ 10 * uRnd mw * |T * c.toReal| := by
      rw [show c.toReal * hh.toReal - -(T * c.toReal) = c.toReal * (hh.toReal - -T) by ring, abs_mul, abs_mul T]
      have := mul_le_mul_of_nonneg_left r (abs_nonneg c.toReal)
      linarith
    have a2 := abs_add_le (c.toReal * hh.toReal - -(T * c.toReal)) (-(T * c.toReal))
    rw [sub_add_cancel, abs_neg] at a2
    have P := abs_nonneg (T * c.toReal)
    have a3 := mul_le_mul_of_nonneg_right u1 P
    have a4 : |c.toReal * hh.toReal| ≤ 1.01 * |T * c.toReal| := by linarith
    have a5 := mul_le_mul_of_nonneg_left a4 u0.le
    have a6 := abs_sub_le x.toReal (c.toReal * hh.toReal) (-(T * c.toReal))
    have : 0 ≤ uRnd mw * |T * c.toReal| := by positivity
    linarith
  intro i fi
  fin_cases i
  · change ((q.x * M.data 0 0 + q.y * M.data 0 1 + q.z * M.data 0 2 + M.data 0 3) / ww).isFin = true at fi
    have fx := (isFin_of_div fi).1
    have f1 := (isFin_of_add (isFin_of_add (isFin_of_add fx).1).1).1
    exact key (num q0 r0 (add_zero_same (add_zero_same (add_zero_same (Same.refl (notNaN_of_isFin f1)) (z_mul_r q1 (zz 0 1 (by decide))))
      (z_mul_r q2 (zz 0 2 (by decide)))) (zz 0 3 (by decide))) fx) fi
  · change ((q.x * M.data 1 0 + q.y * M.data 1 1 + q.z * M.data 1 2 + M.data 1 3) / ww).isFin = true at fi
    have fx := (isFin_of_div fi).1
    have f1 := (isFin_of_add (isFin_of_add (isFin_of_add fx).1).1).2
    exact key (num q1 r1 (add_zero_same (add_zero_same (zero_add_same (z_mul_r q0 (zz 1 0 (by decide))) (Same.refl (notNaN_of_isFin f1)))
      (z_mul_r q2 (zz 1 2 (by decide)))) (zz 1 3 (by decide))) fx) fi
  · change ((q.x * M.data 2 0 + q.y * M.data 2 1 + q.z * M.data 2 2 + M.data 2 3) / ww).isFin = true at fi
    have sx : Same (q.x * M.data 2 0 + q.y * M.data 2 1 + q.z * M.data 2 2 + M.data 2 3) (M.data 2 3) :=
      zero_add_same (z_add (z_add (z_mul_r q0 (zz 2 0 (by decide))) (z_mul_r q1 (zz 2 1 (by decide)))) (z_mul_r q2 (zz 2 2 (by decide))))
        (Same.refl (notNaN_of_isFin r2.1))
    refine key (N0 := 1) ?_ fi
    rw [sx.toReal]
    have := r2.2
    rw [abs_one] at this ⊢
    linarith

/-- the divisor of the way back, in terms of the original depth -/
theorem trip_w_core {u η n f z q : ℝ} (hu : 0 < u) (he : 0 < η) (hn : 0 < n) (hnf : n < f) (hz : n ≤ -z) (hη : η ≤ 0.01 * u)
    (hηn : 2 * η ≤ u * n) (hK : 128 * u * (-z / n) ≤ 1)
    (hq : |q - (f / (f - n) * z + f * n / (f - n)) / z| ≤ 6 * u * (|f / (f - n)| + |f * n / (f - n) / z|) + 2 * (η / |z|) + η) :
    |(q * ((f - n) / (f * n)) - 1 / n) - 1 / z| ≤ 14 * u * (1 / n) ∧
    |q| * ((f - n) / (f * n)) + 1 / n ≤ 3.2 * (1 / n) ∧
    0.89 * (1 / -z) ≤ |q * ((f - n) / (f * n)) - 1 / n| := by
  have z0 : z < 0 := by linarith
  have az : |z| = -z := abs_of_neg z0
  have zn : z ≠ 0 := z0.ne
  have zp : 0 < -z := by linarith
  have f0 : 0 < f := by linarith
  have d0 : 0 < f - n := by linarith
  have iB0 : 0 < (f - n) / (f * n) := by positivity
  have iBn : (f - n) / (f * n) ≤ 1 / n := by
    rw [div_le_div_iff₀ (by positivity) hn]; nlinarith
  have r1 : 1 / -z ≤ 1 / n := one_div_le_one_div_of_le hn hz
  have e1 : (f - n) / (f * n) * |f / (f - n)| = 1 / n := by
    rw [abs_of_pos (by positivity)]; field_simp
  have e2 : (f - n) / (f * n) * |f * n / (f - n) / z| = 1 / -z := by
    rw [abs_div, abs_of_pos (show 0 < f * n / (f - n) by positivity), az]; field_simp
  have e3 : (q * ((f - n) / (f * n)) - 1 / n) - 1 / z = (f - n) / (f * n) * (q - (f / (f - n) * z + f * n / (f - n)) / z) := by
    have hd : f - n ≠ 0 := d0.ne'
    have : (f - n) / (f * n) * ((f / (f - n) * z + f * n / (f - n)) / z) = 1 / n + 1 / z := by field_simp
    linear_combination this
  have ez : 2 * (η / |z|) ≤ u := by
    rw [az, ← mul_div_assoc, div_le_iff₀ zp]
    exact hηn.trans (mul_le_mul_of_nonneg_left hz hu.le)
  have m1 : |(q * ((f - n) / (f * n)) - 1 / n) - 1 / z| ≤ 14 * u * (1 / n) := by
    rw [e3, abs_mul, abs_of_pos iB0]
    have a := mul_le_mul_of_nonneg_left hq iB0.le
    have b : (f - n) / (f * n) * (2 * (η / |z|) + η) ≤ 1 / n * (1.01 * u) :=
      mul_le_mul iBn (by linarith) (by positivity) (by positivity)
    have c : (f - n) / (f * n) * (6 * u * (|f / (f - n)| + |f * n / (f - n) / z|) + 2 * (η / |z|) + η) =
        6 * u * ((f - n) / (f * n) * |f / (f - n)| + (f - n) / (f * n) * |f * n / (f - n) / z|) +
        (f - n) / (f * n) * (2 * (η / |z|) + η) := by ring
    rw [c, e1, e2] at a
    have d := mul_le_mul_of_nonneg_left r1 hu.le
    have : 0 ≤ u * (1 / n) := by positivity
    linarith
  have K1 : 1 ≤ -z / n := by rwa [one_le_div hn]
  have eK : 1 / n = -z / n * (1 / -z) := by field_simp
  have uK : 14 * u * (1 / n) ≤ 0.11 * (1 / -z) := by
    rw [eK]
    have := mul_le_mul_of_nonneg_right hK (show 0 ≤ 1 / -z by positivity)
    linarith [show 0 ≤ 1 / -z by positivity]
  have ar : |1 / z| = 1 / -z := by rw [abs_div, abs_one, az]
  refine ⟨m1, ?_, ?_⟩
  · have a := abs_add_le ((q * ((f - n) / (f * n)) - 1 / n) - 1 / z) (1 / z)
    rw [sub_add_cancel, ar] at a
    have b := abs_add_le (q * ((f - n) / (f * n)) - 1 / n) (1 / n)
    rw [sub_add_cancel, abs_mul, abs_of_pos iB0, abs_of_pos (show 0 < 1 / n by positivity)] at b
    linarith
  · have a := abs_sub_abs_le_abs_sub (1 / z) (q * ((f - n) / (f * n)) - 1 / n)
    rw [abs_sub_comm (1 / z), ar] at a
    linarith

/-- the errors of the two passes added -/
theorem ptrip_core {u η κ w z N X r S ε : ℝ} (hu : 0 < u) (he : 0 < η) (hε : 0 ≤ ε) (hz : z < 0) (hκ : 1 ≤ κ) (hK : 128 * u * κ ≤ 1)
    (hw : |w - 1 / z| ≤ 14 * u * (κ * (1 / -z))) (hS : S ≤ 3.2 * (κ * (1 / -z))) (hl : 0.89 * (1 / -z) ≤ |w|)
    (hN : |N - X / z| ≤ 6.1 * u * (|X| * (1 / -z)) + ε * (1 / -z))
    (hr : |r - N / w| ≤ 55 * u * (S / |w|) * |N / w| + 2.1 * (η / |w|) + η) :
    |r - X| ≤ 260 * u * κ * |X| + 4 * ε + 2.5 * (η * -z) + η := by
  have zp : 0 < -z := by linarith
  have zn : z ≠ 0 := hz.ne
  have ρ : 0 < 1 / -z := by positivity
  have wp : 0 < |w| := lt_of_lt_of_le (by positivity) hl
  have wn : w ≠ 0 := abs_pos.1 wp
  have iw : 1 / |w| ≤ 1.124 * -z := by
    rw [div_le_iff₀ wp]
    have := mul_le_mul_of_nonneg_left hl (show 0 ≤ 1.124 * -z by positivity)
    have e : 1.124 * -z * (0.89 * (1 / -z)) = 1.124 * 0.89 := by field_simp
    rw [e] at this
    linarith
  have k1 : S / |w| ≤ 3.6 * κ := by
    rw [div_le_iff₀ wp]
    have := mul_le_mul_of_nonneg_left hl (show 0 ≤ 3.6 * κ by positivity)
    have : 0 ≤ κ * (1 / -z) := by positivity
    linarith
  have X0 := abs_nonneg X
  have u1 : u ≤ 1 / 128 := by nlinarith
  have c1 : |1 / w - z| ≤ 14 * u * κ * (1.124 * -z) := by
    rw [show 1 / w - z = -((w - 1 / z) * z * (1 / w)) by field_simp; ring, abs_neg, abs_mul, abs_mul, abs_of_neg hz, abs_div, abs_one]
    have a := mul_le_mul_of_nonneg_right hw zp.le
    have e : 14 * u * (κ * (1 / -z)) * -z = 14 * u * κ := by field_simp
    rw [e] at a
    exact mul_le_mul a iw (by positivity) (by positivity)
  have c2 : |N / w - X| ≤ (6.1 * u * |X| + ε) * 1.124 + |X| * (14 * u * κ * 1.124) := by
    rw [show N / w - X = (N - X / z) * (1 / w) + X / z * (1 / w - z) by field_simp; ring]
    refine (abs_add_le _ _).trans (add_le_add ?_ ?_)
    · rw [abs_mul, abs_div 1 w, abs_one]
      have := mul_le_mul hN iw (by positivity) (by positivity)
      have e : (6.1 * u * (|X| * (1 / -z)) + ε * (1 / -z)) * (1.124 * -z) = (6.1 * u * |X| + ε) * 1.124 := by field_simp; ring
      rwa [e] at this
    · rw [abs_mul, abs_div, abs_of_neg hz]
      have := mul_le_mul_of_nonneg_left c1 (show 0 ≤ |X| / -z by positivity)
      have e : |X| / -z * (14 * u * κ * (1.124 * -z)) = |X| * (14 * u * κ * 1.124) := by field_simp
      rwa [e] at this
  have uκX : u * |X| ≤ u * κ * |X| := by
    have := mul_le_mul_of_nonneg_right hκ (show 0 ≤ u * |X| by positivity); linarith
  have c3 : |N / w - X| ≤ 22.7 * (u * κ * |X|) + 1.124 * ε := by
    have : 0 ≤ u * κ * |X| := by positivity
    linarith
  have c4 : u * κ * |X| ≤ 1 / 128 * |X| := mul_le_mul_of_nonneg_right (by linarith) X0
  have c5 : |N / w| ≤ 1.18 * |X| + 1.124 * ε := by
    have := abs_add_le (N / w - X) X
    rw [sub_add_cancel] at this
    linarith
  have c6 : 55 * u * (S / |w|) * |N / w| ≤ 198 * (u * κ) * (1.18 * |X| + 1.124 * ε) :=
    mul_le_mul (by
      have := mul_le_mul_of_nonneg_left k1 (show 0 ≤ 55 * u by positivity)
      linarith) c5 (abs_nonneg _) (by positivity)
  have c7 : u * κ * ε ≤ 1 / 128 * ε := mul_le_mul_of_nonneg_right (by linarith) hε
  have c8 : η / |w| ≤ 1.124 * (η * -z) := by
    rw [div_eq_mul_one_div]
    have := mul_le_mul_of_nonneg_left iw he.le
    linarith
  have c9 := abs_sub_le r (N / w) X
  have : 0 ≤ η * -z := by positivity
  have : 0 ≤ u * κ * |X| := by positivity
  linarith

/-- a projected coordinate scaled back -/
theorem ptrip_fwd {u η T x v z : ℝ} (T0 : 0 < T) (z0 : z < 0)
    (hv : |v - -(1 / T * x) / z| ≤ 6.1 * u * |1 / T * x / z| + 2 * (η / |z|) + η) :
    |-(T * v) - x / z| ≤ 6.1 * u * (|x| * (1 / -z)) + T * (2 * η + η * -z) * (1 / -z) := by
  have e1 : -(T * v) - x / z = -(T * (v - -(1 / T * x) / z)) := by
    have hzn : z ≠ 0 := z0.ne
    have := T0.ne'
    field_simp
    ring
  rw [e1, abs_neg, abs_mul, abs_of_pos T0]
  refine (mul_le_mul_of_nonneg_left hv T0.le).trans (le_of_eq ?_)
  rw [abs_div, abs_mul, abs_of_pos (show 0 < 1 / T by positivity), abs_of_neg z0]
  have zp : 0 < -z := by linarith
  generalize -z = y at *
  field_simp
  ring

/-- C111, round trip: projecting a point in front of the near plane and unprojecting the result gives the point back, with a
relative error that grows with its depth in units of the near distance. -/
theorem C111_roundtrip (hm : 9 ≤ mw) (hw : mw + 3 ≤ 2 ^ (ew - 1)) (h : PerspRegular fov near far)
    (N : PNormal mw ew 3 (1 / Real.tan (fov.toReal / 2)) (far.toReal / (far.toReal - near.toReal))
      (far.toReal * near.toReal / (far.toReal - near.toReal)))
    (hf : ∀ i j, ((Transform.perspective fov near far).minv.data i j).isFin = true)
    (hz : ∃ i j, ((Transform.perspective fov near far).minv.data i j).toReal ≠ 0)
    {p : Point (Flt mw ew) 3} (hp : ∀ i, (p.vec i).isFin = true) {big : Flt mw ew} (fb : big.isFin = true)
    (hbig : 7 * (1 / near.toReal) ≤ big.toReal) (hn : near.toReal ≤ -(p.vec 2).toReal)
    (hK : 128 * uRnd mw * (-(p.vec 2).toReal / near.toReal) ≤ 1) :
    ∃ q, (Transform.perspective fov near far).mapPoint p = some q ∧ ((∀ i, (q.vec i).isFin = true) →
      ∃ r, (Transform.perspective fov near far).mapPointInv q = some r ∧ ∀ i, (r.vec i).isFin = true →
        |(r.vec i).toReal - (p.vec i).toReal| ≤ 260 * uRnd mw * (-(p.vec 2).toReal / near.toReal) * |(p.vec i).toReal| +
          8 * etaRnd mw ew * (1 + Real.tan (fov.toReal / 2)) * (1 + -(p.vec 2).toReal)) := by
  have u0 := uRnd_pos (mw := mw)
  have u1 := uRnd_small hm
  have e0 := etaRnd_pos (mw := mw) (ew := ew)
  have n0 := h.nearPos
  have nf := h.nearFar
  have d0 : 0 < far.toReal - near.toReal := by linarith
  have f0 : 0 < far.toReal := by linarith
  obtain ⟨-, -, T0⟩ := persp_tan hm h
  have z0 : (p.vec 2).toReal < 0 := by linarith
  obtain ⟨q, hq, qx, qy, qz⟩ := C108_perspective hm hw h hp z0.ne
  refine ⟨q, hq, fun fq => ?_⟩
  have qx := qx (fq 0)
  have qy := qy (fq 1)
  have qz := qz (fq 2)
  have eu := eta_le_sq (mw := mw) (ew := ew) hw
  have eu' : etaRnd mw ew ≤ 0.01 * uRnd mw := by nlinarith
  obtain ⟨w1, w2, w3⟩ := trip_w_core u0 e0 n0 nf hn eu' h.nearBig hK qz
  have zp : 0 < -(p.vec 2).toReal := by linarith
  have K1 : 1 ≤ -(p.vec 2).toReal / near.toReal := by rwa [one_le_div n0]
  have eK : 1 / near.toReal = -(p.vec 2).toReal / near.toReal * (1 / -(p.vec 2).toReal) := by
    rw [div_mul_eq_mul_div, mul_one_div_cancel zp.ne']
  have hc : 29 * uRnd mw * (|(q.vec 2).toReal| * ((far.toReal - near.toReal) / (far.toReal * near.toReal)) + 1 / near.toReal) ≤
      |(q.vec 2).toReal * ((far.toReal - near.toReal) / (far.toReal * near.toReal)) - 1 / near.toReal| := by
    refine le_trans ?_ w3
    have a := mul_le_mul_of_nonneg_left w2 (show 0 ≤ 29 * uRnd mw by positivity)
    refine a.trans ?_
    rw [eK]
    have := mul_le_mul_of_nonneg_right hK (show 0 ≤ 1 / -(p.vec 2).toReal by positivity)
    linarith [show 0 ≤ 1 / -(p.vec 2).toReal by positivity]
  obtain ⟨r, hr, er⟩ := C111_unproject hm hw h N hf hz fq fb rfl rfl rfl (by linarith [show 0 < 1 / near.toReal by positivity]) hc
  refine ⟨r, hr, fun i fi => ?_⟩
  have er := er i fi
  have w1 := w1.trans_eq (show _ = 14 * uRnd mw * (-(p.vec 2).toReal / near.toReal * (1 / -(p.vec 2).toReal)) by rw [← eK])
  have w2 := w2.trans_eq (show _ = 3.2 * (-(p.vec 2).toReal / near.toReal * (1 / -(p.vec 2).toReal)) by rw [← eK])
  have az : |(p.vec 2).toReal| = -(p.vec 2).toReal := abs_of_neg z0
  have ηz : 0 ≤ etaRnd mw ew * -(p.vec 2).toReal := by positivity
  have TT : 0 ≤ etaRnd mw ew * Real.tan (fov.toReal / 2) := by positivity
  have TTz : 0 ≤ etaRnd mw ew * Real.tan (fov.toReal / 2) * -(p.vec 2).toReal := by positivity
  fin_cases i
  · have := ptrip_core u0 e0 (by positivity) z0 K1 hK w1 w2 w3 (ptrip_fwd T0 z0 qx) er
    refine this.trans ?_
    simp only [_root_.Fin.zero_eta]
    linarith
  · have := ptrip_core u0 e0 (by positivity) z0 K1 hK w1 w2 w3 (ptrip_fwd T0 z0 qy) er
    refine this.trans ?_
    simp only [_root_.Fin.mk_one]
    linarith
  · have := ptrip_core (ε := 0) (X := (p.vec 2).toReal) u0 e0 le_rfl z0 K1 hK w1 w2 w3 (N := 1) (by
      rw [div_self z0.ne, sub_self, abs_zero]; positivity) er
    refine this.trans ?_
    change _ ≤ 260 * uRnd mw * (-(p.vec 2).toReal / near.toReal) * |(p.vec 2).toReal| + _
    linarith

/-- a library whose `tan` is the identity, which is correct to one float for the small angle below -/
@[reducible] def idLibm : Libm 23 8 := { sin := id, cos := id, tan := id, asin := id, acos := id, atan := id, atan2 := fun x _ => x }

attribute [local instance] idLibm in
/-- non-vacuity in `f32`: a field of view of `2^-12`, clipping planes 1 and 2, the point `(1, 3, -2)` -/
example : PerspRegular (F32.lit 1 / F32.lit 4096) (F32.lit 1) (F32.lit 2) ∧
    PNormal 23 8 3 (1 / Real.tan ((F32.lit 1 / F32.lit 4096).toReal / 2)) ((F32.lit 2).toReal / ((F32.lit 2).toReal - (F32.lit 1).toReal))
      ((F32.lit 2).toReal * (F32.lit 1).toReal / ((F32.lit 2).toReal - (F32.lit 1).toReal)) ∧
    (∀ i j, ((Transform.perspective (F32.lit 1 / F32.lit 4096) (F32.lit 1) (F32.lit 2)).minv.data i j).isFin = true) ∧
    (∃ i j, ((Transform.perspective (F32.lit 1 / F32.lit 4096) (F32.lit 1) (F32.lit 2)).minv.data i j).toReal ≠ 0) ∧
    (7 * (1 / (F32.lit 1).toReal) ≤ (F32.lit 8).toReal) ∧ (128 * uRnd 23 * (-(-F32.lit 2).toReal / (F32.lit 1).toReal) ≤ 1) := by
  obtain ⟨l1, l2, l3⟩ := toReal_lit_small
  have l8 := toReal_lit (n := 8) (by norm_num)
  have sv : ∀ {x : F32} {n : ℤ} {r : ℝ}, x.sval = n → (n : ℝ) = r * 2 ^ fK 23 8 → x.toReal = r := by
    intro x n r h1 h2
    have := sval_cast x
    rw [h1, h2] at this
    exact (mul_right_cancel₀ (by positivity) this).symm
  have vf : (F32.lit 1 / F32.lit 4096).toReal = 1 / 4096 := sv (n := 2 ^ 137) (by decide +kernel) (by unfold fK; norm_num)
  have vh : (F32.lit 1 / F32.lit 4096 * GFloat.half).toReal = 1 / 8192 := sv (n := 2 ^ 136) (by decide +kernel) (by unfold fK; norm_num)
  have vu : (GFloat.nextUp (F32.lit 1 / F32.lit 4096 * GFloat.half)).toReal = 1 / 8192 * (1 + 1 / 2 ^ 23) :=
    sv (n := 2 ^ 136 + 2 ^ 113) (by decide +kernel) (by unfold fK; norm_num)
  have vd : (GFloat.nextDown (F32.lit 1 / F32.lit 4096 * GFloat.half)).toReal = 1 / 8192 * (1 - 1 / 2 ^ 24) :=
    sv (n := 2 ^ 136 - 2 ^ 112) (by decide +kernel) (by unfold fK; norm_num)
  have fh : (F32.lit 1 / F32.lit 4096 * GFloat.half).isFin = true := by decide +kernel
  have pi3 := Real.pi_gt_three
  have t1 : (1 : ℝ) / 8192 < Real.tan (1 / 8192) := Real.lt_tan (by norm_num) (by linarith)
  have t2 : Real.tan (1 / 8192) ≤ 1 / 8192 * (1 + 1 / 2 ^ 23) := by
    have c := Real.one_sub_sq_div_two_le_cos (x := 1 / 8192)
    have s := (Real.sin_lt (x := 1 / 8192) (by norm_num)).le
    have c0 : 0 < Real.cos (1 / 8192) := lt_of_lt_of_le (by norm_num) c
    rw [Real.tan_eq_sin_div_cos, div_le_iff₀ c0]
    refine s.trans (le_trans ?_ (mul_le_mul_of_nonneg_left c (by norm_num)))
    norm_num
  have hh : (1 : ℝ) / 4096 / 2 = 1 / 8192 := by norm_num
  have acc : AccurateAt (id : F32 → F32) Real.tan (F32.lit 1 / F32.lit 4096 * GFloat.half) := by
    refine ⟨⟨by decide +kernel, ?_⟩, ⟨by decide +kernel, ?_⟩, ?_, ?_⟩
    · rw [id, val_of_isFin (by decide +kernel), vd, vh, EReal.coe_le_coe_iff]
      exact le_trans (by norm_num) t1.le
    · rw [id, val_of_isFin (by decide +kernel), vu, vh, EReal.coe_le_coe_iff]
      exact t2
    · rw [id, val_of_isFin fh, vh]
      exact ⟨fun _ => lt_trans (by norm_num) t1, fun _ => by rw [← EReal.coe_zero, EReal.coe_lt_coe_iff]; norm_num⟩
    · rw [id, val_of_isFin fh, vh]
      refine ⟨fun h => ?_, fun h => absurd (lt_trans (by norm_num) t1) (not_lt.2 h.le)⟩
      rw [← EReal.coe_zero, EReal.coe_lt_coe_iff] at h
      norm_num at h
  refine ⟨PerspRegular.mk (by decide +kernel) (by rw [vf]; norm_num) (by rw [vf]; linarith) (by
    rw [vf]; unfold etaRnd uRnd fK; norm_num) acc (by decide +kernel) (by
      rw [vf, hh]; unfold etaRnd uRnd fK; norm_num; norm_num at t2; linarith) (by decide +kernel) (by decide +kernel)
    (by rw [l1]; norm_num) (by rw [l1, l2]; norm_num) (by rw [l1]; unfold etaRnd uRnd fK; norm_num)
    (by rw [l1, l2]; unfold etaRnd uRnd fK; norm_num) (by decide +kernel) (by decide +kernel) (by decide +kernel), ?_, ?_, ?_, ?_, ?_⟩
  · rw [vf, hh, l1, l2]
    have e1 : 1 / Real.tan (1 / 8192) ≤ 8192 := by
      have := one_div_le_one_div_of_le (by norm_num) t1.le
      norm_num at this ⊢
      exact this
    have e2 : 8000 ≤ 1 / Real.tan (1 / 8192) := by
      rw [le_div_iff₀ (lt_trans (by norm_num) t1)]
      linarith
    generalize 1 / Real.tan (1 / 8192) = E at *
    have E0 : 0 < E := by linarith
    norm_num
    have s : (E : ℝ) * E ≤ 8192 * 8192 := mul_le_mul e1 e1 E0.le (by norm_num)
    have s' : (8000 : ℝ) * 8000 ≤ E * E := mul_le_mul e2 e2 (by norm_num) E0.le
    constructor <;> unfold etaRnd uRnd fK <;> norm_num [abs_mul, abs_of_pos E0] <;> nlinarith
  · decide +kernel
  · refine ⟨2, 3, fun h => ?_⟩
    exact absurd (toReal_eq_zero_iff.1 h) (by decide +kernel)
  · rw [l1, l8]; norm_num
  · rw [toReal_negop, l1, l2]; unfold uRnd; norm_num

end Scarlet
