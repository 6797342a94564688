import Verif.Props.IntervalFloat
import Verif.Props.Interval5
import Verif.Props.Transform1

/-! C129: transforms whose entries are intervals (`Transform<Interval<T>>`) enclose the exact and the float transforms. -/

set_option linter.unusedSectionVars false

namespace Scarlet
open Flt Scarlet.Interval
variable {mw ew : Nat} [FltImpl mw ew] [LawfulFlt mw ew]

/-- Computations of transforms with scalar parameters `E`. -/
inductive TExpr (E : Type) where
  /-- `Transform::new(m, minv)` (transform.rs:176-178) -/
  | new (m minv : Mat4 E)
  /-- `Transform::new(m, m.inverse())` -/
  | ofMatrix (m : Mat4 E)
  | identity
  | translate (v : Vec E 3)
  | scale (v : Vec E 3)
  | mul (a b : TExpr E)
  /-- `Invertible::inverse` -/
  | inverse (a : TExpr E)

/-- apply a function to every entry -/
def Mat4.map {A B : Type} (h : A → B) (m : Mat4 A) : Mat4 B := ⟨fun i j => h (m.data i j)⟩
/-- apply a function to every component -/
def GVec.map3 {A B : Type} {U : Marker} (h : A → B) (v : GVec A 3 U) : GVec B 3 U := GVec.new3 (h v.x) (h v.y) (h v.z)
/-- apply a function to every entry -/
def Transform.mapE {A B : Type} (h : A → B) (t : Transform A) : Transform B := ⟨t.m.map h, t.minv.map h⟩

namespace TExpr
variable {E T : Type}

/-- The computation with the code's functions (transform.rs) at scalar type `T`, the parameters evaluated by `ev`. -/
def run [Add T] [Sub T] [Mul T] [Div T] [Neg T] [Scalar T] (ev : E → T) : TExpr E → Transform T
  | new m minv => ⟨m.map ev, minv.map ev⟩
  | ofMatrix m => ⟨m.map ev, (m.map ev).inverse⟩
  | identity => Transform.identity
  | translate v => Transform.translate (v.map3 ev)
  | scale v => Transform.scale (v.map3 ev)
  | mul a b => run ev a * run ev b
  | inverse a => (run ev a).inverse
end TExpr

/-! ### running generic code on expressions -/

/-- a function that commutes with what the generic code uses -/
structure IsHom {A B : Type} [Add A] [Sub A] [Mul A] [Div A] [Neg A] [Scalar A] [Add B] [Sub B] [Mul B] [Div B] [Neg B] [Scalar B]
    (h : A → B) : Prop where
  add : ∀ a b, h (a + b) = h a + h b
  sub : ∀ a b, h (a - b) = h a - h b
  mul : ∀ a b, h (a * b) = h a * h b
  div : ∀ a b, h (a / b) = h a / h b
  neg : ∀ a, h (-a) = -h a
  zero : h Scalar.zero = Scalar.zero
  one : h Scalar.one = Scalar.one

section hom
variable {A B : Type} [Add A] [Sub A] [Mul A] [Div A] [Neg A] [Scalar A] [Add B] [Sub B] [Mul B] [Div B] [Neg B] [Scalar B]
  {h : A → B} (H : IsHom h)
include H

theorem IsHom.mat_mul (x y : Mat4 A) : (x * y).map h = x.map h * y.map h := by
  ext i j
  change h (sumLoop 4 fun k => x.data i k * y.data k j) = sumLoop 4 fun k => h (x.data i k) * h (y.data k j)
  simp only [sumLoop, H.add, H.mul, H.zero]

theorem IsHom.mat_inverse (x : Mat4 A) : x.inverse.map h = (x.map h).inverse := by
  ext i j
  fin_cases i <;> fin_cases j <;>
    simp [Mat4.inverse, Mat4.map, Mat4.mk4, H.add, H.sub, H.mul, H.div, H.neg, H.one]

theorem IsHom.translate (v : Vec A 3) : (Transform.translate v).mapE h = Transform.translate (v.map3 h) := by
  ext i j <;> fin_cases i <;> fin_cases j <;>
    simp [Transform.translate, Transform.mapE, Mat4.map, Mat4.mk4, H.neg, H.one, H.zero, GVec.map3, GVec.new3, GVec.x, GVec.y, GVec.z]

theorem IsHom.scale (v : Vec A 3) : (Transform.scale v).mapE h = Transform.scale (v.map3 h) := by
  ext i j <;> fin_cases i <;> fin_cases j <;>
    simp [Transform.scale, Transform.mapE, Mat4.map, Mat4.mk4, H.div, H.one, H.zero, GVec.map3, GVec.new3, GVec.x, GVec.y, GVec.z]

theorem IsHom.identity : (Transform.identity : Transform A).mapE h = Transform.identity := by
  ext i j <;> fin_cases i <;> fin_cases j <;>
    simp [Transform.identity, Mat4.identity, Transform.mapE, Mat4.map, Mat4.mk4, H.one, H.zero]

theorem IsHom.run {E : Type} (ev : E → A) (t : TExpr E) : (t.run ev).mapE h = t.run (h ∘ ev) := by
  induction t with
  | new m minv => rfl
  | ofMatrix m =>
    change (⟨(m.map ev).map h, (m.map ev).inverse.map h⟩ : Transform B) = _
    rw [H.mat_inverse]
    rfl
  | identity => exact H.identity
  | translate v => exact H.translate _
  | scale v => exact H.scale _
  | mul a b iha ihb =>
    change (⟨((TExpr.run ev a).m * (TExpr.run ev b).m).map h, ((TExpr.run ev b).minv * (TExpr.run ev a).minv).map h⟩ : Transform B) = _
    rw [H.mat_mul, H.mat_mul]
    change (⟨((TExpr.run ev a).mapE h).m * ((TExpr.run ev b).mapE h).m,
      ((TExpr.run ev b).mapE h).minv * ((TExpr.run ev a).mapE h).minv⟩ : Transform B) = _
    rw [iha, ihb]
    rfl
  | inverse a ih =>
    change ((TExpr.run ev a).mapE h).inverse = _
    rw [ih]
    rfl
end hom

namespace IExpr
instance {F : Type} : Add (IExpr F) := ⟨.add⟩
instance {F : Type} : Sub (IExpr F) := ⟨.sub⟩
instance {F : Type} : Mul (IExpr F) := ⟨.mul⟩
instance {F : Type} : Div (IExpr F) := ⟨.div⟩
instance {F : Type} : Neg (IExpr F) := ⟨.neg⟩
/-- Expressions as scalars: the generic code, run on expressions, returns the expressions it evaluates.  The code considered here
uses no comparison, so these are dummies. -/
instance {F : Type} [Scalar F] : Scalar (IExpr F) where
  zero := .const Scalar.zero
  one := .const Scalar.one
  lowest := .const Scalar.lowest
  highest := .const Scalar.highest
  eq _ _ := false
  pcmp _ _ := none
  min := .min
  max := .max
  square := .square
end IExpr

theorem evalI_hom (ρ : Nat → Interval (Flt mw ew)) : IsHom (IExpr.evalI ρ) :=
  ⟨fun _ _ => rfl, fun _ _ => rfl, fun _ _ => rfl, fun _ _ => rfl, fun _ => rfl, rfl, rfl⟩
theorem evalF_hom (s : Nat → Flt mw ew) : IsHom (IExpr.evalF s) :=
  ⟨fun _ _ => rfl, fun _ _ => rfl, fun _ _ => rfl, fun _ _ => rfl, fun _ => rfl, rfl, rfl⟩
theorem evalR_hom (σ : Nat → ℝ) : IsHom (IExpr.evalR (mw := mw) (ew := ew) σ) :=
  ⟨fun _ _ => rfl, fun _ _ => rfl, fun _ _ => rfl, fun _ _ => rfl, fun _ => rfl, by
    change (Scalar.zero : Flt mw ew).toReal = 0
    exact toReal_szero, by
    change (Scalar.one : Flt mw ew).toReal = 1
    exact sone_spec.2⟩

/-- Specification, a condition on the interval run alone: every interval that occurs while the entries of the transform are computed is
finite, and no two intervals that both straddle zero are multiplied. -/
def TExpr.Bounded (ρ : Nat → Interval (Flt mw ew)) (t : TExpr (IExpr (Flt mw ew))) : Prop :=
  ∀ i j, ((t.run id).m.data i j).Bounded ρ ∧ ((t.run id).minv.data i j).Bounded ρ

/-- Specification: both matrices of the interval transform contain those of the exact one. -/
def EnclosesR (A : Transform (Interval (Flt mw ew))) (x : Transform ℝ) : Prop :=
  ∀ i j, x.m.data i j ∈ A.m.data i j ∧ x.minv.data i j ∈ A.minv.data i j

/-- C129: interval transforms. Whatever is computed with `new`, `inverse`, `identity`, `translate`, `scale` and `*` from interval
parameters encloses the exact transform computed in the same way from parameters in the intervals. -/
theorem C129_real (t : TExpr (IExpr (Flt mw ew))) (ρ : Nat → Interval (Flt mw ew)) (σ : Nat → ℝ) (hσ : ∀ i, σ i ∈ ρ i) (h : t.Bounded ρ) :
    EnclosesR (t.run (IExpr.evalI ρ)) (t.run (IExpr.evalR σ)) := by
  have e1 := (evalI_hom ρ).run id t
  have e2 := (evalR_hom (mw := mw) (ew := ew) σ).run id t
  simp only [Function.comp_id] at e1 e2
  intro i j
  rw [← e1, ← e2]
  obtain ⟨b1, b2⟩ := h i j
  exact ⟨C23_partial ρ σ hσ _ (b1.defined hσ).1 (b1.defined hσ).2, C23_partial ρ σ hσ _ (b2.defined hσ).1 (b2.defined hσ).2⟩

/-- C129: and the float transform computed in the same way from floats in the intervals, which never overflows or becomes NaN. -/
theorem C129_float (t : TExpr (IExpr (Flt mw ew))) (ρ : Nat → Interval (Flt mw ew)) (s : Nat → Flt mw ew)
    (hs : ∀ i, (ρ i).HasFlt (s i)) (h : t.Bounded ρ) :
    ∀ i j, ((t.run (IExpr.evalI ρ)).m.data i j).HasFlt ((t.run (IExpr.evalF s)).m.data i j) ∧
      ((t.run (IExpr.evalI ρ)).minv.data i j).HasFlt ((t.run (IExpr.evalF s)).minv.data i j) := by
  have e1 := (evalI_hom ρ).run id t
  have e3 := (evalF_hom s).run id t
  simp only [Function.comp_id] at e1 e3
  intro i j
  rw [← e1, ← e3]
  obtain ⟨b1, b2⟩ := h i j
  exact ⟨C123_inside ρ s hs _ b1, C123_inside ρ s hs _ b2⟩

/-- C129: the product of an interval transform and its inverse contains the identity. -/
theorem C129_undo (t : TExpr (IExpr (Flt mw ew))) (ρ : Nat → Interval (Flt mw ew)) (σ : Nat → ℝ) (hσ : ∀ i, σ i ∈ ρ i)
    (hr : (t.run (IExpr.evalR σ)).Reachable) (h : (TExpr.mul t (.inverse t)).Bounded ρ) :
    EnclosesR (t.run (IExpr.evalI ρ) * (t.run (IExpr.evalI ρ)).inverse) Transform.identity := by
  have := C129_real _ ρ σ hσ h
  have e : (TExpr.mul t (.inverse t)).run (IExpr.evalR σ) = (Transform.identity : Transform ℝ) :=
    Transform.ext (C34_reachable _ hr).1 (C34_reachable _ hr).1
  rw [e] at this
  exact this

/-! ### points -/

theorem zero_mem_I : (0 : ℝ) ∈ (Scalar.zero : Interval (Flt mw ew)) := by
  have := LowerOf.of_fin (t := (Scalar.zero : Flt mw ew)) isFin_szero
  have h2 := UpperOf.of_fin (t := (Scalar.zero : Flt mw ew)) isFin_szero
  rw [toReal_szero] at this h2
  exact ⟨this, h2⟩
theorem one_mem_I : (1 : ℝ) ∈ (Scalar.one : Interval (Flt mw ew)) := by
  have := LowerOf.of_fin (t := (Scalar.one : Flt mw ew)) sone_spec.1
  have h2 := UpperOf.of_fin (t := (Scalar.one : Flt mw ew)) sone_spec.1
  rw [sone_spec.2] at this h2
  exact ⟨this, h2⟩

theorem IsHom.point {A B : Type} [Add A] [Sub A] [Mul A] [Div A] [Neg A] [Scalar A] [Add B] [Sub B] [Mul B] [Div B] [Neg B] [Scalar B]
    {h : A → B} (H : IsHom h) (M : Mat4 A) (P : Point A 3)
    (h0 : Scalar.eq (h (P.x * M.idx 3 0 + P.y * M.idx 3 1 + P.z * M.idx 3 2 + M.idx 3 3)) Scalar.zero = false) :
    mapPt (M.map h) (P.map3 h) = some (GVec.new3
      (h ((P.x * M.idx 0 0 + P.y * M.idx 0 1 + P.z * M.idx 0 2 + M.idx 0 3) / (P.x * M.idx 3 0 + P.y * M.idx 3 1 + P.z * M.idx 3 2 + M.idx 3 3)))
      (h ((P.x * M.idx 1 0 + P.y * M.idx 1 1 + P.z * M.idx 1 2 + M.idx 1 3) / (P.x * M.idx 3 0 + P.y * M.idx 3 1 + P.z * M.idx 3 2 + M.idx 3 3)))
      (h ((P.x * M.idx 2 0 + P.y * M.idx 2 1 + P.z * M.idx 2 2 + M.idx 2 3) / (P.x * M.idx 3 0 + P.y * M.idx 3 1 + P.z * M.idx 3 2 + M.idx 3 3)))) := by
  simp only [H.add, H.mul, H.div] at h0 ⊢
  unfold mapPt
  dsimp only
  rw [if_neg]
  · rfl
  · exact fun hc => Bool.false_ne_true (h0.symm.trans hc)

/-- C129: mapping a point by a matrix of intervals. If the computation stays finite and multiplies no two straddling intervals, none of the
three maps panics, and the interval image contains the exact and the float image. -/
theorem C129_point (M : Mat4 (IExpr (Flt mw ew))) (P : Point (IExpr (Flt mw ew)) 3) (ρ : Nat → Interval (Flt mw ew)) (σ : Nat → ℝ)
    (s : Nat → Flt mw ew) (hσ : ∀ i, σ i ∈ ρ i) (hs : ∀ i, (ρ i).HasFlt (s i))
    (hB : ∀ q, mapPt M P = some q → ∀ i, (q.vec i).Bounded ρ) :
    ∃ Q x y, mapPt (M.map (IExpr.evalI ρ)) (P.map3 (IExpr.evalI ρ)) = some Q ∧
      mapPt (M.map (IExpr.evalR σ)) (P.map3 (IExpr.evalR σ)) = some x ∧
      mapPt (M.map (IExpr.evalF s)) (P.map3 (IExpr.evalF s)) = some y ∧
      ∀ i, x.vec i ∈ Q.vec i ∧ (Q.vec i).HasFlt (y.vec i) := by
  have hB := hB _ rfl
  set W := P.x * M.idx 3 0 + P.y * M.idx 3 1 + P.z * M.idx 3 2 + M.idx 3 3 with hW
  have b0 : (IExpr.div (P.x * M.idx 0 0 + P.y * M.idx 0 1 + P.z * M.idx 0 2 + M.idx 0 3) W).Bounded ρ := hB 0
  have hb := b0
  unfold IExpr.Bounded at hb
  obtain ⟨hf, -, hw⟩ := hb
  have n1 : W.evalR σ ≠ 0 := (b0.defined hσ).1.2.2
  have w1 : W.evalR σ ∈ W.evalI ρ := C23_partial ρ σ hσ _ (hw.defined hσ).1 (hw.defined hσ).2
  have w2 : (W.evalI ρ).HasFlt (W.evalF s) := C123_inside ρ s hs _ hw
  have n2 : (W.evalF s).toReal ≠ 0 := fun h => nonzero_of_div hf (h ▸ w2.2)
  have z1 : Scalar.eq (W.evalR σ) Scalar.zero = false := decide_eq_false n1
  have z2 : Scalar.eq (W.evalF s) (Scalar.zero : Flt mw ew) = false := by
    rw [Bool.eq_false_iff]
    intro h
    have := (seq_iff.1 h).2.2
    rw [key_szero] at this
    exact n2 (toReal_eq_zero_iff.2 this)
  have z3 : Scalar.eq (W.evalI ρ) (Scalar.zero : Interval (Flt mw ew)) = false := by
    rw [Bool.eq_false_iff]
    intro h
    have hz : (0 : ℝ) ∈ (Scalar.zero : Interval (Flt mw ew)) := zero_mem_I
    obtain ⟨r, h1, h2⟩ := (C19_eq _ _ ⟨_, w1⟩ ⟨_, hz⟩).1 h
    exact n1 (((h1 _).1 w1).trans ((h2 _).1 hz).symm)
  refine ⟨_, _, _, (evalI_hom ρ).point M P z3, (evalR_hom σ).point M P z1, (evalF_hom s).point M P z2, fun i => ?_⟩
  have := hB i
  have r := And.intro (C23_partial ρ σ hσ _ (this.defined hσ).1 (this.defined hσ).2) (C123_inside ρ s hs _ this)
  fin_cases i <;> exact r

/-! ### rotations and perspective -/

section trig
variable [Libm mw ew] [LawfulLibm mw ew]

/-- C129: the rotations by an interval of angles at most π wide contain the rotations by all these angles. -/
theorem C129_rotations (ht : TauOk mw ew) (A : Interval (Flt mw ew)) (x : ℝ) (hx : x ∈ A) (hw : A.sup.toReal - A.inf.toReal ≤ Real.pi) :
    EnclosesR (Transform.rotateX A) (Transform.rotateX x) ∧ EnclosesR (Transform.rotateY A) (Transform.rotateY x) ∧
      EnclosesR (Transform.rotateZ A) (Transform.rotateZ x) := by
  obtain ⟨⟨h1, h2⟩, -⟩ := C24_sin_cos_tan_partial ht A x hx hw
  have z := zero_mem_I (mw := mw) (ew := ew)
  have o := one_mem_I (mw := mw) (ew := ew)
  unfold Transform.rotateX Transform.rotateY Transform.rotateZ
  rw [show (GTrig.sinCos x : ℝ × ℝ) = (Real.sin x, Real.cos x) from rfl]
  generalize (GTrig.sinCos A : Interval (Flt mw ew) × Interval (Flt mw ew)) = q at h1 h2 ⊢
  generalize Real.sin x = u at h1 ⊢
  generalize Real.cos x = v at h2 ⊢
  obtain ⟨S, C⟩ := q
  have h3 : -u ∈ -S := C18_neg _ _ h1
  dsimp only at h1 h2 ⊢
  refine ⟨?_, ?_, ?_⟩
  · intro i j
    fin_cases i <;> fin_cases j
    exacts [⟨o, o⟩, ⟨z, z⟩, ⟨z, z⟩, ⟨z, z⟩, ⟨z, z⟩, ⟨h2, h2⟩, ⟨h3, h1⟩, ⟨z, z⟩, ⟨z, z⟩, ⟨h1, h3⟩, ⟨h2, h2⟩, ⟨z, z⟩, ⟨z, z⟩, ⟨z, z⟩, ⟨z, z⟩, ⟨o, o⟩]
  · intro i j
    fin_cases i <;> fin_cases j
    exacts [⟨h2, h2⟩, ⟨z, z⟩, ⟨h1, h3⟩, ⟨z, z⟩, ⟨z, z⟩, ⟨o, o⟩, ⟨z, z⟩, ⟨z, z⟩, ⟨h3, h1⟩, ⟨z, z⟩, ⟨h2, h2⟩, ⟨z, z⟩, ⟨z, z⟩, ⟨z, z⟩, ⟨z, z⟩, ⟨o, o⟩]
  · intro i j
    fin_cases i <;> fin_cases j
    exacts [⟨h2, h2⟩, ⟨h3, h1⟩, ⟨z, z⟩, ⟨z, z⟩, ⟨h1, h3⟩, ⟨h2, h2⟩, ⟨z, z⟩, ⟨z, z⟩, ⟨z, z⟩, ⟨z, z⟩, ⟨o, o⟩, ⟨z, z⟩, ⟨z, z⟩, ⟨z, z⟩, ⟨z, z⟩, ⟨o, o⟩]

/-- the matrix of `perspective` (transform.rs:397-413) in terms of `tan(fov/2)`, `near` and `far` as variables 0, 1 and 2 -/
def perspMat (F : Type) [Scalar F] : Mat4 (IExpr F) :=
  Mat4.mk4 (-(GFloat.recip (.var 0))) Scalar.zero Scalar.zero Scalar.zero
    Scalar.zero (-(GFloat.recip (.var 0))) Scalar.zero Scalar.zero
    Scalar.zero Scalar.zero (.div (.var 2) (.sub (.var 2) (.var 1))) (.div (.mul (.var 2) (.var 1)) (.sub (.var 2) (.var 1)))
    Scalar.zero Scalar.zero Scalar.one Scalar.zero

theorem perspective_run {T : Type} [Add T] [Sub T] [Mul T] [Div T] [Neg T] [Scalar T] [GFloat T] [GTrig T] {F : Type} [Scalar F]
    {h : IExpr F → T} (H : IsHom h) (fov near far : T) (h0 : h (.var 0) = GTrig.tan (fov * GFloat.half)) (h1 : h (.var 1) = near)
    (h2 : h (.var 2) = far) : Transform.perspective fov near far = (TExpr.ofMatrix (perspMat F)).run h := by
  have e : (perspMat F).map h = Mat4.mk4
      (-(GFloat.recip (GTrig.tan (fov * GFloat.half)))) Scalar.zero Scalar.zero Scalar.zero
      Scalar.zero (-(GFloat.recip (GTrig.tan (fov * GFloat.half)))) Scalar.zero Scalar.zero
      Scalar.zero Scalar.zero (far / (far - near)) (far * near / (far - near))
      Scalar.zero Scalar.zero Scalar.one Scalar.zero := by
    have s1 : h (.sub (.var 2) (.var 1)) = far - near := (H.sub _ _).trans (by rw [h1, h2])
    have s2 : h (.mul (.var 2) (.var 1)) = far * near := (H.mul _ _).trans (by rw [h1, h2])
    have d1 : h (.div (.var 2) (.sub (.var 2) (.var 1))) = far / (far - near) := (H.div _ _).trans (by rw [h2, s1])
    have d2 : h (.div (.mul (.var 2) (.var 1)) (.sub (.var 2) (.var 1))) = far * near / (far - near) := (H.div _ _).trans (by rw [s2, s1])
    have r : h (-(GFloat.recip (.var 0))) = -(GFloat.recip (GTrig.tan (fov * GFloat.half))) := by
      unfold GFloat.recip
      rw [H.neg, H.div, H.one, h0]
    ext i j
    fin_cases i <;> fin_cases j
    exacts [r, H.zero, H.zero, H.zero, H.zero, r, H.zero, H.zero, H.zero, H.zero, d1, d2, H.zero, H.zero, H.one, H.zero]
  change _ = (⟨(perspMat F).map h, ((perspMat F).map h).inverse⟩ : Transform T)
  rw [e]
  rfl

/-- C129: `perspective` with interval parameters contains `perspective` for all parameters in the intervals, its inverse matrix included. -/
theorem C129_perspective (ht : TauOk mw ew) (FOV NEAR FAR : Interval (Flt mw ew)) (fov near far : ℝ) (h0 : fov ∈ FOV) (h1 : near ∈ NEAR)
    (h2 : far ∈ FAR) (hf : Interval.Finite FOV) (hfov : 0 < fov) (hpi : fov < Real.pi)
    (hw : (FOV * (GFloat.half : Interval (Flt mw ew))).sup.toReal - (FOV * (GFloat.half : Interval (Flt mw ew))).inf.toReal ≤ Real.pi)
    (hB : (TExpr.ofMatrix (perspMat (Flt mw ew))).Bounded fun i =>
      if i = 0 then GTrig.tan (FOV * GFloat.half) else if i = 1 then NEAR else FAR) :
    EnclosesR (Transform.perspective FOV NEAR FAR) (Transform.perspective fov near far) := by
  obtain ⟨hh, hv⟩ := half_spec (mw := mw) (ew := ew)
  have mh : (1 / 2 : ℝ) ∈ (GFloat.half : Interval (Flt mw ew)) := by
    have a := LowerOf.of_fin (t := (GFloat.half : Flt mw ew)) hh
    have b := UpperOf.of_fin (t := (GFloat.half : Flt mw ew)) hh
    rw [hv] at a b
    exact ⟨a, b⟩
  have fh : Interval.Finite (GFloat.half : Interval (Flt mw ew)) := ⟨hh, hh⟩
  have m1 : fov * (1 / 2) ∈ FOV * (GFloat.half : Interval (Flt mw ew)) := by
    refine C12_mul_finite_partial _ _ _ _ h0 mh hf fh ?_
    rintro ⟨-, -, -, h3, -⟩
    change (GFloat.half : Flt mw ew).val < 0 at h3
    rw [val_of_isFin hh, hv] at h3
    exact absurd (EReal.coe_lt_coe_iff.1 h3) (by norm_num)
  have hc : Real.cos (fov * (1 / 2)) ≠ 0 := (Real.cos_pos_of_mem_Ioo ⟨by linarith, by linarith⟩).ne'
  have mt := (C24_sin_cos_tan_partial ht _ _ m1 hw).2 hc
  set ρ : Nat → Interval (Flt mw ew) := fun i => if i = 0 then GTrig.tan (FOV * GFloat.half) else if i = 1 then NEAR else FAR with hρ
  set σ : Nat → ℝ := fun i => if i = 0 then Real.tan (fov * (1 / 2)) else if i = 1 then near else far with hσ
  have hm : ∀ i, σ i ∈ ρ i := by
    intro i
    simp only [hρ, hσ]
    by_cases i0 : i = 0
    · rw [if_pos i0, if_pos i0]; exact mt
    · rw [if_neg i0, if_neg i0]
      by_cases i1 : i = 1
      · rw [if_pos i1, if_pos i1]; exact h1
      · rw [if_neg i1, if_neg i1]; exact h2
  rw [perspective_run (evalI_hom ρ) FOV NEAR FAR rfl rfl rfl,
    perspective_run (evalR_hom (mw := mw) (ew := ew) σ) fov near far rfl rfl rfl]
  exact fun i j => (C129_real _ ρ σ hm hB i j)
end trig

/-! ### products of straddling intervals go wrong in transforms too; examples -/

/-- a check of `IExpr.Bounded` that evaluates -/
def IExpr.boundedB (ρ : Nat → Interval F32) : IExpr F32 → Bool
  | var i => (ρ i).inf.isFin && (ρ i).sup.isFin
  | const t => t.isFin
  | mul a b => boundedB ρ a && boundedB ρ b && ((evalI ρ a * evalI ρ b).inf.isFin && (evalI ρ a * evalI ρ b).sup.isFin) &&
      !((decide ((evalI ρ a).inf.key < 0) && decide (0 < (evalI ρ a).sup.key)) && (decide ((evalI ρ b).inf.key < 0) && decide (0 < (evalI ρ b).sup.key)))
  | add a b => boundedB ρ a && boundedB ρ b && ((evalI ρ a + evalI ρ b).inf.isFin && (evalI ρ a + evalI ρ b).sup.isFin)
  | sub a b => boundedB ρ a && boundedB ρ b && ((evalI ρ a - evalI ρ b).inf.isFin && (evalI ρ a - evalI ρ b).sup.isFin)
  | div a b => boundedB ρ a && boundedB ρ b && ((evalI ρ a / evalI ρ b).inf.isFin && (evalI ρ a / evalI ρ b).sup.isFin)
  | neg a => boundedB ρ a && ((-evalI ρ a).inf.isFin && (-evalI ρ a).sup.isFin)
  | _ => false

theorem IExpr.bounded_of_check (ρ : Nat → Interval F32) (e : IExpr F32) (h : e.boundedB ρ = true) : e.Bounded ρ := by
  induction e with
  | var i =>
    simp only [boundedB, Bool.and_eq_true] at h
    unfold Bounded; exact ⟨⟨h.1, h.2⟩, trivial⟩
  | const t =>
    simp only [boundedB] at h
    unfold Bounded; exact ⟨⟨h, h⟩, trivial⟩
  | mul a b iha ihb =>
    simp only [boundedB, Bool.and_eq_true] at h
    obtain ⟨⟨⟨h1, h2⟩, h3, h4⟩, h5⟩ := h
    unfold Bounded
    refine ⟨⟨h3, h4⟩, iha h1, ihb h2, ?_⟩
    rintro ⟨⟨a1, a2, a3, a4⟩, b1, b2, b3, b4⟩
    rw [val_lt_zero_iff a1] at a3
    rw [val_lt_zero_iff b1] at b3
    rw [val_zero_lt_iff a2] at a4
    rw [val_zero_lt_iff b2] at b4
    simp [a3, a4, b3, b4] at h5
  | add a b iha ihb =>
    simp only [boundedB, Bool.and_eq_true] at h
    unfold Bounded; exact ⟨h.2, iha h.1.1, ihb h.1.2⟩
  | sub a b iha ihb =>
    simp only [boundedB, Bool.and_eq_true] at h
    unfold Bounded; exact ⟨h.2, iha h.1.1, ihb h.1.2⟩
  | div a b iha ihb =>
    simp only [boundedB, Bool.and_eq_true] at h
    unfold Bounded; exact ⟨h.2, iha h.1.1, ihb h.1.2⟩
  | neg a iha =>
    simp only [boundedB, Bool.and_eq_true] at h
    unfold Bounded; exact ⟨h.2, iha h.1⟩
  | _ => exact absurd h Bool.false_ne_true

/-- `scale(v_0, v_1, v_1) * translate(v_1, v_0, v_0)` and its inverse -/
def exT : TExpr (IExpr F32) :=
  .inverse (.mul (.scale (GVec.new3 (.var 0) (.var 1) (.var 1))) (.translate (GVec.new3 (.var 1) (.var 0) (.var 0))))

/-- `C129_real`, `C129_float`: `v_0` in `[1,2]`, `v_1` in `[-3,-1]` -/
example : exT.Bounded fun i => if i = 0 then ⟨F32.lit 1, F32.lit 2⟩ else ⟨-(F32.lit 3), -(F32.lit 1)⟩ := fun i j =>
  ⟨IExpr.bounded_of_check _ _ (by revert i j; decide +kernel), IExpr.bounded_of_check _ _ (by revert i j; decide +kernel)⟩

/-- `C129_perspective`: `tan(fov/2)` in `[1,2]`, `near` in `[1,2]`, `far` in `[4,5]` -/
example : (TExpr.ofMatrix (perspMat F32)).Bounded fun i => if i = 0 then ⟨F32.lit 1, F32.lit 2⟩ else if i = 1 then ⟨F32.lit 1, F32.lit 2⟩
    else ⟨F32.lit 4, F32.lit 5⟩ := fun i j =>
  ⟨IExpr.bounded_of_check _ _ (by revert i j; decide +kernel), IExpr.bounded_of_check _ _ (by revert i j; decide +kernel)⟩

/-- `C129_point`: the point `(v_0, v_1, v_0)` mapped by `exT` -/
example : ∀ q, mapPt (exT.run id).m (GVec.new3 (.var 0) (.var 1) (.var 0)) = some q → ∀ i, (q.vec i).Bounded fun i =>
    if i = 0 then ⟨F32.lit 1, F32.lit 2⟩ else ⟨-(F32.lit 3), -(F32.lit 1)⟩ := by
  intro q hq i
  obtain rfl : _ = q := Option.some.inj hq
  exact IExpr.bounded_of_check _ _ (by revert i; decide +kernel)

/-- `C129_undo`: scaling by `[1,2]` along each axis -/
example : ∃ (t : TExpr (IExpr F32)) (ρ : Nat → Interval F32) (σ : Nat → ℝ), (∀ i, σ i ∈ ρ i) ∧ (t.run (IExpr.evalR σ)).Reachable ∧
    (TExpr.mul t (.inverse t)).Bounded ρ := by
  refine ⟨.scale (GVec.new3 (.var 0) (.var 1) (.var 2)), fun _ => ⟨F32.lit 1, F32.lit 2⟩, fun _ => 2, fun _ => ?_, ?_, fun i j =>
    ⟨IExpr.bounded_of_check _ _ (by revert i j; decide +kernel), IExpr.bounded_of_check _ _ (by revert i j; decide +kernel)⟩⟩
  · have h : (⟨F32.lit 1, F32.lit 2⟩ : Interval F32).HasFlt (F32.lit 2) :=
      ⟨by decide +kernel, (lowerOf_fin (by decide +kernel)).2 (toReal_le_iff.2 (by decide +kernel)),
        (upperOf_fin (by decide +kernel)).2 (toReal_le_iff.2 (by decide +kernel))⟩
    have := h.2
    rwa [toReal_lit_small.2.1] at this
  · refine Transform.Reachable.scale _ fun i => ?_
    fin_cases i <;> exact two_ne_zero

/-- C129: without the condition on products it is false: scaling by `[-1,2]` after scaling by `[-3,1]` does not contain scaling by -1 after
scaling by -3. -/
theorem C129_refuted : ∃ (t : TExpr (IExpr F32)) (ρ : Nat → Interval F32) (σ : Nat → ℝ), (∀ i, σ i ∈ ρ i) ∧
    t = .mul (.scale (GVec.new3 (.var 0) (.const (F32.lit 1)) (.const (F32.lit 1)))) (.scale (GVec.new3 (.var 1) (.const (F32.lit 1)) (.const (F32.lit 1)))) ∧
    (∀ i j, Interval.Finite ((t.run (IExpr.evalI ρ)).m.data i j)) ∧
    ¬ EnclosesR (t.run (IExpr.evalI ρ)) (t.run (IExpr.evalR σ)) := by
  refine ⟨_, fun i => if i = 0 then exA else exB, fun i => if i = 0 then -1 else -3, ?_, rfl, ?_, ?_⟩
  · intro i
    have h1 : exA.HasFlt (-(F32.lit 1)) := ⟨by decide +kernel, (lowerOf_fin (by decide +kernel)).2 (toReal_le_iff.2 (by decide +kernel)),
      (upperOf_fin (by decide +kernel)).2 (toReal_le_iff.2 (by decide +kernel))⟩
    have h3 : exB.HasFlt (-(F32.lit 3)) := ⟨by decide +kernel, (lowerOf_fin (by decide +kernel)).2 (toReal_le_iff.2 (by decide +kernel)),
      (upperOf_fin (by decide +kernel)).2 (toReal_le_iff.2 (by decide +kernel))⟩
    have e1 := h1.2
    have e3 := h3.2
    rw [toReal_negop, toReal_lit_small.1] at e1
    rw [toReal_negop, toReal_lit_small.2.2] at e3
    by_cases i0 : i = 0
    · simp only [i0, if_true]; exact e1
    · simp only [i0, if_false]; exact e3
  · unfold Interval.Finite; decide +kernel
  · intro h
    have h0 := (h 0 0).1
    have hf : Interval.Finite (((TExpr.mul (.scale (GVec.new3 (.var 0) (.const (F32.lit 1)) (.const (F32.lit 1))))
        (.scale (GVec.new3 (.var 1) (.const (F32.lit 1)) (.const (F32.lit 1)))) : TExpr (IExpr F32)).run
          (IExpr.evalI fun i => if i = 0 then exA else exB)).m.data 0 0) := by unfold Interval.Finite; decide +kernel
    have h2 := ((mem_fin_iff hf _).1 h0).2
    have hs : (((TExpr.mul (.scale (GVec.new3 (.var 0) (.const (F32.lit 1)) (.const (F32.lit 1))))
        (.scale (GVec.new3 (.var 1) (.const (F32.lit 1)) (.const (F32.lit 1)))) : TExpr (IExpr F32)).run
          (IExpr.evalI fun i => if i = 0 then exA else exB)).m.data 0 0).sup.toReal < (F32.lit 3).toReal := toReal_lt_iff.2 (by decide +kernel)
    rw [toReal_lit_small.2.2] at hs
    have hr : ((TExpr.mul (.scale (GVec.new3 (.var 0) (.const (F32.lit 1)) (.const (F32.lit 1))))
        (.scale (GVec.new3 (.var 1) (.const (F32.lit 1)) (.const (F32.lit 1)))) : TExpr (IExpr F32)).run
          (IExpr.evalR fun i => if i = 0 then (-1 : ℝ) else -3)).m.data 0 0 = 3 := by
      change ((((0 : ℝ) + (-1) * (-3)) + 0 * 0) + 0 * 0) + 0 * 0 = 3
      norm_num
    rw [hr] at h2
    linarith

end Scarlet
