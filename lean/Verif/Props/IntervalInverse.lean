import Verif.Props.IntervalLook
import Verif.Props.Matrix

/-!
C150: `Matrix4x4::inverse` on a matrix of intervals, when its run is certified (Spec/Cert.lean), proves that every matrix with entries in
the intervals is invertible, and bounds the inverses of all of them and the error of the inverse computed in floats.
-/

set_option linter.unusedSectionVars false

namespace Scarlet
open Flt Scarlet.Interval
variable {mw ew : Nat} [FltImpl mw ew] [LawfulFlt mw ew]

/-- The matrix as certificates. -/
def Mat4.cert (A : Mat4 (Interval (Flt mw ew))) : Mat4 (Cert mw ew) := A.map Cert.of
/-- All entries certified. -/
def Mat4.Ok (A : Mat4 (Cert mw ew)) : Prop := ∀ i j, (A.data i j).ok = true
/-- the real matrix is in the interval matrix -/
def Mat4.HasReal (A : Mat4 (Interval (Flt mw ew))) (x : Matrix (_root_.Fin 4) (_root_.Fin 4) ℝ) : Prop := ∀ i j, x i j ∈ A.data i j
/-- the float matrix is in the interval matrix -/
def Mat4.HasFloat (A : Mat4 (Interval (Flt mw ew))) (f : Mat4 (Flt mw ew)) : Prop := ∀ i j, (A.data i j).HasFlt (f.data i j)

/-- the determinant as `inverse_impl` computes it (transform_inverse_impl.rs:80-81) -/
def Mat4.detG {T : Type} [Add T] [Sub T] [Mul T] (a : Mat4 T) : T :=
  a.data 0 0 * (a.data 1 1 * (a.data 2 2 * a.data 3 3 - a.data 2 3 * a.data 3 2)
        - a.data 1 2 * (a.data 2 1 * a.data 3 3 - a.data 2 3 * a.data 3 1)
        + a.data 1 3 * (a.data 2 1 * a.data 3 2 - a.data 2 2 * a.data 3 1)) -
      a.data 0 1 * (a.data 1 0 * (a.data 2 2 * a.data 3 3 - a.data 2 3 * a.data 3 2)
        - a.data 1 2 * (a.data 2 0 * a.data 3 3 - a.data 2 3 * a.data 3 0)
        + a.data 1 3 * (a.data 2 0 * a.data 3 2 - a.data 2 2 * a.data 3 0)) +
      a.data 0 2 * (a.data 1 0 * (a.data 2 1 * a.data 3 3 - a.data 2 3 * a.data 3 1)
        - a.data 1 1 * (a.data 2 0 * a.data 3 3 - a.data 2 3 * a.data 3 0)
        + a.data 1 3 * (a.data 2 0 * a.data 3 1 - a.data 2 1 * a.data 3 0)) -
      a.data 0 3 * (a.data 1 0 * (a.data 2 1 * a.data 3 2 - a.data 2 2 * a.data 3 1)
        - a.data 1 1 * (a.data 2 0 * a.data 3 2 - a.data 2 2 * a.data 3 0)
        + a.data 1 2 * (a.data 2 0 * a.data 3 1 - a.data 2 1 * a.data 3 0))

theorem IsHom.detG {A B : Type} [Add A] [Sub A] [Mul A] [Div A] [Neg A] [Scalar A] [Add B] [Sub B] [Mul B] [Div B] [Neg B] [Scalar B]
    {h : A → B} (H : IsHom h) (x : Mat4 A) : h x.detG = (x.map h).detG := by
  simp only [Mat4.detG, Mat4.map, H.add, H.sub, H.mul]

/-- package a matrix with its enclosure -/
noncomputable def Enc.mat {A : Mat4 (Interval (Flt mw ew))} (hA : ∀ i j, Interval.Finite (A.data i j)) {x : Mat4 ℝ} {f : Mat4 (Flt mw ew)}
    (hx : A.HasReal x.toMatrix) (hf : A.HasFloat f) : Mat4 (Enc mw ew) :=
  ⟨fun i j => ⟨Cert.of (A.data i j), x.data i j, f.data i j, fun _ => ⟨hA i j, hx i j, hf i j⟩⟩⟩

/-- a finite nonempty interval contains a float -/
theorem hasFlt_of_mem {A : Interval (Flt mw ew)} (hA : Interval.Finite A) {x : ℝ} (hx : x ∈ A) : A.HasFlt A.inf :=
  ⟨hA.1, (mem_fin_iff hA _).2 ⟨le_rfl, ((mem_fin_iff hA _).1 hx).1.trans ((mem_fin_iff hA _).1 hx).2⟩⟩

theorem detInv_ok {A : Mat4 (Interval (Flt mw ew))} (hok : A.cert.inverse.Ok) :
    A.cert.detG.ok = true ∧ Interval.Finite ((Scalar.one : Interval (Flt mw ew)) / A.cert.detG.i) := by
  have h := (Cert.mul_ok (hok 0 0)).2
  change (true && A.cert.detG.ok && Cert.fin ((Scalar.one : Interval (Flt mw ew)) / A.cert.detG.i)) = true at h
  rw [Bool.and_eq_true, Bool.true_and, Cert.fin_iff] at h
  exact h

theorem detG_real (x : Mat4 ℝ) : x.detG = x.toMatrix.det := (Mat4.det_eq x).symm

theorem cert_detG (A : Mat4 (Interval (Flt mw ew))) : A.cert.detG.i = A.detG := Cert.hom_i.toIsHom.detG A.cert

theorem det_mem {A : Mat4 (Interval (Flt mw ew))} (hA : ∀ i j, Interval.Finite (A.data i j)) (hok : A.cert.inverse.Ok)
    {x : Matrix (_root_.Fin 4) (_root_.Fin 4) ℝ} (hx : A.HasReal x) : Interval.Finite A.detG ∧ x.det ∈ A.detG ∧ (0 : ℝ) ∉ A.detG := by
  obtain ⟨h1, h2⟩ := detInv_ok hok
  let f : Mat4 (Flt mw ew) := ⟨fun i j => (A.data i j).inf⟩
  have hf : A.HasFloat f := fun i j => hasFlt_of_mem (hA i j) (hx i j)
  let y : Mat4 ℝ := ⟨x⟩
  let E := Enc.mat hA (x := y) hx hf
  have e : E.detG.c = A.cert.detG := Enc.hom_c.toIsHom.detG E
  have er : E.detG.r = y.detG := Enc.hom_r.toIsHom.detG E
  obtain ⟨k1, k2, -⟩ := E.detG.h (by rw [e]; exact h1)
  rw [e, cert_detG] at k1 k2
  rw [er, detG_real] at k2
  rw [cert_detG] at h2
  exact ⟨k1, k2, nonzero_of_div h2⟩

/-- C150: if the interval inverse is certified, every matrix with entries in the intervals is invertible, and the interval inverse contains its
inverse and the inverse computed in floats for every float matrix in the intervals. -/
theorem C150_inverse (A : Mat4 (Interval (Flt mw ew))) (hA : ∀ i j, Interval.Finite (A.data i j)) (hok : A.cert.inverse.Ok) :
    (∀ x, A.HasReal x → IsUnit x ∧ A.inverse.HasReal x⁻¹) ∧ ∀ f, A.HasFloat f → A.inverse.HasFloat f.inverse := by
  have ei : A.cert.inverse.map Cert.i = A.inverse := Cert.hom_i.toIsHom.mat_inverse A.cert
  have key : ∀ (y : Mat4 ℝ) (f : Mat4 (Flt mw ew)), A.HasReal y.toMatrix → A.HasFloat f → ∀ i j,
      y.inverse.data i j ∈ A.inverse.data i j ∧ (A.inverse.data i j).HasFlt (f.inverse.data i j) := by
    intro y f hy hf i j
    let E := Enc.mat hA hy hf
    have ec : E.inverse.map Enc.c = A.cert.inverse := Enc.hom_c.toIsHom.mat_inverse E
    have er : E.inverse.map Enc.r = y.inverse := Enc.hom_r.toIsHom.mat_inverse E
    have ef : E.inverse.map Enc.f = f.inverse := Enc.hom_f.toIsHom.mat_inverse E
    have h := (E.inverse.data i j).h (by
      have := hok i j
      rw [← ec] at this
      exact this)
    rw [← ei, ← er, ← ef, ← ec]
    exact h.2
  constructor
  · intro x hx
    have hd := det_mem hA hok hx
    have d0 : x.det ≠ 0 := fun h => hd.2.2 (h ▸ hd.2.1)
    refine ⟨(Matrix.isUnit_iff_isUnit_det _).2 (isUnit_iff_ne_zero.2 d0), fun i j => ?_⟩
    have s := C33_inverse_spec ⟨x⟩ d0
    have k := (key ⟨x⟩ ⟨fun i j => (A.data i j).inf⟩ hx (fun i j => hasFlt_of_mem (hA i j) (hx i j)) i j).1
    have s' : (⟨x⟩ : Mat4 ℝ).inverse.data i j = x⁻¹ i j := congrFun (congrFun s i) j
    rw [← s']
    exact k
  · intro f hf i j
    exact (key ⟨fun i j => (f.data i j).toReal⟩ f (fun i j => (hf i j).2) hf i j).2

/-- C150: and the widths of the interval inverse bound the errors of the inverse computed in floats, and how far the inverses of any two
matrices in the intervals are apart. -/
theorem C150_error (A : Mat4 (Interval (Flt mw ew))) (hA : ∀ i j, Interval.Finite (A.data i j)) (hok : A.cert.inverse.Ok)
    (x y : Matrix (_root_.Fin 4) (_root_.Fin 4) ℝ) (f : Mat4 (Flt mw ew)) (hx : A.HasReal x) (hy : A.HasReal y) (hf : A.HasFloat f) (i j : _root_.Fin 4) :
    |(f.inverse.data i j).toReal - x⁻¹ i j| ≤ (A.inverse.data i j).sup.toReal - (A.inverse.data i j).inf.toReal ∧
    |y⁻¹ i j - x⁻¹ i j| ≤ (A.inverse.data i j).sup.toReal - (A.inverse.data i j).inf.toReal := by
  obtain ⟨h1, h2⟩ := C150_inverse A hA hok
  have fin : Interval.Finite (A.inverse.data i j) := by
    have ei : A.cert.inverse.map Cert.i = A.inverse := Cert.hom_i.toIsHom.mat_inverse A.cert
    let E := Enc.mat hA (x := ⟨x⟩) hx hf
    have ec : E.inverse.map Enc.c = A.cert.inverse := Enc.hom_c.toIsHom.mat_inverse E
    have h := (E.inverse.data i j).h (by
      have := hok i j
      rw [← ec] at this
      exact this)
    rw [← ei, ← ec]
    exact h.1
  have a := (mem_fin_iff fin _).1 ((h1 x hx).2 i j)
  have b := (mem_fin_iff fin _).1 ((h1 y hy).2 i j)
  have c := (mem_fin_iff fin _).1 (h2 f hf i j).2
  exact ⟨_root_.abs_le.2 ⟨by linarith [a.1, a.2, c.1, c.2], by linarith [a.1, a.2, c.1, c.2]⟩,
    _root_.abs_le.2 ⟨by linarith [a.1, a.2, b.1, b.2], by linarith [a.1, a.2, b.1, b.2]⟩⟩

/-- C150: all matrices in the intervals have the same orientation. -/
theorem C150_orientation (A : Mat4 (Interval (Flt mw ew))) (hA : ∀ i j, Interval.Finite (A.data i j)) (hok : A.cert.inverse.Ok)
    (x y : Matrix (_root_.Fin 4) (_root_.Fin 4) ℝ) (hx : A.HasReal x) (hy : A.HasReal y) : 0 < x.det * y.det := by
  obtain ⟨f, mx, n⟩ := det_mem hA hok hx
  obtain ⟨-, my, -⟩ := det_mem hA hok hy
  rw [mem_fin_iff f] at mx my n
  have h : 0 < A.detG.inf.toReal ∨ A.detG.sup.toReal < 0 := by
    by_contra hc
    push Not at hc
    exact n hc
  rcases h with h | h
  · exact mul_pos (h.trans_le mx.1) (h.trans_le my.1)
  · exact mul_pos_of_neg_of_neg (mx.2.trans_lt h) (my.2.trans_lt h)

/-- C150: a matrix of intervals that contains a singular matrix is never certified. -/
theorem C150_singular (A : Mat4 (Interval (Flt mw ew))) (hA : ∀ i j, Interval.Finite (A.data i j))
    (x : Matrix (_root_.Fin 4) (_root_.Fin 4) ℝ) (hx : A.HasReal x) (h : x.det = 0) : ¬ A.cert.inverse.Ok := fun hok =>
  (det_mem hA hok hx).2.2 (h ▸ (det_mem hA hok hx).2.1)

/-- The hypotheses are met by a matrix that is not diagonal, with entries known to within a half, containing many matrices, -/
def exMatI : Mat4 (Interval F32) :=
  let o : Interval F32 := Scalar.one
  let w : Interval F32 := ⟨F32.lit 3, F32.lit 4⟩
  let z : Interval F32 := Scalar.zero
  Mat4.mk4 w o z o z w o z o z w o z z z o
example : exMatI.cert.inverse.Ok := by unfold Mat4.Ok; decide +kernel
example : (∀ i j, Interval.Finite (exMatI.data i j)) ∧ exMatI.HasReal (fun i j => (exMatI.data i j).sup.toReal) ∧
    exMatI.HasFloat ⟨fun i j => (exMatI.data i j).sup⟩ := by
  have h : ∀ i j, (exMatI.data i j).inf.isFin = true ∧ (exMatI.data i j).sup.isFin = true ∧
      (exMatI.data i j).inf.key ≤ (exMatI.data i j).sup.key := by decide +kernel
  have hA : ∀ i j, Interval.Finite (exMatI.data i j) := fun i j => ⟨(h i j).1, (h i j).2.1⟩
  have hm : ∀ i j, (exMatI.data i j).sup.toReal ∈ exMatI.data i j := fun i j =>
    (mem_fin_iff (hA i j) _).2 ⟨toReal_le_iff.2 (h i j).2.2, le_rfl⟩
  exact ⟨hA, hm, fun i j => ⟨(h i j).2.1, hm i j⟩⟩

end Scarlet
