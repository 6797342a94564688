import Verif.Props.FloatVec
import Verif.Props.LawsFloat

/-! C166: which laws of matrix algebra hold bit for bit on floats; the inverse of a composition of rotations is its transpose. -/

set_option linter.unusedSectionVars false

namespace Scarlet
open Flt

section flt
variable {mw ew : Nat} [FltImpl mw ew] [LawfulFlt mw ew]

theorem transp_entry {T : Type} (a : Mat4 T) (i j : _root_.Fin 4) : a.transpose.data i j = a.data j i := by
  fin_cases i <;> fin_cases j <;> rfl

/-- **C166**: transposing reverses products bit for bit, NaN, infinities and signed zeros included. -/
theorem C166_transpose (a b : Mat4 (Flt mw ew)) : (a * b).transpose = b.transpose * a.transpose := by
  ext i j
  rw [transp_entry]
  change sumLoop 4 (fun k => a.data j k * b.data k i) = sumLoop 4 (fun k => b.transpose.data i k * a.transpose.data k j)
  refine sumLoop_congr fun k => ?_
  rw [transp_entry, transp_entry]
  exact Flt.mul_comm' _ _

/-- **C166**: a matrix times its transpose is symmetric bit for bit. -/
theorem C166_symmetric (a : Mat4 (Flt mw ew)) (i j : _root_.Fin 4) :
    (a * a.transpose).data i j = (a * a.transpose).data j i := by
  have tt : a.transpose.transpose = a := by ext i j; rw [transp_entry, transp_entry]
  have := C166_transpose a a.transpose
  rw [tt] at this
  rw [← transp_entry (a * a.transpose) j i, this]

/-- **C166**: a scalar factor acts on every entry with one rounding, and commutes with transposing, bit for bit. -/
theorem C166_scalar (a : Mat4 (Flt mw ew)) (r : Flt mw ew) :
    (∀ i j, (a * r).data i j = a.data i j * r) ∧ (a * r).transpose = a.transpose * r := by
  have e : ∀ (b : Mat4 (Flt mw ew)) i j, (b * r).data i j = b.data i j * r := fun b i j => by
    have : (b * r).data i j = r * b.data i j := by fin_cases i <;> fin_cases j <;> rfl
    rw [this]; exact Flt.mul_comm' _ _
  refine ⟨e a, ?_⟩
  ext i j
  rw [transp_entry, e, e, transp_entry]

variable [Libm mw ew]

/-- Specification: the transforms that are built of rotations about axes through the origin, by composing and inverting. -/
inductive FloatTurns : Transform (Flt mw ew) → Prop
  | identity : FloatTurns .identity
  | rotateX (angle : Flt mw ew) : FloatTurns (.rotateX angle)
  | rotateY (angle : Flt mw ew) : FloatTurns (.rotateY angle)
  | rotateZ (angle : Flt mw ew) : FloatTurns (.rotateZ angle)
  | rotate (axis : Vec (Flt mw ew) 3) (angle : Flt mw ew) : FloatTurns (.rotate axis angle)
  | mul {a b : Transform (Flt mw ew)} : FloatTurns a → FloatTurns b → FloatTurns (a * b)
  | inverse {a : Transform (Flt mw ew)} : FloatTurns a → FloatTurns a.inverse

/-- **C166**: however many rotations are composed and inverted, on floats the inverse matrix is the transpose of the matrix, bit for
bit: rounding does not make the two drift apart. -/
theorem C166_rotations (t : Transform (Flt mw ew)) (h : FloatTurns t) : t.inverseMatrix = t.matrix.transpose := by
  have tt : ∀ a : Mat4 (Flt mw ew), a.transpose.transpose = a := fun a => by ext i j; rw [transp_entry, transp_entry]
  change t.minv = t.m.transpose
  induction h with
  | identity => ext i j; fin_cases i <;> fin_cases j <;> rfl
  | rotateX _ => ext i j; fin_cases i <;> fin_cases j <;> rfl
  | rotateY _ => ext i j; fin_cases i <;> fin_cases j <;> rfl
  | rotateZ _ => ext i j; fin_cases i <;> fin_cases j <;> rfl
  | rotate _ _ => rfl
  | @mul a b _ _ ha hb =>
    change b.minv * a.minv = (a.m * b.m).transpose
    rw [C166_transpose, ha, hb]
  | @inverse a _ ha =>
    change a.m = a.minv.transpose
    rw [ha, tt]

/-- **C166**: so `map_inverse` of a vector by such a transform is, bit for bit, what the columns of the matrix give: the dot products, in
the order of the loop, of the vector with the images of the axes. -/
theorem C166_mapInverse (t : Transform (Flt mw ew)) (h : FloatTurns t) (v w : Vec (Flt mw ew) 3) (hv : t.mapVecInv v = some w) (i : _root_.Fin 3) :
    w.vec i = v.x * t.matrix.data 0 i.castSucc + v.y * t.matrix.data 1 i.castSucc + v.z * t.matrix.data 2 i.castSucc := by
  have e : t.minv = t.m.transpose := C166_rotations t h
  unfold Transform.mapVecInv mapVector at hv
  split at hv
  · rw [Option.some.injEq] at hv
    rw [← hv, e]
    fin_cases i <;> rfl
  · exact absurd hv (by simp)

end flt

/-- **C166**, laws that fail on `f32`: the product is not associative, nor can a scalar factor be taken out of it. -/
theorem C166_refuted :
    (((Transform.translate (GVec.new3 (F32.lit (2 ^ 24)) Scalar.zero Scalar.zero) *
        Transform.translate (GVec.new3 Scalar.one Scalar.zero Scalar.zero)) *
        Transform.translate (GVec.new3 Scalar.one Scalar.zero Scalar.zero) : Transform F32).m.data 0 3 ≠
      (Transform.translate (GVec.new3 (F32.lit (2 ^ 24)) Scalar.zero Scalar.zero) *
        (Transform.translate (GVec.new3 Scalar.one Scalar.zero Scalar.zero) *
        Transform.translate (GVec.new3 Scalar.one Scalar.zero Scalar.zero)) : Transform F32).m.data 0 3) ∧
    (∃ (a b : Mat4 F32) (r : F32), ((a * r) * b).data 0 0 ≠ ((a * b) * r).data 0 0) := by
  have h : (((Mat4.identity : Mat4 F32) * (F32.lit 1 / F32.lit 3) * F32.lit 3) * ((Mat4.identity : Mat4 F32) * F32.lit 7)).data 0 0 ≠
      (((Mat4.identity : Mat4 F32) * (F32.lit 1 / F32.lit 3) * ((Mat4.identity : Mat4 F32) * F32.lit 7)) * F32.lit 3).data 0 0 := by
    decide +kernel
  exact ⟨by decide +kernel, _, _, _, h⟩

/-- a composition the rotation theorem applies to, with an inverse inside -/
example [Libm 23 8] (a b : F32) : FloatTurns (Transform.rotateX a * (Transform.rotate (GVec.new3 (F32.lit 1) (F32.lit 2) (F32.lit 3)) b).inverse) :=
  .mul (.rotateX a) (.inverse (.rotate _ b))

end Scarlet
