import Verif.Props.Float4
import Verif.Model.Transform

/-! C78: `AlmostEqual` and `PartialEq` of intervals, vectors, matrices and transforms. -/

namespace Scarlet
open Flt

variable {mw ew : Nat} [FltImpl mw ew] [LawfulFlt mw ew] {n : Nat} {U : Marker}

/-- Two floats are close: the specification of `fequals` proved in `C06_sound` (distance below a tolerance). -/
def Close (a b : Flt mw ew) : Prop :=
  |a.toReal - b.toReal| < (GFloat.absEpsilon : Flt mw ew).toReal ∨
  |a.toReal - b.toReal| < (GFloat.relEpsilon : Flt mw ew).toReal * max |a.toReal| |b.toReal|

/-! ### vectors -/

omit [LawfulFlt mw ew] in
/-- C78: two vectors are almost equal iff all components are (so one bad component is enough to reject). -/
theorem C78_vec_iff (a b : GVec (Flt mw ew) n U) :
    GVec.almostEq a b = true ↔ ∀ i, GFloat.fequals (a.vec i) (b.vec i) = true := by
  unfold GVec.almostEq
  rw [List.all_eq_true]
  exact ⟨fun h i => h i (List.mem_finRange i), fun h i _ => h i⟩

/-- C78: symmetric, reflexive on finite vectors, false as soon as one component is NaN, and sound. -/
theorem C78_vec (a b : GVec (Flt mw ew) n U) :
    GVec.almostEq a b = GVec.almostEq b a ∧
    ((∀ i, (a.vec i).isFin = true) → GVec.almostEq a a = true) ∧
    ((∃ i, (a.vec i).isNaN = true) → GVec.almostEq a b = false) ∧
    ((∀ i, (a.vec i).isFin = true) → (∀ i, (b.vec i).isFin = true) → GVec.almostEq a b = true →
      ∀ i, Close (a.vec i) (b.vec i)) := by
  refine ⟨?_, ?_, ?_, ?_⟩
  · rw [Bool.eq_iff_iff, C78_vec_iff, C78_vec_iff]
    exact forall_congr' fun i => by rw [C06_symm]
  · intro h; rw [C78_vec_iff]; exact fun i => C06_refl_partial _ (h i)
  · rintro ⟨i, hi⟩
    rw [Bool.eq_false_iff, ne_eq, C78_vec_iff]
    intro h; have := h i; rw [C06_nan _ _ (Or.inl hi)] at this; cases this
  · intro ha hb h i
    exact C06_sound _ _ (ha i) (hb i) ((C78_vec_iff a b).1 h i)

/-- C78: `==` on float vectors is equality of the values of all components. -/
theorem C78_vec_eq (a b : GVec (Flt mw ew) n U) :
    GVec.eq a b = true ↔ ∀ i, (a.vec i).isNaN = false ∧ (b.vec i).isNaN = false ∧ (a.vec i).val = (b.vec i).val := by
  unfold GVec.eq
  rw [List.all_eq_true]
  refine ⟨fun h i => ?_, fun h i _ => ?_⟩
  · obtain ⟨h1, h2, h3⟩ := seq_iff.1 (h i (List.mem_finRange i))
    exact ⟨h1, h2, (val_eq_iff h1 h2).2 h3⟩
  · obtain ⟨h1, h2, h3⟩ := h i
    exact seq_iff.2 ⟨h1, h2, (val_eq_iff h1 h2).1 h3⟩

/-! ### matrices and transforms -/

omit [LawfulFlt mw ew] in
/-- C78: two matrices are almost equal iff all sixteen entries are. -/
theorem C78_mat_iff (a b : Mat4 (Flt mw ew)) :
    Mat4.almostEq a b = true ↔ ∀ i j, GFloat.fequals (a.data i j) (b.data i j) = true := by
  unfold Mat4.almostEq
  simp only [List.all_eq_true]
  exact ⟨fun h i j => h i (List.mem_finRange i) j (List.mem_finRange j), fun h i _ j _ => h i j⟩

/-- C78 for matrices. -/
theorem C78_mat (a b : Mat4 (Flt mw ew)) :
    Mat4.almostEq a b = Mat4.almostEq b a ∧
    ((∀ i j, (a.data i j).isFin = true) → Mat4.almostEq a a = true) ∧
    ((∃ i j, (a.data i j).isNaN = true) → Mat4.almostEq a b = false) ∧
    ((∀ i j, (a.data i j).isFin = true) → (∀ i j, (b.data i j).isFin = true) → Mat4.almostEq a b = true →
      ∀ i j, Close (a.data i j) (b.data i j)) := by
  refine ⟨?_, ?_, ?_, ?_⟩
  · rw [Bool.eq_iff_iff, C78_mat_iff, C78_mat_iff]
    exact forall_congr' fun i => forall_congr' fun j => by rw [C06_symm]
  · intro h; rw [C78_mat_iff]; exact fun i j => C06_refl_partial _ (h i j)
  · rintro ⟨i, j, hi⟩
    rw [Bool.eq_false_iff, ne_eq, C78_mat_iff]
    intro h; have := h i j; rw [C06_nan _ _ (Or.inl hi)] at this; cases this
  · intro ha hb h i j
    exact C06_sound _ _ (ha i j) (hb i j) ((C78_mat_iff a b).1 h i j)

/-- C78: `==` on float matrices is equality of the values of all entries. -/
theorem C78_mat_eq (a b : Mat4 (Flt mw ew)) :
    Mat4.eq a b = true ↔
      ∀ i j, (a.data i j).isNaN = false ∧ (b.data i j).isNaN = false ∧ (a.data i j).val = (b.data i j).val := by
  unfold Mat4.eq
  simp only [List.all_eq_true]
  refine ⟨fun h i j => ?_, fun h i _ j _ => ?_⟩
  · obtain ⟨h1, h2, h3⟩ := seq_iff.1 (h i (List.mem_finRange i) j (List.mem_finRange j))
    exact ⟨h1, h2, (val_eq_iff h1 h2).2 h3⟩
  · obtain ⟨h1, h2, h3⟩ := h i j
    exact seq_iff.2 ⟨h1, h2, (val_eq_iff h1 h2).1 h3⟩

/-- C78 for transforms: both the matrix and the stored inverse have to agree; inverting both sides changes nothing. -/
theorem C78_transform (a b : Transform (Flt mw ew)) :
    (Transform.almostEq a b = true ↔ (∀ i j, GFloat.fequals (a.m.data i j) (b.m.data i j) = true) ∧
      (∀ i j, GFloat.fequals (a.minv.data i j) (b.minv.data i j) = true)) ∧
    Transform.almostEq a b = Transform.almostEq b a ∧
    Transform.almostEq a.inverse b.inverse = Transform.almostEq a b := by
  refine ⟨?_, ?_, ?_⟩
  · unfold Transform.almostEq; rw [Bool.and_eq_true, C78_mat_iff, C78_mat_iff]
  · unfold Transform.almostEq; rw [(C78_mat a.m b.m).1, (C78_mat a.minv b.minv).1]
  · unfold Transform.almostEq Transform.inverse; rw [Bool.and_comm]

/-! ### intervals -/

/-- C78 for two intervals: both bounds are close; symmetric, reflexive on finite intervals. -/
theorem C78_interval (a b : Interval (Flt mw ew)) :
    (AlmostEqual.almostEq a b = true ↔ GFloat.fequals a.inf b.inf = true ∧ GFloat.fequals a.sup b.sup = true) ∧
    (AlmostEqual.almostEq a b = AlmostEqual.almostEq b a) ∧
    (a.inf.isFin = true → a.sup.isFin = true → AlmostEqual.almostEq a a = true) := by
  have e : ∀ a b : Interval (Flt mw ew), AlmostEqual.almostEq a b = (GFloat.fequals a.inf b.inf && GFloat.fequals a.sup b.sup) :=
    fun _ _ => rfl
  refine ⟨by rw [e, Bool.and_eq_true], by rw [e, e, C06_symm a.inf, C06_symm a.sup], fun h1 h2 => ?_⟩
  rw [e, C06_refl_partial _ h1, C06_refl_partial _ h2]; rfl

/-- C78 for an interval and a scalar: the scalar lies in the interval and both bounds are close to it. -/
theorem C78_interval_scalar (a : Interval (Flt mw ew)) (t : Flt mw ew) :
    (AlmostEqual.almostEq a t = true ↔
      (a.inf.isNaN = false ∧ t.isNaN = false ∧ a.sup.isNaN = false ∧ a.inf.val ≤ t.val ∧ t.val ≤ a.sup.val) ∧
      GFloat.fequals a.inf t = true ∧ GFloat.fequals a.sup t = true) := by
  have e : AlmostEqual.almostEq a t =
      (Scalar.ge a.sup t && Scalar.le a.inf t && GFloat.fequals a.inf t && GFloat.fequals a.sup t) := rfl
  rw [e]
  simp only [Bool.and_eq_true, sge_iff, sle_iff]
  constructor
  · rintro ⟨⟨⟨⟨h1, h2, h3⟩, h4, -, h5⟩, h6⟩, h7⟩
    exact ⟨⟨h4, h2, h1, (val_le_iff h4 h2).2 h5, (val_le_iff h2 h1).2 h3⟩, h6, h7⟩
  · rintro ⟨⟨h4, h2, h1, h5, h3⟩, h6, h7⟩
    exact ⟨⟨⟨⟨h1, h2, (val_le_iff h2 h1).1 h3⟩, h4, h2, (val_le_iff h4 h2).1 h5⟩, h6⟩, h7⟩

omit [FltImpl mw ew] [LawfulFlt mw ew]

/-- C78 for the integer types: `almost_equals` is equality. -/
theorem C78_int :
    (∀ a b : UInt8, AlmostEqual.almostEq a b = true ↔ a = b) ∧ (∀ a b : UInt16, AlmostEqual.almostEq a b = true ↔ a = b) ∧
    (∀ a b : UInt32, AlmostEqual.almostEq a b = true ↔ a = b) ∧ (∀ a b : UInt64, AlmostEqual.almostEq a b = true ↔ a = b) ∧
    (∀ a b : Int8, AlmostEqual.almostEq a b = true ↔ a = b) ∧ (∀ a b : Int16, AlmostEqual.almostEq a b = true ↔ a = b) ∧
    (∀ a b : Int32, AlmostEqual.almostEq a b = true ↔ a = b) ∧ (∀ a b : Int64, AlmostEqual.almostEq a b = true ↔ a = b) :=
  ⟨fun _ _ => beq_iff_eq, fun _ _ => beq_iff_eq, fun _ _ => beq_iff_eq, fun _ _ => beq_iff_eq,
   fun _ _ => beq_iff_eq, fun _ _ => beq_iff_eq, fun _ _ => beq_iff_eq, fun _ _ => beq_iff_eq⟩

/-! ### concrete cases -/

example : GVec.almostEq (GVec.new3 (F32.lit 1) (F32.lit 2) (F32.lit 3) : Vec F32 3)
      (GVec.new3 (F32.lit 1) (F32.lit 2) (GFloat.nextUp (F32.lit 3))) = true ∧
    GVec.almostEq (GVec.new3 (F32.lit 1) (F32.lit 2) (F32.lit 3) : Vec F32 3)
      (GVec.new3 (F32.lit 1) (F32.lit 2) (F32.lit 4)) = false := by decide +kernel
example : Transform.almostEq (Transform.identity : Transform F32) (Transform.scale (GVec.new3 (F32.lit 1) (F32.lit 1) (F32.lit 1))) = true ∧
    Transform.almostEq (Transform.identity : Transform F32) (Transform.scale (GVec.new3 (F32.lit 1) (F32.lit 1) (F32.lit 2))) = false := by
  decide +kernel
example : Interval.almostEqS (Interval.from1 (F32.lit 1)).extendByUlp (F32.lit 1) = true ∧
    Interval.almostEqS (Interval.from1 (F32.lit 1)).extendByUlp (GFloat.nextUp (GFloat.nextUp (F32.lit 1))) = false := by
  decide +kernel

end Scarlet
