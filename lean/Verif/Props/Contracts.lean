import Verif.Model.Eq
import Verif.Props.Interval4

/-! C134: the comparison operators keep the contracts of `PartialEq` and `PartialOrd`. -/

set_option linter.unusedSectionVars false

namespace Scarlet
open Flt

/-! ### the contracts, from the documentation of Rust's standard library -/

/-- The contract of `PartialEq` for the values in `P`: symmetric and transitive. -/
structure PartialEqContract {α : Type} (P : α → Prop) (eq : α → α → Bool) : Prop where
  symm : ∀ {a b}, P a → P b → eq a b = true → eq b a = true
  trans : ∀ {a b c}, P a → P b → P c → eq a b = true → eq b c = true → eq a c = true

/-- The contract of `PartialOrd` for the values in `P`: `a == b` exactly when `partial_cmp(a, b) == Some(Equal)`; `a < b`
exactly when `b > a`; `<` is transitive, and so is `<` together with `==`. -/
structure PartialOrdContract {α : Type} (P : α → Prop) (eq : α → α → Bool) (pcmp : α → α → Option Ordering) : Prop extends
    PartialEqContract P eq where
  equal : ∀ {a b}, P a → P b → (pcmp a b = some .eq ↔ eq a b = true)
  dual : ∀ {a b}, P a → P b → (pcmp a b = some .lt ↔ pcmp b a = some .gt)
  lt_trans : ∀ {a b c}, P a → P b → P c → pcmp a b = some .lt → pcmp b c = some .lt → pcmp a c = some .lt
  lt_of_lt_of_eq : ∀ {a b c}, P a → P b → P c → pcmp a b = some .lt → eq b c = true → pcmp a c = some .lt
  lt_of_eq_of_lt : ∀ {a b c}, P a → P b → P c → eq a b = true → pcmp b c = some .lt → pcmp a c = some .lt

variable {mw ew : Nat} [FltImpl mw ew] [LawfulFlt mw ew]

/-- The interval does not run backwards (it satisfies the assertion of `Interval::new`, or has a NaN bound). -/
def Interval.NotReversed (A : Interval (Flt mw ew)) : Prop := ¬ (A.inf.isNaN = false ∧ A.sup.isNaN = false ∧ A.sup.val < A.inf.val)

/-! ### floats -/

theorem pcmp_lt {x y : Flt mw ew} : Scalar.pcmp x y = some .lt ↔ Scalar.lt x y = true := by
  unfold Scalar.lt; rw [beq_iff_eq]
theorem pcmp_gt {x y : Flt mw ew} : Scalar.pcmp x y = some .gt ↔ Scalar.gt x y = true := by
  unfold Scalar.gt; rw [beq_iff_eq]

/-- C134 for floats, NaN included. -/
theorem C134_float : PartialOrdContract (fun _ : Flt mw ew => True) Scalar.eq Scalar.pcmp where
  symm := by intro a b _ _ h; rw [seq_iff] at h ⊢; exact ⟨h.2.1, h.1, h.2.2.symm⟩
  trans := by intro a b c _ _ _ h h'; rw [seq_iff] at h h' ⊢; exact ⟨h.1, h'.2.1, h.2.2.trans h'.2.2⟩
  equal := by
    intro a b _ _
    rw [seq_iff]
    show Flt.pcmp a b = _ ↔ _
    unfold Flt.pcmp
    cases a.isNaN <;> cases b.isNaN <;> simp
    split
    · simp; omega
    · split <;> simp <;> omega
  dual := by intro a b _ _; rw [pcmp_lt, pcmp_gt, slt_iff, sgt_iff]; tauto
  lt_trans := by
    intro a b c _ _ _ h h'; rw [pcmp_lt, slt_iff] at *; exact ⟨h.1, h'.2.1, h.2.2.trans h'.2.2⟩
  lt_of_lt_of_eq := by
    intro a b c _ _ _ h h'; rw [pcmp_lt, slt_iff] at *; rw [seq_iff] at h'; exact ⟨h.1, h'.2.1, h.2.2.trans_eq h'.2.2⟩
  lt_of_eq_of_lt := by
    intro a b c _ _ _ h h'; rw [pcmp_lt, slt_iff] at *; rw [seq_iff] at h; exact ⟨h.1, h'.2.1, h.2.2.trans_lt h'.2.2⟩

/-! ### intervals -/

theorem ieqK_iff {A B : Interval (Flt mw ew)} : Interval.eq A B = true ↔
    A.inf.isNaN = false ∧ A.sup.isNaN = false ∧ B.inf.isNaN = false ∧ B.sup.isNaN = false ∧
    A.inf.key = A.sup.key ∧ B.inf.key = B.sup.key ∧ A.inf.key = B.inf.key := by
  unfold Interval.eq Interval.isExact
  rw [Bool.and_eq_true, Bool.and_eq_true, seq_iff, seq_iff, seq_iff]
  tauto

theorem notRev_iff {A : Interval (Flt mw ew)} : A.NotReversed ↔ ¬ (A.inf.isNaN = false ∧ A.sup.isNaN = false ∧ A.sup.key < A.inf.key) := by
  unfold Interval.NotReversed
  refine not_congr ⟨fun ⟨h1, h2, h3⟩ => ⟨h1, h2, ?_⟩, fun ⟨h1, h2, h3⟩ => ⟨h1, h2, ?_⟩⟩
  · by_contra h; exact absurd ((val_le_iff h1 h2).2 (not_lt.1 h)) (not_le.2 h3)
  · by_contra h; exact absurd ((val_le_iff h1 h2).1 (not_lt.1 h)) (not_le.2 h3)

/-- For intervals that do not run backwards. -/
theorem ilt_iff' {A B : Interval (Flt mw ew)} (hA : A.NotReversed) (hB : B.NotReversed) :
    Interval.pcmp A B = some .lt ↔ A.sup.isNaN = false ∧ B.inf.isNaN = false ∧ A.sup.key < B.inf.key := by
  rw [notRev_iff] at hA hB
  unfold Interval.pcmp
  split
  · next h => rw [ieqK_iff] at h; simp; omega
  · split
    · next h => rw [slt_iff] at h; simp [h]
    · next h =>
      rw [slt_iff] at h
      split <;> simp only [reduceCtorEq, Option.some.injEq, false_iff] <;> exact h

theorem igt_iff' {A B : Interval (Flt mw ew)} (hA : A.NotReversed) (hB : B.NotReversed) :
    Interval.pcmp A B = some .gt ↔ B.sup.isNaN = false ∧ A.inf.isNaN = false ∧ B.sup.key < A.inf.key := by
  rw [notRev_iff] at hA hB
  unfold Interval.pcmp
  split
  · next h => rw [ieqK_iff] at h; simp; omega
  · split
    · next h =>
      rw [slt_iff] at h
      simp only [reduceCtorEq, Option.some.injEq, false_iff]
      rintro ⟨h1, h2, h3⟩
      by_cases h4 : A.sup.key < A.inf.key
      · exact hA ⟨h2, h.1, h4⟩
      · exact hB ⟨h.2.1, h1, by omega⟩
    · split
      · next h => rw [slt_iff] at h; simp [h]
      · next h => rw [slt_iff] at h; simp only [reduceCtorEq, false_iff]; exact h

/-- C134 for intervals that do not run backwards. -/
theorem C134_interval : PartialOrdContract (Interval.NotReversed (mw := mw) (ew := ew)) Scalar.eq Scalar.pcmp where
  symm := by
    intro a b _ _ h
    have h := ieqK_iff.1 h
    exact ieqK_iff.2 ⟨h.2.2.1, h.2.2.2.1, h.1, h.2.1, h.2.2.2.2.2.1, h.2.2.2.2.1, h.2.2.2.2.2.2.symm⟩
  trans := by
    intro a b c _ _ _ h h'
    have h := ieqK_iff.1 h
    have h' := ieqK_iff.1 h'
    exact ieqK_iff.2 ⟨h.1, h.2.1, h'.2.2.1, h'.2.2.2.1, h.2.2.2.2.1, h'.2.2.2.2.2.1, by omega⟩
  equal := by
    intro a b _ _
    show Interval.pcmp a b = _ ↔ Interval.eq a b = true
    unfold Interval.pcmp
    split
    · next h => simp [h]
    · next h =>
      refine ⟨fun h' => ?_, fun h' => absurd h' h⟩
      split at h'
      · simp at h'
      · split at h' <;> simp at h'
  dual := by
    intro a b ha hb
    show Interval.pcmp a b = _ ↔ Interval.pcmp b a = _
    rw [ilt_iff' ha hb, igt_iff' hb ha]
  lt_trans := by
    intro a b c ha hb hc h h'
    have h := (ilt_iff' ha hb).1 h
    have h' := (ilt_iff' hb hc).1 h'
    rw [notRev_iff] at hb
    refine (ilt_iff' ha hc).2 ⟨h.1, h'.2.1, ?_⟩
    by_contra hn
    exact hb ⟨h.2.1, h'.1, by omega⟩
  lt_of_lt_of_eq := by
    intro a b c ha hb hc h h'
    have h := (ilt_iff' ha hb).1 h
    have h' := ieqK_iff.1 h'
    exact (ilt_iff' ha hc).2 ⟨h.1, h'.2.2.1, by omega⟩
  lt_of_eq_of_lt := by
    intro a b c ha hb hc h h'
    have h := ieqK_iff.1 h
    have h' := (ilt_iff' hb hc).1 h'
    exact (ilt_iff' ha hc).2 ⟨h.2.1, h'.2.1, by omega⟩

/-- In a release build `Interval::new` does not check its arguments, and a reversed interval is less than itself. -/
theorem C134_refuted_reversed : ∃ A : Interval F32, Scalar.lt A A = true ∧ ¬ A.NotReversed := by
  refine ⟨Interval.new (F32.lit 1) (F32.lit 0), by decide +kernel, ?_⟩
  rw [notRev_iff, not_not]
  decide +kernel

/-- C134, exactly: no interval that does not run backwards is less than itself, and every one that does is. -/
theorem C134_exact (A : Interval (Flt mw ew)) : Scalar.lt A A = true ↔ ¬ A.NotReversed := by
  unfold Scalar.lt
  rw [beq_iff_eq]
  show Interval.pcmp A A = _ ↔ _
  rw [notRev_iff, not_not]
  unfold Interval.pcmp
  split
  · next h => rw [ieqK_iff] at h; simp; omega
  · split
    · next h => rw [slt_iff] at h; simp [h]
    · next h =>
      rw [slt_iff] at h
      simp only [reduceCtorEq, false_iff]
      tauto

/-- C134: an interval compared with a number is the interval compared with the interval of that number alone. -/
theorem C134_scalar (A : Interval (Flt mw ew)) (t : Flt mw ew) :
    Interval.eqS A t = Scalar.eq A (Interval.from1 t) ∧ Interval.pcmpS A t = Scalar.pcmp A (Interval.from1 t) := by
  have e : Interval.eqS A t = Interval.eq A (Interval.from1 t) := by
    unfold Interval.eqS Interval.eq Interval.isExact
    cases h1 : Scalar.eq A.inf A.sup <;> cases h2 : Scalar.eq A.inf t <;> try rfl
    · simp [Interval.from1, Interval.new, h2]
    · have : Scalar.eq t t = true := by
        rw [seq_iff] at h2 ⊢; exact ⟨h2.2.1, h2.2.1, rfl⟩
      simp [Interval.from1, Interval.new, h2, this]
  refine ⟨e, ?_⟩
  show _ = Interval.pcmp A (Interval.from1 t)
  unfold Interval.pcmpS Interval.pcmp
  rw [e]; rfl

/-! ### integers -/

theorem ordContract {T : Type} [LT T] [DecidableEq T] [DecidableRel (α := T) (· < ·)] (f : T → ℤ)
    (hlt : ∀ a b, a < b ↔ f a < f b) (hinj : ∀ a b, a = b ↔ f a = f b) :
    PartialOrdContract (fun _ : T => True) (· == ·) ordCmp := by
  have l : ∀ a b : T, ordCmp a b = some .lt ↔ f a < f b := by
    intro a b; unfold ordCmp; rw [← hlt]; split
    · next h => simp [h]
    · next h => split <;> simp [h]
  have g : ∀ a b : T, ordCmp a b = some .gt ↔ f b < f a := by
    intro a b; unfold ordCmp; split
    · next h => rw [hlt] at h; simp; omega
    · next h => rw [hlt] at h; split
                · next h' => rw [hinj] at h'; simp; omega
                · next h' => rw [hinj] at h'; simp; omega
  have e : ∀ a b : T, ordCmp a b = some .eq ↔ f a = f b := by
    intro a b; unfold ordCmp; split
    · next h => rw [hlt] at h; simp; omega
    · next h => rw [hlt] at h; split
                · next h' => rw [hinj] at h'; simp [h']
                · next h' => rw [hinj] at h'; simp; omega
  have q : ∀ a b : T, (a == b) = true ↔ f a = f b := fun a b => by rw [beq_iff_eq, hinj]
  exact {
    symm := fun _ _ h => (q _ _).2 ((q _ _).1 h).symm
    trans := fun _ _ _ h h' => (q _ _).2 (((q _ _).1 h).trans ((q _ _).1 h'))
    equal := fun {a b} _ _ => by rw [e, q]
    dual := fun {a b} _ _ => by rw [l, g]
    lt_trans := fun _ _ _ h h' => (l _ _).2 (((l _ _).1 h).trans ((l _ _).1 h'))
    lt_of_lt_of_eq := fun _ _ _ h h' => (l _ _).2 (((l _ _).1 h).trans_eq ((q _ _).1 h'))
    lt_of_eq_of_lt := fun _ _ _ h h' => (l _ _).2 (((q _ _).1 h).trans_lt ((l _ _).1 h')) }

/-- C134 for the integer types. -/
theorem C134_ints :
    PartialOrdContract (fun _ : UInt8 => True) Scalar.eq Scalar.pcmp ∧ PartialOrdContract (fun _ : UInt16 => True) Scalar.eq Scalar.pcmp ∧
    PartialOrdContract (fun _ : UInt32 => True) Scalar.eq Scalar.pcmp ∧ PartialOrdContract (fun _ : UInt64 => True) Scalar.eq Scalar.pcmp ∧
    PartialOrdContract (fun _ : Int8 => True) Scalar.eq Scalar.pcmp ∧ PartialOrdContract (fun _ : Int16 => True) Scalar.eq Scalar.pcmp ∧
    PartialOrdContract (fun _ : Int32 => True) Scalar.eq Scalar.pcmp ∧ PartialOrdContract (fun _ : Int64 => True) Scalar.eq Scalar.pcmp :=
  ⟨ordContract (fun x => (x.toNat : ℤ)) (fun a b => by rw [UInt8.lt_iff_toNat_lt]; omega) (fun a b => by rw [← UInt8.toNat_inj]; omega),
   ordContract (fun x => (x.toNat : ℤ)) (fun a b => by rw [UInt16.lt_iff_toNat_lt]; omega) (fun a b => by rw [← UInt16.toNat_inj]; omega),
   ordContract (fun x => (x.toNat : ℤ)) (fun a b => by rw [UInt32.lt_iff_toNat_lt]; omega) (fun a b => by rw [← UInt32.toNat_inj]; omega),
   ordContract (fun x => (x.toNat : ℤ)) (fun a b => by rw [UInt64.lt_iff_toNat_lt]; omega) (fun a b => by rw [← UInt64.toNat_inj]; omega),
   ordContract Int8.toInt (fun a b => Int8.lt_iff_toInt_lt) (fun a b => Int8.toInt_inj.symm),
   ordContract Int16.toInt (fun a b => Int16.lt_iff_toInt_lt) (fun a b => Int16.toInt_inj.symm),
   ordContract Int32.toInt (fun a b => Int32.lt_iff_toInt_lt) (fun a b => Int32.toInt_inj.symm),
   ordContract Int64.toInt (fun a b => Int64.lt_iff_toInt_lt) (fun a b => Int64.toInt_inj.symm)⟩

/-! ### vectors, matrices, transforms -/

section lift
variable {T : Type} [Scalar T] {P : T → Prop} {n : Nat} {U : Marker}

theorem veq_iff {a b : GVec T n U} : GVec.eq a b = true ↔ ∀ i, Scalar.eq (a.vec i) (b.vec i) = true := by
  unfold GVec.eq; simp
theorem meq_iff {a b : Mat4 T} : Mat4.eq a b = true ↔ ∀ i j, Scalar.eq (a.data i j) (b.data i j) = true := by
  unfold Mat4.eq; simp

/-- C134: `==` of vectors, points and normals, of matrices and of transforms is symmetric and transitive if `==` of the
entries is. -/
theorem C134_vectors (h : PartialEqContract P Scalar.eq) :
    PartialEqContract (fun v : GVec T n U => ∀ i, P (v.vec i)) GVec.eq ∧
    PartialEqContract (fun m : Mat4 T => ∀ i j, P (m.data i j)) Mat4.eq ∧
    PartialEqContract (fun t : Transform T => (∀ i j, P (t.m.data i j)) ∧ ∀ i j, P (t.minv.data i j)) Transform.eq := by
  have M : PartialEqContract (fun m : Mat4 T => ∀ i j, P (m.data i j)) Mat4.eq :=
    ⟨fun ha hb e => meq_iff.2 fun i j => h.symm (ha i j) (hb i j) (meq_iff.1 e i j),
     fun ha hb hc e e' => meq_iff.2 fun i j => h.trans (ha i j) (hb i j) (hc i j) (meq_iff.1 e i j) (meq_iff.1 e' i j)⟩
  refine ⟨⟨fun ha hb e => veq_iff.2 fun i => h.symm (ha i) (hb i) (veq_iff.1 e i),
    fun ha hb hc e e' => veq_iff.2 fun i => h.trans (ha i) (hb i) (hc i) (veq_iff.1 e i) (veq_iff.1 e' i)⟩, M, ?_, ?_⟩
  · intro a b ha hb e
    unfold Transform.eq at e ⊢
    rw [Bool.and_eq_true] at e ⊢
    exact ⟨M.symm ha.1 hb.1 e.1, M.symm ha.2 hb.2 e.2⟩
  · intro a b c ha hb hc e e'
    unfold Transform.eq at e e' ⊢
    rw [Bool.and_eq_true] at e e' ⊢
    exact ⟨M.trans ha.1 hb.1 hc.1 e.1 e'.1, M.trans ha.2 hb.2 hc.2 e.2 e'.2⟩
end lift

/-- C134: `==` of float vectors, matrices and transforms is equality of the numbers in them, so they equal themselves
exactly when no entry is NaN, and `0 == -0`. -/
theorem C134_vectors_float {n : Nat} {U : Marker} (a b : GVec (Flt mw ew) n U) (s t : Transform (Flt mw ew)) :
    (GVec.eq a b = true ↔ ∀ i, (a.vec i).isNaN = false ∧ (b.vec i).isNaN = false ∧ (a.vec i).val = (b.vec i).val) ∧
    (Transform.eq s t = true ↔
      (∀ i j, (s.m.data i j).isNaN = false ∧ (t.m.data i j).isNaN = false ∧ (s.m.data i j).val = (t.m.data i j).val) ∧
      ∀ i j, (s.minv.data i j).isNaN = false ∧ (t.minv.data i j).isNaN = false ∧
        (s.minv.data i j).val = (t.minv.data i j).val) := by
  have k : ∀ x y : Flt mw ew, Scalar.eq x y = true ↔ x.isNaN = false ∧ y.isNaN = false ∧ x.val = y.val := by
    intro x y
    rw [seq_iff]
    refine and_congr_right fun h1 => and_congr_right fun h2 => ?_
    rw [le_antisymm_iff, le_antisymm_iff, val_le_iff h1 h2, val_le_iff h2 h1]
  constructor
  · rw [veq_iff]; exact forall_congr' fun i => k _ _
  · unfold Transform.eq
    rw [Bool.and_eq_true, meq_iff, meq_iff]
    simp only [k]

/-- A case where everything holds at once: `[0, 1] < [2, 3]`, which do not run backwards. -/
example : Interval.NotReversed (Interval.new (F32.lit 0) (F32.lit 1)) ∧ Interval.NotReversed (Interval.new (F32.lit 2) (F32.lit 3)) ∧
    Scalar.pcmp (Interval.new (F32.lit 0) (F32.lit 1)) (Interval.new (F32.lit 2) (F32.lit 3)) = some .lt := by
  rw [notRev_iff, notRev_iff]
  decide +kernel

end Scarlet
