import Verif.Spec.Cert
import Verif.Props.IntervalTransform

/-!
C149: `normalize`, `distance`, `rotate` about an arbitrary axis and `look_at` on intervals enclose the exact and the float results.

The conditions are those of the interval operations, collected by running the same generic code on `Cert` (Spec/Cert.lean).
The proof runs it once more, on `Enc`: an interval, a flag, a real and a float, with the proof that the interval contains both
if the flag is true; its four components are the four runs.
-/

set_option linter.unusedSectionVars false

namespace Scarlet
open Flt Scarlet.Interval
variable {mw ew : Nat} [FltImpl mw ew] [LawfulFlt mw ew]

theorem Cert.fin_iff {A : Interval (Flt mw ew)} : Cert.fin A = true ↔ Interval.Finite A := by
  unfold Cert.fin Interval.Finite
  rw [Bool.and_eq_true]
theorem Cert.straddles_of {A : Interval (Flt mw ew)} (h : Straddles A) : Cert.straddles A = true := by
  obtain ⟨a1, a2, a3, a4⟩ := h
  rw [val_lt_zero_iff a1] at a3
  rw [val_zero_lt_iff a2] at a4
  unfold Cert.straddles
  rw [Bool.and_eq_true, slt_iff, sgt_iff, key_szero]
  exact ⟨⟨a1, szero_notNaN, a3⟩, a2, szero_notNaN, a4⟩

theorem Cert.add_ok {a b : Cert mw ew} (h : (a + b).ok = true) : a.ok = true ∧ b.ok = true := by
  change (a.ok && b.ok && Cert.fin (a.i + b.i)) = true at h
  rw [Bool.and_eq_true, Bool.and_eq_true] at h
  exact h.1
theorem Cert.mul_ok {a b : Cert mw ew} (h : (a * b).ok = true) : a.ok = true ∧ b.ok = true := by
  change (a.ok && b.ok && Cert.fin (a.i * b.i) && !(Cert.straddles a.i && Cert.straddles b.i)) = true at h
  rw [Bool.and_eq_true, Bool.and_eq_true, Bool.and_eq_true] at h
  exact h.1.1

/-- A certified interval, an exact number and a float, the latter two in the interval if the certificate is good. -/
structure Enc (mw ew : Nat) [FltImpl mw ew] where
  c : Cert mw ew
  r : ℝ
  f : Flt mw ew
  h : c.ok = true → Interval.Finite c.i ∧ r ∈ c.i ∧ c.i.HasFlt f

namespace Enc

/-- an uncertified result -/
noncomputable def bad (c : Cert mw ew) (hc : c.ok = false) (r : ℝ) (f : Flt mw ew) : Enc mw ew := ⟨c, r, f, fun h => by rw [hc] at h; cases h⟩

noncomputable instance : Add (Enc mw ew) := ⟨fun a b => ⟨a.c + b.c, a.r + b.r, a.f + b.f, fun h => by
  change (a.c.ok && b.c.ok && Cert.fin (a.c.i + b.c.i)) = true at h
  rw [Bool.and_eq_true, Bool.and_eq_true, Cert.fin_iff] at h
  obtain ⟨⟨ha, hb⟩, hf⟩ := h
  obtain ⟨-, a1, a2⟩ := a.h ha
  obtain ⟨-, b1, b2⟩ := b.h hb
  exact ⟨hf, C11_add _ _ _ _ a1 b1, hasFlt_add a2 b2 hf⟩⟩⟩
noncomputable instance : Sub (Enc mw ew) := ⟨fun a b => ⟨a.c - b.c, a.r - b.r, a.f - b.f, fun h => by
  change (a.c.ok && b.c.ok && Cert.fin (a.c.i - b.c.i)) = true at h
  rw [Bool.and_eq_true, Bool.and_eq_true, Cert.fin_iff] at h
  obtain ⟨⟨ha, hb⟩, hf⟩ := h
  obtain ⟨-, a1, a2⟩ := a.h ha
  obtain ⟨-, b1, b2⟩ := b.h hb
  exact ⟨hf, C11_sub _ _ _ _ a1 b1, hasFlt_sub a2 b2 hf⟩⟩⟩
noncomputable instance : Mul (Enc mw ew) := ⟨fun a b => ⟨a.c * b.c, a.r * b.r, a.f * b.f, fun h => by
  change (a.c.ok && b.c.ok && Cert.fin (a.c.i * b.c.i) && !(Cert.straddles a.c.i && Cert.straddles b.c.i)) = true at h
  rw [Bool.and_eq_true, Bool.and_eq_true, Bool.and_eq_true, Cert.fin_iff, Bool.not_eq_true', Bool.and_eq_false_iff] at h
  obtain ⟨⟨⟨ha, hb⟩, hf⟩, hs⟩ := h
  obtain ⟨fa, a1, a2⟩ := a.h ha
  obtain ⟨fb, b1, b2⟩ := b.h hb
  have hs' : ¬ (Straddles a.c.i ∧ Straddles b.c.i) := by
    rintro ⟨h1, h2⟩
    rw [Cert.straddles_of h1, Cert.straddles_of h2] at hs
    rcases hs with h | h <;> cases h
  exact ⟨hf, C12_mul_finite_partial _ _ _ _ a1 b1 fa fb hs', hasFlt_mul a2 b2 hs' hf⟩⟩⟩
noncomputable instance : Div (Enc mw ew) := ⟨fun a b => ⟨a.c / b.c, a.r / b.r, a.f / b.f, fun h => by
  change (a.c.ok && b.c.ok && Cert.fin (a.c.i / b.c.i)) = true at h
  rw [Bool.and_eq_true, Bool.and_eq_true, Cert.fin_iff] at h
  obtain ⟨⟨ha, hb⟩, hf⟩ := h
  obtain ⟨-, a1, a2⟩ := a.h ha
  obtain ⟨-, b1, b2⟩ := b.h hb
  exact ⟨hf, C14_div _ _ _ _ a1 b1 (fun h0 => nonzero_of_div hf (h0 ▸ b1)), hasFlt_div a2 b2 hf⟩⟩⟩
noncomputable instance : Neg (Enc mw ew) := ⟨fun a => ⟨-a.c, -a.r, -a.f, fun h => by
  obtain ⟨f, a1, a2⟩ := a.h h
  refine ⟨⟨?_, ?_⟩, C18_neg _ _ a1, hasFlt_neg a2⟩
  · change (-a.c.i.sup).isFin = true; rw [isFin_negop]; exact f.2
  · change (-a.c.i.inf).isFin = true; rw [isFin_negop]; exact f.1⟩⟩

theorem zero_ok : Interval.Finite (Scalar.zero : Interval (Flt mw ew)) ∧ (0 : ℝ) ∈ (Scalar.zero : Interval (Flt mw ew)) ∧
    (Scalar.zero : Interval (Flt mw ew)).HasFlt Scalar.zero :=
  ⟨⟨isFin_szero, isFin_szero⟩, zero_mem_I, isFin_szero, by rw [toReal_szero]; exact zero_mem_I⟩
theorem one_ok : Interval.Finite (Scalar.one : Interval (Flt mw ew)) ∧ (1 : ℝ) ∈ (Scalar.one : Interval (Flt mw ew)) ∧
    (Scalar.one : Interval (Flt mw ew)).HasFlt Scalar.one :=
  ⟨⟨sone_spec.1, sone_spec.1⟩, one_mem_I, sone_spec.1, by rw [sone_spec.2]; exact one_mem_I⟩

noncomputable instance : Scalar (Enc mw ew) where
  zero := ⟨Scalar.zero, Scalar.zero, Scalar.zero, fun _ => zero_ok⟩
  one := ⟨Scalar.one, Scalar.one, Scalar.one, fun _ => one_ok⟩
  lowest := bad Scalar.lowest rfl Scalar.lowest Scalar.lowest
  highest := bad Scalar.highest rfl Scalar.highest Scalar.highest
  eq := fun a b => Scalar.eq a.c b.c
  pcmp := fun a b => Scalar.pcmp a.c b.c
  min := fun a b => bad (Scalar.min a.c b.c) rfl (Scalar.min a.r b.r) (Scalar.min a.f b.f)
  max := fun a b => bad (Scalar.max a.c b.c) rfl (Scalar.max a.r b.r) (Scalar.max a.f b.f)
  square := fun a => ⟨Scalar.square a.c, Scalar.square a.r, Scalar.square a.f, fun h => by
    change (a.c.ok && Cert.fin (Scalar.square a.c.i)) = true at h
    rw [Bool.and_eq_true, Cert.fin_iff] at h
    obtain ⟨-, a1, a2⟩ := a.h h.1
    exact ⟨h.2, C16_square _ _ a1, hasFlt_square a2 h.2⟩⟩

noncomputable instance : GFloat (Enc mw ew) where
  nextUp := fun a => bad (GFloat.nextUp a.c) rfl 0 (GFloat.nextUp a.f)
  nextDown := fun a => bad (GFloat.nextDown a.c) rfl 0 (GFloat.nextDown a.f)
  toI64 := fun a => GFloat.toI64 a.c
  toF32 := fun a => GFloat.toF32 a.c
  toF64 := fun a => GFloat.toF64 a.c
  fromI64 := fun n => bad (GFloat.fromI64 n) rfl 0 (GFloat.fromI64 n)
  fromF32 := fun x => bad (GFloat.fromF32 x) rfl 0 (GFloat.fromF32 x)
  fromF64 := fun x => bad (GFloat.fromF64 x) rfl 0 (GFloat.fromF64 x)
  nan := bad GFloat.nan rfl 0 GFloat.nan
  infinity := bad GFloat.infinity rfl 0 GFloat.infinity
  negInfinity := bad GFloat.negInfinity rfl 0 GFloat.negInfinity
  negZero := bad GFloat.negZero rfl 0 GFloat.negZero
  minPositive := bad GFloat.minPositive rfl 0 GFloat.minPositive
  isNan := fun a => GFloat.isNan a.c
  isFinite := fun a => GFloat.isFinite a.c
  isInfinite := fun a => GFloat.isInfinite a.c
  half := bad GFloat.half rfl 0 GFloat.half
  pi := bad GFloat.pi rfl 0 GFloat.pi
  tau := bad GFloat.tau rfl 0 GFloat.tau
  fracPi2 := bad GFloat.fracPi2 rfl 0 GFloat.fracPi2
  fracPi4 := bad GFloat.fracPi4 rfl 0 GFloat.fracPi4
  absEpsilon := bad GFloat.absEpsilon rfl 0 GFloat.absEpsilon
  relEpsilon := bad GFloat.relEpsilon rfl 0 GFloat.relEpsilon
  sqrt := fun a => ⟨GFloat.sqrt a.c, GFloat.sqrt a.r, GFloat.sqrt a.f, fun h => by
    change (a.c.ok && Cert.fin (GFloat.sqrt a.c.i : Interval (Flt mw ew)) && Scalar.ge a.c.i.inf Scalar.zero) = true at h
    rw [Bool.and_eq_true, Bool.and_eq_true, Cert.fin_iff, sge_iff, key_szero] at h
    obtain ⟨⟨h1, h2⟩, n, -, h3⟩ := h
    obtain ⟨-, a1, a2⟩ := a.h h1
    have h0 : 0 ≤ a.c.i.inf.val := (val_nonneg_iff n).2 h3
    exact ⟨h2, C17_sqrt_trait_partial _ _ a1 h0, C123_sqrt _ _ a2 h0 h2⟩⟩

end Enc

/-- The components of a vector. -/
def GVec.mapE {A B : Type} {n : Nat} {U : Marker} (h : A → B) (v : GVec A n U) : GVec B n U := ⟨fun i => h (v.vec i)⟩

/-! ### running the generic code commutes with the components -/

/-- `Transform::rotate` (transform.rs:329-356) with the sine and cosine of the angle given. -/
def rotateSC {T : Type} [Add T] [Sub T] [Mul T] [Div T] [Scalar T] [GFloat T] (vec : Vec T 3) (s c : T) : Transform T :=
  let u := vec.normalize
  let x : Vec T 3 := GVec.new3 Scalar.one Scalar.zero Scalar.zero
  let y : Vec T 3 := GVec.new3 Scalar.zero Scalar.one Scalar.zero
  let z : Vec T 3 := GVec.new3 Scalar.zero Scalar.zero Scalar.one
  let xRotated := x * c + u * (Scalar.one - c) * (u.dot x) + u.cross x * s
  let yRotated := y * c + u * (Scalar.one - c) * (u.dot y) + u.cross y * s
  let zRotated := z * c + u * (Scalar.one - c) * (u.dot z) + u.cross z * s
  let mat := Mat4.mk4
    xRotated.x yRotated.x zRotated.x Scalar.zero
    xRotated.y yRotated.y zRotated.y Scalar.zero
    xRotated.z yRotated.z zRotated.z Scalar.zero
    Scalar.zero Scalar.zero Scalar.zero Scalar.one
  ⟨mat, mat.transpose⟩
theorem rotate_eq {T : Type} [Add T] [Sub T] [Mul T] [Div T] [Scalar T] [GFloat T] [GTrig T] (vec : Vec T 3) (a : T) :
    Transform.rotate vec a = rotateSC vec (GTrig.sinCos a).1 (GTrig.sinCos a).2 := rfl

/-- a function that also commutes with squares and square roots -/
structure IsHomS {A B : Type} [Add A] [Sub A] [Mul A] [Div A] [Neg A] [Scalar A] [GFloat A] [Add B] [Sub B] [Mul B] [Div B] [Neg B]
    [Scalar B] [GFloat B] (h : A → B) : Prop extends IsHom h where
  square : ∀ a, h (Scalar.square a) = Scalar.square (h a)
  sqrt : ∀ a, h (GFloat.sqrt a) = GFloat.sqrt (h a)

section hom
variable {A B : Type} [Add A] [Sub A] [Mul A] [Div A] [Neg A] [Scalar A] [GFloat A] [Add B] [Sub B] [Mul B] [Div B] [Neg B]
    [Scalar B] [GFloat B] {h : A → B} (H : IsHomS h)
include H

theorem IsHomS.norm {U : Marker} (v : GVec A 3 U) : h v.norm = (v.mapE h).norm := by
  unfold GVec.norm GVec.squareNorm
  rw [H.sqrt]
  simp only [sumLoop, H.add, H.square, H.zero, GVec.mapE]
theorem IsHomS.normalize {U : Marker} (v : GVec A 3 U) : v.normalize.mapE h = (v.mapE h).normalize := by
  unfold GVec.normalize
  rw [← H.norm]
  exact GVec.ext (funext fun i => H.div _ _)
theorem IsHomS.cross {U : Marker} (v w : GVec A 3 U) : (v.cross w).mapE h = (v.mapE h).cross (w.mapE h) := by
  refine GVec.ext3 ?_ ?_ ?_ <;> exact (H.sub _ _).trans (congrArg₂ _ (H.mul _ _) (H.mul _ _))
theorem IsHomS.dot {U V : Marker} (v : GVec A 3 U) (w : GVec A 3 V) : h (v.dot w) = (v.mapE h).dot (w.mapE h) := by
  unfold GVec.dot
  simp only [sumLoop, H.add, H.mul, H.zero, GVec.mapE]

theorem IsHomS.lookAt (p t : Point A 3) (u : Vec A 3) :
    (Transform.lookAt p t u).mapE h = Transform.lookAt (p.mapE h) (t.mapE h) (u.mapE h) := by
  have hz : (p - t).normalize.mapE h = (p.mapE h - t.mapE h).normalize := by
    rw [H.normalize]
    congr 1
    exact GVec.ext (funext fun i => H.sub _ _)
  unfold Transform.lookAt
  simp only
  rw [← hz, ← H.normalize u, ← H.cross, ← H.normalize, ← H.cross]
  generalize (p - t).normalize = z
  generalize (u.normalize.cross z).normalize = x
  generalize z.cross x = y
  unfold Transform.initFromOrthogonalBasis
  rw [← H.dot, ← H.dot, ← H.dot, ← H.neg, ← H.neg, ← H.neg, ← H.zero, ← H.one]
  refine Transform.ext (Mat4.ext ?_) (Mat4.ext ?_) <;> (ext i j; fin_cases i <;> fin_cases j <;> rfl)

theorem IsHomS.axpy (u x : Vec A 3) (s c : A) :
    (x * c + u * (Scalar.one - c) * (u.dot x) + u.cross x * s).mapE h =
      x.mapE h * h c + u.mapE h * (Scalar.one - h c) * ((u.mapE h).dot (x.mapE h)) + (u.mapE h).cross (x.mapE h) * h s := by
  rw [← H.dot, ← H.cross, ← H.one, ← H.sub]
  refine GVec.ext (funext fun i => ?_)
  change h (x.vec i * c + u.vec i * (Scalar.one - c) * u.dot x + (u.cross x).vec i * s) = _
  rw [H.add, H.add, H.mul, H.mul, H.mul, H.mul]
  rfl

theorem IsHomS.rotateSC (v : Vec A 3) (s c : A) :
    (rotateSC v s c).mapE h = rotateSC (v.mapE h) (h s) (h c) := by
  have e : ∀ a b c : A, (GVec.new3 a b c : Vec A 3).mapE h = GVec.new3 (h a) (h b) (h c) := fun a b c =>
    GVec.ext3 rfl rfl rfl
  unfold Scarlet.rotateSC
  simp only
  rw [← H.normalize, ← H.zero, ← H.one, ← e, ← e, ← e]
  have k := H.axpy v.normalize
  rw [← H.one] at k
  rw [← k, ← k, ← k]
  generalize (GVec.new3 Scalar.one Scalar.zero Scalar.zero : Vec A 3) * c + _ + _ = x
  generalize (GVec.new3 Scalar.zero Scalar.one Scalar.zero : Vec A 3) * c + _ + _ = y
  generalize (GVec.new3 Scalar.zero Scalar.zero Scalar.one : Vec A 3) * c + _ + _ = z
  refine Transform.ext (Mat4.ext ?_) (Mat4.ext ?_) <;> (ext i j; fin_cases i <;> fin_cases j <;> rfl)

end hom

theorem Enc.hom_c : IsHomS (Enc.c (mw := mw) (ew := ew)) :=
  ⟨⟨fun _ _ => rfl, fun _ _ => rfl, fun _ _ => rfl, fun _ _ => rfl, fun _ => rfl, rfl, rfl⟩, fun _ => rfl, fun _ => rfl⟩
theorem Enc.hom_r : IsHomS (Enc.r (mw := mw) (ew := ew)) :=
  ⟨⟨fun _ _ => rfl, fun _ _ => rfl, fun _ _ => rfl, fun _ _ => rfl, fun _ => rfl, rfl, rfl⟩, fun _ => rfl, fun _ => rfl⟩
theorem Enc.hom_f : IsHomS (Enc.f (mw := mw) (ew := ew)) :=
  ⟨⟨fun _ _ => rfl, fun _ _ => rfl, fun _ _ => rfl, fun _ _ => rfl, fun _ => rfl, rfl, rfl⟩, fun _ => rfl, fun _ => rfl⟩
theorem Cert.hom_i : IsHomS (Cert.i (mw := mw) (ew := ew)) :=
  ⟨⟨fun _ _ => rfl, fun _ _ => rfl, fun _ _ => rfl, fun _ _ => rfl, fun _ => rfl, rfl, rfl⟩, fun _ => rfl, fun _ => rfl⟩

/-- `x` and `f` are in the vector of intervals `A`, component by component, and the intervals are finite. -/
def Holds {n : Nat} {U : Marker} (A : GVec (Interval (Flt mw ew)) n U) (x : GVec ℝ n U) (f : GVec (Flt mw ew) n U) : Prop :=
  ∀ i, Interval.Finite (A.vec i) ∧ x.vec i ∈ A.vec i ∧ (A.vec i).HasFlt (f.vec i)

/-- package a point or vector with its enclosure -/
noncomputable def Enc.vec {n : Nat} {U : Marker} {A : GVec (Interval (Flt mw ew)) n U} {x : GVec ℝ n U} {f : GVec (Flt mw ew) n U}
    (h : Holds A x f) : GVec (Enc mw ew) n U := ⟨fun i => ⟨Cert.of (A.vec i), x.vec i, f.vec i, fun _ => h i⟩⟩

/-- The vector as certificates. -/
def GVec.cert {n : Nat} {U : Marker} (A : GVec (Interval (Flt mw ew)) n U) : GVec (Cert mw ew) n U := A.mapE Cert.of
/-- All components certified. -/
def GVec.Ok {n : Nat} {U : Marker} (A : GVec (Cert mw ew) n U) : Prop := ∀ i, (A.vec i).ok = true
/-- All entries certified. -/
def Transform.Ok (t : Transform (Cert mw ew)) : Prop := ∀ i j, (t.m.data i j).ok = true ∧ (t.minv.data i j).ok = true
/-- The transform of intervals contains the exact and the float transform. -/
def EnclosesRF (A : Transform (Interval (Flt mw ew))) (x : Transform ℝ) (f : Transform (Flt mw ew)) : Prop :=
  EnclosesR A x ∧ ∀ i j, (A.m.data i j).HasFlt (f.m.data i j) ∧ (A.minv.data i j).HasFlt (f.minv.data i j)

/-- Reading off the three runs from a run on `Enc`. -/
theorem EnclosesRF.of (E : Transform (Enc mw ew)) (C : Transform (Cert mw ew)) (I : Transform (Interval (Flt mw ew))) (x : Transform ℝ)
    (f : Transform (Flt mw ew)) (hC : E.mapE Enc.c = C) (hI : C.mapE Cert.i = I) (hx : E.mapE Enc.r = x) (hf : E.mapE Enc.f = f)
    (hok : C.Ok) : EnclosesRF I x f := by
  subst hI hx hf hC
  have m := fun i j => (E.m.data i j).h (hok i j).1
  have n := fun i j => (E.minv.data i j).h (hok i j).2
  exact ⟨fun i j => ⟨(m i j).2.1, (n i j).2.1⟩, fun i j => ⟨(m i j).2.2, (n i j).2.2⟩⟩

/-- C149: `normalize` of a vector of intervals: if its run is certified, it contains the exact and the float unit vector. -/
theorem C149_normalize {U : Marker} (A : GVec (Interval (Flt mw ew)) 3 U) (x : GVec ℝ 3 U) (f : GVec (Flt mw ew) 3 U) (h : Holds A x f)
    (hok : A.cert.normalize.Ok) : Holds A.normalize x.normalize f.normalize := by
  intro i
  exact ((Enc.vec h).normalize.vec i).h (hok i)

/-- C149: `norm`, and so `distance`, of vectors of intervals. -/
theorem C149_norm {U : Marker} (A : GVec (Interval (Flt mw ew)) 3 U) (x : GVec ℝ 3 U) (f : GVec (Flt mw ew) 3 U) (h : Holds A x f)
    (hok : A.cert.norm.ok = true) : x.norm ∈ A.norm ∧ A.norm.HasFlt f.norm :=
  ((Enc.vec h).norm.h hok).2

/-- C149: `look_at`: if the run on the intervals is certified, the matrix and the inverse matrix contain those of the exact `look_at` for
all positions, targets and up vectors in the intervals, and those computed in floats. -/
theorem C149_look_at (P T : Point (Interval (Flt mw ew)) 3) (U : Vec (Interval (Flt mw ew)) 3) (p t : Point ℝ 3) (u : Vec ℝ 3)
    (p' t' : Point (Flt mw ew) 3) (u' : Vec (Flt mw ew) 3) (hp : Holds P p p') (ht : Holds T t t') (hu : Holds U u u')
    (hok : (Transform.lookAt P.cert T.cert U.cert).Ok) :
    EnclosesRF (Transform.lookAt P T U) (Transform.lookAt p t u) (Transform.lookAt p' t' u') :=
  EnclosesRF.of (Transform.lookAt (Enc.vec hp) (Enc.vec ht) (Enc.vec hu)) _ _ _ _
    (Enc.hom_c.lookAt _ _ _) (Cert.hom_i.lookAt _ _ _) (Enc.hom_r.lookAt _ _ _) (Enc.hom_f.lookAt _ _ _) hok

variable [Libm mw ew] [LawfulLibm mw ew]

/-- C149: `rotate` about an arbitrary axis by an interval of angles at most π wide: if the run on the intervals is certified, it contains the
exact rotations about all axes in the intervals by all its angles; and the one computed in floats, for every float angle whose
computed sine and cosine are in the intervals of sines and cosines. -/
theorem C149_rotate (ht : TauOk mw ew) (V : Vec (Interval (Flt mw ew)) 3) (A : Interval (Flt mw ew)) (v : Vec ℝ 3) (v' : Vec (Flt mw ew) 3)
    (hv : Holds V v v') (a : ℝ) (ha : a ∈ A) (hw : A.sup.toReal - A.inf.toReal ≤ Real.pi)
    (hok : (Transform.rotate V.cert (Cert.of A)).Ok) :
    EnclosesR (Transform.rotate V A) (Transform.rotate v a) ∧
    ∀ a' : Flt mw ew, (GTrig.sinCos A).1.HasFlt (Libm.sin a') → (GTrig.sinCos A).2.HasFlt (Libm.cos a') →
      EnclosesRF (Transform.rotate V A) (Transform.rotate v a) (Transform.rotate v' a') := by
  obtain ⟨⟨h1, h2⟩, -⟩ := C24_sin_cos_tan_partial ht A a ha hw
  have e : Transform.rotate V.cert (Cert.of A) = rotateSC V.cert ⟨(GTrig.sinCos A).1, Cert.fin A && Cert.fin (GTrig.sinCos A).1⟩
    ⟨(GTrig.sinCos A).2, Cert.fin A && Cert.fin (GTrig.sinCos A).2⟩ := rfl
  rw [e] at hok
  have fin2 : ∀ {I : Interval (Flt mw ew)}, (Cert.fin A && Cert.fin I) = true → Interval.Finite I := fun h =>
    Cert.fin_iff.1 (Bool.and_eq_true _ _ ▸ h).2
  -- the bounds of sine and cosine are finite, or the entries would not be certified
  have h00 := (hok 0 0).1
  have h10 := (hok 1 0).1
  generalize hq : (GTrig.sinCos A : Interval (Flt mw ew) × Interval (Flt mw ew)) = q at *
  have fS : (Cert.fin A && Cert.fin q.1) = true := by
    exact (Cert.mul_ok (Cert.add_ok (show ((_ + _ : Cert mw ew) + _ * (⟨q.1, _⟩ : Cert mw ew)).ok = true from h10)).2).2
  have fC : (Cert.fin A && Cert.fin q.2) = true := by
    exact (Cert.mul_ok (Cert.add_ok (Cert.add_ok (show ((_ * (⟨q.2, _⟩ : Cert mw ew) + _ : Cert mw ew) + _).ok = true from h00)).1).1).2
  have main : ∀ s c : Flt mw ew, q.1.HasFlt s → q.2.HasFlt c →
      EnclosesRF (Transform.rotate V A) (Transform.rotate v a) (rotateSC v' s c) := by
    intro s c hs hc
    rw [rotate_eq, rotate_eq, show (GTrig.sinCos a : ℝ × ℝ) = (Real.sin a, Real.cos a) from rfl, hq]
    exact EnclosesRF.of (rotateSC (Enc.vec hv) ⟨⟨q.1, _⟩, Real.sin a, s, fun _ => ⟨fin2 fS, h1, hs⟩⟩ ⟨⟨q.2, _⟩, Real.cos a, c, fun _ => ⟨fin2 fC, h2, hc⟩⟩)
      _ _ _ _ (Enc.hom_c.rotateSC _ _ _) (Cert.hom_i.rotateSC _ _ _) (Enc.hom_r.rotateSC _ _ _) (Enc.hom_f.rotateSC _ _ _) hok
  have any : ∀ {I : Interval (Flt mw ew)} {x : ℝ}, Interval.Finite I → x ∈ I → I.HasFlt I.inf := fun hI hx =>
    ⟨hI.1, (mem_fin_iff hI _).2 ⟨le_rfl, ((mem_fin_iff hI _).1 hx).1.trans ((mem_fin_iff hI _).1 hx).2⟩⟩
  exact ⟨(main _ _ (any (fin2 fS) h1) (any (fin2 fC) h2)).1, fun a' hs hc => main _ _ hs hc⟩

/-! ### the hypotheses are met -/

/-- `[3,4] x [2,3] x [8,9]`, looking at the origin. -/
def exEye : Point (Interval F32) 3 :=
  GVec.new3 ⟨F32.lit 3, F32.lit 4⟩ ⟨F32.lit 2, F32.lit 3⟩ ⟨F32.lit 8, F32.lit 9⟩
def exOrigin : Point (Interval F32) 3 := GVec.new3 Scalar.zero Scalar.zero Scalar.zero
def exUp : Vec (Interval F32) 3 := GVec.new3 Scalar.zero Scalar.one Scalar.zero
/-- an axis in `[1,2] x [5,6] x [1,1]` -/
def exAxis : Vec (Interval F32) 3 := GVec.new3 ⟨F32.lit 1, F32.lit 2⟩ ⟨F32.lit 5, F32.lit 6⟩ Scalar.one

theorem holds_lit {U : Marker} {A : GVec (Interval F32) 3 U} (h : ∀ i, (A.vec i).inf.isFin = true ∧ (A.vec i).sup.isFin = true ∧
    (A.vec i).inf.key ≤ (A.vec i).sup.key) : Holds A (A.mapE fun I => I.sup.toReal) (A.mapE fun I => I.sup) := fun i =>
  have hf : Interval.Finite (A.vec i) := ⟨(h i).1, (h i).2.1⟩
  have hm : (A.vec i).sup.toReal ∈ A.vec i := (mem_fin_iff hf _).2 ⟨toReal_le_iff.2 (h i).2.2, le_rfl⟩
  ⟨hf, hm, (h i).2.1, hm⟩

/-- `C149_look_at`: a camera somewhere in a box of volume one, the up vector along the y axis. -/
example : Holds exEye (exEye.mapE fun I => I.sup.toReal) (exEye.mapE fun I => I.sup) ∧
    Holds exOrigin (exOrigin.mapE fun I => I.sup.toReal) (exOrigin.mapE fun I => I.sup) ∧
    Holds exUp (exUp.mapE fun I => I.sup.toReal) (exUp.mapE fun I => I.sup) ∧
    (Transform.lookAt exEye.cert exOrigin.cert exUp.cert).Ok ∧ exEye.cert.normalize.Ok ∧ exEye.cert.norm.ok = true :=
  ⟨holds_lit (by decide +kernel), holds_lit (by decide +kernel), holds_lit (by decide +kernel),
    by unfold Transform.Ok; decide +kernel, by unfold GVec.Ok; decide +kernel, by decide +kernel⟩

/-- the angle `2^-13` -/
def exAngle : F32 := ⟨956301312⟩

/-- A libm whose sine of `2^-13` is `2^-13` and whose cosine of it is 1, which are the correctly rounded results. -/
@[instance_reducible] noncomputable def exLibmS : Libm 23 8 where
  sin := fun x => if x.bits = exAngle.bits then exAngle else faithful 23 8 (Real.sin x.toReal)
  cos := fun x => if x.bits = exAngle.bits then Scalar.one else faithful 23 8 (Real.cos x.toReal)
  tan := fun x => faithful 23 8 (Real.tan x.toReal)
  asin := fun x => faithful 23 8 (Real.arcsin x.toReal)
  acos := fun x => faithful 23 8 (Real.arccos x.toReal)
  atan := (lawfulLibm_exists 23 8).choose.atan
  atan2 := fun x _ => x

theorem exLibmS_lawful : @LawfulLibm 23 8 _ exLibmS := by
  have hL := (lawfulLibm_exists 23 8).choose_spec
  have hA : exAngle.toReal = 1 / 8192 := by
    rw [show exAngle = (⟨956301312⟩ : F32) from rfl, toReal_bits32 956301312 0 (-13) (by decide +kernel) (by decide +kernel) (by decide +kernel) (by decide +kernel)]
    norm_num
  have hD : (GFloat.nextDown exAngle : F32).toReal = (1 + 8388607 / 2 ^ 23) * 2 ^ (-14 : ℤ) := by
    rw [show (GFloat.nextDown exAngle : F32) = (⟨956301311⟩ : F32) from by decide +kernel,
      toReal_bits32 956301311 8388607 (-14) (by decide +kernel) (by decide +kernel) (by decide +kernel) (by decide +kernel)]
    norm_num
  have hE : (GFloat.nextDown (Scalar.one : F32) : F32).toReal = (1 + 8388607 / 2 ^ 23) * 2 ^ (-1 : ℤ) := by
    rw [show (GFloat.nextDown (Scalar.one : F32) : F32) = (⟨1065353215⟩ : F32) from by decide +kernel,
      toReal_bits32 1065353215 8388607 (-1) (by decide +kernel) (by decide +kernel) (by decide +kernel) (by decide +kernel)]
    norm_num
  have h0 : (0 : ℝ) < 1 / 8192 := by norm_num
  have s1 := Real.sin_lt h0
  have s2 := Real.sin_gt_sub_cube h0
  have c1 := Real.cos_le_one (1 / 8192)
  have c2 := Real.one_sub_sq_div_two_le_cos (x := 1 / 8192)
  refine @LawfulLibm.mk 23 8 _ exLibmS (fun x _ => ?_) (fun x _ => ?_) (fun x _ _ _ => faithful_accurate rfl) (fun x _ _ _ => faithful_accurate rfl)
    hL.atan hL.atan_bot hL.atan_top
  · by_cases hz : x.bits = exAngle.bits
    · have e : exLibmS.sin x = exAngle := if_pos hz
      have z : x = exAngle := by cases x; cases hz; rfl
      have vA : exAngle.val = (exAngle.toReal : EReal) := val_of_isFin (by decide +kernel)
      have p1 : 0 < Real.sin (1 / 8192) := lt_trans (by norm_num) s2
      refine ⟨?_, ?_, ?_, ?_⟩ <;> rw [e, z, hA]
      · exact (lowerOf_fin (by decide +kernel)).2 (by rw [hD]; exact le_trans (by norm_num) s2.le)
      · exact (upperOf_fin (by decide +kernel)).2 (by
          refine le_trans s1.le (le_trans hA.ge ?_); exact toReal_le_iff.2 (by decide +kernel))
      · exact iff_of_true ((val_zero_lt_iff (by decide +kernel)).2 (by decide +kernel)) p1
      · exact iff_of_false (fun h => absurd ((val_lt_zero_iff (by decide +kernel)).1 h) (by decide +kernel)) p1.le.not_gt
    · exact faithful_accurate (if_neg hz)
  · by_cases hz : x.bits = exAngle.bits
    · have e : exLibmS.cos x = (Scalar.one : F32) := if_pos hz
      have z : x = exAngle := by cases x; cases hz; rfl
      have p1 : 0 < Real.cos (1 / 8192) := lt_of_lt_of_le (by norm_num) c2
      refine ⟨?_, ?_, ?_, ?_⟩ <;> rw [e, z, hA]
      · exact (lowerOf_fin (by decide +kernel)).2 (by rw [hE]; exact le_trans (by norm_num) c2)
      · exact (upperOf_fin (by decide +kernel)).2 (by
          refine le_trans c1 (le_trans (sone_spec (mw := 23) (ew := 8)).2.ge ?_); exact toReal_le_iff.2 (by decide +kernel))
      · exact iff_of_true ((val_zero_lt_iff (by decide +kernel)).2 (by decide +kernel)) p1
      · exact iff_of_false (fun h => absurd ((val_lt_zero_iff (by decide +kernel)).1 h) (by decide +kernel)) p1.le.not_gt
    · exact faithful_accurate (if_neg hz)

/-- `C149_rotate`: axes in a box, the angle `2^-13` and that libm, -/
example : @Transform.Ok 23 8 (letI := exLibmS; Transform.rotate exAxis.cert (Cert.of (⟨exAngle, exAngle⟩ : Interval F32))) := by
  unfold Transform.Ok
  decide +kernel
/-- and, given a sine in `[1/2,1]` and a cosine in `[1/3,1/2]`, for every libm. -/
example : (rotateSC exAxis.cert (Cert.of (⟨Flt.ofRat 23 8 false 1 2, F32.lit 1⟩ : Interval F32))
    (Cert.of ⟨Flt.ofRat 23 8 false 1 3, Flt.ofRat 23 8 false 1 2⟩)).Ok := by
  unfold Transform.Ok
  decide +kernel

end Scarlet
