import Verif.Props.RotAxis

/-! C168: on floats `look_at` takes the position of the camera to the origin exactly, and back; transforms take origin and axes to the columns. -/

set_option linter.unusedSectionVars false

namespace Scarlet
open Flt

/-- the rows of the two matrices -/
theorem basis_rows {T : Type} [Scalar T] [Add T] [Mul T] [Neg T] (pos : Point T 3) (x y z : Vec T 3) (i : _root_.Fin 3) :
    (∀ j : _root_.Fin 3, (Transform.initFromOrthogonalBasis pos x y z).m.data i.castSucc j.castSucc = ((![x, y, z] : _root_.Fin 3 → _) i).vec j) ∧
    (Transform.initFromOrthogonalBasis pos x y z).m.data i.castSucc 3 = -(((![x, y, z] : _root_.Fin 3 → _) i).dot pos) ∧
    (Transform.initFromOrthogonalBasis pos x y z).m.data 3 i.castSucc = Scalar.zero ∧
    (Transform.initFromOrthogonalBasis pos x y z).m.data 3 3 = Scalar.one ∧
    (∀ j : _root_.Fin 3, (Transform.initFromOrthogonalBasis pos x y z).minv.data i.castSucc j.castSucc = ((![x, y, z] : _root_.Fin 3 → _) j).vec i) ∧
    (Transform.initFromOrthogonalBasis pos x y z).minv.data i.castSucc 3 = pos.vec i ∧
    (Transform.initFromOrthogonalBasis pos x y z).minv.data 3 i.castSucc = Scalar.zero ∧
    (Transform.initFromOrthogonalBasis pos x y z).minv.data 3 3 = Scalar.one := by
  refine ⟨fun j => ?_, ?_, ?_, rfl, fun j => ?_, ?_, ?_, rfl⟩
  · fin_cases i <;> fin_cases j <;> rfl
  · fin_cases i <;> rfl
  · fin_cases i <;> rfl
  · fin_cases i <;> fin_cases j <;> rfl
  · fin_cases i <;> rfl
  · fin_cases i <;> rfl

section flt
variable {mw ew : Nat} [FltImpl mw ew] [LawfulFlt mw ew]

theorem same_sum {x x' y : Flt mw ew} (hx : x.isFin = true) (hx' : x'.isFin = true) (hy : y.isFin = true) (h : x.toReal = x'.toReal)
    (hf : (x' + y).isFin = true) : (x + y).isFin = true ∧ (x + y).toReal = (x' + y).toReal := by
  have a := (add_fin hx hy).2
  have b := (add_fin hx' hy).2
  rw [← add_def] at a b
  have k : (x + y).key = (x' + y).key := by rw [a, b, h]
  exact ⟨isFin_iff_key.2 (by rw [k]; exact isFin_iff_key.1 hf), toReal_eq_iff.2 k⟩

/-- the sum of `map_point` cancels against that of `dot`, whatever was rounded away -/
theorem sum_cancel {a b c : Flt mw ew} (h : (((Scalar.zero + a) + b) + c).isFin = true) :
    Ex (a + b + c + -(((Scalar.zero + a) + b) + c)) 0 := by
  have h1 := isFin_of_add h
  have h2 := isFin_of_add h1.1
  have h3 := isFin_of_add h2.1
  have z : Ex (Scalar.zero + a) (0 + a.toReal) := ex_zero.add ⟨h3.2, rfl⟩ (Or.inl rfl)
  have s1 := same_sum h3.2 h2.1 h2.2 (by rw [z.2, zero_add]) h1.1
  have s2 := same_sum s1.1 h1.1 h1.2 s1.2 h
  have n : (-(((Scalar.zero + a) + b) + c) : Flt mw ew).isFin = true := by rw [isFin_negop]; exact h
  have k := (add_fin s2.1 n).2
  rw [← add_def, toReal_negop, s2.2, add_neg_cancel, rndK_zero] at k
  exact ⟨isFin_of_key_zero k, toReal_eq_zero_iff.2 k⟩

theorem Ex.div_one {x w : Flt mw ew} {r : ℝ} (hx : Ex x r) (hw : Ex w 1) : Ex (x / w) r := by
  have k := (div_fin hx.1 hw.1 (fun h => by have := toReal_eq_zero_iff.2 h; rw [hw.2] at this; norm_num at this)).2
  rw [← div_def, hw.2, _root_.div_one, hx.2] at k
  exact exact_of_repr hx.repr k

theorem weight_one {p : Point (Flt mw ew) 3} {a b c d : Flt mw ew} (hp : ∀ i, (p.vec i).isFin = true) (ha : Ex a 0) (hb : Ex b 0)
    (hc : Ex c 0) (hd : Ex d 1) : Ex (p.vec 0 * a + p.vec 1 * b + p.vec 2 * c + d) 1 := by
  have x : ∀ {i e}, Ex e (0 : ℝ) → Ex (p.vec i * e) 0 := fun {i e} he => by
    have := (show Ex (p.vec i) _ from ⟨hp i, rfl⟩).mul he (six_r (Or.inl rfl))
    rwa [mul_zero] at this
  have := (((x (i := 0) ha).add (x (i := 1) hb) (Or.inl rfl)).add (x (i := 2) hc) (Or.inr rfl)).add hd (Or.inl (by norm_num))
  norm_num at this
  exact this

theorem ne_zero_of_one {w : Flt mw ew} (h : Ex w 1) : Scalar.eq w Scalar.zero = false := by
  rw [Bool.eq_false_iff]; intro e
  have := toReal_eq_iff.2 (seq_iff.1 e).2.2
  rw [h.2, toReal_szero] at this
  norm_num at this

/-- a finite float matrix with last row `0 0 0 1` -/
def Mat4.FiniteAffine (m : Mat4 (Flt mw ew)) : Prop :=
  (∀ i j, (m.data i j).isFin = true) ∧ m.AffineF

/-- **C168**: an affine transform takes the origin to exactly the last column of its matrix. -/
theorem C168_origin (m : Mat4 (Flt mw ew)) (hm : m.FiniteAffine) :
    ∃ q : Point (Flt mw ew) 3, mapPt m (GVec.new3 Scalar.zero Scalar.zero Scalar.zero : Point (Flt mw ew) 3) = some q ∧
      ∀ i : _root_.Fin 3, Scalar.eq (q.vec i) (m.data i.castSucc 3) = true := by
  have z := ex_zero (mw := mw) (ew := ew)
  have x : ∀ i j, Ex ((Scalar.zero : Flt mw ew) * m.data i j) 0 := fun i j => by
    have := z.mul (show Ex (m.data i j) _ from ⟨hm.1 i j, rfl⟩) (six_l (Or.inl rfl))
    rwa [zero_mul] at this
  have row : ∀ i r, Ex (m.data i 3) r → Ex (Scalar.zero * m.data i 0 + Scalar.zero * m.data i 1 + Scalar.zero * m.data i 2 + m.data i 3) r :=
    fun i r h => by
      have := (((x i 0).add (x i 1) (Or.inl rfl)).add (x i 2) (Or.inr rfl)).add h (Or.inl (by norm_num))
      simpa using this
  have w := row 3 1 ⟨hm.1 3 3, hm.2.2⟩
  refine ⟨_, if_neg (by rw [Bool.not_eq_true]; exact ne_zero_of_one w), fun i => ?_⟩
  have e := (row i.castSucc _ ⟨hm.1 _ _, rfl⟩).div_one w
  have e' : Ex (m.data i.castSucc 3) _ := ⟨hm.1 _ _, rfl⟩
  fin_cases i <;> exact e.eq e' rfl

/-- the three axes -/
def axisVec (j : _root_.Fin 3) : Vec (Flt mw ew) 3 :=
  GVec.new3 (if j = 0 then Scalar.one else Scalar.zero) (if j = 1 then Scalar.one else Scalar.zero) (if j = 2 then Scalar.one else Scalar.zero)

/-- **C168**: and the axes to exactly the other columns. -/
theorem C168_axes (m : Mat4 (Flt mw ew)) (hm : m.FiniteAffine) (j : _root_.Fin 3) :
    ∃ v : Vec (Flt mw ew) 3, mapVector m (axisVec j : Vec (Flt mw ew) 3) = some v ∧
      ∀ i : _root_.Fin 3, Scalar.eq (v.vec i) (m.data i.castSucc j.castSucc) = true := by
  have z := ex_zero (mw := mw) (ew := ew)
  have o := ex_one (mw := mw) (ew := ew)
  have x : ∀ i k, Ex ((Scalar.zero : Flt mw ew) * m.data i k) 0 := fun i k => by
    have := z.mul (show Ex (m.data i k) _ from ⟨hm.1 i k, rfl⟩) (six_l (Or.inl rfl))
    rwa [zero_mul] at this
  have y : ∀ i k, Ex ((Scalar.one : Flt mw ew) * m.data i k) (m.data i k).toReal := fun i k => by
    have := o.mul (show Ex (m.data i k) _ from ⟨hm.1 i k, rfl⟩) (six_l (Or.inr (Or.inl rfl)))
    rwa [one_mul] at this
  have row : ∀ i, Ex ((axisVec j : Vec (Flt mw ew) 3).x * m.data i 0 + (axisVec j : Vec (Flt mw ew) 3).y * m.data i 1 +
      (axisVec j : Vec (Flt mw ew) 3).z * m.data i 2) (m.data i j.castSucc).toReal := fun i => by
    fin_cases j
    · have := ((y i 0).add (x i 1) (Or.inr rfl)).add (x i 2) (Or.inr rfl)
      rw [add_zero, add_zero] at this; exact this
    · have := ((x i 0).add (y i 1) (Or.inl rfl)).add (x i 2) (Or.inr rfl)
      rw [zero_add, add_zero] at this; exact this
    · have := ((x i 0).add (x i 1) (Or.inl rfl)).add (y i 2) (Or.inl (by norm_num))
      rw [zero_add, zero_add] at this; exact this
  have w := row 3
  rw [hm.2.1 j] at w
  refine ⟨_, if_pos (w.eq z rfl), fun i => ?_⟩
  have e' : Ex (m.data i.castSucc j.castSucc) _ := ⟨hm.1 _ _, rfl⟩
  fin_cases i <;> exact (row _).eq e' rfl

theorem dot_three (r : Vec (Flt mw ew) 3) (p : Point (Flt mw ew) 3) :
    r.dot p = ((Scalar.zero + r.vec 0 * p.vec 0) + r.vec 1 * p.vec 1) + r.vec 2 * p.vec 2 := rfl

/-- one row of the matrix: `r` and minus its dot product with `pos` -/
theorem eye_row {pos : Point (Flt mw ew) 3} {w : Flt mw ew} (hw : Ex w 1) (r : Vec (Flt mw ew) 3) (hr : (-(r.dot pos) : Flt mw ew).isFin = true) :
    Scalar.eq ((pos.vec 0 * r.vec 0 + pos.vec 1 * r.vec 1 + pos.vec 2 * r.vec 2 + -(r.dot pos)) / w) Scalar.zero = true := by
  rw [isFin_negop, dot_three] at hr
  have c := sum_cancel hr
  rw [dot_three, Flt.mul_comm' (pos.vec 0) (r.vec 0), Flt.mul_comm' (pos.vec 1) (r.vec 1), Flt.mul_comm' (pos.vec 2) (r.vec 2)]
  exact (Ex.div_one c hw).eq ex_zero rfl

/-- `map_point` by rows -/
theorem mapPt_rows (m : Mat4 (Flt mw ew)) (p : Point (Flt mw ew) 3) (w : Flt mw ew)
    (hw : p.vec 0 * m.data 3 0 + p.vec 1 * m.data 3 1 + p.vec 2 * m.data 3 2 + m.data 3 3 = w) (h : Scalar.eq w Scalar.zero = false) :
    ∃ q, mapPt m p = some q ∧ ∀ i : _root_.Fin 3,
      q.vec i = (p.vec 0 * m.data i.castSucc 0 + p.vec 1 * m.data i.castSucc 1 + p.vec 2 * m.data i.castSucc 2 + m.data i.castSucc 3) / w := by
  subst hw
  refine ⟨_, if_neg (by rw [Bool.not_eq_true]; exact h), fun i => ?_⟩
  fin_cases i <;> rfl

/-- **C168** for `init_from_orthogonal_basis`, for any basis, orthonormal or not. -/
theorem C168_basis (pos : Point (Flt mw ew) 3) (x y z : Vec (Flt mw ew) 3) (hp : ∀ i, (pos.vec i).isFin = true)
    (hm : ∀ i j, ((Transform.initFromOrthogonalBasis pos x y z).matrix.data i j).isFin = true) :
    (∃ q, (Transform.initFromOrthogonalBasis pos x y z).mapPoint pos = some q ∧ ∀ i, Scalar.eq (q.vec i) Scalar.zero = true) ∧
    (∃ q, (Transform.initFromOrthogonalBasis pos x y z).mapPointInv (GVec.new3 Scalar.zero Scalar.zero Scalar.zero : Point (Flt mw ew) 3) = some q ∧
      ∀ i, Scalar.eq (q.vec i) (pos.vec i) = true) := by
  have R := basis_rows pos x y z
  change ∀ i j, ((Transform.initFromOrthogonalBasis pos x y z).m.data i j).isFin = true at hm
  change (∃ q, mapPt (Transform.initFromOrthogonalBasis pos x y z).m pos = some q ∧ _) ∧
    (∃ q, mapPt (Transform.initFromOrthogonalBasis pos x y z).minv _ = some q ∧ _)
  generalize hb : (![x, y, z] : _root_.Fin 3 → Vec (Flt mw ew) 3) = b at R
  generalize Transform.initFromOrthogonalBasis pos x y z = t at R hm
  have Z := ex_zero (mw := mw) (ew := ew)
  have O := ex_one (mw := mw) (ew := ew)
  constructor
  · have w := weight_one hp Z Z Z O
    obtain ⟨q, h1, h2⟩ := mapPt_rows t.m pos _ (by
      have a := (R 0).2.2.1
      have b := (R 1).2.2.1
      have c := (R 2).2.2.1
      change t.m.data 3 0 = _ at a
      change t.m.data 3 1 = _ at b
      change t.m.data 3 2 = _ at c
      rw [a, b, c, (R 0).2.2.2.1]) (ne_zero_of_one w)
    refine ⟨q, h1, fun i => ?_⟩
    have e := eye_row (pos := pos) w (b i) (by rw [← (R i).2.1]; exact hm _ _)
    have e0 := (R i).1 0
    have e1 := (R i).1 1
    have e2 := (R i).1 2
    change t.m.data i.castSucc 0 = _ at e0
    change t.m.data i.castSucc 1 = _ at e1
    change t.m.data i.castSucc 2 = _ at e2
    rw [h2 i, e0, e1, e2, (R i).2.1]
    exact e
  · have fa : t.minv.FiniteAffine := by
      refine ⟨fun i j => ?_, fun j => by rw [(R j).2.2.2.2.2.2.1]; exact Z.2, by rw [(R 0).2.2.2.2.2.2.2]; exact O.2⟩
      refine Fin.lastCases ?_ (fun i => ?_) i
      · refine Fin.lastCases ?_ (fun j => ?_) j
        · have := (R 0).2.2.2.2.2.2.2
          change (t.minv.data 3 3).isFin = true
          rw [this]; exact O.1
        · have := (R j).2.2.2.2.2.2.1
          change (t.minv.data 3 j.castSucc).isFin = true
          rw [this]; exact Z.1
      · refine Fin.lastCases ?_ (fun j => ?_) j
        · have := (R i).2.2.2.2.2.1
          change (t.minv.data i.castSucc 3).isFin = true
          rw [this]; exact hp i
        · rw [(R i).2.2.2.2.1 j, ← (R j).1 i]; exact hm _ _
    obtain ⟨q, h1, h2⟩ := C168_origin _ fa
    refine ⟨q, h1, fun i => ?_⟩
    have := h2 i
    rwa [(R i).2.2.2.2.2.1] at this

/-- **C168**: on floats `look_at` takes the position of the camera to the origin and the inverse takes the origin back to the position,
exactly: no tolerance, however far out the camera is and however inexact its basis, as long as nothing overflows. -/
theorem C168_eye (pos target : Point (Flt mw ew) 3) (up : Vec (Flt mw ew) 3) (hp : ∀ i, (pos.vec i).isFin = true)
    (hm : ∀ i j, ((Transform.lookAt pos target up).matrix.data i j).isFin = true) :
    (∃ q, (Transform.lookAt pos target up).mapPoint pos = some q ∧ ∀ i, Scalar.eq (q.vec i) Scalar.zero = true) ∧
    (∃ q, (Transform.lookAt pos target up).mapPointInv (GVec.new3 Scalar.zero Scalar.zero Scalar.zero : Point (Flt mw ew) 3) = some q ∧
      ∀ i, Scalar.eq (q.vec i) (pos.vec i) = true) :=
  C168_basis pos _ _ _ hp hm

end flt

/-- a camera at `(1, 2, 3)`, looking at the origin -/
def eyeCam : Transform F32 :=
  Transform.lookAt (GVec.new3 (F32.lit 1) (F32.lit 2) (F32.lit 3)) (GVec.new3 Scalar.zero Scalar.zero Scalar.zero)
    (GVec.new3 Scalar.zero Scalar.one Scalar.zero)

/-- the hypotheses are met -/
example : (∃ q, eyeCam.mapPoint (GVec.new3 (F32.lit 1) (F32.lit 2) (F32.lit 3)) = some q ∧ ∀ i, Scalar.eq (q.vec i) Scalar.zero = true) :=
  (C168_eye _ _ _ (by decide +kernel) (by decide +kernel)).1

/-- **C168**, the position is special: another point, the target, does not come back exactly on `f32`. -/
theorem C168_refuted : ∃ q r : Point F32 3, eyeCam.mapPoint (GVec.new3 Scalar.zero Scalar.zero Scalar.zero) = some q ∧
    eyeCam.mapPointInv q = some r ∧ ∃ i, Scalar.eq (r.vec i) Scalar.zero = false := by
  have h : (((eyeCam.mapPoint (GVec.new3 Scalar.zero Scalar.zero Scalar.zero : Point F32 3)).bind fun q =>
      (eyeCam.mapPointInv q).map fun r => (Scalar.eq (r.vec 0) Scalar.zero && Scalar.eq (r.vec 1) Scalar.zero && Scalar.eq (r.vec 2) Scalar.zero))
      = some false) := by decide +kernel
  rw [Option.bind_eq_some_iff] at h
  obtain ⟨q, hq, h⟩ := h
  rw [Option.map_eq_some_iff] at h
  obtain ⟨r, hr, h⟩ := h
  refine ⟨q, r, hq, hr, ?_⟩
  by_contra hc
  push Not at hc
  have t : ∀ i, Scalar.eq (r.vec i) Scalar.zero = true := fun i => by have := hc i; simpa using this
  rw [t 0, t 1, t 2] at h
  exact absurd h (by decide)

end Scarlet
