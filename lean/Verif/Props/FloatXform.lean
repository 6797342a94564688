import Verif.Props.FloatVec
import Verif.Theory.Trig
import Verif.Theory.Mat
import Verif.Props.Transform4

/-! C81 (identity, translations and scalings on floats), C85 (rounding error of affine maps). -/

set_option linter.unusedSectionVars false

namespace Scarlet
open Flt GVec

variable {mw ew : Nat} [FltImpl mw ew] [LawfulFlt mw ew]

/-! ### scalar facts: operations with 0 and 1 are exact -/
namespace Flt

/-- both not NaN and numerically equal -/
def Same (a b : Flt mw ew) : Prop := a.isNaN = false ∧ b.isNaN = false ∧ a.key = b.key

theorem Same.val {a b : Flt mw ew} (h : Same a b) : a.val = b.val := (val_eq_iff h.1 h.2.1).2 h.2.2
theorem Same.symm {a b : Flt mw ew} (h : Same a b) : Same b a := ⟨h.2.1, h.1, h.2.2.symm⟩
theorem Same.trans {a b c : Flt mw ew} (h : Same a b) (h' : Same b c) : Same a c := ⟨h.1, h'.2.1, h.2.2.trans h'.2.2⟩
theorem Same.refl {a : Flt mw ew} (h : a.isNaN = false) : Same a a := ⟨h, h, rfl⟩
theorem Same.isFin {a b : Flt mw ew} (h : Same a b) (hb : b.isFin = true) : a.isFin = true := by
  rw [isFin_iff_key] at hb ⊢; rw [h.2.2]; exact hb
theorem Same.toReal {a b : Flt mw ew} (h : Same a b) : a.toReal = b.toReal := toReal_eq_iff.2 h.2.2

theorem mul_zero_same {p : Flt mw ew} (hp : p.isFin = true) : Same (p * Scalar.zero) (Scalar.zero : Flt mw ew) := by
  have h := mul_fin hp (isFin_szero (mw := mw) (ew := ew))
  rw [← mul_def, toReal_szero, mul_zero, rndK_zero] at h
  exact ⟨h.1, notNaN_of_isFin isFin_szero, by rw [h.2, key_szero]⟩

theorem mul_zero_same' {p z : Flt mw ew} (hp : p.isFin = true) (hz : Same z (Scalar.zero : Flt mw ew)) :
    Same (p * z) (Scalar.zero : Flt mw ew) := by
  have h := mul_fin hp (hz.isFin isFin_szero)
  rw [← mul_def, hz.toReal, toReal_szero, mul_zero, rndK_zero] at h
  exact ⟨h.1, notNaN_of_isFin isFin_szero, by rw [h.2, key_szero]⟩

theorem mul_one_same {p : Flt mw ew} (hp : p.isFin = true) : Same (p * Scalar.one) p := by
  have h := mul_fin hp (sone_spec (mw := mw) (ew := ew)).1
  rw [← mul_def, sone_spec.2, mul_one, rndK_toReal (notNaN_of_isFin hp)] at h
  exact ⟨h.1, notNaN_of_isFin hp, h.2⟩

theorem add_zero_same {a z b : Flt mw ew} (ha : Same a b) (hz : Same z (Scalar.zero : Flt mw ew)) : Same (a + z) b := by
  refine Same.trans ?_ ha
  have hzf : z.isFin = true := hz.isFin isFin_szero
  have hzk : z.key = 0 := hz.2.2.trans key_szero
  have hp := kInf_pos (mw := mw) (ew := ew)
  rcases isFin_or_isInf ha.1 with hf | hi
  · have h := add_fin hf hzf
    rw [← add_def, toReal_eq_zero_iff.2 hzk, add_zero, rndK_toReal ha.1] at h
    exact ⟨h.1, ha.1, h.2⟩
  · rw [isInf_iff_key] at hi
    rcases hi with hi | hi
    · have h := add_top_left ha.1 hz.1 hi (by omega)
      exact ⟨h.1, ha.1, by rw [h.2, hi]⟩
    · have h := add_bot_left ha.1 hz.1 hi (by omega)
      exact ⟨h.1, ha.1, by rw [h.2, hi]⟩

theorem zero_add_same {a z b : Flt mw ew} (hz : Same z (Scalar.zero : Flt mw ew)) (ha : Same a b) : Same (z + a) b := by
  rw [add_comm']; exact add_zero_same ha hz

theorem add_same {a a' b b' : Flt mw ew} (ha : Same a a') (hb : Same b b') (fa : a'.isFin = true) (fb : b'.isFin = true) :
    Same (a + b) (a' + b') := by
  have h := add_fin (ha.isFin fa) (hb.isFin fb)
  have h' := add_fin fa fb
  rw [← add_def] at h h'
  rw [ha.toReal, hb.toReal] at h
  exact ⟨h.1, h'.1, h.2.trans h'.2.symm⟩

theorem div_one_same {a w b : Flt mw ew} (ha : Same a b) (hw : Same w (Scalar.one : Flt mw ew)) : Same (a / w) b := by
  refine Same.trans ?_ ha
  have ho := sone_spec (mw := mw) (ew := ew)
  have hwf : w.isFin = true := hw.isFin ho.1
  have hwr : w.toReal = 1 := hw.toReal.trans ho.2
  have hwk : 0 < w.key := toReal_pos_iff.1 (by rw [hwr]; norm_num)
  rcases isFin_or_isInf ha.1 with hf | hi
  · have h := div_fin hf hwf (by omega)
    rw [← div_def, hwr, div_one, rndK_toReal ha.1] at h
    exact ⟨h.1, ha.1, h.2⟩
  · have hwi : w.isInf = false := notInf_of_isFin hwf
    have : a / w = inf mw ew a.sgn := by
      rw [div_def]; unfold div
      rw [ha.1, hw.1, hi, hwi, sgn_of_key_pos hwk]
      cases a.sgn <;> rfl
    have hinf : (inf mw ew a.sgn).isInf = true := isInf_inf _
    have hlt : infIdx mw ew < 2 ^ (mw + ew) := by have := infIdx_lt (mw := mw) (ew := ew); omega
    have he : inf mw ew a.sgn = a := by
      refine ext_sgn_idx (sgn_ofIdx hlt) ?_
      rw [isInf_iff] at hi hinf; rw [hi, hinf]
    rw [this, he]
    exact Same.refl ha.1

theorem eq_zero_false_of_one {w : Flt mw ew} (hw : Same w (Scalar.one : Flt mw ew)) :
    Scalar.eq w (Scalar.zero : Flt mw ew) = false := by
  have hk : 0 < w.key := by rw [hw.2.2]; exact key_sone_pos
  rw [Bool.eq_false_iff, ne_eq, seq_iff, key_szero]; omega

theorem eq_zero_true {w : Flt mw ew} (hw : Same w (Scalar.zero : Flt mw ew)) :
    Scalar.eq w (Scalar.zero : Flt mw ew) = true := seq_iff.2 hw

theorem szero_same : Same (Scalar.zero : Flt mw ew) (Scalar.zero : Flt mw ew) := Same.refl (notNaN_of_isFin isFin_szero)
theorem sone_same : Same (Scalar.one : Flt mw ew) (Scalar.one : Flt mw ew) := Same.refl (notNaN_of_isFin sone_spec.1)

end Flt

/-- `AffineF` (last row numerically `0 0 0 1`, as all of scarlet's affine constructors and their products produce) -/
theorem affineF_same {m : Mat4 (Flt mw ew)} (hm : m.AffineF) :
    Same (m.data 3 0) Scalar.zero ∧ Same (m.data 3 1) Scalar.zero ∧ Same (m.data 3 2) Scalar.zero ∧
    Same (m.data 3 3) Scalar.one := by
  have z : ∀ x : Flt mw ew, x.toReal = 0 → Same x Scalar.zero := fun x h => by
    have hk := toReal_eq_zero_iff.1 h
    exact ⟨notNaN_of_isFin (isFin_of_key_zero hk), notNaN_of_isFin isFin_szero, by rw [hk, key_szero]⟩
  have ho := sone_spec (mw := mw) (ew := ew)
  refine ⟨z _ (hm.1 0), z _ (hm.1 1), z _ (hm.1 2), ?_⟩
  have hk : (m.data 3 3).key = (Scalar.one : Flt mw ew).key := toReal_eq_iff.1 (hm.2.trans ho.2.symm)
  have hf : (m.data 3 3).isFin = true := by rw [isFin_iff_key, hk, ← isFin_iff_key]; exact ho.1
  exact ⟨notNaN_of_isFin hf, notNaN_of_isFin ho.1, hk⟩

/-- homogeneous coordinate of a finite point under an affine matrix: exactly one, so no panic -/
theorem affine_w {m : Mat4 (Flt mw ew)} (hm : m.AffineF) {p : Point (Flt mw ew) 3} (hp : ∀ i, (p.vec i).isFin = true) :
    Same (p.x * m.idx 3 0 + p.y * m.idx 3 1 + p.z * m.idx 3 2 + m.idx 3 3) Scalar.one := by
  obtain ⟨h0, h1, h2, h3⟩ := affineF_same hm
  exact zero_add_same (add_zero_same (add_zero_same (mul_zero_same' (hp 0) h0) (mul_zero_same' (hp 1) h1))
    (mul_zero_same' (hp 2) h2)) h3

theorem affine_w_vec {m : Mat4 (Flt mw ew)} (hm : m.AffineF) {p : Vec (Flt mw ew) 3} (hp : ∀ i, (p.vec i).isFin = true) :
    Same (p.x * m.idx 3 0 + p.y * m.idx 3 1 + p.z * m.idx 3 2) Scalar.zero := by
  obtain ⟨h0, h1, h2, -⟩ := affineF_same hm
  exact add_zero_same (add_zero_same (mul_zero_same' (hp 0) h0) (mul_zero_same' (hp 1) h1)) (mul_zero_same' (hp 2) h2)

/-- numerator of the `i`-th coordinate of a mapped point -/
def rowPt (m : Mat4 (Flt mw ew)) (p : Point (Flt mw ew) 3) (i : _root_.Fin 4) : Flt mw ew :=
  p.x * m.idx i 0 + p.y * m.idx i 1 + p.z * m.idx i 2 + m.idx i 3

/-- `map_point` with an affine matrix never panics on a finite point, and the division by `w` changes nothing. -/
theorem mapPt_lastRow {m : Mat4 (Flt mw ew)} (hm : m.AffineF) {p : Point (Flt mw ew) 3} (hp : ∀ i, (p.vec i).isFin = true) :
    ∃ q : Point (Flt mw ew) 3, mapPt m p = some q ∧
      ((rowPt m p 0).isNaN = false → Same q.x (rowPt m p 0)) ∧ ((rowPt m p 1).isNaN = false → Same q.y (rowPt m p 1)) ∧
      ((rowPt m p 2).isNaN = false → Same q.z (rowPt m p 2)) := by
  have hw := affine_w hm hp
  unfold mapPt
  simp only [eq_zero_false_of_one hw, Bool.false_eq_true, if_false]
  exact ⟨_, rfl, fun h => div_one_same (Same.refl h) hw, fun h => div_one_same (Same.refl h) hw,
    fun h => div_one_same (Same.refl h) hw⟩

/-! ## C81 -/

/-- `q` is the point with exactly the coordinates `c` (compared as numbers). -/
def ValEq {U : Marker} (q : GVec (Flt mw ew) 3 U) (c : _root_.Fin 3 → Flt mw ew) : Prop :=
  ∀ i, (q.vec i).isNaN = false ∧ (q.vec i).val = (c i).val

theorem valEq_of {U : Marker} {q : GVec (Flt mw ew) 3 U} {c : _root_.Fin 3 → Flt mw ew}
    (h0 : Same q.x (c 0)) (h1 : Same q.y (c 1)) (h2 : Same q.z (c 2)) : ValEq q c := by
  intro i
  fin_cases i
  · exact ⟨h0.1, h0.val⟩
  · exact ⟨h1.1, h1.val⟩
  · exact ⟨h2.1, h2.val⟩

section
variable {x y z : Flt mw ew}

theorem row_s0 (hx : x.isFin = true) (hy : y.isFin = true) (hz : z.isFin = true) {b c d t : Flt mw ew}
    (hb : Same (x * b) t) (hc : c = Scalar.zero) (hd : d = Scalar.zero) : Same (x * b + y * c + z * d) t := by
  subst hc hd
  exact add_zero_same (add_zero_same hb (mul_zero_same hy)) (mul_zero_same hz)
theorem row_s1 (hx : x.isFin = true) (hy : y.isFin = true) (hz : z.isFin = true) {b c d t : Flt mw ew}
    (hb : b = Scalar.zero) (hc : Same (y * c) t) (hd : d = Scalar.zero) : Same (x * b + y * c + z * d) t := by
  subst hb hd
  exact add_zero_same (zero_add_same (mul_zero_same hx) hc) (mul_zero_same hz)
theorem row_s2 (hx : x.isFin = true) (hy : y.isFin = true) (hz : z.isFin = true) {b c d t : Flt mw ew}
    (hb : b = Scalar.zero) (hc : c = Scalar.zero) (hd : Same (z * d) t) : Same (x * b + y * c + z * d) t := by
  subst hb hc
  exact zero_add_same (add_zero_same (mul_zero_same hx) (mul_zero_same hy)) hd
end

theorem affineF_of {m : Mat4 (Flt mw ew)} (h0 : m.data 3 0 = Scalar.zero) (h1 : m.data 3 1 = Scalar.zero)
    (h2 : m.data 3 2 = Scalar.zero) (h3 : m.data 3 3 = Scalar.one) : m.AffineF := by
  refine ⟨fun j => ?_, by rw [h3]; exact sone_spec.2⟩
  fin_cases j
  · exact h0 ▸ toReal_szero
  · exact h1 ▸ toReal_szero
  · exact h2 ▸ toReal_szero

theorem affineF_translate (v : Vec (Flt mw ew) 3) :
    (Transform.translate v).m.AffineF ∧ (Transform.translate v).minv.AffineF :=
  ⟨affineF_of rfl rfl rfl rfl, affineF_of rfl rfl rfl rfl⟩
theorem affineF_scale (v : Vec (Flt mw ew) 3) : (Transform.scale v).m.AffineF ∧ (Transform.scale v).minv.AffineF :=
  ⟨affineF_of rfl rfl rfl rfl, affineF_of rfl rfl rfl rfl⟩
theorem affineF_identity : (Mat4.identity : Mat4 (Flt mw ew)).AffineF := affineF_of rfl rfl rfl rfl

/-- C81 is about concrete values: one such point, off the grid of exact results -/
example : ((Transform.translate (new3 (F32.lit 1) (F32.lit 2) (F32.lit 3) : Vec F32 3)).mapPoint
    (new3 (ofRat 23 8 false 1 3) (F32.lit 5) (F32.lit 6))).map (fun q => (q.vec 0, q.vec 1, q.vec 2)) =
    some (ofRat 23 8 false 1 3 + F32.lit 1, F32.lit 7, F32.lit 9) := by decide +kernel

/-- C81: on floats the identity transform maps every finite point and vector to itself, without panic. -/
theorem C81_identity (p : Point (Flt mw ew) 3) (v : Vec (Flt mw ew) 3) (hp : ∀ i, (p.vec i).isFin = true)
    (hv : ∀ i, (v.vec i).isFin = true) :
    (∃ q, (Transform.identity : Transform (Flt mw ew)).mapPoint p = some q ∧ ValEq q p.vec) ∧
    (∃ q, (Transform.identity : Transform (Flt mw ew)).mapVec v = some q ∧ ValEq q v.vec) := by
  constructor
  · obtain ⟨q, hq, h0, h1, h2⟩ := mapPt_lastRow affineF_identity hp
    have e0 : Same (rowPt Mat4.identity p 0) (p.vec 0) :=
      add_zero_same (row_s0 (hp 0) (hp 1) (hp 2) (mul_one_same (hp 0)) rfl rfl) szero_same
    have e1 : Same (rowPt Mat4.identity p 1) (p.vec 1) :=
      add_zero_same (row_s1 (hp 0) (hp 1) (hp 2) rfl (mul_one_same (hp 1)) rfl) szero_same
    have e2 : Same (rowPt Mat4.identity p 2) (p.vec 2) :=
      add_zero_same (row_s2 (hp 0) (hp 1) (hp 2) rfl rfl (mul_one_same (hp 2))) szero_same
    exact ⟨q, hq, valEq_of ((h0 e0.1).trans e0) ((h1 e1.1).trans e1) ((h2 e2.1).trans e2)⟩
  · have hw := affine_w_vec affineF_identity hv
    refine ⟨_, if_pos (eq_zero_true hw), valEq_of ?_ ?_ ?_⟩
    · exact row_s0 (hv 0) (hv 1) (hv 2) (mul_one_same (hv 0)) rfl rfl
    · exact row_s1 (hv 0) (hv 1) (hv 2) rfl (mul_one_same (hv 1)) rfl
    · exact row_s2 (hv 0) (hv 1) (hv 2) rfl rfl (mul_one_same (hv 2))

/-- C81: on floats, `translate(v)` maps every finite point `p` to exactly the float sum `p + v` (one rounding per
coordinate), its inverse to exactly `p - v`, and leaves every finite vector alone; no panic. -/
theorem C81_translate (v : Vec (Flt mw ew) 3) (p : Point (Flt mw ew) 3) (d : Vec (Flt mw ew) 3)
    (hv : ∀ i, (v.vec i).isFin = true) (hp : ∀ i, (p.vec i).isFin = true) (hd : ∀ i, (d.vec i).isFin = true) :
    (∃ q, (Transform.translate v).mapPoint p = some q ∧ ValEq q (fun i => p.vec i + v.vec i)) ∧
    (∃ q, (Transform.translate v).mapPointInv p = some q ∧ ValEq q (fun i => p.vec i - v.vec i)) ∧
    (∃ q, (Transform.translate v).mapVec d = some q ∧ ValEq q d.vec) := by
  refine ⟨?_, ?_, ?_⟩
  · obtain ⟨q, hq, h0, h1, h2⟩ := mapPt_lastRow (affineF_translate v).1 hp
    have r : ∀ i, Same (v.vec i) (v.vec i) := fun i => Same.refl (notNaN_of_isFin (hv i))
    have e0 : Same (rowPt (Transform.translate v).m p 0) (p.vec 0 + v.vec 0) :=
      add_same (row_s0 (hp 0) (hp 1) (hp 2) (mul_one_same (hp 0)) rfl rfl) (r 0) (hp 0) (hv 0)
    have e1 : Same (rowPt (Transform.translate v).m p 1) (p.vec 1 + v.vec 1) :=
      add_same (row_s1 (hp 0) (hp 1) (hp 2) rfl (mul_one_same (hp 1)) rfl) (r 1) (hp 1) (hv 1)
    have e2 : Same (rowPt (Transform.translate v).m p 2) (p.vec 2 + v.vec 2) :=
      add_same (row_s2 (hp 0) (hp 1) (hp 2) rfl rfl (mul_one_same (hp 2))) (r 2) (hp 2) (hv 2)
    exact ⟨q, hq, valEq_of ((h0 e0.1).trans e0) ((h1 e1.1).trans e1) ((h2 e2.1).trans e2)⟩
  · obtain ⟨q, hq, h0, h1, h2⟩ := mapPt_lastRow (affineF_translate v).2 hp
    have hv' : ∀ i, (-v.vec i).isFin = true := fun i => by rw [isFin_negop]; exact hv i
    have r : ∀ i, Same (-v.vec i) (-v.vec i) := fun i => Same.refl (notNaN_of_isFin (hv' i))
    have e0 : Same (rowPt (Transform.translate v).minv p 0) (p.vec 0 - v.vec 0) :=
      add_same (row_s0 (hp 0) (hp 1) (hp 2) (mul_one_same (hp 0)) rfl rfl) (r 0) (hp 0) (hv' 0)
    have e1 : Same (rowPt (Transform.translate v).minv p 1) (p.vec 1 - v.vec 1) :=
      add_same (row_s1 (hp 0) (hp 1) (hp 2) rfl (mul_one_same (hp 1)) rfl) (r 1) (hp 1) (hv' 1)
    have e2 : Same (rowPt (Transform.translate v).minv p 2) (p.vec 2 - v.vec 2) :=
      add_same (row_s2 (hp 0) (hp 1) (hp 2) rfl rfl (mul_one_same (hp 2))) (r 2) (hp 2) (hv' 2)
    exact ⟨q, hq, valEq_of ((h0 e0.1).trans e0) ((h1 e1.1).trans e1) ((h2 e2.1).trans e2)⟩
  · have hw := affine_w_vec (affineF_translate v).1 hd
    refine ⟨_, if_pos (eq_zero_true hw), valEq_of ?_ ?_ ?_⟩
    · exact row_s0 (hd 0) (hd 1) (hd 2) (mul_one_same (hd 0)) rfl rfl
    · exact row_s1 (hd 0) (hd 1) (hd 2) rfl (mul_one_same (hd 1)) rfl
    · exact row_s2 (hd 0) (hd 1) (hd 2) rfl rfl (mul_one_same (hd 2))

/-- C81: on floats, `scale(v)` maps every finite point or vector to exactly the float products `vᵢ pᵢ` (one rounding
per coordinate); no panic. -/
theorem C81_scale (v : Vec (Flt mw ew) 3) (p : Point (Flt mw ew) 3) (d : Vec (Flt mw ew) 3)
    (hv : ∀ i, (v.vec i).isFin = true) (hp : ∀ i, (p.vec i).isFin = true) (hd : ∀ i, (d.vec i).isFin = true) :
    (∃ q, (Transform.scale v).mapPoint p = some q ∧ ValEq q (fun i => p.vec i * v.vec i)) ∧
    (∃ q, (Transform.scale v).mapVec d = some q ∧ ValEq q (fun i => d.vec i * v.vec i)) := by
  have r : ∀ x y : Flt mw ew, x.isFin = true → y.isFin = true → Same (x * y) (x * y) := fun x y hx hy =>
    Same.refl (by rw [mul_def]; exact (mul_fin hx hy).1)
  constructor
  · obtain ⟨q, hq, h0, h1, h2⟩ := mapPt_lastRow (affineF_scale v).1 hp
    have e0 : Same (rowPt (Transform.scale v).m p 0) (p.vec 0 * v.vec 0) :=
      add_zero_same (row_s0 (hp 0) (hp 1) (hp 2) (r _ _ (hp 0) (hv 0)) rfl rfl) szero_same
    have e1 : Same (rowPt (Transform.scale v).m p 1) (p.vec 1 * v.vec 1) :=
      add_zero_same (row_s1 (hp 0) (hp 1) (hp 2) rfl (r _ _ (hp 1) (hv 1)) rfl) szero_same
    have e2 : Same (rowPt (Transform.scale v).m p 2) (p.vec 2 * v.vec 2) :=
      add_zero_same (row_s2 (hp 0) (hp 1) (hp 2) rfl rfl (r _ _ (hp 2) (hv 2))) szero_same
    exact ⟨q, hq, valEq_of ((h0 e0.1).trans e0) ((h1 e1.1).trans e1) ((h2 e2.1).trans e2)⟩
  · have hw := affine_w_vec (affineF_scale v).1 hd
    refine ⟨_, if_pos (eq_zero_true hw), valEq_of ?_ ?_ ?_⟩
    · exact row_s0 (hd 0) (hd 1) (hd 2) (r _ _ (hd 0) (hv 0)) rfl rfl
    · exact row_s1 (hd 0) (hd 1) (hd 2) rfl (r _ _ (hd 1) (hv 1)) rfl
    · exact row_s2 (hd 0) (hd 1) (hd 2) rfl rfl (r _ _ (hd 2) (hv 2))

/-! ## C85 -/

/-- the exact real image of `p` under the affine map stored in `m`, coordinate `i` -/
noncomputable def affR (m : Mat4 (Flt mw ew)) (x : _root_.Fin 3 → ℝ) (b : ℝ) (i : _root_.Fin 4) : ℝ :=
  x 0 * (m.data i 0).toReal + x 1 * (m.data i 1).toReal + x 2 * (m.data i 2).toReal + b * (m.data i 3).toReal
/-- the same sum with absolute values: the condition of the sum -/
noncomputable def affAbs (m : Mat4 (Flt mw ew)) (x : _root_.Fin 3 → ℝ) (b : ℝ) (i : _root_.Fin 4) : ℝ :=
  |x 0 * (m.data i 0).toReal| + |x 1 * (m.data i 1).toReal| + |x 2 * (m.data i 2).toReal| + |b * (m.data i 3).toReal|

theorem mul_err' {x y : Flt mw ew} (hz : (x * y).isFin = true) :
    |(x * y).toReal - x.toReal * y.toReal| ≤ uRnd mw * |x.toReal * y.toReal| + etaRnd mw ew := by
  have h := isFin_of_mul hz
  refine (mul_err h.1 h.2 hz).trans (max_le ?_ ?_)
  · have := mul_nonneg (uRnd_pos (mw := mw)).le (abs_nonneg (x.toReal * y.toReal)); linarith
  · have := etaRnd_pos (mw := mw) (ew := ew); linarith

theorem same_add_left {a b c : Flt mw ew} (h : Same b a) (hf : (a + c).isFin = true) : Same (b + c) (a + c) := by
  have f := isFin_of_add hf
  exact add_same h (Same.refl (notNaN_of_isFin f.2)) f.1 f.2

/-- a sum of three products, in the order written -/
theorem sum3_err {a b c a' b' c' : Flt mw ew} (h : (a * a' + b * b' + c * c').isFin = true) :
    |(a * a' + b * b' + c * c').toReal - (a.toReal * a'.toReal + b.toReal * b'.toReal + c.toReal * c'.toReal)| ≤
      ((1 + uRnd mw) ^ 3 - 1) * (|a.toReal * a'.toReal| + |b.toReal * b'.toReal| + |c.toReal * c'.toReal|) +
        3 * etaRnd mw ew * (1 + uRnd mw) ^ 2 := by
  have h1 := (isFin_of_add h).1
  have h2 := (isFin_of_add h1).1
  let f : _root_.Fin 3 → Flt mw ew := fun i => match i with | 0 => a * a' | 1 => b * b' | 2 => c * c'
  let g : _root_.Fin 3 → ℝ := fun i => match i with
    | 0 => a.toReal * a'.toReal | 1 => b.toReal * b'.toReal | 2 => c.toReal * c'.toReal
  have hs : sumLoop 3 f = Scalar.zero + a * a' + b * b' + c * c' := rfl
  have e1 : Same (Scalar.zero + a * a') (a * a') := zero_add_same szero_same (Same.refl (notNaN_of_isFin h2))
  have e2 := same_add_left (same_add_left e1 h1 |>.trans (Same.refl (notNaN_of_isFin h1))) h
  have := sumLoop_err (f := f) g (by rw [hs]; exact e2.isFin h) (fun i => by
    fin_cases i
    · exact mul_err' h2
    · exact mul_err' (isFin_of_add h1).2
    · exact mul_err' (isFin_of_add h).2)
  rw [hs, e2.toReal, Fin.sum_univ_three, Fin.sum_univ_three] at this
  simpa only [Nat.cast_ofNat] using this

/-- three products and a last summand, in the order written -/
theorem sum4_err {a b c d a' b' c' : Flt mw ew} (h : (a * a' + b * b' + c * c' + d).isFin = true) :
    |(a * a' + b * b' + c * c' + d).toReal -
        (a.toReal * a'.toReal + b.toReal * b'.toReal + c.toReal * c'.toReal + d.toReal)| ≤
      ((1 + uRnd mw) ^ 4 - 1) * (|a.toReal * a'.toReal| + |b.toReal * b'.toReal| + |c.toReal * c'.toReal| + |d.toReal|) +
        4 * etaRnd mw ew * (1 + uRnd mw) ^ 3 := by
  have h1 := (isFin_of_add h).1
  have h2 := (isFin_of_add h1).1
  have h3 := (isFin_of_add h2).1
  let f : _root_.Fin 4 → Flt mw ew := fun i => match i with | 0 => a * a' | 1 => b * b' | 2 => c * c' | 3 => d
  let g : _root_.Fin 4 → ℝ := fun i => match i with
    | 0 => a.toReal * a'.toReal | 1 => b.toReal * b'.toReal | 2 => c.toReal * c'.toReal | 3 => d.toReal
  have hs : sumLoop 4 f = Scalar.zero + a * a' + b * b' + c * c' + d := rfl
  have e1 : Same (Scalar.zero + a * a') (a * a') := zero_add_same szero_same (Same.refl (notNaN_of_isFin h3))
  have e2 := same_add_left (same_add_left (same_add_left e1 h2) h1) h
  have := sumLoop_err (f := f) g (by rw [hs]; exact e2.isFin h) (fun i => by
    fin_cases i
    · exact mul_err' h3
    · exact mul_err' (isFin_of_add h2).2
    · exact mul_err' (isFin_of_add h1).2
    · have u0 := mul_nonneg (uRnd_pos (mw := mw)).le (abs_nonneg d.toReal)
      have e0 := etaRnd_pos (mw := mw) (ew := ew)
      have hd : |d.toReal - d.toReal| = 0 := by rw [sub_self, abs_zero]
      exact hd.le.trans (add_nonneg u0 e0.le))
  rw [hs, e2.toReal, Fin.sum_univ_four, Fin.sum_univ_four] at this
  simpa only [Nat.cast_ofNat] using this

/-- C85: rounding error of `map_point` for an affine float matrix, per coordinate: whenever the computed coordinate is
finite, it differs from the exact `(A p + b)_i` by at most
`((1+u)^4 − 1) (Σ_j |A_ij p_j| + |b_i|) + 4 η (1+u)^3`. -/
theorem C85_point (m : Mat4 (Flt mw ew)) (hm : m.AffineF) (p q : Point (Flt mw ew) 3)
    (hp : ∀ i, (p.vec i).isFin = true) (h : mapPt m p = some q) (i : _root_.Fin 3) (hq : (q.vec i).isFin = true) :
    |(q.vec i).toReal - affR m (fun j => (p.vec j).toReal) 1 i.castSucc| ≤
      ((1 + uRnd mw) ^ 4 - 1) * affAbs m (fun j => (p.vec j).toReal) 1 i.castSucc +
        4 * etaRnd mw ew * (1 + uRnd mw) ^ 3 := by
  have hw := affine_w hm hp
  unfold mapPt at h
  simp only [eq_zero_false_of_one hw, Bool.false_eq_true, if_false, Option.some.injEq] at h
  unfold affR affAbs
  rw [one_mul]
  have key : ∀ j : _root_.Fin 4, ∀ t : Flt mw ew,
      t = (p.x * m.idx j 0 + p.y * m.idx j 1 + p.z * m.idx j 2 + m.idx j 3) /
        (p.x * m.idx 3 0 + p.y * m.idx 3 1 + p.z * m.idx 3 2 + m.idx 3 3) → t.isFin = true →
      |t.toReal - ((p.vec 0).toReal * (m.data j 0).toReal + (p.vec 1).toReal * (m.data j 1).toReal +
        (p.vec 2).toReal * (m.data j 2).toReal + (m.data j 3).toReal)| ≤
      ((1 + uRnd mw) ^ 4 - 1) * (|(p.vec 0).toReal * (m.data j 0).toReal| + |(p.vec 1).toReal * (m.data j 1).toReal| +
        |(p.vec 2).toReal * (m.data j 2).toReal| + |(m.data j 3).toReal|) + 4 * etaRnd mw ew * (1 + uRnd mw) ^ 3 := by
    intro j t ht hf
    rw [ht] at hf
    have hn := (isFin_of_div hf).1
    have hs := div_one_same (Same.refl (notNaN_of_isFin hn)) hw
    rw [ht, hs.toReal]
    exact sum4_err hn
  fin_cases i
  · exact key 0 _ (by rw [← h]; rfl) hq
  · exact key 1 _ (by rw [← h]; rfl) hq
  · exact key 2 _ (by rw [← h]; rfl) hq

/-- C85: the same for `map_vector`: the translation column is not used. -/
theorem C85_vector (m : Mat4 (Flt mw ew)) (hm : m.AffineF) (v q : Vec (Flt mw ew) 3)
    (hv : ∀ i, (v.vec i).isFin = true) (h : mapVector m v = some q) (i : _root_.Fin 3) (hq : (q.vec i).isFin = true) :
    |(q.vec i).toReal - affR m (fun j => (v.vec j).toReal) 0 i.castSucc| ≤
      ((1 + uRnd mw) ^ 3 - 1) * affAbs m (fun j => (v.vec j).toReal) 0 i.castSucc +
        3 * etaRnd mw ew * (1 + uRnd mw) ^ 2 := by
  have hw := affine_w_vec hm hv
  unfold mapVector at h
  rw [if_pos (eq_zero_true hw), Option.some.injEq] at h
  unfold affR affAbs
  simp only [zero_mul, add_zero, abs_zero]
  fin_cases i
  · rw [← h] at hq ⊢; exact sum3_err hq
  · rw [← h] at hq ⊢; exact sum3_err hq
  · rw [← h] at hq ⊢; exact sum3_err hq

/-- the hypotheses are met by a translation of a float point, with a finite image -/
example : let m := (Transform.translate (new3 (F32.lit 1) (F32.lit 2) (F32.lit 3) : Vec F32 3)).m
    m.AffineF ∧ (mapPt m (new3 (F32.lit 4) (F32.lit 5) (F32.lit 6))).map (fun q => (q.vec 0, q.vec 1, q.vec 2)) =
      some (F32.lit 5, F32.lit 7, F32.lit 9) :=
  ⟨affineF_of rfl rfl rfl rfl, by decide +kernel⟩

end Scarlet
