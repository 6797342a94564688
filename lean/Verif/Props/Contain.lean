import Verif.Props.ParallelBox
import Verif.Props.Primitive

/-! C140: the slab test respects containment of boxes on floats, without any tolerance: what a hierarchy of bounding boxes relies
on. -/

set_option linter.unusedSectionVars false

namespace Scarlet
open Flt GVec

variable {mw ew : Nat} [FltImpl mw ew] [LawfulFlt mw ew]

/-! ### keys with a default for NaN -/

namespace Contain

/-- The key, NaN counting as `-∞`: how the inherent `max` treats it. -/
def loK (x : Flt mw ew) : ℤ := if x.isNaN then -kInf mw ew else x.key
/-- The key, NaN counting as `∞`: how the inherent `min` treats it. -/
def hiK (x : Flt mw ew) : ℤ := if x.isNaN then kInf mw ew else x.key

theorem loK_bounds (x : Flt mw ew) : -kInf mw ew ≤ loK x ∧ loK x ≤ kInf mw ew := by
  have hp := kInf_pos (mw := mw) (ew := ew)
  unfold loK
  cases h : x.isNaN
  · exact key_bounds h
  · simp only [if_true]; omega
theorem hiK_bounds (x : Flt mw ew) : -kInf mw ew ≤ hiK x ∧ hiK x ≤ kInf mw ew := by
  have hp := kInf_pos (mw := mw) (ew := ew)
  unfold hiK
  cases h : x.isNaN
  · exact key_bounds h
  · simp only [if_true]; omega
theorem loK_of {x : Flt mw ew} (h : x.isNaN = false) : loK x = x.key := by simp [loK, h]
theorem hiK_of {x : Flt mw ew} (h : x.isNaN = false) : hiK x = x.key := by simp [hiK, h]

theorem loK_imax (x y : Flt mw ew) : loK (imax x y) = Max.max (loK x) (loK y) := by
  have bx := loK_bounds x
  have by' := loK_bounds y
  rcases imax_cases x y with ⟨h, e⟩ | ⟨h, e⟩ | ⟨h1, h2, h3, e⟩ | ⟨h1, h2, h3, e⟩ <;> rw [e]
  · have : loK x = -kInf mw ew := by simp [loK, h]
    omega
  · have : loK y = -kInf mw ew := by simp [loK, h]
    omega
  · rw [loK_of h1, loK_of h2]; omega
  · rw [loK_of h1, loK_of h2]; omega
theorem hiK_imin (x y : Flt mw ew) : hiK (imin x y) = Min.min (hiK x) (hiK y) := by
  have bx := hiK_bounds x
  have by' := hiK_bounds y
  rcases imin_cases x y with ⟨h, e⟩ | ⟨h, e⟩ | ⟨h1, h2, h3, e⟩ | ⟨h1, h2, h3, e⟩ <;> rw [e]
  · have : hiK x = kInf mw ew := by simp [hiK, h]
    omega
  · have : hiK y = kInf mw ew := by simp [hiK, h]
    omega
  · rw [hiK_of h1, hiK_of h2]; omega
  · rw [hiK_of h1, hiK_of h2]; omega

theorem gt_iff (x y : Flt mw ew) : Scalar.gt x y = true ↔ hiK y < loK x := by
  have bx := loK_bounds x
  have bY := hiK_bounds y
  rw [sgt_iff]
  cases hx : x.isNaN
  · cases hy : y.isNaN
    · rw [loK_of hx, hiK_of hy]; simp
    · have : hiK y = kInf mw ew := by simp [hiK, hy]
      simp; omega
  · have : loK x = -kInf mw ew := by simp [loK, hx]
    simp; omega

theorem lt_zero_iff (x : Flt mw ew) : Scalar.lt x Scalar.zero = true ↔ hiK x < 0 := by
  have hp := kInf_pos (mw := mw) (ew := ew)
  rw [slt_iff, key_szero]
  cases hx : x.isNaN
  · rw [hiK_of hx]; simp [szero_notNaN]
  · have : hiK x = kInf mw ew := by simp [hiK, hx]
    simp; omega

/-- What the slab test reports, in terms of the three slabs. -/
theorem intersectRay_keys (b : Bbox (Flt mw ew)) (ray : Ray (Flt mw ew)) :
    ∃ N F : ℤ, N = Max.max (Max.max (loK (slab b ray 0).1) (loK (slab b ray 1).1)) (loK (slab b ray 2).1) ∧
      F = Min.min (Min.min (hiK (slab b ray 0).2) (hiK (slab b ray 1).2)) (hiK (slab b ray 2).2) ∧
      ((b.intersectRay ray = none ∧ (hiK ray.tmax < N ∨ F < 0 ∨ F < N)) ∨
       (N ≤ hiK ray.tmax ∧ 0 ≤ F ∧ N ≤ F ∧ ∃ t0 t1, b.intersectRay ray = some (t0, t1) ∧ t0.isNaN = false ∧
          t0.key = Max.max N 0 ∧ hiK t1 = Min.min F (hiK ray.tmax) ∧ (ray.tmax.isNaN = false → t1.isNaN = false))) := by
  refine ⟨_, _, rfl, rfl, ?_⟩
  have e : b.intersectRay ray =
      if Scalar.gt (imax (imax (slab b ray 0).1 (slab b ray 1).1) (slab b ray 2).1) ray.tmax ||
        Scalar.lt (imin (imin (slab b ray 0).2 (slab b ray 1).2) (slab b ray 2).2) Scalar.zero ||
        Scalar.gt (imax (imax (slab b ray 0).1 (slab b ray 1).1) (slab b ray 2).1)
          (imin (imin (slab b ray 0).2 (slab b ray 1).2) (slab b ray 2).2) then none
      else some (imax (imax (imax (slab b ray 0).1 (slab b ray 1).1) (slab b ray 2).1) Scalar.zero,
        imin (imin (imin (slab b ray 0).2 (slab b ray 1).2) (slab b ray 2).2) ray.tmax) := rfl
  have hN : loK (imax (imax (slab b ray 0).1 (slab b ray 1).1) (slab b ray 2).1) =
      Max.max (Max.max (loK (slab b ray 0).1) (loK (slab b ray 1).1)) (loK (slab b ray 2).1) := by rw [loK_imax, loK_imax]
  have hF : hiK (imin (imin (slab b ray 0).2 (slab b ray 1).2) (slab b ray 2).2) =
      Min.min (Min.min (hiK (slab b ray 0).2) (hiK (slab b ray 1).2)) (hiK (slab b ray 2).2) := by rw [hiK_imin, hiK_imin]
  rw [e, ← hN, ← hF]
  generalize imax (imax (slab b ray 0).1 (slab b ray 1).1) (slab b ray 2).1 = n
  generalize imin (imin (slab b ray 0).2 (slab b ray 1).2) (slab b ray 2).2 = f
  have c : (Scalar.gt n ray.tmax || Scalar.lt f Scalar.zero || Scalar.gt n f) = true ↔
      (hiK ray.tmax < loK n ∨ hiK f < 0 ∨ hiK f < loK n) := by
    rw [Bool.or_eq_true, Bool.or_eq_true, gt_iff, gt_iff, lt_zero_iff, or_assoc]
  by_cases h : (Scalar.gt n ray.tmax || Scalar.lt f Scalar.zero || Scalar.gt n f) = true
  · left; exact ⟨if_pos h, c.1 h⟩
  · right
    have h' := mt c.2 h
    push Not at h'
    refine ⟨h'.1, h'.2.1, h'.2.2, _, _, if_neg h, ?_⟩
    have z0 : (Scalar.zero : Flt mw ew).isNaN = false := szero_notNaN
    have m := le_imax' (x := n) z0
    refine ⟨m.1, ?_, hiK_imin _ _, fun ht => (imin_le' (x := f) ht).1⟩
    rw [← loK_of m.1, loK_imax, loK_of z0, key_szero]

/-! ### division by a fixed finite number is monotone -/

theorem inf_div {x y : Flt mw ew} (hx : x.isInf = true) (hn : x.isNaN = false) (hy : y.isFin = true) :
    (x / y).isNaN = false ∧ (x / y).key = if x.sgn = y.sgn then kInf mw ew else -kInf mw ew := by
  change (x.div y).isNaN = false ∧ (x.div y).key = _
  have e : x.div y = inf mw ew (x.sgn != y.sgn) := by
    unfold Flt.div
    rw [hn, notNaN_of_isFin hy, notInf_of_isFin hy, hx]
    simp
  rw [e, key_inf]
  refine ⟨isNaN_inf _, ?_⟩
  by_cases h : x.sgn = y.sgn <;> simp [h]

/-- Dividing by a nonzero finite number never gives NaN. -/
theorem div_num {x d : Flt mw ew} (hx : x.isNaN = false) (hd : d.isFin = true) (h0 : d.key ≠ 0) : (x / d).isNaN = false := by
  rcases key_cases hx with h | h | h
  · exact (inf_div (isInf_iff_key.2 (Or.inr h)) hx hd).1
  · exact (inf_div (isInf_iff_key.2 (Or.inl h)) hx hd).1
  · exact (div_fin h hd h0).1

theorem div_mono_pos {x y d : Flt mw ew} (hx : x.isNaN = false) (hy : y.isNaN = false) (hd : d.isFin = true) (h0 : 0 < d.key)
    (h : x.key ≤ y.key) : (x / d).key ≤ (y / d).key := by
  have hK := kInf_pos (mw := mw) (ew := ew)
  have n1 := div_num hx hd (by omega)
  have n2 := div_num hy hd (by omega)
  have b1 := key_bounds n1
  have b2 := key_bounds n2
  have ds := sgn_of_key_pos h0
  have kx := key_bounds hx
  have ky := key_bounds hy
  rcases key_cases hx with hx' | hx' | hx'
  · have := (inf_div (isInf_iff_key.2 (Or.inr hx')) hx hd).2
    rw [ds, sgn_of_key_neg (by omega)] at this
    simp at this; omega
  · have := (inf_div (isInf_iff_key.2 (Or.inl (by omega : y.key = kInf mw ew))) hy hd).2
    rw [ds, sgn_of_key_pos (by omega)] at this
    simp at this; omega
  · rcases key_cases hy with hy' | hy' | hy'
    · have := isFin_iff_key.1 hx'; omega
    · have := (inf_div (isInf_iff_key.2 (Or.inl hy')) hy hd).2
      rw [ds, sgn_of_key_pos (by omega)] at this
      simp at this; omega
    · change (x.div d).key ≤ (y.div d).key
      rw [(div_fin hx' hd (by omega)).2, (div_fin hy' hd (by omega)).2]
      exact rndK_mono mw ew (div_le_div_of_nonneg_right (toReal_le_iff.2 h) (toReal_pos_iff.2 h0).le)

theorem div_mono_neg {x y d : Flt mw ew} (hx : x.isNaN = false) (hy : y.isNaN = false) (hd : d.isFin = true) (h0 : d.key < 0)
    (h : x.key ≤ y.key) : (y / d).key ≤ (x / d).key := by
  have hK := kInf_pos (mw := mw) (ew := ew)
  have n1 := div_num hx hd (by omega)
  have n2 := div_num hy hd (by omega)
  have b1 := key_bounds n1
  have b2 := key_bounds n2
  have ds := sgn_of_key_neg h0
  have kx := key_bounds hx
  have ky := key_bounds hy
  rcases key_cases hx with hx' | hx' | hx'
  · have := (inf_div (isInf_iff_key.2 (Or.inr hx')) hx hd).2
    rw [ds, sgn_of_key_neg (by omega)] at this
    simp at this; omega
  · have := (inf_div (isInf_iff_key.2 (Or.inl (by omega : y.key = kInf mw ew))) hy hd).2
    rw [ds, sgn_of_key_pos (by omega)] at this
    simp at this; omega
  · rcases key_cases hy with hy' | hy' | hy'
    · have := isFin_iff_key.1 hx'; omega
    · have := (inf_div (isInf_iff_key.2 (Or.inl hy')) hy hd).2
      rw [ds, sgn_of_key_pos (by omega)] at this
      simp at this; omega
    · change (y.div d).key ≤ (x.div d).key
      rw [(div_fin hx' hd (by omega)).2, (div_fin hy' hd (by omega)).2]
      apply rndK_mono mw ew
      have hd0 : d.toReal < 0 := by
        have := toReal_lt_iff (x := d) (y := zero mw ew false)
        rw [toReal_eq_zero_iff.2 (key_zero false), key_zero] at this
        exact this.2 h0
      exact div_le_div_of_nonpos_of_le hd0.le (toReal_le_iff.2 h)

theorem sub_mono {x y o : Flt mw ew} (hx : x.isFin = true) (hy : y.isFin = true) (ho : o.isFin = true) (h : x.key ≤ y.key) :
    (x - o).key ≤ (y - o).key := by
  change (x.sub o).key ≤ (y.sub o).key
  rw [(sub_fin hx ho).2, (sub_fin hy ho).2]
  exact rndK_mono mw ew (by have := toReal_le_iff.2 h; linarith)

/-! ### one axis -/

/-- Along a parallel axis outside the slab, on which side. -/
theorem slab_outside (b : Bbox (Flt mw ew)) (ray : Ray (Flt mw ew)) (i : _root_.Fin 3) (h : AxisFin b ray i)
    (h0 : (ray.direction.vec i).key = 0) (hb : ¬ Between b ray i) :
    (slab b ray i).1.isNaN = false ∧ (slab b ray i).2.isNaN = false ∧
    ∃ s : Bool, ((s = true ↔ (b.pmax.vec i).toReal < (ray.origin.vec i).toReal) ∧
      (slab b ray i).1.key = (if s = (ray.direction.vec i).sgn then kInf mw ew else -kInf mw ew) ∧
      (slab b ray i).2.key = if s = (ray.direction.vec i).sgn then kInf mw ew else -kInf mw ew) := by
  obtain ⟨f1, f2, f3, f4, ho⟩ := h
  unfold Between at hb
  rw [not_or, not_and, not_le] at hb
  obtain ⟨hb1, hb2⟩ := hb
  have n1 : (b.pmin.vec i - ray.origin.vec i).isNaN = false := (sub_fin f1 f3).1
  have n2 : (b.pmax.vec i - ray.origin.vec i).isNaN = false := (sub_fin f2 f3).1
  have two : ∀ q1 q2 : Flt mw ew, (q1.isNaN = true ∨ q1.key = q2.key) → Scalar.min q1 q2 = q2 ∧ Scalar.max q1 q2 = q2 := by
    intro q1 q2 h1
    constructor
    · rw [smin_def, if_neg]; rw [slt_iff]; rintro ⟨a, -, c⟩
      rcases h1 with h1 | h1
      · rw [h1] at a; cases a
      · omega
    · rw [smax_def, if_neg]; rw [sgt_iff]; rintro ⟨a, -, c⟩
      rcases h1 with h1 | h1
      · rw [h1] at a; cases a
      · omega
  have go : ∀ q1 q2 : Flt mw ew, slab b ray i = (Scalar.min q1 q2, Scalar.max q1 q2) → (q1.isNaN = true ∨ q1.key = q2.key) →
      slab b ray i = (q2, q2) := by
    intro q1 q2 e h
    rw [e, (two q1 q2 h).1, (two q1 q2 h).2]
  by_cases hlt : (b.pmax.vec i).toReal < (ray.origin.vec i).toReal
  · have k2 := sub_key_neg f2 f3 (toReal_lt_iff.1 hlt)
    have k1 := sub_key_neg f1 f3 (toReal_lt_iff.1 (lt_of_le_of_lt ho hlt))
    obtain ⟨p1, -, -, p4⟩ := div_sign n1 (by omega) f4
    obtain ⟨q1, -, -, q4⟩ := div_sign n2 (by omega) f4
    rw [sgn_of_key_neg k1] at p4
    rw [sgn_of_key_neg k2] at q4
    rw [go _ _ rfl (Or.inr (by rw [p4 h0, q4 h0]))]
    exact ⟨q1, q1, true, by simpa using hlt, q4 h0, q4 h0⟩
  · have hgt : (ray.origin.vec i).toReal < (b.pmax.vec i).toReal := lt_of_le_of_ne (not_lt.1 hlt) hb2
    have hle : (ray.origin.vec i).toReal ≤ (b.pmin.vec i).toReal := by
      by_contra hc
      exact absurd (hb1 (not_le.1 hc)) (not_lt.2 hgt.le)
    have k2 := sub_key_pos f2 f3 (toReal_lt_iff.1 hgt)
    obtain ⟨q1, -, -, q4⟩ := div_sign n2 (by omega) f4
    rw [sgn_of_key_pos k2] at q4
    have hq : ((b.pmin.vec i - ray.origin.vec i) / ray.direction.vec i).isNaN = true ∨
        ((b.pmin.vec i - ray.origin.vec i) / ray.direction.vec i).key = ((b.pmax.vec i - ray.origin.vec i) / ray.direction.vec i).key := by
      rcases hle.eq_or_lt with he | hl
      · exact Or.inl (div_zero_zero (sub_key_zero f1 f3 (toReal_eq_iff.1 he).symm).2 h0)
      · have k1 := sub_key_pos f1 f3 (toReal_lt_iff.1 hl)
        obtain ⟨p1, -, -, p4⟩ := div_sign n1 (by omega) f4
        rw [sgn_of_key_pos k1] at p4
        exact Or.inr (by rw [p4 h0, q4 h0])
    rw [go _ _ rfl hq]
    exact ⟨q1, q1, false, by simpa using hlt, q4 h0, q4 h0⟩

end Contain

/-- The ray runs parallel to axis `i` within the lower face of the box `b`, and the box `a` is flat and lies in that face. -/
def FlatInFace (a b : Bbox (Flt mw ew)) (ray : Ray (Flt mw ew)) (i : _root_.Fin 3) : Prop :=
  (ray.direction.vec i).toReal = 0 ∧ (ray.origin.vec i).toReal = (b.pmin.vec i).toReal ∧
    (a.pmax.vec i).toReal = (b.pmin.vec i).toReal ∧ (b.pmin.vec i).toReal < (b.pmax.vec i).toReal

namespace Contain

theorem slab_mono (a b : Bbox (Flt mw ew)) (ray : Ray (Flt mw ew)) (i : _root_.Fin 3) (ha : AxisFin a ray i) (hb : AxisFin b ray i)
    (h1 : (b.pmin.vec i).key ≤ (a.pmin.vec i).key) (h2 : (a.pmax.vec i).key ≤ (b.pmax.vec i).key) (hf : ¬ FlatInFace a b ray i) :
    loK (slab b ray i).1 ≤ loK (slab a ray i).1 ∧ hiK (slab a ray i).2 ≤ hiK (slab b ray i).2 := by
  have hK := kInf_pos (mw := mw) (ew := ew)
  have a1 := ha.1; have a2 := ha.2.1; have f3 := ha.2.2.1; have f4 := ha.2.2.2.1; have ao := toReal_le_iff.1 ha.2.2.2.2
  have b1 := hb.1; have b2 := hb.2.1
  by_cases hd : (ray.direction.vec i).key = 0
  · by_cases hbb : Between b ray i
    · have la := loK_bounds (slab a ray i).1
      have ra := hiK_bounds (slab a ray i).2
      rcases slab_between b ray i hb (toReal_eq_zero_iff.2 hd) hbb with ⟨n1, n2⟩ | ⟨n1, n2, k1, k2⟩
      · simp only [loK, hiK, n1, n2, if_true] at *
        exact ⟨la.1, ra.2⟩
      · rw [loK_of n1, hiK_of n2, k1, k2]; exact ⟨la.1, ra.2⟩
    · have r1 := toReal_le_iff.2 h1
      have r2 := toReal_le_iff.2 h2
      have ro := ha.2.2.2.2
      have hba : ¬ Between a ray i := by
        intro h
        unfold Between at h hbb
        unfold FlatInFace at hf
        rw [toReal_eq_zero_iff.2 hd] at hf
        push Not at hbb hf
        have c1 := hbb.1
        have c2 := hbb.2
        rcases h with ⟨u, v⟩ | u
        · have := c1 (by linarith); linarith
        · rcases lt_trichotomy (b.pmin.vec i).toReal (ray.origin.vec i).toReal with w | w | w
          · have := c1 w; linarith
          · have := hf rfl w.symm (by linarith)
            exact c2 (by linarith)
          · linarith
      obtain ⟨n1, n2, s, hs, k1, k2⟩ := slab_outside a ray i ha hd hba
      obtain ⟨m1, m2, s', hs', l1, l2⟩ := slab_outside b ray i hb hd hbb
      have : s = s' := by
        rw [Bool.eq_iff_iff, hs, hs']
        constructor
        · intro h
          by_contra hc
          refine hbb ?_
          unfold Between
          rcases (not_lt.1 hc).eq_or_lt with hc | hc
          · exact Or.inr hc
          · exact Or.inl ⟨by linarith, by linarith⟩
        · intro h; linarith
      subst this
      rw [loK_of n1, hiK_of n2, loK_of m1, hiK_of m2, k1, k2, l1, l2]
      exact ⟨le_rfl, le_rfl⟩
  · have sa1 : (a.pmin.vec i - ray.origin.vec i).isNaN = false := (sub_fin a1 f3).1
    have sa2 : (a.pmax.vec i - ray.origin.vec i).isNaN = false := (sub_fin a2 f3).1
    have sb1 : (b.pmin.vec i - ray.origin.vec i).isNaN = false := (sub_fin b1 f3).1
    have sb2 : (b.pmax.vec i - ray.origin.vec i).isNaN = false := (sub_fin b2 f3).1
    have m1 := sub_mono b1 a1 f3 h1
    have m2 := sub_mono a2 b2 f3 h2
    have m3 := sub_mono a1 a2 f3 ao
    have na1 := div_num sa1 f4 hd
    have na2 := div_num sa2 f4 hd
    have nb1 := div_num sb1 f4 hd
    have nb2 := div_num sb2 f4 hd
    obtain ⟨p1, p2⟩ := smin_key na1 na2
    obtain ⟨p3, p4⟩ := smax_key na1 na2
    obtain ⟨q1, q2⟩ := smin_key nb1 nb2
    obtain ⟨q3, q4⟩ := smax_key nb1 nb2
    change loK (Scalar.min _ _) ≤ loK (Scalar.min _ _) ∧ hiK (Scalar.max _ _) ≤ hiK (Scalar.max _ _)
    rw [loK_of p1, hiK_of p3, loK_of q1, hiK_of q3, p2, p4, q2, q4]
    rcases lt_or_gt_of_ne hd with hn | hp
    · have := div_mono_neg sb1 sa1 f4 hn m1
      have := div_mono_neg sa2 sb2 f4 hn m2
      have := div_mono_neg sa1 sa2 f4 hn m3
      omega
    · have := div_mono_pos sb1 sa1 f4 hp m1
      have := div_mono_pos sa2 sb2 f4 hp m2
      have := div_mono_pos sa1 sa2 f4 hp m3
      omega

/-- Containment of regions, axis by axis. -/
theorem axes {a b : Bbox (Flt mw ew)} (hne : ∃ p, a.inside p = true) (hab : ∀ p, a.inside p = true → b.inside p = true)
    (i : _root_.Fin 3) : (a.pmin.vec i).key ≤ (a.pmax.vec i).key ∧
      (b.pmin.vec i).key ≤ (a.pmin.vec i).key ∧ (a.pmax.vec i).key ≤ (b.pmax.vec i).key := by
  obtain ⟨p, hp⟩ := hne
  rw [Bbox.insideF_iff] at hp
  have hle : ∀ i, FLe (a.pmin.vec i) (a.pmax.vec i) := fun i => (hp i).1.trans (hp i).2
  have c1 := hab a.pmin (by rw [Bbox.insideF_iff]; exact fun i => ⟨FLe.refl (hle i).1, hle i⟩)
  have c2 := hab a.pmax (by rw [Bbox.insideF_iff]; exact fun i => ⟨hle i, FLe.refl (hle i).2.1⟩)
  rw [Bbox.insideF_iff] at c1 c2
  exact ⟨(hle i).2.2, (c1 i).1.2.2, (c2 i).2.2.2⟩

end Contain
open Contain

/-- C140: the slab test respects containment, on floats and without tolerance.  If every point inside `a` is inside `b` and the
ray hits `a`, it hits `b`, and the range reported for `a` lies within the range reported for `b`.  Overflow, directions of any
length, zero direction components and unbounded rays included; the exception is a ray within the lower face of `b` and a flat `a` in
that face. -/
theorem C140_hit (a b : Bbox (Flt mw ew)) (ray : Ray (Flt mw ew)) (hne : ∃ p, a.inside p = true)
    (hab : ∀ p, a.inside p = true → b.inside p = true) (ha : a.pmin.Fin ∧ a.pmax.Fin) (hb : b.pmin.Fin ∧ b.pmax.Fin)
    (ho : ray.origin.Fin) (hd : ray.direction.Fin) (ht : ray.tmax.isNaN = false) (hf : ∀ i, ¬ FlatInFace a b ray i)
    (s0 s1 : Flt mw ew) (h : a.intersectRay ray = some (s0, s1)) :
    ∃ t0 t1, b.intersectRay ray = some (t0, t1) ∧ Scalar.le t0 s0 = true ∧ Scalar.le s1 t1 = true := by
  have m : ∀ i, loK (slab b ray i).1 ≤ loK (slab a ray i).1 ∧ hiK (slab a ray i).2 ≤ hiK (slab b ray i).2 := by
    intro i
    obtain ⟨h1, h2, h3⟩ := axes hne hab i
    exact slab_mono a b ray i ⟨ha.1 i, ha.2 i, ho i, hd i, toReal_le_iff.2 h1⟩
      ⟨hb.1 i, hb.2 i, ho i, hd i, toReal_le_iff.2 (by omega)⟩ h2 h3 (hf i)
  have m0 := m 0; have m1 := m 1; have m2 := m 2
  obtain ⟨N, F, hN, hF, ha'⟩ := intersectRay_keys a ray
  obtain ⟨N', F', hN', hF', hb'⟩ := intersectRay_keys b ray
  have hNN : N' ≤ N := by rw [hN, hN']; exact max_le_max (max_le_max m0.1 m1.1) m2.1
  have hFF : F ≤ F' := by rw [hF, hF']; exact min_le_min (min_le_min m0.2 m1.2) m2.2
  clear m m0 m1 m2 hN hN' hF hF'
  rcases ha' with ⟨hnone, -⟩ | ⟨u1, u2, u3, x0, x1, he, w1, w2, w3, w4⟩
  · rw [h] at hnone; cases hnone
  rw [h, Option.some.injEq, Prod.mk.injEq] at he
  obtain ⟨rfl, rfl⟩ := he
  rcases hb' with ⟨-, hbad⟩ | ⟨v1, v2, v3, t0, t1, he', z1, z2, z3, z4⟩
  · omega
  refine ⟨t0, t1, he', ?_, ?_⟩
  · rw [sle_iff]; exact ⟨z1, w1, by omega⟩
  · rw [sle_iff]; refine ⟨w4 ht, z4 ht, ?_⟩
    rw [hiK_of (w4 ht)] at w3; rw [hiK_of (z4 ht)] at z3; omega

/-- C140: so a box that is missed may be skipped with everything in it. -/
theorem C140_skip (a b : Bbox (Flt mw ew)) (ray : Ray (Flt mw ew)) (hne : ∃ p, a.inside p = true)
    (hab : ∀ p, a.inside p = true → b.inside p = true) (ha : a.pmin.Fin ∧ a.pmax.Fin) (hb : b.pmin.Fin ∧ b.pmax.Fin)
    (ho : ray.origin.Fin) (hd : ray.direction.Fin) (ht : ray.tmax.isNaN = false) (hf : ∀ i, ¬ FlatInFace a b ray i)
    (h : b.doIntersect ray = false) : a.doIntersect ray = false ∧ a.hit ray = none := by
  have hi : a.intersectRay ray = none := by
    cases h' : a.intersectRay ray with
    | none => rfl
    | some s =>
      obtain ⟨t0, t1, e, -⟩ := C140_hit a b ray hne hab ha hb ho hd ht hf s.1 s.2 h'
      unfold Bbox.doIntersect at h
      rw [e] at h; cases h
  unfold Bbox.doIntersect Bbox.hit
  rw [hi]
  exact ⟨rfl, rfl⟩

/-- C140: the exception is exact.  A bounded ray within the lower face of `b` misses `b`, whatever flat box lies in that face. -/
theorem C140_sharp (a b : Bbox (Flt mw ew)) (ray : Ray (Flt mw ew)) (hb : b.pmin.Fin ∧ b.pmax.Fin)
    (ho : ray.origin.Fin) (hd : ray.direction.Fin) (ht : ray.tmax.isFin = true) (i : _root_.Fin 3) (hf : FlatInFace a b ray i) :
    b.intersectRay ray = none :=
  C53_blocked b ray i ⟨hb.1 i, hb.2 i, ho i, hd i, hf.2.2.2.le⟩ hf.1 ht (Or.inr (Or.inr ⟨hf.2.1, hf.2.2.2⟩))

theorem Contain.imin_fin {x y : Flt mw ew} (hx : x.isFin = true) (hy : y.isFin = true) : (imin x y).isFin = true := by
  rcases imin_cases x y with ⟨-, e⟩ | ⟨-, e⟩ | ⟨-, -, -, e⟩ | ⟨-, -, -, e⟩ <;> rw [e] <;> assumption
theorem Contain.imax_fin {x y : Flt mw ew} (hx : x.isFin = true) (hy : y.isFin = true) : (imax x y).isFin = true := by
  rcases imax_cases x y with ⟨-, e⟩ | ⟨-, e⟩ | ⟨-, -, -, e⟩ | ⟨-, -, -, e⟩ <;> rw [e] <;> assumption

theorem Contain.union_fin {a b : Bbox (Flt mw ew)} (ha : a.pmin.Fin ∧ a.pmax.Fin) (hb : b.pmin.Fin ∧ b.pmax.Fin) :
    (a.union b).pmin.Fin ∧ (a.union b).pmax.Fin := by
  constructor <;> intro i <;> fin_cases i
  · exact imin_fin (ha.1 0) (hb.1 0)
  · exact imin_fin (ha.1 1) (hb.1 1)
  · exact imin_fin (ha.1 2) (hb.1 2)
  · exact imax_fin (ha.2 0) (hb.2 0)
  · exact imax_fin (ha.2 1) (hb.2 1)
  · exact imax_fin (ha.2 2) (hb.2 2)

/-- C140: what hits one of two boxes hits their union (also via `+` and `+=`), over a range at least as large. -/
theorem C140_union (a b : Bbox (Flt mw ew)) (ray : Ray (Flt mw ew)) (hne : ∃ p, a.inside p = true)
    (ha : a.pmin.Fin ∧ a.pmax.Fin) (hb : b.pmin.Fin ∧ b.pmax.Fin)
    (ho : ray.origin.Fin) (hd : ray.direction.Fin) (ht : ray.tmax.isNaN = false) (hf : ∀ i, ¬ FlatInFace a (a + b) ray i)
    (s0 s1 : Flt mw ew) (h : a.intersectRay ray = some (s0, s1)) :
    ∃ t0 t1, (a + b).intersectRay ray = some (t0, t1) ∧ Scalar.le t0 s0 = true ∧ Scalar.le s1 t1 = true :=
  C140_hit a (a + b) ray hne (fun p hp => C45_add a b p (Or.inl hp)) ha (union_fin ha hb) ho hd ht hf s0 s1 h

/-- Scenes of boxes: finite boxes with a point inside, collected in lists to any depth. -/
inductive BoxScene : Primitive (Flt mw ew) → Prop
  | box (b : Bbox (Flt mw ew)) (hne : ∃ p, b.inside p = true) (hb : b.pmin.Fin ∧ b.pmax.Fin) : BoxScene b.prim
  | list (ps : List (Primitive (Flt mw ew))) (h : ∀ p ∈ ps, BoxScene p) : BoxScene (PrimitiveList.prim ps)

theorem Contain.default_fin : (Bbox.default : Bbox (Flt mw ew)).pmin.Fin ∧ (Bbox.default : Bbox (Flt mw ew)).pmax.Fin := by
  constructor <;> intro i <;> fin_cases i <;> exact isFin_maxFin _

theorem Contain.scene_fin (p : Primitive (Flt mw ew)) (h : BoxScene p) : p.bbox.pmin.Fin ∧ p.bbox.pmax.Fin := by
  induction h with
  | box b hne hb => exact hb
  | list ps h ih =>
    have : ∀ (ps : List (Primitive (Flt mw ew))) (b : Bbox (Flt mw ew)), (∀ p ∈ ps, p.bbox.pmin.Fin ∧ p.bbox.pmax.Fin) →
        b.pmin.Fin ∧ b.pmax.Fin → (ps.foldl (fun b p => b + p.bbox) b).pmin.Fin ∧ (ps.foldl (fun b p => b + p.bbox) b).pmax.Fin := by
      intro ps
      induction ps with
      | nil => intro b _ hb; exact hb
      | cons p ps ih' =>
        intro b hp hb
        exact ih' _ (fun q hq => hp q (by simp [hq])) (union_fin hb (hp p (by simp)))
    exact this ps _ ih default_fin

/-- The box that reported the hit. -/
theorem Contain.scene_leaf [Libm mw ew] (p : Primitive (Flt mw ew)) (h : BoxScene p) (ray : Ray (Flt mw ew)) (r : IntersectionResult (Flt mw ew))
    (hr : p.intersect ray = some (some r)) : ∃ a : Bbox (Flt mw ew), (∃ p, a.inside p = true) ∧ (a.pmin.Fin ∧ a.pmax.Fin) ∧
      (∀ x, a.inside x = true → p.bbox.inside x = true) ∧ a.hit ray = some r := by
  induction h with
  | box b hne hb => exact ⟨b, hne, hb, fun _ h => h, Option.some.inj hr⟩
  | list ps h ih =>
    obtain ⟨qs, q, rs, rfl, hq, -⟩ := C64_last_partial ps ray r hr
    obtain ⟨a, h1, h2, h3, h4⟩ := ih q (by simp) hq
    exact ⟨a, h1, h2, fun x hx => C65_contains _ q (by simp) x (h3 x hx), h4⟩

/-- C140: for every scene of boxes, nested in lists to any depth, testing `bbox()` first loses no hit on floats: the hit lies in the
range the slab test reports for the scene's box (unless the ray runs within a lower face of that box). -/
theorem C140_scene [Libm mw ew] (p : Primitive (Flt mw ew)) (h : BoxScene p) (ray : Ray (Flt mw ew)) (ho : ray.origin.Fin)
    (hd : ray.direction.Fin) (ht : ray.tmax.isNaN = false) (ht0 : 0 ≤ ray.tmax.val)
    (hf : ∀ i, (ray.direction.vec i).toReal = 0 → (ray.origin.vec i).toReal ≠ (p.bbox.pmin.vec i).toReal)
    (r : IntersectionResult (Flt mw ew)) (hr : p.intersect ray = some (some r)) :
    ∃ t0 t1, p.bbox.intersectRay ray = some (t0, t1) ∧ Scalar.le t0 r.tRay = true ∧ Scalar.le r.tRay t1 = true := by
  obtain ⟨a, hne, ha, hab, hh⟩ := scene_leaf p h ray r hr
  unfold Bbox.hit at hh
  rw [Option.map_eq_some_iff] at hh
  obtain ⟨⟨s0, s1⟩, hs, rfl⟩ := hh
  obtain ⟨t0, t1, he, h1, h2⟩ := C140_hit a p.bbox ray hne hab ha (scene_fin p h) ho hd ht
    (fun i hi => hf i hi.1 hi.2.1) s0 s1 hs
  refine ⟨t0, t1, he, h1, ?_⟩
  obtain ⟨⟨n0, n1⟩, -, h3, -⟩ := C52_range a ray s0 s1 ht ht0 hs
  rw [sle_iff] at h2 ⊢
  exact ⟨n0, h2.2.1, ((val_le_iff n0 n1).1 h3).trans h2.2.2⟩

/-- C140 without the exception is false of the code: the ray along y through the flat box `0 × [-1,1] × [-1,1]` hits it and misses
the box `[0,1] × [-1,1] × [-1,1]` that contains it. -/
theorem C140_refuted : ¬ ∀ (a b : Bbox F32) (ray : Ray F32), (∃ p, a.inside p = true) →
    (∀ p, a.inside p = true → b.inside p = true) → (a.intersectRay ray).isSome = true → (b.intersectRay ray).isSome = true := by
  intro h
  let i := F32.lit 1
  let z := F32.lit 0
  have := h ⟨new3 z (-i) (-i), new3 z i i⟩ ⟨new3 z (-i) (-i), new3 i i i⟩ ⟨new3 z (-F32.lit 3) z, new3 z i z, F32.lit 8⟩
    ⟨new3 z z z, by decide +kernel⟩ ?_ (by decide +kernel)
  · revert this; decide +kernel
  · intro p hp
    rw [Bbox.insideF_iff] at hp ⊢
    intro j
    fin_cases j
    · exact ⟨(hp 0).1, (hp 0).2.trans (by unfold FLe; decide +kernel)⟩
    · exact hp 1
    · exact hp 2

/-- The hypotheses are met: a small box in a large one, a ray through both with a zero and a tiny direction component (the quotients
along z overflow), and the ranges `[2, 4]` and `[1, 5]`. -/
example : let i := F32.lit 1
    let a : Bbox F32 := ⟨new3 (-i) (-i) (-i), new3 i i i⟩
    let b : Bbox F32 := ⟨new3 (-F32.lit 2) (-F32.lit 2) (-i), new3 (F32.lit 2) (F32.lit 2) (F32.lit 2)⟩
    let ray : Ray F32 := ⟨new3 (-F32.lit 3) (F32.lit 0) (F32.lit 0), new3 i (F32.lit 0) ⟨1⟩, F32.lit 8⟩
    a.intersectRay ray = some (F32.lit 2, F32.lit 4) ∧ b.intersectRay ray = some (F32.lit 1, F32.lit 5) ∧
    (∀ j, (ray.direction.vec j).key = 0 → (ray.origin.vec j).key ≠ (b.pmin.vec j).key) := by
  decide +kernel

/-- A nested scene of two boxes and a ray with a zero direction component that hits it at 2, within the range `[2, 7]` of the box
of the whole scene. -/
example : let i := F32.lit 1
    let a : Bbox F32 := ⟨new3 (-i) (-i) (-i), new3 i i i⟩
    let b : Bbox F32 := ⟨new3 (F32.lit 3) (F32.lit 3) (-F32.lit 2), new3 (F32.lit 4) (F32.lit 4) (F32.lit 2)⟩
    let ray : Ray F32 := ⟨new3 (-F32.lit 3) (F32.lit 0) (F32.lit 0), new3 i (F32.lit 0) (F32.lit 0), F32.lit 8⟩
    let p := PrimitiveList.prim [a.prim, PrimitiveList.prim [b.prim]]
    BoxScene p ∧ (p.intersect ray).map (fun r => r.map (·.tRay)) = some (some (F32.lit 2)) ∧
    p.bbox.intersectRay ray = some (F32.lit 2, F32.lit 7) ∧
    ∀ j, (ray.direction.vec j).key = 0 → (ray.origin.vec j).key ≠ (p.bbox.pmin.vec j).key := by
  refine ⟨?_, by decide +kernel⟩
  refine .list _ fun p hp => ?_
  simp only [List.mem_cons, List.not_mem_nil, or_false] at hp
  rcases hp with rfl | rfl
  · exact .box _ ⟨new3 (F32.lit 0) (F32.lit 0) (F32.lit 0), by decide +kernel⟩
      ⟨fun j => by fin_cases j <;> decide +kernel, fun j => by fin_cases j <;> decide +kernel⟩
  · refine .list _ fun p hp => ?_
    simp only [List.mem_cons, List.not_mem_nil, or_false] at hp
    subst hp
    exact .box _ ⟨new3 (F32.lit 3) (F32.lit 3) (F32.lit 0), by decide +kernel⟩
      ⟨fun j => by fin_cases j <;> decide +kernel, fun j => by fin_cases j <;> decide +kernel⟩

end Scarlet
