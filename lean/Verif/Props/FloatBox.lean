import Verif.Props.Bbox3
import Verif.Props.Float4

/-! C92: the slab test on floats against the exact box. -/

set_option linter.unusedSectionVars false

namespace Scarlet
open Flt GVec

variable {mw ew : Nat} [FltImpl mw ew] [LawfulFlt mw ew]

/-- How far the slab test on floats may move the two planes of axis `i`: two rounding errors relative to the distance of
the planes from the ray's origin, plus the underflow of a quotient. -/
noncomputable def slabMargin (b : Bbox (Flt mw ew)) (ray : Ray (Flt mw ew)) (i : _root_.Fin 3) : ℝ :=
  ((1 + uRnd mw) ^ 2 - 1) * Max.max |(b.pmin.vec i).toReal - (ray.origin.vec i).toReal|
    |(b.pmax.vec i).toReal - (ray.origin.vec i).toReal| + etaRnd mw ew * |(ray.direction.vec i).toReal|

/-- Coordinate `i` of the exact point at parameter `t`. -/
noncomputable def exactAt (ray : Ray (Flt mw ew)) (t : ℝ) (i : _root_.Fin 3) : ℝ :=
  (ray.origin.vec i).toReal + (ray.direction.vec i).toReal * t

/-- No overflow: the direction and the six quotients are finite (so no direction component is zero). -/
def SlabFinite (b : Bbox (Flt mw ew)) (ray : Ray (Flt mw ew)) : Prop :=
  ∀ i, (ray.direction.vec i).isFin = true ∧
    ((b.pmin.vec i - ray.origin.vec i) / ray.direction.vec i).isFin = true ∧
    ((b.pmax.vec i - ray.origin.vec i) / ray.direction.vec i).isFin = true

/-- One quotient: two roundings. -/
theorem quot_err {p o d : Flt mw ew} (hd : d.isFin = true) (hq : ((p - o) / d).isFin = true) :
    d.toReal ≠ 0 ∧
    |((p - o) / d).toReal * d.toReal - (p.toReal - o.toReal)| ≤
      ((1 + uRnd mw) ^ 2 - 1) * |p.toReal - o.toReal| + etaRnd mw ew * |d.toReal| := by
  obtain ⟨h1, -, h3⟩ := isFin_of_div hq
  obtain ⟨hp, ho⟩ := isFin_of_sub h1
  have hd0 : d.toReal ≠ 0 := fun h => h3 (toReal_eq_zero_iff.1 h)
  refine ⟨hd0, ?_⟩
  have e1 := sub_err hp ho h1
  have e2 := div_err h1 hd hd0 hq
  have hu := uRnd_pos (mw := mw)
  have hη := etaRnd_pos (mw := mw) (ew := ew)
  generalize ((p - o) / d).toReal = q at *
  generalize (p - o).toReal = s at *
  generalize p.toReal - o.toReal = w at *
  generalize d.toReal = D at *
  have hD : 0 < |D| := abs_pos.2 hd0
  have e3 : |q * D - s| ≤ etaRnd mw ew * |D| + uRnd mw * |s| := by
    have : q * D - s = (q - s / D) * D := by field_simp
    rw [this, abs_mul]
    have h2 : |q - s / D| ≤ etaRnd mw ew + uRnd mw * |s / D| :=
      e2.trans (max_le (by nlinarith [abs_nonneg (s / D)]) (by linarith))
    calc |q - s / D| * |D| ≤ (etaRnd mw ew + uRnd mw * |s / D|) * |D| := mul_le_mul_of_nonneg_right h2 hD.le
      _ = etaRnd mw ew * |D| + uRnd mw * (|s / D| * |D|) := by ring
      _ = _ := by rw [← abs_mul, div_mul_cancel₀ _ hd0]
  have e4 : |s| ≤ |w| + uRnd mw * |w| := by
    have := abs_sub_abs_le_abs_sub s w
    linarith
  have e5 := abs_sub_le (q * D) s w
  nlinarith [abs_nonneg w]

theorem key_le_toReal {x y : Flt mw ew} (hx : x.isFin = true) (hy : y.isFin = true) : x.key ≤ y.key ↔ x.toReal ≤ y.toReal := by
  rw [← val_le_iff (notNaN_of_isFin hx) (notNaN_of_isFin hy), val_of_isFin hx, val_of_isFin hy, EReal.coe_le_coe_iff]

theorem smin_fin {x y : Flt mw ew} (hx : x.isFin = true) (hy : y.isFin = true) :
    (Scalar.min x y).isFin = true ∧ (Scalar.min x y).toReal = Min.min x.toReal y.toReal := by
  have h := key_le_toReal hx hy
  rw [smin_def]
  split
  · rename_i h1
    rw [slt_iff] at h1
    exact ⟨hx, (min_eq_left (h.1 h1.2.2.le)).symm⟩
  · rename_i h1
    rw [slt_iff] at h1
    have : y.key ≤ x.key := by
      by_contra hc
      exact h1 ⟨notNaN_of_isFin hx, notNaN_of_isFin hy, by omega⟩
    exact ⟨hy, (min_eq_right ((key_le_toReal hy hx).1 this)).symm⟩

theorem smax_fin {x y : Flt mw ew} (hx : x.isFin = true) (hy : y.isFin = true) :
    (Scalar.max x y).isFin = true ∧ (Scalar.max x y).toReal = Max.max x.toReal y.toReal := by
  have h := key_le_toReal hx hy
  rw [smax_def]
  split
  · rename_i h1
    rw [sgt_iff] at h1
    exact ⟨hx, (max_eq_left ((key_le_toReal hy hx).1 h1.2.2.le)).symm⟩
  · rename_i h1
    rw [sgt_iff] at h1
    have : x.key ≤ y.key := by
      by_contra hc
      exact h1 ⟨notNaN_of_isFin hx, notNaN_of_isFin hy, by omega⟩
    exact ⟨hy, (max_eq_right (h.1 this)).symm⟩

theorem slab_err1 (b : Bbox (Flt mw ew)) (ray : Ray (Flt mw ew)) (i : _root_.Fin 3) (h : (ray.direction.vec i).isFin = true ∧
    ((b.pmin.vec i - ray.origin.vec i) / ray.direction.vec i).isFin = true ∧
    ((b.pmax.vec i - ray.origin.vec i) / ray.direction.vec i).isFin = true)
    (hb : (b.pmin.vec i).toReal ≤ (b.pmax.vec i).toReal) (t : ℝ) :
    (slab b ray i).1.isFin = true ∧ (slab b ray i).2.isFin = true ∧
    ((b.pmin.vec i).toReal + slabMargin b ray i ≤ exactAt ray t i → exactAt ray t i ≤ (b.pmax.vec i).toReal - slabMargin b ray i →
      (slab b ray i).1.toReal ≤ t ∧ t ≤ (slab b ray i).2.toReal) ∧
    ((slab b ray i).1.toReal ≤ t → t ≤ (slab b ray i).2.toReal →
      (b.pmin.vec i).toReal - slabMargin b ray i ≤ exactAt ray t i ∧ exactAt ray t i ≤ (b.pmax.vec i).toReal + slabMargin b ray i) := by
  obtain ⟨hd, h1, h2⟩ := h
  obtain ⟨d0, e1⟩ := quot_err hd h1
  obtain ⟨-, e2⟩ := quot_err hd h2
  obtain ⟨f1, r1⟩ := smin_fin h1 h2
  obtain ⟨f2, r2⟩ := smax_fin h1 h2
  refine ⟨f1, f2, ?_⟩
  change (_ → _ → (Scalar.min _ _ : Flt mw ew).toReal ≤ t ∧ t ≤ (Scalar.max _ _ : Flt mw ew).toReal) ∧
    ((Scalar.min _ _ : Flt mw ew).toReal ≤ t → t ≤ (Scalar.max _ _ : Flt mw ew).toReal → _)
  rw [r1, r2]
  have hu := uRnd_pos (mw := mw)
  have hc : 0 ≤ (1 + uRnd mw) ^ 2 - 1 := by nlinarith
  have m1 : ((1 + uRnd mw) ^ 2 - 1) * |(b.pmin.vec i).toReal - (ray.origin.vec i).toReal| +
      etaRnd mw ew * |(ray.direction.vec i).toReal| ≤ slabMargin b ray i := by
    unfold slabMargin
    gcongr
    exact le_max_left _ _
  have m2 : ((1 + uRnd mw) ^ 2 - 1) * |(b.pmax.vec i).toReal - (ray.origin.vec i).toReal| +
      etaRnd mw ew * |(ray.direction.vec i).toReal| ≤ slabMargin b ray i := by
    unfold slabMargin
    gcongr
    exact le_max_right _ _
  have g1 := abs_le.1 (e1.trans m1)
  have g2 := abs_le.1 (e2.trans m2)
  unfold exactAt
  clear e1 e2 m1 m2 r1 r2 f1 f2 h1 h2
  generalize ((b.pmin.vec i - ray.origin.vec i) / ray.direction.vec i).toReal = q1 at *
  generalize ((b.pmax.vec i - ray.origin.vec i) / ray.direction.vec i).toReal = q2 at *
  generalize slabMargin b ray i = m at *
  generalize (b.pmin.vec i).toReal = lo at *
  generalize (b.pmax.vec i).toReal = hi at *
  generalize (ray.origin.vec i).toReal = o at *
  generalize (ray.direction.vec i).toReal = d at *
  obtain ⟨g1, g1'⟩ := g1
  obtain ⟨g2, g2'⟩ := g2
  rcases lt_or_gt_of_ne d0 with hneg | hpos
  · constructor
    · intro a1 a2
      constructor
      · exact (min_le_right _ _).trans ((mul_le_mul_right_of_neg hneg).1 (by linarith))
      · exact ((mul_le_mul_right_of_neg hneg).1 (by linarith)).trans (le_max_left _ _)
    · intro a1 a2
      constructor
      · rcases le_max_iff.1 a2 with a | a <;> nlinarith
      · rcases min_le_iff.1 a1 with a | a <;> nlinarith
  · constructor
    · intro a1 a2
      constructor
      · exact (min_le_left _ _).trans (le_of_mul_le_mul_right (by linarith) hpos)
      · exact (le_of_mul_le_mul_right (by linarith) hpos).trans (le_max_right _ _)
    · intro a1 a2
      constructor
      · rcases min_le_iff.1 a1 with a | a <;> nlinarith
      · rcases le_max_iff.1 a2 with a | a <;> nlinarith

theorem slab_err (b : Bbox (Flt mw ew)) (ray : Ray (Flt mw ew)) (h : SlabFinite b ray) (i : _root_.Fin 3)
    (hb : (b.pmin.vec i).toReal ≤ (b.pmax.vec i).toReal) (t : ℝ) :
    (slab b ray i).1.isFin = true ∧ (slab b ray i).2.isFin = true ∧
    ((b.pmin.vec i).toReal + slabMargin b ray i ≤ exactAt ray t i → exactAt ray t i ≤ (b.pmax.vec i).toReal - slabMargin b ray i →
      (slab b ray i).1.toReal ≤ t ∧ t ≤ (slab b ray i).2.toReal) ∧
    ((slab b ray i).1.toReal ≤ t → t ≤ (slab b ray i).2.toReal →
      (b.pmin.vec i).toReal - slabMargin b ray i ≤ exactAt ray t i ∧ exactAt ray t i ≤ (b.pmax.vec i).toReal + slabMargin b ray i) :=
  slab_err1 b ray i (h i) hb t

/-- C92, no missed hits: if the exact ray passes, within its length, through the box with every pair of planes moved inwards
by the margin, an intersection is reported. -/
theorem C92_hit (b : Bbox (Flt mw ew)) (ray : Ray (Flt mw ew)) (h : SlabFinite b ray)
    (hb : ∀ i, (b.pmin.vec i).toReal ≤ (b.pmax.vec i).toReal) (ht : ray.tmax.isNaN = false) (t : ℝ) (h0 : 0 ≤ t)
    (h1 : (t : EReal) ≤ ray.tmax.val)
    (hin : ∀ i, (b.pmin.vec i).toReal + slabMargin b ray i ≤ exactAt ray t i ∧
      exactAt ray t i ≤ (b.pmax.vec i).toReal - slabMargin b ray i) :
    (b.intersectRay ray).isSome = true := by
  have hs := fun i => slab_err b ray h i (hb i) t
  have hr := fun i => (hs i).2.2.1 (hin i).1 (hin i).2
  have c1 : ∀ i, (slab b ray i).1.key ≤ ray.tmax.key := by
    intro i
    rw [← val_le_iff (notNaN_of_isFin (hs i).1) ht, val_of_isFin (hs i).1]
    exact le_trans (EReal.coe_le_coe_iff.2 (hr i).1) h1
  have c2 : ∀ i, 0 ≤ (slab b ray i).2.key := by
    intro i
    have := (key_le_toReal (isFin_szero (mw := mw) (ew := ew)) (hs i).2.1).2 (by
      rw [toReal_szero]; exact h0.trans (hr i).2)
    rwa [key_szero] at this
  have c3 : ∀ i j, (slab b ray i).1.key ≤ (slab b ray j).2.key :=
    fun i j => (key_le_toReal (hs i).1 (hs j).2.1).2 ((hr i).1.trans (hr j).2)
  obtain ⟨t0, t1, e, -⟩ := intersectRay_slab b ray ht
    (fun i => ⟨notNaN_of_isFin (hs i).1, notNaN_of_isFin (hs i).2.1⟩) c1 c2 c3
  rw [e]; rfl

/-- C92, no false hits: throughout the reported range the exact ray is inside the box with every pair of planes moved
outwards by the margin (and the range is a nonempty part of `[0, tmax]`). -/
theorem C92_range (b : Bbox (Flt mw ew)) (ray : Ray (Flt mw ew)) (h : SlabFinite b ray)
    (hb : ∀ i, (b.pmin.vec i).toReal ≤ (b.pmax.vec i).toReal) (ht : ray.tmax.isNaN = false) (h0 : 0 ≤ ray.tmax.val)
    (t0 t1 : Flt mw ew) (he : b.intersectRay ray = some (t0, t1)) :
    (t0.isFin = true ∧ t1.isFin = true ∧ 0 ≤ t0.toReal ∧ t0.toReal ≤ t1.toReal ∧ t1.val ≤ ray.tmax.val) ∧
    ∀ t, t0.toReal ≤ t → t ≤ t1.toReal → ∀ i, (b.pmin.vec i).toReal - slabMargin b ray i ≤ exactAt ray t i ∧
      exactAt ray t i ≤ (b.pmax.vec i).toReal + slabMargin b ray i := by
  obtain ⟨⟨n0, n1⟩, p0, p1, p2⟩ := C52_range b ray t0 t1 ht h0 he
  have hs := fun i => slab_err b ray h i (hb i)
  have hf := fun i => (hs i 0).1
  have hg := fun i => (hs i 0).2.1
  have e : b.intersectRay ray =
      if Scalar.gt (imax (imax (slab b ray 0).1 (slab b ray 1).1) (slab b ray 2).1) ray.tmax ||
        Scalar.lt (imin (imin (slab b ray 0).2 (slab b ray 1).2) (slab b ray 2).2) Scalar.zero ||
        Scalar.gt (imax (imax (slab b ray 0).1 (slab b ray 1).1) (slab b ray 2).1)
          (imin (imin (slab b ray 0).2 (slab b ray 1).2) (slab b ray 2).2) then none
      else some (imax (imax (imax (slab b ray 0).1 (slab b ray 1).1) (slab b ray 2).1) Scalar.zero,
        imin (imin (imin (slab b ray 0).2 (slab b ray 1).2) (slab b ray 2).2) ray.tmax) := rfl
  rw [e] at he
  split at he
  · cases he
  rw [Option.some.injEq, Prod.mk.injEq] at he
  obtain ⟨e0, e1⟩ := he
  have nf := fun i => notNaN_of_isFin (hf i)
  have ng := fun i => notNaN_of_isFin (hg i)
  obtain ⟨a1, a2⟩ := imax_key (nf 0) (nf 1)
  obtain ⟨a3, a4⟩ := imax_key a1 (nf 2)
  obtain ⟨a5, a6⟩ := imax_key a3 (szero_notNaN (mw := mw) (ew := ew))
  obtain ⟨b1, b2⟩ := imin_key (ng 0) (ng 1)
  obtain ⟨b3, b4⟩ := imin_key b1 (ng 2)
  obtain ⟨b5, b6⟩ := imin_key b3 ht
  rw [e0, a4, a2] at a6
  rw [e1, b4, b2] at b6
  have k0 := (val_nonneg_iff n0).1 p0
  have k1 := (val_le_iff n0 n1).1 p1
  have hle : ∀ i, (slab b ray i).1.key ≤ t0.key ∧ t1.key ≤ (slab b ray i).2.key := by
    intro i
    fin_cases i <;> constructor <;> simp only [Fin.zero_eta, Fin.mk_one, Fin.reduceFinMk] <;> omega
  have f1 : t1.isFin = true := by
    rw [isFin_iff_key]
    have := isFin_iff_key.1 (hg 0)
    have := (hle 0).2
    omega
  have f0 : t0.isFin = true := by
    rw [isFin_iff_key]
    have := isFin_iff_key.1 f1
    omega
  refine ⟨⟨f0, f1, ?_, (key_le_toReal f0 f1).1 k1, p2⟩, ?_⟩
  · have := (key_le_toReal (isFin_szero (mw := mw) (ew := ew)) f0).1 (by rw [key_szero]; exact k0)
    rwa [toReal_szero] at this
  · intro t q0 q1 i
    exact (hs i t).2.2.2 (((key_le_toReal (hf i) f0).1 (hle i).1).trans q0) (q1.trans ((key_le_toReal f1 (hg i)).1 (hle i).2))

/-- Non-vacuity: the ray of `C52` towards the unit cube; half way through (`t = 3/2`) it is inside the shrunk cube. -/
example : SlabFinite exBox exRay ∧ (∀ i, (exBox.pmin.vec i).toReal ≤ (exBox.pmax.vec i).toReal) ∧
    ((3 / 2 : ℝ) : EReal) ≤ exRay.tmax.val ∧
    ∀ i, (exBox.pmin.vec i).toReal + slabMargin exBox exRay i ≤ exactAt exRay (3 / 2) i ∧
      exactAt exRay (3 / 2) i ≤ (exBox.pmax.vec i).toReal - slabMargin exBox exRay i := by
  have e0 : ∀ i, (exBox.pmin.vec i).toReal = 0 := by
    intro i; fin_cases i <;> exact (toReal_lit (by norm_num)).trans (by norm_num)
  have e1 : ∀ i, (exBox.pmax.vec i).toReal = 1 := by
    intro i; fin_cases i <;> exact (toReal_lit (by norm_num)).trans (by norm_num)
  have e2 : ∀ i, (exRay.origin.vec i).toReal = -1 := by
    have : (-F32.lit 1).toReal = -1 := by rw [toReal_negop, toReal_lit (by norm_num)]; norm_num
    intro i; fin_cases i <;> exact this
  have e3 : ∀ i, (exRay.direction.vec i).toReal = 1 := by
    intro i; fin_cases i <;> exact (toReal_lit (by norm_num)).trans (by norm_num)
  have e4 : exRay.tmax.toReal = 3 := (toReal_lit (by norm_num)).trans (by norm_num)
  refine ⟨fun i => by fin_cases i <;> decide +kernel, fun i => by rw [e0, e1]; norm_num, ?_, fun i => ?_⟩
  · rw [val_of_isFin (by decide +kernel), e4, EReal.coe_le_coe_iff]; norm_num
  · have hm : slabMargin exBox exRay i ≤ 1 / 2 := by
      unfold slabMargin uRnd etaRnd fK
      rw [e0, e1, e2, e3]
      norm_num
    unfold exactAt
    rw [e0, e1, e2, e3]
    constructor <;> linarith
end Scarlet
