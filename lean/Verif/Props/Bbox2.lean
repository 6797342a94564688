import Verif.Props.Bbox1

/-! C49 (centre, diagonal), C50 (longest axis), C52 (range of the slab test), C53 (axis-parallel rays), for floats of every
format. -/

set_option linter.unusedSectionVars false

namespace Scarlet
open Flt GVec

/-! ### C49 -/
section C49

variable {mw ew : Nat} [FltImpl mw ew] [LawfulFlt mw ew]

theorem sum_lower {a b : Flt mw ew} (ha : a.isFin = true) (hb : b.isFin = true) (hs : (b + a).isFin = true) (h : a.key ≤ b.key) :
    2 * a.toReal ≤ (b + a).toReal ∧ (b + a).toReal ≤ 2 * b.toReal := by
  have hadd := (add_fin hb ha).2
  have hfin := isFin_iff_key.1 hs
  have hle := toReal_le_iff.2 h
  have hp : (0:ℝ) < 2 ^ fK mw ew := by positivity
  obtain ⟨k, hk⟩ := valZ_double (mw := mw) a.key
  obtain ⟨l, hl⟩ := valZ_double (mw := mw) b.key
  have hk' : rndZ mw (2 * a.toReal * 2 ^ fK mw ew) = k := by
    rw [show 2 * a.toReal * 2 ^ fK mw ew = valZ mw k from by rw [hk, toReal_eq_key]; field_simp]; exact rndZ_valZ _ _
  have hl' : rndZ mw (2 * b.toReal * 2 ^ fK mw ew) = l := by
    rw [show 2 * b.toReal * 2 ^ fK mw ew = valZ mw l from by rw [hl, toReal_eq_key]; field_simp]; exact rndZ_valZ _ _
  have m1 := rndK_mono mw ew (show 2 * a.toReal ≤ b.toReal + a.toReal by linarith)
  have m2 := rndK_mono mw ew (show b.toReal + a.toReal ≤ 2 * b.toReal by linarith)
  have e1 : rndK mw ew (2 * a.toReal) = max (-kInf mw ew) (min (kInf mw ew) k) := by unfold rndK; rw [hk']
  have e2 : rndK mw ew (2 * b.toReal) = max (-kInf mw ew) (min (kInf mw ew) l) := by unfold rndK; rw [hl']
  rw [e1] at m1
  rw [e2] at m2
  have hK := kInf_pos (mw := mw) (ew := ew)
  change (b + a).key = _ at hadd
  rw [← hadd] at m1 m2
  have g1 : k ≤ (b + a).key := by omega
  have g2 : (b + a).key ≤ l := by omega
  have v1 := (valZ_le (mw := mw)).2 g1
  have v2 := (valZ_le (mw := mw)).2 g2
  rw [hk] at v1
  rw [hl] at v2
  rw [toReal_eq_key a, toReal_eq_key b, toReal_eq_key (b + a), ← mul_div_assoc, ← mul_div_assoc]
  exact ⟨div_le_div_of_nonneg_right v1 hp.le, div_le_div_of_nonneg_right v2 hp.le⟩

/-- C49: the centre of an ordered box with finite bounds is inside the box in spite of rounding, provided the sum of the
bounds does not overflow. -/
theorem C49_center (b : Bbox (Flt mw ew)) (h1 : b.pmin.Fin) (h2 : b.pmax.Fin) (ho : b.Ordered)
    (hs : ∀ i, (b.pmax.vec i + b.pmin.vec i).isFin = true) : b.inside b.center = true := by
  rw [Bbox.insideF_iff]
  intro i
  obtain ⟨e1, e2⟩ := sum_lower (h1 i) (h2 i) (hs i)
    ((val_le_iff (notNaN_of_isFin (h1 i)) (notNaN_of_isFin (h2 i))).1 (ho i))
  have hm := mul_fin (hs i) (half_spec (mw := mw) (ew := ew)).1
  rw [half_spec.2] at hm
  have ec : b.center.vec i = (b.pmax.vec i + b.pmin.vec i) * (GFloat.half : Flt mw ew) := rfl
  rw [ec]
  refine ⟨⟨notNaN_of_isFin (h1 i), hm.1, ?_⟩, ⟨hm.1, notNaN_of_isFin (h2 i), ?_⟩⟩
  · refine le_trans (le_of_eq (rndK_toReal (notNaN_of_isFin (h1 i))).symm) (le_trans (rndK_mono mw ew ?_) hm.2.ge)
    linarith
  · refine le_trans hm.2.le (le_trans (rndK_mono mw ew ?_) (le_of_eq (rndK_toReal (notNaN_of_isFin (h2 i)))))
    linarith

end C49

/-- C49: in exact arithmetic, `pmin + diagonal = pmax` and the centre is half way. -/
theorem C49_exact (b : Bbox ℝ) : b.pmin + b.diagonal = b.pmax ∧ b.center - b.pmin = b.pmax - b.center ∧
    b.center - b.pmin = b.diagonal * (1 / 2 : ℝ) := by
  refine ⟨?_, ?_, ?_⟩
  · refine GVec.ext (funext fun i => ?_)
    change b.pmin.vec i + (b.pmax.vec i - b.pmin.vec i) = b.pmax.vec i
    ring
  · refine GVec.ext (funext fun i => ?_)
    change (b.pmax.vec i + b.pmin.vec i) * (1 / 2) - b.pmin.vec i = b.pmax.vec i - (b.pmax.vec i + b.pmin.vec i) * (1 / 2)
    ring
  · refine GVec.ext (funext fun i => ?_)
    change (b.pmax.vec i + b.pmin.vec i) * (1 / 2) - b.pmin.vec i = (b.pmax.vec i - b.pmin.vec i) * (1 / 2)
    ring

example : exBoxOver.pmin.Fin ∧ exBoxOver.pmax.Fin ∧ exBoxOver.Ordered ∧
    ∀ i, (exBoxOver.pmax.vec i + exBoxOver.pmin.vec i).isFin = true :=
  ⟨by unfold GVec.Fin; decide +kernel, by unfold GVec.Fin; decide +kernel, exBox_ok.2.2.2.2, by decide +kernel⟩

variable {mw ew : Nat} [FltImpl mw ew] [LawfulFlt mw ew]

/-! ### C50 -/

/-- The extent of a box along an axis, as computed. -/
def Bbox.ext' {T : Type} [Sub T] (b : Bbox T) (i : _root_.Fin 3) : T := b.pmax.vec i - b.pmin.vec i

/-- C50: `max_extent` returns the index of an axis together with the bounds on that axis, and no axis has a larger extent
(as computed); finite bounds. -/
theorem C50_maxExtent (b : Bbox (Flt mw ew)) (h1 : b.pmin.Fin) (h2 : b.pmax.Fin) :
    ∃ i : _root_.Fin 3, b.maxExtent = ((b.pmin.vec i, b.pmax.vec i), i.val) ∧ ∀ j, FLe (b.ext' j) (b.ext' i) := by
  have nn : ∀ i, (b.ext' i).isNaN = false := fun i => (sub_fin (h2 i) (h1 i)).1
  have key : ∀ i j, FLe (b.ext' i) (b.ext' j) ↔ (b.ext' i).key ≤ (b.ext' j).key := fun i j => by
    unfold FLe; simp [nn i, nn j]
  have gt : ∀ i j, Scalar.gt (b.ext' i) (b.ext' j) = true ↔ (b.ext' j).key < (b.ext' i).key := fun i j => by
    rw [sgt_iff]; simp [nn i, nn j]
  simp only [key, Fin.forall_fin_succ, IsEmpty.forall_iff, and_true]
  unfold Bbox.maxExtent
  change ∃ i : _root_.Fin 3, (if Scalar.gt (b.ext' 0) (b.ext' 1) then if Scalar.gt (b.ext' 0) (b.ext' 2) then
    ((b.pmin.vec 0, b.pmax.vec 0), 0) else ((b.pmin.vec 2, b.pmax.vec 2), 2)
    else if Scalar.gt (b.ext' 1) (b.ext' 2) then ((b.pmin.vec 1, b.pmax.vec 1), 1) else ((b.pmin.vec 2, b.pmax.vec 2), 2)) = _ ∧ _
  simp only [gt]
  change ∃ i : _root_.Fin 3, _ ∧ (b.ext' 0).key ≤ _ ∧ (b.ext' 1).key ≤ _ ∧ (b.ext' 2).key ≤ _
  split
  · split
    · exact ⟨0, rfl, by omega, by omega, by omega⟩
    · exact ⟨2, rfl, by omega, by omega, by omega⟩
  · split
    · exact ⟨1, rfl, by omega, by omega, by omega⟩
    · exact ⟨2, rfl, by omega, by omega, by omega⟩

/-- C50, exact arithmetic. -/
theorem C50_exact (b : Bbox ℝ) : ∃ i : _root_.Fin 3, b.maxExtent = ((b.pmin.vec i, b.pmax.vec i), i.val) ∧
    ∀ j, b.pmax.vec j - b.pmin.vec j ≤ b.pmax.vec i - b.pmin.vec i := by
  simp only [Fin.forall_fin_succ, IsEmpty.forall_iff, and_true]
  unfold Bbox.maxExtent
  simp only [rgt_iff]
  change ∃ i : _root_.Fin 3, (if b.pmax.vec 1 - b.pmin.vec 1 < b.pmax.vec 0 - b.pmin.vec 0 then
    if b.pmax.vec 2 - b.pmin.vec 2 < b.pmax.vec 0 - b.pmin.vec 0 then
    ((b.pmin.vec 0, b.pmax.vec 0), 0) else ((b.pmin.vec 2, b.pmax.vec 2), 2)
    else if b.pmax.vec 2 - b.pmin.vec 2 < b.pmax.vec 1 - b.pmin.vec 1 then
      ((b.pmin.vec 1, b.pmax.vec 1), 1) else ((b.pmin.vec 2, b.pmax.vec 2), 2)) = _ ∧
    b.pmax.vec 0 - b.pmin.vec 0 ≤ _ ∧ b.pmax.vec 1 - b.pmin.vec 1 ≤ _ ∧ b.pmax.vec 2 - b.pmin.vec 2 ≤ _
  split
  · split
    · exact ⟨0, rfl, by linarith, by linarith, by linarith⟩
    · exact ⟨2, rfl, by linarith, by linarith, by linarith⟩
  · split
    · exact ⟨1, rfl, by linarith, by linarith, by linarith⟩
    · exact ⟨2, rfl, by linarith, by linarith, by linarith⟩

/-! ### C52 -/

/-- C52: whenever `intersect_ray` reports an intersection, the returned range is ordered and within the ray, for all floats
whatsoever in the box and in the ray (NaN, infinities, zero directions); only `tmax` must be a number `≥ 0`. -/
theorem C52_range (b : Bbox (Flt mw ew)) (ray : Ray (Flt mw ew)) (t0 t1 : Flt mw ew) (ht : ray.tmax.isNaN = false)
    (h0 : 0 ≤ ray.tmax.val) (h : b.intersectRay ray = some (t0, t1)) :
    (t0.isNaN = false ∧ t1.isNaN = false) ∧ 0 ≤ t0.val ∧ t0.val ≤ t1.val ∧ t1.val ≤ ray.tmax.val := by
  unfold Bbox.intersectRay at h
  dsimp only at h
  split at h
  · cases h
  rename_i hc
  simp only [Bool.or_eq_true, not_or] at hc
  obtain ⟨⟨c1, c2⟩, c3⟩ := hc
  rw [Option.some.injEq, Prod.mk.injEq] at h
  obtain ⟨e1, e2⟩ := h
  generalize (Inherent.max (Inherent.max _ _) _ : Flt mw ew) = tn at c1 c3 e1
  generalize (Inherent.min (Inherent.min _ _) _ : Flt mw ew) = tf at c2 c3 e2
  subst e1 e2
  rw [sgt_iff] at c1 c3
  rw [slt_iff] at c2
  have hk : 0 ≤ ray.tmax.key := (val_nonneg_iff ht).1 h0
  have z := szero_notNaN (mw := mw) (ew := ew)
  have kz := key_szero (mw := mw) (ew := ew)
  change ((imax tn Scalar.zero).isNaN = false ∧ (imin tf ray.tmax).isNaN = false) ∧ 0 ≤ (imax tn Scalar.zero).val ∧
    (imax tn Scalar.zero).val ≤ (imin tf ray.tmax).val ∧ (imin tf ray.tmax).val ≤ ray.tmax.val
  have h1 : (imax tn Scalar.zero).isNaN = false ∧ 0 ≤ (imax tn Scalar.zero).key ∧ (imax tn Scalar.zero).key ≤ ray.tmax.key ∧
      (tf.isNaN = false → (imax tn Scalar.zero).key ≤ tf.key) := by
    rcases imax_cases tn Scalar.zero with ⟨h, e⟩ | ⟨h, e⟩ | ⟨a1, a2, a3, e⟩ | ⟨a1, a2, a3, e⟩
    · rw [e]
      refine ⟨z, by omega, by omega, fun hf => ?_⟩
      by_contra hn
      exact c2 ⟨hf, z, by omega⟩
    · rw [z] at h; cases h
    · rw [e]
      refine ⟨a1, by omega, ?_, fun hf => ?_⟩
      · by_contra hn; exact c1 ⟨a1, ht, by omega⟩
      · by_contra hn; exact c3 ⟨a1, hf, by omega⟩
    · rw [e]
      refine ⟨z, by omega, by omega, fun hf => ?_⟩
      by_contra hn
      exact c2 ⟨hf, z, by omega⟩
  obtain ⟨n1, g1, g2, g3⟩ := h1
  have h2 : (imin tf ray.tmax).isNaN = false ∧ (imax tn Scalar.zero).key ≤ (imin tf ray.tmax).key ∧
      (imin tf ray.tmax).key ≤ ray.tmax.key := by
    rcases imin_cases tf ray.tmax with ⟨h, e⟩ | ⟨h, e⟩ | ⟨a1, a2, a3, e⟩ | ⟨a1, a2, a3, e⟩
    · rw [e]; exact ⟨ht, g2, le_rfl⟩
    · rw [ht] at h; cases h
    · rw [e]; exact ⟨a1, g3 a1, a3.le⟩
    · rw [e]; exact ⟨ht, g2, le_rfl⟩
  exact ⟨⟨n1, h2.1⟩, (val_nonneg_iff n1).2 g1, (val_le_iff n1 h2.1).2 h2.2.1, (val_le_iff h2.1 ht).2 h2.2.2⟩

/-- A ray towards the unit cube. -/
def exRay : Ray F32 := ⟨new3 (-F32.lit 1) (-F32.lit 1) (-F32.lit 1), new3 (F32.lit 1) (F32.lit 1) (F32.lit 1), F32.lit 3⟩

/-- The hypotheses are met: the ray meets the cube for `t` from 1 to 2. -/
example : exBox.intersectRay exRay = some (F32.lit 1, F32.lit 2) ∧ exRay.tmax.isNaN = false ∧ 0 ≤ exRay.tmax.key := by
  decide +kernel

/-! ### C53 -/

theorem div_sign {x y : Flt mw ew} (hx : x.isNaN = false) (hx0 : x.key ≠ 0) (hy : y.isFin = true) :
    (x / y).isNaN = false ∧ (x.sgn ≠ y.sgn → (x / y).key ≤ 0) ∧ (x.sgn = y.sgn → 0 ≤ (x / y).key) ∧
    (y.key = 0 → (x / y).key = if x.sgn = y.sgn then kInf mw ew else -kInf mw ew) := by
  have hK := kInf_pos (mw := mw) (ew := ew)
  have hz : x.isZero = false := by rw [Bool.eq_false_iff, ne_eq, isZero_iff_key]; exact hx0
  have hInf : ∀ s : Bool, (inf mw ew s).isNaN = false ∧ (s = true → (inf mw ew s).key ≤ 0) ∧ (s = false → 0 ≤ (inf mw ew s).key) := by
    intro s
    refine ⟨isNaN_inf s, fun h => ?_, fun h => ?_⟩ <;> rw [key_inf, h]
    · simp only [if_true]; omega
    · simp only [Bool.false_eq_true, if_false]; omega
  have cv : ∀ z : Flt mw ew, (z.isNaN = false ∧ ((x.sgn != y.sgn) = true → z.key ≤ 0) ∧ ((x.sgn != y.sgn) = false → 0 ≤ z.key)) →
      z.isNaN = false ∧ (x.sgn ≠ y.sgn → z.key ≤ 0) ∧ (x.sgn = y.sgn → 0 ≤ z.key) := by
    rintro z ⟨h1, h2, h3⟩
    exact ⟨h1, fun h => h2 (by simp [h]), fun h => h3 (by simp [h])⟩
  change (x.div y).isNaN = false ∧ (x.sgn ≠ y.sgn → (x.div y).key ≤ 0) ∧ (x.sgn = y.sgn → 0 ≤ (x.div y).key) ∧
    (y.key = 0 → (x.div y).key = if x.sgn = y.sgn then kInf mw ew else -kInf mw ew)
  have infk : (inf mw ew (x.sgn != y.sgn)).key = if x.sgn = y.sgn then kInf mw ew else -kInf mw ew := by
    rw [key_inf]
    by_cases h : x.sgn = y.sgn <;> simp [h]
  unfold div
  rw [hx, notNaN_of_isFin hy, notInf_of_isFin hy]
  simp only [Bool.or_self, Bool.false_eq_true, if_false, hz]
  split
  · exact ⟨(cv _ (hInf _)).1, (cv _ (hInf _)).2.1, (cv _ (hInf _)).2.2, fun _ => infk⟩
  · split
    · exact ⟨(cv _ (hInf _)).1, (cv _ (hInf _)).2.1, (cv _ (hInf _)).2.2, fun _ => infk⟩
    · rename_i h
      have hy0 : y.key ≠ 0 := fun h' => h (isZero_iff_key.2 h')
      have : ∀ (s : Bool) (i : Nat), (pack mw ew s i).isNaN = false ∧ (s = true → (pack mw ew s i).key ≤ 0) ∧
          (s = false → 0 ≤ (pack mw ew s i).key) := by
        intro s i
        refine ⟨isNaN_pack s i, fun h => ?_, fun h => ?_⟩ <;> rw [key_pack, h]
        · simp only [if_true]; omega
        · simp only [Bool.false_eq_true, if_false]; omega
      exact ⟨(cv _ (this _ _)).1, (cv _ (this _ _)).2.1, (cv _ (this _ _)).2.2, fun h => absurd h hy0⟩

/-- A difference of distinct floats does not round to zero. -/
theorem sub_key_pos {x y : Flt mw ew} (hx : x.isFin = true) (hy : y.isFin = true) (h : y.key < x.key) : 0 < (x - y).key := by
  have hs := (sub_fin hx hy).2
  change (x - y).key = _ at hs
  rw [hs]
  have h1 : y.sval < x.sval := by
    have := toReal_lt_iff.2 h
    have e1 := sval_cast x
    have e2 := sval_cast y
    have hp : (0:ℝ) < 2 ^ fK mw ew := by positivity
    have : (y.sval : ℝ) < x.sval := by rw [e1, e2]; exact mul_lt_mul_of_pos_right this hp
    exact_mod_cast this
  have h2 : valZ mw 1 ≤ (x.toReal - y.toReal) * 2 ^ fK mw ew := by
    have e : (x.toReal - y.toReal) * 2 ^ fK mw ew = ((x.sval - y.sval : ℤ) : ℝ) := by
      push_cast; rw [sval_cast, sval_cast]; ring
    rw [e]
    have hm : valZ mw 1 = 1 := by
      have hF : Fmt mw ew := inferInstance
      have : (1:Nat) < 2 ^ mw := Nat.one_lt_two_pow (by have := hF.hmw; omega)
      rw [show (1:ℤ) = ((1:Nat) : ℤ) from rfl, valZ_nat, magN_of_lt this]; norm_num
    rw [hm]
    have : (1:ℤ) ≤ x.sval - y.sval := by omega
    exact_mod_cast this
  have h3 := rndZ_mono mw h2
  rw [rndZ_valZ] at h3
  have hK := kInf_pos (mw := mw) (ew := ew)
  unfold rndK
  omega

theorem sub_key_neg {x y : Flt mw ew} (hx : x.isFin = true) (hy : y.isFin = true) (h : x.key < y.key) : (x - y).key < 0 := by
  have h1 := sub_key_pos hy hx h
  have e1 := (sub_fin hx hy).2
  have e2 := (sub_fin hy hx).2
  change (x - y).key = _ at e1
  change (y - x).key = _ at e2
  rw [e1, show x.toReal - y.toReal = -(y.toReal - x.toReal) by ring, rndK_neg, ← e2]
  omega

/-- The slab of one axis, as computed. -/
def slab (b : Bbox (Flt mw ew)) (ray : Ray (Flt mw ew)) (i : _root_.Fin 3) : Flt mw ew × Flt mw ew :=
  (Scalar.min ((b.pmin.vec i - ray.origin.vec i) / ray.direction.vec i) ((b.pmax.vec i - ray.origin.vec i) / ray.direction.vec i),
   Scalar.max ((b.pmin.vec i - ray.origin.vec i) / ray.direction.vec i) ((b.pmax.vec i - ray.origin.vec i) / ray.direction.vec i))

theorem smin_key {x y : Flt mw ew} (hx : x.isNaN = false) (hy : y.isNaN = false) :
    (Scalar.min x y).isNaN = false ∧ (Scalar.min x y).key = min x.key y.key := by
  rw [smin_def]
  split
  · rename_i h; rw [slt_iff] at h; exact ⟨hx, by omega⟩
  · rename_i h; rw [slt_iff] at h
    refine ⟨hy, ?_⟩
    have : ¬ x.key < y.key := fun h' => h ⟨hx, hy, h'⟩
    omega
theorem smax_key {x y : Flt mw ew} (hx : x.isNaN = false) (hy : y.isNaN = false) :
    (Scalar.max x y).isNaN = false ∧ (Scalar.max x y).key = max x.key y.key := by
  rw [smax_def]
  split
  · rename_i h; rw [sgt_iff] at h; exact ⟨hx, by omega⟩
  · rename_i h; rw [sgt_iff] at h
    refine ⟨hy, ?_⟩
    have : ¬ y.key < x.key := fun h' => h ⟨hx, hy, h'⟩
    omega

theorem intersectRay_slab (b : Bbox (Flt mw ew)) (ray : Ray (Flt mw ew)) (ht : ray.tmax.isNaN = false)
    (hn : ∀ i, (slab b ray i).1.isNaN = false ∧ (slab b ray i).2.isNaN = false)
    (h1 : ∀ i, (slab b ray i).1.key ≤ ray.tmax.key) (h2 : ∀ i, 0 ≤ (slab b ray i).2.key)
    (h3 : ∀ i j, (slab b ray i).1.key ≤ (slab b ray j).2.key) :
    ∃ t0 t1, b.intersectRay ray = some (t0, t1) ∧ ((∀ i, (slab b ray i).1.key ≤ 0) → t0.key = 0) := by
  obtain ⟨a1, a2⟩ := imax_key (hn 0).1 (hn 1).1
  obtain ⟨a3, a4⟩ := imax_key a1 (hn 2).1
  obtain ⟨b1, b2⟩ := imin_key (hn 0).2 (hn 1).2
  obtain ⟨b3, b4⟩ := imin_key b1 (hn 2).2
  have e : b.intersectRay ray =
      if Scalar.gt (imax (imax (slab b ray 0).1 (slab b ray 1).1) (slab b ray 2).1) ray.tmax ||
        Scalar.lt (imin (imin (slab b ray 0).2 (slab b ray 1).2) (slab b ray 2).2) Scalar.zero ||
        Scalar.gt (imax (imax (slab b ray 0).1 (slab b ray 1).1) (slab b ray 2).1)
          (imin (imin (slab b ray 0).2 (slab b ray 1).2) (slab b ray 2).2) then none
      else some (imax (imax (imax (slab b ray 0).1 (slab b ray 1).1) (slab b ray 2).1) Scalar.zero,
        imin (imin (imin (slab b ray 0).2 (slab b ray 1).2) (slab b ray 2).2) ray.tmax) := rfl
  rw [e, if_neg]
  · refine ⟨_, _, rfl, fun h => ?_⟩
    have := (imax_key a3 (szero_notNaN (mw := mw) (ew := ew))).2
    rw [this, a4, a2, key_szero]
    have := h 0; have := h 1; have := h 2
    omega
  · simp only [Bool.or_eq_true, sgt_iff, slt_iff, a4, a2, b4, b2, key_szero]
    have x0 := h1 0; have x1 := h1 1; have x2 := h1 2
    have y0 := h2 0; have y1 := h2 1; have y2 := h2 2
    have z00 := h3 0 0; have z01 := h3 0 1; have z02 := h3 0 2
    have z10 := h3 1 0; have z11 := h3 1 1; have z12 := h3 1 2
    have z20 := h3 2 0; have z21 := h3 2 1; have z22 := h3 2 2
    rintro ((⟨-, -, h⟩ | ⟨-, -, h⟩) | ⟨-, -, h⟩) <;> omega

/-- One axis with the origin strictly between the bounds. -/
theorem slab_strict (b : Bbox (Flt mw ew)) (ray : Ray (Flt mw ew)) (i : _root_.Fin 3) (f1 : (b.pmin.vec i).isFin = true)
    (f2 : (b.pmax.vec i).isFin = true) (f3 : (ray.origin.vec i).isFin = true) (f4 : (ray.direction.vec i).isFin = true)
    (h1 : (b.pmin.vec i).key < (ray.origin.vec i).key) (h2 : (ray.origin.vec i).key < (b.pmax.vec i).key) :
    (slab b ray i).1.isNaN = false ∧ (slab b ray i).2.isNaN = false ∧ (slab b ray i).1.key ≤ 0 ∧ 0 ≤ (slab b ray i).2.key ∧
    ((ray.direction.vec i).key = 0 → (slab b ray i).1.key = -kInf mw ew ∧ (slab b ray i).2.key = kInf mw ew) := by
  have k1 := sub_key_neg f1 f3 h1
  have k2 := sub_key_pos f2 f3 h2
  have n1 : (b.pmin.vec i - ray.origin.vec i).isNaN = false := (sub_fin f1 f3).1
  have n2 : (b.pmax.vec i - ray.origin.vec i).isNaN = false := (sub_fin f2 f3).1
  obtain ⟨p1, p2, p3, p4⟩ := div_sign n1 (by omega) f4
  obtain ⟨q1, q2, q3, q4⟩ := div_sign n2 (by omega) f4
  rw [sgn_of_key_neg k1] at p2 p3 p4
  rw [sgn_of_key_pos k2] at q2 q3 q4
  obtain ⟨s1, s2⟩ := smin_key p1 q1
  obtain ⟨s3, s4⟩ := smax_key p1 q1
  have hK := kInf_pos (mw := mw) (ew := ew)
  refine ⟨s1, s3, ?_, ?_, ?_⟩
  · change (Scalar.min _ _ : Flt mw ew).key ≤ 0
    rw [s2]
    cases hd : (ray.direction.vec i).sgn
    · have := p2 (by simp [hd]); omega
    · have := q2 (by simp [hd]); omega
  · change 0 ≤ (Scalar.max _ _ : Flt mw ew).key
    rw [s4]
    cases hd : (ray.direction.vec i).sgn
    · have := q3 (by simp [hd]); omega
    · have := p3 (by simp [hd]); omega
  · intro h0
    change (Scalar.min _ _ : Flt mw ew).key = _ ∧ (Scalar.max _ _ : Flt mw ew).key = _
    rw [s2, s4, p4 h0, q4 h0]
    cases hd : (ray.direction.vec i).sgn <;> simp

/-- C53, partial: if the origin is strictly inside a box, the ray is reported as intersecting from `t = 0` on, whatever its
finite direction (zero components included) and `tmax ≥ 0`. -/
theorem C53_origin_inside_partial (b : Bbox (Flt mw ew)) (ray : Ray (Flt mw ew)) (hb1 : b.pmin.Fin) (hb2 : b.pmax.Fin)
    (ho : ray.origin.Fin) (hd : ray.direction.Fin) (ht : ray.tmax.isNaN = false) (ht0 : 0 ≤ ray.tmax.val)
    (hin : ∀ i, (b.pmin.vec i).toReal < (ray.origin.vec i).toReal ∧ (ray.origin.vec i).toReal < (b.pmax.vec i).toReal) :
    ∃ t0 t1, b.intersectRay ray = some (t0, t1) ∧ t0.toReal = 0 := by
  have hs := fun i => slab_strict b ray i (hb1 i) (hb2 i) (ho i) (hd i) (toReal_lt_iff.1 (hin i).1) (toReal_lt_iff.1 (hin i).2)
  have hk := (val_nonneg_iff ht).1 ht0
  obtain ⟨t0, t1, e, h0⟩ := intersectRay_slab b ray ht (fun i => ⟨(hs i).1, (hs i).2.1⟩) (fun i => (hs i).2.2.1.trans hk)
    (fun i => (hs i).2.2.2.1) (fun i j => (hs i).2.2.1.trans (hs j).2.2.2.1)
  exact ⟨t0, t1, e, toReal_eq_zero_iff.2 (h0 fun i => (hs i).2.2.1)⟩

/-- C53, partial: a ray parallel to axis `k` (the other two direction components are zero, of either sign) that runs strictly
between the other bounds, is unbounded, and starts before or in the box along axis `k`, is reported as intersecting.
Missing: rays within a face (the claim is false for the `pmin` faces, `C53_refuted`), bounded rays and rays parallel to a face only,
for which rounding of the remaining quotients matters. -/
theorem C53_parallel_partial (b : Bbox (Flt mw ew)) (ray : Ray (Flt mw ew)) (k : _root_.Fin 3) (hb1 : b.pmin.Fin) (hb2 : b.pmax.Fin)
    (ho : ray.origin.Fin) (hd : ray.direction.Fin) (ht : ray.tmax.val = ⊤) (htn : ray.tmax.isNaN = false)
    (hz : ∀ i, i ≠ k → (ray.direction.vec i).toReal = 0)
    (hin : ∀ i, i ≠ k → (b.pmin.vec i).toReal < (ray.origin.vec i).toReal ∧ (ray.origin.vec i).toReal < (b.pmax.vec i).toReal)
    (hk : (0 < (ray.direction.vec k).toReal ∧ (ray.origin.vec k).toReal ≤ (b.pmax.vec k).toReal) ∨
      ((ray.direction.vec k).toReal < 0 ∧ (b.pmin.vec k).toReal ≤ (ray.origin.vec k).toReal)) :
    (b.intersectRay ray).isSome = true := by
  have hK := kInf_pos (mw := mw) (ew := ew)
  have hs := fun i (h : i ≠ k) => slab_strict b ray i (hb1 i) (hb2 i) (ho i) (hd i) (toReal_lt_iff.1 (hin i h).1) (toReal_lt_iff.1 (hin i h).2)
  have htk : ray.tmax.key = kInf mw ew := (val_top_iff htn).1 ht
  have n1 : (b.pmin.vec k - ray.origin.vec k).isNaN = false := (sub_fin (hb1 k) (ho k)).1
  have n2 : (b.pmax.vec k - ray.origin.vec k).isNaN = false := (sub_fin (hb2 k) (ho k)).1
  have hdk : (ray.direction.vec k).key ≠ 0 := by
    rcases hk with h | h
    · have := toReal_pos_iff.1 h.1; omega
    · intro h0; rw [toReal_eq_zero_iff.2 h0] at h; exact lt_irrefl _ h.1
  have quo : ∀ x : Flt mw ew, x.isNaN = false → (x / ray.direction.vec k).isNaN = false ∧
      ((0 ≤ x.key ∧ 0 < (ray.direction.vec k).key) ∨ (x.key ≤ 0 ∧ (ray.direction.vec k).key < 0) → 0 ≤ (x / ray.direction.vec k).key) := by
    intro x hx
    by_cases h0 : x.key = 0
    · have hf : x.isFin = true := by rw [isFin_iff_key, h0]; omega
      have := div_fin hf (hd k) hdk
      rw [toReal_eq_zero_iff.2 h0, zero_div, rndK_zero] at this
      exact ⟨this.1, fun _ => this.2.ge⟩
    · obtain ⟨p1, p2, p3, p4⟩ := div_sign hx h0 (hd k)
      refine ⟨p1, ?_⟩
      rintro (⟨h1, h2⟩ | ⟨h1, h2⟩)
      · exact p3 (by rw [sgn_of_key_pos h2, sgn_of_key_pos (by omega)])
      · exact p3 (by rw [sgn_of_key_neg h2, sgn_of_key_neg (by omega)])
  have hsk : (slab b ray k).1.isNaN = false ∧ (slab b ray k).2.isNaN = false ∧ (slab b ray k).1.key ≤ (slab b ray k).2.key ∧
      0 ≤ (slab b ray k).2.key := by
    obtain ⟨s1, s2⟩ := smin_key (quo _ n1).1 (quo _ n2).1
    obtain ⟨s3, s4⟩ := smax_key (quo _ n1).1 (quo _ n2).1
    refine ⟨s1, s3, ?_, ?_⟩
    · change (Scalar.min _ _ : Flt mw ew).key ≤ (Scalar.max _ _ : Flt mw ew).key
      rw [s2, s4]; omega
    · change 0 ≤ (Scalar.max _ _ : Flt mw ew).key
      rw [s4]
      rcases hk with ⟨h1, h2⟩ | ⟨h1, h2⟩
      · have : 0 ≤ (b.pmax.vec k - ray.origin.vec k).key := by
          have e := (sub_fin (hb2 k) (ho k)).2
          change (b.pmax.vec k - ray.origin.vec k).key = _ at e
          rw [e]; exact rndK_nonneg (by linarith)
        have := (quo _ n2).2 (Or.inl ⟨this, toReal_pos_iff.1 h1⟩)
        omega
      · have : (b.pmin.vec k - ray.origin.vec k).key ≤ 0 := by
          have e := (sub_fin (hb1 k) (ho k)).2
          change (b.pmin.vec k - ray.origin.vec k).key = _ at e
          rw [e]; exact rndK_nonpos (by linarith)
        have hd0 : (ray.direction.vec k).key < 0 := by
          rw [← toReal_szero (mw := mw) (ew := ew), toReal_lt_iff, key_szero] at h1; exact h1
        have := (quo _ n1).2 (Or.inr ⟨this, hd0⟩)
        omega
  have all : ∀ i, (slab b ray i).1.isNaN = false ∧ (slab b ray i).2.isNaN = false ∧ 0 ≤ (slab b ray i).2.key ∧
      (i ≠ k → (slab b ray i).1.key = -kInf mw ew ∧ (slab b ray i).2.key = kInf mw ew) := by
    intro i
    by_cases h : i = k
    · subst h; exact ⟨hsk.1, hsk.2.1, hsk.2.2.2, fun h => absurd rfl h⟩
    · have := hs i h
      exact ⟨this.1, this.2.1, this.2.2.2.1, fun _ => this.2.2.2.2 (toReal_eq_zero_iff.1 (hz i h))⟩
  obtain ⟨t0, t1, e, -⟩ := intersectRay_slab b ray htn (fun i => ⟨(all i).1, (all i).2.1⟩)
    (fun i => by rw [htk]; exact (key_bounds (all i).1).2) (fun i => (all i).2.2.1)
    (fun i j => by
      by_cases hi : i = k
      · by_cases hj : j = k
        · rw [hi, hj]; exact hsk.2.2.1
        · rw [((all j).2.2.2 hj).2]; exact (key_bounds (all i).1).2
      · rw [((all i).2.2.2 hi).1]; exact (key_bounds (all j).2.1).1)
  rw [e]; rfl

/-- The box `[0,2]³`. -/
def exBox2 : Bbox F32 := ⟨new3 (F32.lit 0) (F32.lit 0) (F32.lit 0), new3 (F32.lit 2) (F32.lit 2) (F32.lit 2)⟩
/-- A ray within the face `x = 0` of `exBox2`. -/
def exRayFace : Ray F32 := ⟨new3 (F32.lit 0) (F32.lit 1) (-F32.lit 1), new3 (F32.lit 0) (F32.lit 0) (F32.lit 1), F32.lit 3⟩

/-- C53 is false of the code: a ray that runs within the face `x = xmin`, through the middle of the face, is reported as missing
the box (0/0 gives NaN, `Scalar::min(NaN, ∞)` gives ∞), although it passes through points that `inside` reports as inside; within the
opposite face it is reported as hitting. -/
theorem C53_refuted : ¬ ∀ (b : Bbox F32) (ray : Ray F32) (t : F32), Scalar.le Scalar.zero t = true → Scalar.le t ray.tmax = true →
    b.inside (ray.eval t) = true → b.intersectRay ray ≠ none := by
  intro h
  exact h exBox2 exRayFace (F32.lit 2) (by decide +kernel) (by decide +kernel) (by decide +kernel) (by decide +kernel)

/-- The hypotheses of the partial theorems are met. -/
def exRayPar : Ray F32 := ⟨new3 (F32.lit 1) (F32.lit 1) (-F32.lit 1), new3 (F32.lit 0) (-F32.lit 0) (F32.lit 1), Flt.inf 23 8 false⟩
example : exBox2.pmin.Fin ∧ exBox2.pmax.Fin ∧ exRayPar.origin.Fin ∧ exRayPar.direction.Fin ∧ exRayPar.tmax.key = kInf 23 8 ∧
    (∀ i, i ≠ 2 → (exRayPar.direction.vec i).key = 0) ∧
    (∀ i, i ≠ 2 → (exBox2.pmin.vec i).key < (exRayPar.origin.vec i).key ∧ (exRayPar.origin.vec i).key < (exBox2.pmax.vec i).key) ∧
    0 < (exRayPar.direction.vec 2).key ∧ (exRayPar.origin.vec 2).key ≤ (exBox2.pmax.vec 2).key := by
  unfold GVec.Fin; decide +kernel

end Scarlet
