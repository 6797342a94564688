import Verif.Props.FloatBox

/-! C53: rays parallel to faces of a box, on floats, in full: which parallel axes never matter, which always reject the ray,
and what remains for the other axes. -/

set_option linter.unusedSectionVars false

namespace Scarlet
open Flt GVec

variable {mw ew : Nat} [FltImpl mw ew] [LawfulFlt mw ew]

theorem gt_imax (x y z : Flt mw ew) : Scalar.gt (imax x y) z = true ↔ Scalar.gt x z = true ∨ Scalar.gt y z = true := by
  simp only [sgt_iff]
  rcases imax_cases x y with ⟨h, e⟩ | ⟨h, e⟩ | ⟨h1, h2, h3, e⟩ | ⟨h1, h2, h3, e⟩ <;> rw [e]
  · simp [h]
  · simp [h]
  · exact ⟨Or.inl, fun h => h.elim id fun h => ⟨h1, h.2.1, by omega⟩⟩
  · exact ⟨Or.inr, fun h => h.elim (fun h => ⟨h2, h.2.1, by omega⟩) id⟩

theorem gt_imin (x y z : Flt mw ew) : Scalar.gt z (imin x y) = true ↔ Scalar.gt z x = true ∨ Scalar.gt z y = true := by
  simp only [sgt_iff]
  rcases imin_cases x y with ⟨h, e⟩ | ⟨h, e⟩ | ⟨h1, h2, h3, e⟩ | ⟨h1, h2, h3, e⟩ <;> rw [e]
  · simp [h]
  · simp [h]
  · exact ⟨Or.inl, fun h => h.elim id fun h => ⟨h.1, h1, by omega⟩⟩
  · exact ⟨Or.inr, fun h => h.elim (fun h => ⟨h.1, h2, by omega⟩) id⟩

theorem lt_imin (x y z : Flt mw ew) : Scalar.lt (imin x y) z = true ↔ Scalar.lt x z = true ∨ Scalar.lt y z = true := by
  have h := gt_imin x y z
  simp only [sgt_iff] at h
  simp only [slt_iff]
  constructor
  · rintro ⟨a, b, c⟩
    exact (h.1 ⟨b, a, c⟩).imp (fun h => ⟨h.2.1, h.1, h.2.2⟩) fun h => ⟨h.2.1, h.1, h.2.2⟩
  · intro h'
    obtain ⟨a, b, c⟩ := h.2 (h'.imp (fun h => ⟨h.2.1, h.1, h.2.2⟩) fun h => ⟨h.2.1, h.1, h.2.2⟩)
    exact ⟨b, a, c⟩

theorem fin3_or {P : _root_.Fin 3 → Prop} : (∃ i, P i) ↔ (P 0 ∨ P 1) ∨ P 2 := by
  constructor
  · rintro ⟨i, hi⟩; fin_cases i
    · exact Or.inl (Or.inl hi)
    · exact Or.inl (Or.inr hi)
    · exact Or.inr hi
  · rintro ((h | h) | h)
    exacts [⟨_, h⟩, ⟨_, h⟩, ⟨_, h⟩]

/-- When the slab test rejects, whatever the operands (NaN included). -/
theorem intersectRay_none_iff (b : Bbox (Flt mw ew)) (ray : Ray (Flt mw ew)) :
    b.intersectRay ray = none ↔ (∃ i, Scalar.gt (slab b ray i).1 ray.tmax = true) ∨
      (∃ i, Scalar.lt (slab b ray i).2 Scalar.zero = true) ∨ ∃ i j, Scalar.gt (slab b ray i).1 (slab b ray j).2 = true := by
  have e : b.intersectRay ray =
      if Scalar.gt (imax (imax (slab b ray 0).1 (slab b ray 1).1) (slab b ray 2).1) ray.tmax ||
        Scalar.lt (imin (imin (slab b ray 0).2 (slab b ray 1).2) (slab b ray 2).2) Scalar.zero ||
        Scalar.gt (imax (imax (slab b ray 0).1 (slab b ray 1).1) (slab b ray 2).1)
          (imin (imin (slab b ray 0).2 (slab b ray 1).2) (slab b ray 2).2) then none
      else some (imax (imax (imax (slab b ray 0).1 (slab b ray 1).1) (slab b ray 2).1) Scalar.zero,
        imin (imin (imin (slab b ray 0).2 (slab b ray 1).2) (slab b ray 2).2) ray.tmax) := rfl
  have c : (Scalar.gt (imax (imax (slab b ray 0).1 (slab b ray 1).1) (slab b ray 2).1) ray.tmax ||
        Scalar.lt (imin (imin (slab b ray 0).2 (slab b ray 1).2) (slab b ray 2).2) Scalar.zero ||
        Scalar.gt (imax (imax (slab b ray 0).1 (slab b ray 1).1) (slab b ray 2).1)
          (imin (imin (slab b ray 0).2 (slab b ray 1).2) (slab b ray 2).2)) = true ↔
      (∃ i, Scalar.gt (slab b ray i).1 ray.tmax = true) ∨
      (∃ i, Scalar.lt (slab b ray i).2 Scalar.zero = true) ∨ ∃ i j, Scalar.gt (slab b ray i).1 (slab b ray j).2 = true := by
    rw [Bool.or_eq_true, Bool.or_eq_true, or_assoc]
    have m1 : ∀ z, Scalar.gt (imax (imax (slab b ray 0).1 (slab b ray 1).1) (slab b ray 2).1) z = true ↔
        ∃ i, Scalar.gt (slab b ray i).1 z = true := fun z => by rw [gt_imax, gt_imax, fin3_or]
    have m2 : ∀ z, Scalar.gt z (imin (imin (slab b ray 0).2 (slab b ray 1).2) (slab b ray 2).2) = true ↔
        ∃ i, Scalar.gt z (slab b ray i).2 = true := fun z => by rw [gt_imin, gt_imin, fin3_or]
    have m3 : ∀ z, Scalar.lt (imin (imin (slab b ray 0).2 (slab b ray 1).2) (slab b ray 2).2) z = true ↔
        ∃ i, Scalar.lt (slab b ray i).2 z = true := fun z => by rw [lt_imin, lt_imin, fin3_or]
    rw [m1, m3, m1]
    simp only [m2]
  rw [e, ← c]
  split
  · rename_i h; exact ⟨fun _ => h, fun _ => rfl⟩
  · rename_i h; exact ⟨fun h' => (by cases h'), fun h' => absurd h' h⟩

theorem le_imax {x y : Flt mw ew} (h : x.isNaN = false) : (imax x y).isNaN = false ∧ x.key ≤ (imax x y).key := by
  rcases imax_cases x y with ⟨h', e⟩ | ⟨h', e⟩ | ⟨h1, h2, h3, e⟩ | ⟨h1, h2, h3, e⟩ <;> rw [e]
  · rw [h] at h'; cases h'
  · exact ⟨h, le_rfl⟩
  · exact ⟨h, le_rfl⟩
  · exact ⟨h2, h3⟩
theorem le_imax' {x y : Flt mw ew} (h : y.isNaN = false) : (imax x y).isNaN = false ∧ y.key ≤ (imax x y).key := by
  rcases imax_cases x y with ⟨h', e⟩ | ⟨h', e⟩ | ⟨h1, h2, h3, e⟩ | ⟨h1, h2, h3, e⟩ <;> rw [e]
  · exact ⟨h, le_rfl⟩
  · rw [h] at h'; cases h'
  · exact ⟨h1, h3.le⟩
  · exact ⟨h, le_rfl⟩
theorem imin_le {x y : Flt mw ew} (h : x.isNaN = false) : (imin x y).isNaN = false ∧ (imin x y).key ≤ x.key := by
  rcases imin_cases x y with ⟨h', e⟩ | ⟨h', e⟩ | ⟨h1, h2, h3, e⟩ | ⟨h1, h2, h3, e⟩ <;> rw [e]
  · rw [h] at h'; cases h'
  · exact ⟨h, le_rfl⟩
  · exact ⟨h, le_rfl⟩
  · exact ⟨h2, h3⟩
theorem imin_le' {x y : Flt mw ew} (h : y.isNaN = false) : (imin x y).isNaN = false ∧ (imin x y).key ≤ y.key := by
  rcases imin_cases x y with ⟨h', e⟩ | ⟨h', e⟩ | ⟨h1, h2, h3, e⟩ | ⟨h1, h2, h3, e⟩ <;> rw [e]
  · exact ⟨h, le_rfl⟩
  · rw [h] at h'; cases h'
  · exact ⟨h1, h3.le⟩
  · exact ⟨h, le_rfl⟩

/-- The reported range lies within every slab that is not NaN. -/
theorem range_le (b : Bbox (Flt mw ew)) (ray : Ray (Flt mw ew)) {t0 t1 : Flt mw ew} (he : b.intersectRay ray = some (t0, t1))
    (i : _root_.Fin 3) (n1 : (slab b ray i).1.isNaN = false) (n2 : (slab b ray i).2.isNaN = false) :
    (slab b ray i).1.key ≤ t0.key ∧ t1.key ≤ (slab b ray i).2.key := by
  have e : b.intersectRay ray =
      if Scalar.gt (imax (imax (slab b ray 0).1 (slab b ray 1).1) (slab b ray 2).1) ray.tmax ||
        Scalar.lt (imin (imin (slab b ray 0).2 (slab b ray 1).2) (slab b ray 2).2) Scalar.zero ||
        Scalar.gt (imax (imax (slab b ray 0).1 (slab b ray 1).1) (slab b ray 2).1)
          (imin (imin (slab b ray 0).2 (slab b ray 1).2) (slab b ray 2).2) then none
      else some (imax (imax (imax (slab b ray 0).1 (slab b ray 1).1) (slab b ray 2).1) Scalar.zero,
        imin (imin (imin (slab b ray 0).2 (slab b ray 1).2) (slab b ray 2).2) ray.tmax) := rfl
  rw [e] at he
  split at he
  · cases he
  rw [Option.some.injEq, Prod.mk.injEq] at he
  obtain ⟨rfl, rfl⟩ := he
  have a : (slab b ray i).1.key ≤ (imax (imax (slab b ray 0).1 (slab b ray 1).1) (slab b ray 2).1).key ∧
      (imax (imax (slab b ray 0).1 (slab b ray 1).1) (slab b ray 2).1).isNaN = false := by
    fin_cases i
    · have h1 := le_imax (y := (slab b ray 1).1) n1
      have h2 := le_imax (y := (slab b ray 2).1) h1.1
      exact ⟨h1.2.trans h2.2, h2.1⟩
    · have h1 := le_imax' (x := (slab b ray 0).1) n1
      have h2 := le_imax (y := (slab b ray 2).1) h1.1
      exact ⟨h1.2.trans h2.2, h2.1⟩
    · have h1 := le_imax' (x := imax (slab b ray 0).1 (slab b ray 1).1) n1
      exact ⟨h1.2, h1.1⟩
  have c : (imin (imin (slab b ray 0).2 (slab b ray 1).2) (slab b ray 2).2).key ≤ (slab b ray i).2.key ∧
      (imin (imin (slab b ray 0).2 (slab b ray 1).2) (slab b ray 2).2).isNaN = false := by
    fin_cases i
    · have h1 := imin_le (y := (slab b ray 1).2) n2
      have h2 := imin_le (y := (slab b ray 2).2) h1.1
      exact ⟨h2.2.trans h1.2, h2.1⟩
    · have h1 := imin_le' (x := (slab b ray 0).2) n2
      have h2 := imin_le (y := (slab b ray 2).2) h1.1
      exact ⟨h2.2.trans h1.2, h2.1⟩
    · have h1 := imin_le' (x := imin (slab b ray 0).2 (slab b ray 1).2) n2
      exact ⟨h1.2, h1.1⟩
  exact ⟨a.1.trans (le_imax a.2).2, (imin_le c.2).2.trans c.1⟩

/-- Zero over zero is NaN. -/
theorem div_zero_zero {x y : Flt mw ew} (hx : x.key = 0) (hy : y.key = 0) : (x / y).isNaN = true := by
  change (x.div y).isNaN = true
  unfold Flt.div
  rw [isZero_iff_key.2 hx, isZero_iff_key.2 hy]
  have : x.isInf = false := by rw [Bool.eq_false_iff, ne_eq, isInf_iff_key]; have := kInf_pos (mw := mw) (ew := ew); omega
  have : y.isInf = false := by rw [Bool.eq_false_iff, ne_eq, isInf_iff_key]; have := kInf_pos (mw := mw) (ew := ew); omega
  simp [*, isNaN_nan]

theorem sub_key_zero {x y : Flt mw ew} (hx : x.isFin = true) (hy : y.isFin = true) (h : x.key = y.key) :
    (x - y).isNaN = false ∧ (x - y).key = 0 := by
  obtain ⟨a, e⟩ := sub_fin hx hy
  refine ⟨a, ?_⟩
  change (x - y).key = _ at e
  rw [e, toReal_eq_iff.2 h, sub_self, rndK_zero]

/-- Axis `i` of the ray runs along the box between the bounds, or on the upper bound; it can be the lower bound only if that
is the upper bound as well. -/
def Between (b : Bbox (Flt mw ew)) (ray : Ray (Flt mw ew)) (i : _root_.Fin 3) : Prop :=
  ((b.pmin.vec i).toReal < (ray.origin.vec i).toReal ∧ (ray.origin.vec i).toReal ≤ (b.pmax.vec i).toReal) ∨
    (ray.origin.vec i).toReal = (b.pmax.vec i).toReal

/-- Box, origin and direction have finite components along axis `i`, the bounds in order. -/
def AxisFin (b : Bbox (Flt mw ew)) (ray : Ray (Flt mw ew)) (i : _root_.Fin 3) : Prop :=
  (b.pmin.vec i).isFin = true ∧ (b.pmax.vec i).isFin = true ∧ (ray.origin.vec i).isFin = true ∧ (ray.direction.vec i).isFin = true ∧
    (b.pmin.vec i).toReal ≤ (b.pmax.vec i).toReal

theorem slab_between (b : Bbox (Flt mw ew)) (ray : Ray (Flt mw ew)) (i : _root_.Fin 3) (h : AxisFin b ray i)
    (h0 : (ray.direction.vec i).toReal = 0) (hb : Between b ray i) :
    ((slab b ray i).1.isNaN = true ∧ (slab b ray i).2.isNaN = true) ∨
      ((slab b ray i).1.isNaN = false ∧ (slab b ray i).2.isNaN = false ∧
        (slab b ray i).1.key = -kInf mw ew ∧ (slab b ray i).2.key = kInf mw ew) := by
  obtain ⟨f1, f2, f3, f4, -⟩ := h
  have d0 := toReal_eq_zero_iff.1 h0
  by_cases he : (ray.origin.vec i).toReal = (b.pmax.vec i).toReal
  · left
    have k := toReal_eq_iff.1 he
    have hq := div_zero_zero (sub_key_zero f2 f3 k.symm).2 d0
    constructor
    · change (Scalar.min _ _ : Flt mw ew).isNaN = true
      rw [smin_def, if_neg (by rw [slt_iff, hq]; simp)]; exact hq
    · change (Scalar.max _ _ : Flt mw ew).isNaN = true
      rw [smax_def, if_neg (by rw [sgt_iff, hq]; simp)]; exact hq
  · right
    obtain ⟨h1, h2⟩ := hb.resolve_right he
    have := slab_strict b ray i f1 f2 f3 f4 (toReal_lt_iff.1 h1) (toReal_lt_iff.1 (lt_of_le_of_ne h2 he))
    exact ⟨this.1, this.2.1, this.2.2.2.2 d0⟩

theorem slab_blocked (b : Bbox (Flt mw ew)) (ray : Ray (Flt mw ew)) (i : _root_.Fin 3) (h : AxisFin b ray i)
    (h0 : (ray.direction.vec i).toReal = 0) (hb : ¬ Between b ray i) :
    ((slab b ray i).1.isNaN = false ∧ (slab b ray i).2.isNaN = false) ∧
      (((slab b ray i).1.key = kInf mw ew ∧ (slab b ray i).2.key = kInf mw ew) ∨
       ((slab b ray i).1.key = -kInf mw ew ∧ (slab b ray i).2.key = -kInf mw ew)) := by
  obtain ⟨f1, f2, f3, f4, ho⟩ := h
  have d0 := toReal_eq_zero_iff.1 h0
  unfold Between at hb
  rw [not_or, not_and, not_le] at hb
  obtain ⟨hb1, hb2⟩ := hb
  have n1 : (b.pmin.vec i - ray.origin.vec i).isNaN = false := (sub_fin f1 f3).1
  have n2 : (b.pmax.vec i - ray.origin.vec i).isNaN = false := (sub_fin f2 f3).1
  have two : ∀ q1 q2 : Flt mw ew, (q1.isNaN = true ∨ q1.key = q2.key) → q2.isNaN = false → (q2.key = kInf mw ew ∨ q2.key = -kInf mw ew) →
      ((Scalar.min q1 q2).isNaN = false ∧ (Scalar.max q1 q2).isNaN = false) ∧
        (((Scalar.min q1 q2).key = kInf mw ew ∧ (Scalar.max q1 q2).key = kInf mw ew) ∨
        ((Scalar.min q1 q2).key = -kInf mw ew ∧ (Scalar.max q1 q2).key = -kInf mw ew)) := by
    intro q1 q2 h1 h2 h3
    have e1 : Scalar.min q1 q2 = q2 := by
      rw [smin_def, if_neg]; rw [slt_iff]; rintro ⟨a, -, c⟩
      rcases h1 with h1 | h1
      · rw [h1] at a; cases a
      · omega
    have e2 : Scalar.max q1 q2 = q2 := by
      rw [smax_def, if_neg]; rw [sgt_iff]; rintro ⟨a, -, c⟩
      rcases h1 with h1 | h1
      · rw [h1] at a; cases a
      · omega
    rw [e1, e2]
    exact ⟨⟨h2, h2⟩, h3.imp (fun h => ⟨h, h⟩) fun h => ⟨h, h⟩⟩
  change ((Scalar.min _ _ : Flt mw ew).isNaN = false ∧ (Scalar.max _ _ : Flt mw ew).isNaN = false) ∧
    (((Scalar.min _ _ : Flt mw ew).key = _ ∧ (Scalar.max _ _ : Flt mw ew).key = _) ∨
      ((Scalar.min _ _ : Flt mw ew).key = _ ∧ (Scalar.max _ _ : Flt mw ew).key = _))
  by_cases hlt : (b.pmax.vec i).toReal < (ray.origin.vec i).toReal
  · -- beyond the upper bound
    have k2 := sub_key_neg f2 f3 (toReal_lt_iff.1 hlt)
    have k1 := sub_key_neg f1 f3 (toReal_lt_iff.1 (lt_of_le_of_lt ho hlt))
    obtain ⟨p1, -, -, p4⟩ := div_sign n1 (by omega) f4
    obtain ⟨q1, -, -, q4⟩ := div_sign n2 (by omega) f4
    rw [sgn_of_key_neg k1] at p4
    rw [sgn_of_key_neg k2] at q4
    refine two _ _ (Or.inr (by rw [p4 d0, q4 d0])) q1 ?_
    rw [q4 d0]; split <;> simp
  · have hgt : (ray.origin.vec i).toReal < (b.pmax.vec i).toReal := lt_of_le_of_ne (not_lt.1 hlt) hb2
    have hle : (ray.origin.vec i).toReal ≤ (b.pmin.vec i).toReal := by
      by_contra hc
      exact absurd (hb1 (not_le.1 hc)) (not_lt.2 hgt.le)
    have k2 := sub_key_pos f2 f3 (toReal_lt_iff.1 hgt)
    obtain ⟨q1, -, -, q4⟩ := div_sign n2 (by omega) f4
    rw [sgn_of_key_pos k2] at q4
    refine two _ _ ?_ q1 (by rw [q4 d0]; split <;> simp)
    rcases hle.eq_or_lt with he | hl
    · exact Or.inl (div_zero_zero (sub_key_zero f1 f3 (toReal_eq_iff.1 he).symm).2 d0)
    · have k1 := sub_key_pos f1 f3 (toReal_lt_iff.1 hl)
      obtain ⟨p1, -, -, p4⟩ := div_sign n1 (by omega) f4
      rw [sgn_of_key_pos k1] at p4
      exact Or.inr (by rw [p4 d0, q4 d0])

/-- C53, the failing half for all boxes and rays: a bounded ray parallel to a face that runs outside the slab between the two
faces, or *within* the lower face (of a box that is not flat along the axis), is reported as missing the box, whatever its
other components. -/
theorem C53_blocked (b : Bbox (Flt mw ew)) (ray : Ray (Flt mw ew)) (i : _root_.Fin 3) (h : AxisFin b ray i)
    (h0 : (ray.direction.vec i).toReal = 0) (ht : ray.tmax.isFin = true)
    (hb : (ray.origin.vec i).toReal < (b.pmin.vec i).toReal ∨ (b.pmax.vec i).toReal < (ray.origin.vec i).toReal ∨
      ((ray.origin.vec i).toReal = (b.pmin.vec i).toReal ∧ (b.pmin.vec i).toReal < (b.pmax.vec i).toReal)) :
    b.intersectRay ray = none := by
  have hB : ¬ Between b ray i := by
    have := h.2.2.2.2
    rintro (⟨h1, h2⟩ | h1) <;> rcases hb with h | h | ⟨h, h'⟩ <;> linarith
  obtain ⟨⟨n1, n2⟩, h⟩ := slab_blocked b ray i h h0 hB
  have hK := kInf_pos (mw := mw) (ew := ew)
  have ht' := isFin_iff_key.1 ht
  rw [intersectRay_none_iff]
  rcases h with h | h
  · left; refine ⟨i, ?_⟩; rw [sgt_iff]; exact ⟨n1, notNaN_of_isFin ht, by omega⟩
  · right; left; refine ⟨i, ?_⟩; rw [slt_iff, key_szero]; exact ⟨n2, notNaN_of_isFin isFin_szero, by omega⟩

/-- No overflow along axis `i`: the direction and the two quotients are finite (so the direction component is not zero). -/
def AxisSlab (b : Bbox (Flt mw ew)) (ray : Ray (Flt mw ew)) (i : _root_.Fin 3) : Prop :=
  (ray.direction.vec i).isFin = true ∧
    ((b.pmin.vec i - ray.origin.vec i) / ray.direction.vec i).isFin = true ∧
    ((b.pmax.vec i - ray.origin.vec i) / ray.direction.vec i).isFin = true

/-- C53, the half that holds, with the margins of C92: along every axis the ray is either not parallel (with finite quotients) or
parallel and between the faces (the upper face included).  If the exact ray passes, within its length, through the box with the
planes of the non-parallel axes moved inwards by the margin, an intersection is reported. -/
theorem C53_hit_partial (b : Bbox (Flt mw ew)) (ray : Ray (Flt mw ew)) (ht : ray.tmax.isNaN = false)
    (hb : ∀ i, (b.pmin.vec i).toReal ≤ (b.pmax.vec i).toReal)
    (hax : ∀ i, AxisSlab b ray i ∨ (AxisFin b ray i ∧ (ray.direction.vec i).toReal = 0 ∧ Between b ray i))
    (t : ℝ) (h0 : 0 ≤ t) (h1 : (t : EReal) ≤ ray.tmax.val)
    (hin : ∀ i, (ray.direction.vec i).toReal ≠ 0 → (b.pmin.vec i).toReal + slabMargin b ray i ≤ exactAt ray t i ∧
      exactAt ray t i ≤ (b.pmax.vec i).toReal - slabMargin b ray i) :
    (b.intersectRay ray).isSome = true := by
  have hK := kInf_pos (mw := mw) (ew := ew)
  have key : ∀ i, (((slab b ray i).1.isNaN = true ∧ (slab b ray i).2.isNaN = true) ∨
      ((slab b ray i).1.isNaN = false ∧ (slab b ray i).2.isNaN = false ∧
        (slab b ray i).1.key = -kInf mw ew ∧ (slab b ray i).2.key = kInf mw ew)) ∨
      ((slab b ray i).1.isFin = true ∧ (slab b ray i).2.isFin = true ∧ (slab b ray i).1.toReal ≤ t ∧ t ≤ (slab b ray i).2.toReal) := by
    intro i
    rcases hax i with h | ⟨h, d0, hB⟩
    · right
      have d0 := (quot_err h.1 h.2.1).1
      obtain ⟨f1, f2, h3, -⟩ := slab_err1 b ray i h (hb i) t
      exact ⟨f1, f2, h3 (hin i d0).1 (hin i d0).2⟩
    · exact Or.inl (slab_between b ray i h d0 hB)
  have hs : b.intersectRay ray ≠ none := by
    rw [ne_eq, intersectRay_none_iff]
    rintro (⟨i, h⟩ | ⟨i, h⟩ | ⟨i, j, h⟩)
    · rw [sgt_iff] at h
      obtain ⟨a1, a2, a3⟩ := h
      rcases key i with (⟨k, -⟩ | ⟨-, -, k, -⟩) | ⟨k1, -, k2, -⟩
      · rw [k] at a1; cases a1
      · have := (key_bounds ht).1; omega
      · rw [← val_lt_iff ht a1, val_of_isFin k1] at a3
        exact absurd (lt_of_le_of_lt h1 a3) (not_lt.2 (EReal.coe_le_coe_iff.2 k2))
    · rw [slt_iff, key_szero] at h
      obtain ⟨a1, a2, a3⟩ := h
      rcases key i with (⟨-, k⟩ | ⟨-, -, -, k⟩) | ⟨-, k1, -, k2⟩
      · rw [k] at a1; cases a1
      · omega
      · have : 0 ≤ (slab b ray i).2.key := toReal_nonneg_iff.1 (h0.trans k2)
        omega
    · rw [sgt_iff] at h
      obtain ⟨a1, a2, a3⟩ := h
      rcases key i with (⟨k, -⟩ | ⟨-, -, k, -⟩) | ⟨k1, -, k2, -⟩
      · rw [k] at a1; cases a1
      · have := (key_bounds a2).1; omega
      · rcases key j with (⟨-, k⟩ | ⟨-, -, -, k⟩) | ⟨-, k3, -, k4⟩
        · rw [k] at a2; cases a2
        · have := (key_bounds a1).2; omega
        · have := (key_le_toReal k1 k3).2 (k2.trans k4); omega
  cases e : b.intersectRay ray
  · exact absurd e hs
  · rfl

/-- C53, no false hits: if the ray is bounded, or not parallel to all three axes, then throughout the reported range the exact ray is
inside the box, with the planes of the non-parallel axes moved outwards by the margin; along the parallel axes it is inside the box
itself, and not within the lower face unless that is the upper face too. -/
theorem C53_range (b : Bbox (Flt mw ew)) (ray : Ray (Flt mw ew)) (ht : ray.tmax.isNaN = false) (h0 : 0 ≤ ray.tmax.val)
    (hb : ∀ i, (b.pmin.vec i).toReal ≤ (b.pmax.vec i).toReal)
    (hax : ∀ i, AxisSlab b ray i ∨ (AxisFin b ray i ∧ (ray.direction.vec i).toReal = 0))
    (hfin : ray.tmax.isFin = true ∨ ∃ i, AxisSlab b ray i)
    (t0 t1 : Flt mw ew) (he : b.intersectRay ray = some (t0, t1)) (t : ℝ) (ht0 : t0.toReal ≤ t) (ht1 : t ≤ t1.toReal) (i : _root_.Fin 3) :
    ((ray.direction.vec i).toReal ≠ 0 → (b.pmin.vec i).toReal - slabMargin b ray i ≤ exactAt ray t i ∧
      exactAt ray t i ≤ (b.pmax.vec i).toReal + slabMargin b ray i) ∧
    ((ray.direction.vec i).toReal = 0 → Between b ray i ∧
      (b.pmin.vec i).toReal ≤ exactAt ray t i ∧ exactAt ray t i ≤ (b.pmax.vec i).toReal) := by
  have hK := kInf_pos (mw := mw) (ew := ew)
  have hs : ¬ _ := fun h => by
    have := (intersectRay_none_iff b ray).2 h
    rw [he] at this; cases this
  rw [not_or, not_or] at hs
  obtain ⟨s1, s2, s3⟩ := hs
  constructor
  · intro hd
    have hA := (hax i).resolve_right fun h => hd h.2
    obtain ⟨f1, f2, -, hr⟩ := slab_err1 b ray i hA (hb i) t
    obtain ⟨⟨n0, n1⟩, p0, p1, p2⟩ := C52_range b ray t0 t1 ht h0 he
    obtain ⟨l0, l1⟩ := range_le b ray he i (notNaN_of_isFin f1) (notNaN_of_isFin f2)
    have k1 := (val_le_iff n0 n1).1 p1
    have k0 := (val_nonneg_iff n0).1 p0
    have g1 : t1.isFin = true := by
      rw [isFin_iff_key] at f2 ⊢; omega
    have g0 : t0.isFin = true := by
      rw [isFin_iff_key] at g1 ⊢; omega
    exact hr (((key_le_toReal f1 g0).1 l0).trans ht0) (ht1.trans ((key_le_toReal g1 f2).1 l1))
  · intro hd
    have hA := ((hax i).resolve_left fun h => (quot_err h.1 h.2.1).1 hd).1
    have hB : Between b ray i := by
      by_contra hB
      obtain ⟨⟨n1, n2⟩, h⟩ := slab_blocked b ray i hA hd hB
      rcases h with h | h
      · rcases hfin with hf | ⟨j, hj⟩
        · refine s1 ⟨i, ?_⟩
          rw [isFin_iff_key] at hf
          rw [sgt_iff]; exact ⟨n1, ht, by omega⟩
        · refine s3 ⟨i, j, ?_⟩
          obtain ⟨-, f2, -⟩ := slab_err1 b ray j hj (hb j) t
          have := isFin_iff_key.1 f2
          rw [sgt_iff]; exact ⟨n1, notNaN_of_isFin f2, by omega⟩
      · refine s2 ⟨i, ?_⟩
        rw [slt_iff, key_szero]; exact ⟨n2, notNaN_of_isFin isFin_szero, by omega⟩
    refine ⟨hB, ?_⟩
    unfold exactAt
    rw [hd, zero_mul, add_zero]
    rcases hB with h | h
    · exact ⟨h.1.le, h.2⟩
    · rw [h]; exact ⟨hb i, le_rfl⟩

/-- A ray within the upper face `x = 2` of `[0,2]³`, slanted along the other axes. -/
def exRayUp : Ray F32 := ⟨new3 (F32.lit 2) (-F32.lit 1) (-F32.lit 1), new3 (F32.lit 0) (F32.lit 1) (F32.lit 1), F32.lit 3⟩

/-- Non-vacuity of `C53_blocked`: the ray within the lower face `x = 0` (`C53_refuted`). -/
example : AxisFin exBox2 exRayFace 0 ∧ (exRayFace.direction.vec 0).toReal = 0 ∧ exRayFace.tmax.isFin = true ∧
    (exRayFace.origin.vec 0).toReal = (exBox2.pmin.vec 0).toReal ∧ (exBox2.pmin.vec 0).toReal < (exBox2.pmax.vec 0).toReal :=
  ⟨⟨by decide +kernel, by decide +kernel, by decide +kernel, by decide +kernel, (toReal_lt_iff.2 (by decide +kernel)).le⟩,
    toReal_eq_zero_iff.2 (by decide +kernel), by decide +kernel, rfl, toReal_lt_iff.2 (by decide +kernel)⟩

/-- Non-vacuity of `C53_hit_partial` and `C53_range`: the ray within the upper face is inside the shrunk box at `t = 2`. -/
example : (∀ i, (exBox2.pmin.vec i).toReal ≤ (exBox2.pmax.vec i).toReal) ∧
    (∀ i, AxisSlab exBox2 exRayUp i ∨ (AxisFin exBox2 exRayUp i ∧ (exRayUp.direction.vec i).toReal = 0 ∧ Between exBox2 exRayUp i)) ∧
    exRayUp.tmax.isFin = true ∧ ((2 : ℝ) : EReal) ≤ exRayUp.tmax.val ∧
    ∀ i, (exRayUp.direction.vec i).toReal ≠ 0 → (exBox2.pmin.vec i).toReal + slabMargin exBox2 exRayUp i ≤ exactAt exRayUp 2 i ∧
      exactAt exRayUp 2 i ≤ (exBox2.pmax.vec i).toReal - slabMargin exBox2 exRayUp i := by
  have e0 : ∀ i, (exBox2.pmin.vec i).toReal = 0 := by
    intro i; fin_cases i <;> exact (toReal_lit (by norm_num)).trans (by norm_num)
  have e1 : ∀ i, (exBox2.pmax.vec i).toReal = 2 := by
    intro i; fin_cases i <;> exact (toReal_lit (by norm_num)).trans (by norm_num)
  have e2 : ∀ i, i ≠ 0 → (exRayUp.origin.vec i).toReal = -1 := by
    have : (-F32.lit 1).toReal = -1 := by rw [toReal_negop, toReal_lit (by norm_num)]; norm_num
    intro i h; fin_cases i
    · exact absurd rfl h
    · exact this
    · exact this
  have e3 : ∀ i, i ≠ 0 → (exRayUp.direction.vec i).toReal = 1 := by
    intro i h; fin_cases i
    · exact absurd rfl h
    · exact (toReal_lit (by norm_num)).trans (by norm_num)
    · exact (toReal_lit (by norm_num)).trans (by norm_num)
  have d0 : (exRayUp.direction.vec 0).toReal = 0 := toReal_eq_zero_iff.2 (by decide +kernel)
  have e4 : exRayUp.tmax.toReal = 3 := (toReal_lit (by norm_num)).trans (by norm_num)
  refine ⟨fun i => by rw [e0, e1]; norm_num, fun i => ?_, by decide +kernel, ?_, fun i hi => ?_⟩
  · fin_cases i
    · right
      refine ⟨⟨by decide +kernel, by decide +kernel, by decide +kernel, by decide +kernel, by rw [e0, e1]; norm_num⟩, d0, Or.inr rfl⟩
    · left; unfold AxisSlab; decide +kernel
    · left; unfold AxisSlab; decide +kernel
  · rw [val_of_isFin (by decide +kernel), e4, EReal.coe_le_coe_iff]; norm_num
  · have hi0 : i ≠ 0 := fun h => hi (by rw [h]; exact d0)
    have hm : slabMargin exBox2 exRayUp i ≤ 1 / 2 := by
      unfold slabMargin uRnd etaRnd fK
      rw [e0, e1, e2 i hi0, e3 i hi0]
      norm_num
    unfold exactAt
    rw [e0, e1, e2 i hi0, e3 i hi0]
    constructor <;> linarith
end Scarlet
