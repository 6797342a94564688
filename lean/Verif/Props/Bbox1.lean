import Verif.Spec.Bbox
import Verif.Theory.Bbox

/-! C44 (box of two points), C45 (union), C46 (intersection), C47 (overlaps), C48 (default box), C49 (centre),
C50 (longest axis), for floats of every format. -/

set_option linter.unusedSectionVars false

namespace Scarlet
open Flt GVec

variable {mw ew : Nat} [Fmt mw ew]

/-! ### C44 -/

/-- C44: what `inside` means: the point has no NaN coordinate and lies in the region of the box. -/
theorem C44_inside (b : Bbox (Flt mw ew)) (hb : b.NoNaN) (p : Point (Flt mw ew) 3) :
    b.inside p = true ↔ p.NoNaN ∧ (fun i => (p.vec i).val) ∈ b.region := by
  rw [Bbox.insideF_iff]
  constructor
  · intro h
    exact ⟨fun i => (h i).2.1, hb, fun i => ⟨(val_le_iff (h i).1.1 (h i).2.1).2 (h i).1.2.2,
      (val_le_iff (h i).2.1 (h i).2.2.1).2 (h i).2.2.2⟩⟩
  · rintro ⟨hp, -, h⟩ i
    exact ⟨⟨hb.1 i, hp i, (val_le_iff (hb.1 i) (hp i)).1 (h i).1⟩, ⟨hp i, hb.2 i, (val_le_iff (hp i) (hb.2 i)).1 (h i).2⟩⟩

/-- C44: a NaN anywhere (point or box) means "not inside". -/
theorem C44_inside_nan (b : Bbox (Flt mw ew)) (p : Point (Flt mw ew) 3) (h : b.inside p = true) : b.NoNaN ∧ p.NoNaN := by
  rw [Bbox.insideF_iff] at h
  exact ⟨⟨fun i => (h i).1.1, fun i => (h i).2.2.1⟩, fun i => (h i).2.1⟩

/-- C44: the box of two points is ordered and contains both. -/
theorem C44_contains (p q : Point (Flt mw ew) 3) (hp : p.NoNaN) (hq : q.NoNaN) :
    (Bbox.new p q).Ordered ∧ (Bbox.new p q).inside p = true ∧ (Bbox.new p q).inside q = true := by
  have h : ∀ i, (FLe (imin (p.vec i) (q.vec i)) (p.vec i) ∧ FLe (p.vec i) (imax (p.vec i) (q.vec i))) ∧
      (FLe (imin (p.vec i) (q.vec i)) (q.vec i) ∧ FLe (q.vec i) (imax (p.vec i) (q.vec i))) := fun i =>
    ⟨⟨imin_fle.2 (Or.inl (.refl (hp i))), fle_imax.2 (Or.inl (.refl (hp i)))⟩,
     ⟨imin_fle.2 (Or.inr (.refl (hq i))), fle_imax.2 (Or.inr (.refl (hq i)))⟩⟩
  refine ⟨fun i => ?_, ?_, ?_⟩
  · rw [(Bbox.newF p q i).1, (Bbox.newF p q i).2]
    have := (h i).1.1.trans (h i).1.2
    exact (val_le_iff this.1 this.2.1).2 this.2.2
  · rw [Bbox.insideF_iff]; intro i; rw [(Bbox.newF p q i).1, (Bbox.newF p q i).2]; exact (h i).1
  · rw [Bbox.insideF_iff]; intro i; rw [(Bbox.newF p q i).1, (Bbox.newF p q i).2]; exact (h i).2

/-- C44: it does not depend on the order of the two points. -/
theorem C44_symm (p q r : Point (Flt mw ew) 3) : (Bbox.new p q).inside r = (Bbox.new q p).inside r := by
  rw [Bool.eq_iff_iff, Bbox.insideF_iff, Bbox.insideF_iff]
  refine forall_congr' fun i => ?_
  rw [(Bbox.newF p q i).1, (Bbox.newF p q i).2, (Bbox.newF q p i).1, (Bbox.newF q p i).2, imin_fle, imin_fle, fle_imax, fle_imax,
    or_comm, or_comm (a := FLe (r.vec i) (p.vec i))]

/-- C44: it is the smallest box containing the two points. -/
theorem C44_least (p q : Point (Flt mw ew) 3) (b : Bbox (Flt mw ew)) (hp : b.inside p = true) (hq : b.inside q = true)
    (r : Point (Flt mw ew) 3) (hr : (Bbox.new p q).inside r = true) : b.inside r = true := by
  rw [Bbox.insideF_iff] at *
  intro i
  have h := hr i
  rw [(Bbox.newF p q i).1, (Bbox.newF p q i).2, imin_fle, fle_imax] at h
  exact ⟨h.1.elim (hp i).1.trans (hq i).1.trans, h.2.elim (·.trans (hp i).2) (·.trans (hq i).2)⟩

/-- The hypotheses are met: (3,-1,0) and (1,2,-5); here every corner mixes coordinates of both points. -/
example : (new3 (F32.lit 3) (-F32.lit 1) (F32.lit 0) : Point F32 3).NoNaN ∧
    (new3 (F32.lit 1) (F32.lit 2) (-F32.lit 5) : Point F32 3).NoNaN ∧
    (Bbox.new (new3 (F32.lit 3) (-F32.lit 1) (F32.lit 0)) (new3 (F32.lit 1) (F32.lit 2) (-F32.lit 5)) : Bbox F32) =
      ⟨new3 (F32.lit 1) (-F32.lit 1) (-F32.lit 5), new3 (F32.lit 3) (F32.lit 2) (F32.lit 0)⟩ := by
  refine ⟨by unfold GVec.NoNaN; decide +kernel, by unfold GVec.NoNaN; decide +kernel, ?_⟩
  unfold Bbox.new
  congr 1 <;> refine ext3 ?_ ?_ ?_ <;> decide +kernel

/-! ### C45 -/

/-- C45: `union` contains both boxes, for all floats (NaN bounds are ignored). -/
theorem C45_contains (a b : Bbox (Flt mw ew)) (p : Point (Flt mw ew) 3) (h : a.inside p = true ∨ b.inside p = true) :
    (a.union b).inside p = true := by
  rw [Bbox.insideF_iff, Bbox.insideF_iff] at h
  rw [Bbox.insideF_iff]
  intro i
  rw [(Bbox.unionF a b i).1, (Bbox.unionF a b i).2, imin_fle, fle_imax]
  rcases h with h | h
  · exact ⟨Or.inl (h i).1, Or.inl (h i).2⟩
  · exact ⟨Or.inr (h i).1, Or.inr (h i).2⟩

/-- C45: `union` is commutative, associative and idempotent as a region. -/
theorem C45_laws (a b c : Bbox (Flt mw ew)) (p : Point (Flt mw ew) 3) :
    (a.union b).inside p = (b.union a).inside p ∧
    ((a.union b).union c).inside p = (a.union (b.union c)).inside p ∧
    (a.union a).inside p = a.inside p := by
  refine ⟨Bool.eq_iff_iff.2 ?_, Bool.eq_iff_iff.2 ?_, Bool.eq_iff_iff.2 ?_⟩ <;>
    rw [Bbox.insideF_iff, Bbox.insideF_iff] <;> refine forall_congr' fun i => ?_
  · rw [(Bbox.unionF a b i).1, (Bbox.unionF a b i).2, (Bbox.unionF b a i).1, (Bbox.unionF b a i).2, imin_fle, imin_fle, fle_imax,
      fle_imax]
    tauto
  · rw [(Bbox.unionF _ c i).1, (Bbox.unionF _ c i).2, (Bbox.unionF a b i).1, (Bbox.unionF a b i).2, (Bbox.unionF a _ i).1,
      (Bbox.unionF a _ i).2, (Bbox.unionF b c i).1, (Bbox.unionF b c i).2]
    simp only [imin_fle, fle_imax]
    tauto
  · rw [(Bbox.unionF a a i).1, (Bbox.unionF a a i).2, imin_fle, fle_imax]
    tauto

/-- C45: `union` of two non-empty boxes is the least box containing both. -/
theorem C45_least (a b c : Bbox (Flt mw ew)) (pa pb : Point (Flt mw ew) 3) (ha : a.inside pa = true) (hb : b.inside pb = true)
    (hac : ∀ p, a.inside p = true → c.inside p = true) (hbc : ∀ p, b.inside p = true → c.inside p = true)
    (p : Point (Flt mw ew) 3) (hp : (a.union b).inside p = true) : c.inside p = true := by
  have corner : ∀ (d : Bbox (Flt mw ew)) (q : Point (Flt mw ew) 3), d.inside q = true →
      d.inside d.pmin = true ∧ d.inside d.pmax = true := by
    intro d q h
    simp only [Bbox.insideF_iff] at *
    have hd : ∀ i, FLe (d.pmin.vec i) (d.pmax.vec i) := fun i => (h i).1.trans (h i).2
    exact ⟨fun i => ⟨.refl (hd i).1, hd i⟩, fun i => ⟨hd i, .refl (hd i).2.1⟩⟩
  obtain ⟨a1, a2⟩ := corner a pa ha
  obtain ⟨b1, b2⟩ := corner b pb hb
  have c1 := hac _ a1
  have c2 := hac _ a2
  have c3 := hbc _ b1
  have c4 := hbc _ b2
  rw [Bbox.insideF_iff] at *
  intro i
  have h := hp i
  rw [(Bbox.unionF a b i).1, (Bbox.unionF a b i).2, imin_fle, fle_imax] at h
  exact ⟨h.1.elim (c1 i).1.trans (c3 i).1.trans, h.2.elim (·.trans (c2 i).2) (·.trans (c4 i).2)⟩

/-- C45: `+` is `union`. -/
theorem C45_add (a b : Bbox (Flt mw ew)) (p : Point (Flt mw ew) 3) (h : a.inside p = true ∨ b.inside p = true) :
    (a + b).inside p = true := C45_contains a b p h

/-! ### C46 -/

/-- C46: a point is in the intersection exactly when it is in both boxes. -/
theorem C46_intersect (a b : Bbox (Flt mw ew)) (ha : a.NoNaN) (hb : b.NoNaN) (p : Point (Flt mw ew) 3) :
    (a.intersect b).inside p = true ↔ a.inside p = true ∧ b.inside p = true := by
  simp only [Bbox.insideF_iff]
  rw [← forall_and]
  refine forall_congr' fun i => ?_
  rw [(Bbox.intersectF a b i).1, (Bbox.intersectF a b i).2, imax_fle (ha.1 i) (hb.1 i), fle_imin (ha.2 i) (hb.2 i)]
  tauto

/-! ### C47 -/

/-- C47: `overlaps` is symmetric. -/
theorem C47_symm (a b : Bbox (Flt mw ew)) : a.overlaps b = b.overlaps a := by
  unfold Bbox.overlaps
  cases Scalar.gt a.xmax b.xmin <;> cases Scalar.gt b.xmax a.xmin <;> cases Scalar.gt a.ymax b.ymin <;>
    cases Scalar.gt b.ymax a.ymin <;> cases Scalar.gt a.zmax b.zmin <;> cases Scalar.gt b.zmax a.zmin <;> rfl

theorem overlaps_iff {a b : Bbox (Flt mw ew)} (ha : a.NoNaN) (hb : b.NoNaN) :
    a.overlaps b = true ↔ ∀ i, (b.pmin.vec i).val < (a.pmax.vec i).val ∧ (a.pmin.vec i).val < (b.pmax.vec i).val := by
  unfold Bbox.overlaps
  simp only [Bool.and_eq_true, sgt_iff]
  have h : ∀ i, ((a.pmax.vec i).isNaN = false ∧ (b.pmin.vec i).isNaN = false ∧ (b.pmin.vec i).key < (a.pmax.vec i).key ↔
      (b.pmin.vec i).val < (a.pmax.vec i).val) ∧ ((b.pmax.vec i).isNaN = false ∧ (a.pmin.vec i).isNaN = false ∧
      (a.pmin.vec i).key < (b.pmax.vec i).key ↔ (a.pmin.vec i).val < (b.pmax.vec i).val) := by
    intro i
    rw [val_lt_iff (hb.1 i) (ha.2 i), val_lt_iff (ha.1 i) (hb.2 i)]
    simp [ha.1 i, ha.2 i, hb.1 i, hb.2 i]
  rw [Fin.forall_fin_succ, Fin.forall_fin_succ, Fin.forall_fin_one]
  rw [← (h 0).1, ← (h 0).2]
  change _ ↔ _ ∧ ((b.pmin.vec 1).val < (a.pmax.vec 1).val ∧ (a.pmin.vec 1).val < (b.pmax.vec 1).val) ∧
    ((b.pmin.vec 2).val < (a.pmax.vec 2).val ∧ (a.pmin.vec 2).val < (b.pmax.vec 2).val)
  rw [← (h 1).1, ← (h 1).2, ← (h 2).1, ← (h 2).2]
  change (((((((a.pmax.vec 0).isNaN = false ∧ _) ∧ ((b.pmax.vec 0).isNaN = false ∧ _)) ∧ ((a.pmax.vec 1).isNaN = false ∧ _)) ∧
    ((b.pmax.vec 1).isNaN = false ∧ _)) ∧ ((a.pmax.vec 2).isNaN = false ∧ _)) ∧ ((b.pmax.vec 2).isNaN = false ∧ _)) ↔ _
  tauto

/-- C47: for solid boxes `overlaps` says exactly that some real point lies strictly inside both. -/
theorem C47_overlaps (a b : Bbox (Flt mw ew)) (ha : a.NoNaN) (hb : b.NoNaN) (sa : a.Solid) (sb : b.Solid) :
    a.overlaps b = true ↔ (a.interior ∩ b.interior).Nonempty := by
  rw [overlaps_iff ha hb]
  constructor
  · intro h
    have : ∀ i, ∃ x : ℝ, max (a.pmin.vec i).val (b.pmin.vec i).val < (x : EReal) ∧
        (x : EReal) < min (a.pmax.vec i).val (b.pmax.vec i).val := fun i =>
      EReal.lt_iff_exists_real_btwn.1 (max_lt (lt_min (sa i) (h i).2) (lt_min (h i).1 (sb i)))
    choose x hx using this
    exact ⟨x, fun i => ⟨(le_max_left _ _).trans_lt (hx i).1, (hx i).2.trans_le (min_le_left _ _)⟩,
      fun i => ⟨(le_max_right _ _).trans_lt (hx i).1, (hx i).2.trans_le (min_le_right _ _)⟩⟩
  · rintro ⟨x, h1, h2⟩ i
    exact ⟨(h2 i).1.trans (h1 i).2, (h1 i).1.trans (h2 i).2⟩

/-- C47: overlapping ordered boxes have a common float point. -/
theorem C47_common (a b : Bbox (Flt mw ew)) (ha : a.NoNaN) (hb : b.NoNaN) (oa : a.Ordered) (ob : b.Ordered)
    (h : a.overlaps b = true) : ∃ p, a.inside p = true ∧ b.inside p = true := by
  rw [overlaps_iff ha hb] at h
  refine ⟨⟨fun i => imax (a.pmin.vec i) (b.pmin.vec i)⟩, ?_⟩
  simp only [Bbox.insideF_iff]
  rw [← forall_and]
  intro i
  have e1 : FLe (a.pmin.vec i) (b.pmax.vec i) := ⟨ha.1 i, hb.2 i, ((val_lt_iff (ha.1 i) (hb.2 i)).1 (h i).2).le⟩
  have e2 : FLe (b.pmin.vec i) (a.pmax.vec i) := ⟨hb.1 i, ha.2 i, ((val_lt_iff (hb.1 i) (ha.2 i)).1 (h i).1).le⟩
  have e3 : FLe (a.pmin.vec i) (a.pmax.vec i) := ⟨ha.1 i, ha.2 i, (val_le_iff (ha.1 i) (ha.2 i)).1 (oa i)⟩
  have e4 : FLe (b.pmin.vec i) (b.pmax.vec i) := ⟨hb.1 i, hb.2 i, (val_le_iff (hb.1 i) (hb.2 i)).1 (ob i)⟩
  exact ⟨⟨fle_imax.2 (Or.inl (.refl (ha.1 i))), (imax_fle (ha.1 i) (hb.1 i)).2 ⟨e3, e2⟩⟩,
    ⟨fle_imax.2 (Or.inr (.refl (hb.1 i))), (imax_fle (ha.1 i) (hb.1 i)).2 ⟨e1, e4⟩⟩⟩

/-- The unit cube. -/
def exBox : Bbox F32 := ⟨new3 (F32.lit 0) (F32.lit 0) (F32.lit 0), new3 (F32.lit 1) (F32.lit 1) (F32.lit 1)⟩
/-- A box that touches the unit cube in a face. -/
def exBoxTouch : Bbox F32 := ⟨new3 (F32.lit 1) (F32.lit 0) (F32.lit 0), new3 (F32.lit 2) (F32.lit 1) (F32.lit 1)⟩
/-- A box that overlaps the unit cube. -/
def exBoxOver : Bbox F32 := ⟨new3 (-F32.lit 1) (-F32.lit 1) (-F32.lit 1), new3 (F32.lit 2) (F32.lit 2) (F32.lit 3)⟩

theorem exBox_ok : (exBox.NoNaN ∧ exBox.Solid ∧ exBox.Ordered) ∧ (exBoxTouch.NoNaN ∧ exBoxTouch.Solid) ∧
    (exBoxOver.NoNaN ∧ exBoxOver.Solid ∧ exBoxOver.Ordered) := by
  have n1 : exBox.NoNaN := ⟨by unfold GVec.NoNaN; decide +kernel, by unfold GVec.NoNaN; decide +kernel⟩
  have n2 : exBoxTouch.NoNaN := ⟨by unfold GVec.NoNaN; decide +kernel, by unfold GVec.NoNaN; decide +kernel⟩
  have n3 : exBoxOver.NoNaN := ⟨by unfold GVec.NoNaN; decide +kernel, by unfold GVec.NoNaN; decide +kernel⟩
  have k1 : ∀ i, (exBox.pmin.vec i).key < (exBox.pmax.vec i).key := by decide +kernel
  have k2 : ∀ i, (exBoxTouch.pmin.vec i).key < (exBoxTouch.pmax.vec i).key := by decide +kernel
  have k3 : ∀ i, (exBoxOver.pmin.vec i).key < (exBoxOver.pmax.vec i).key := by decide +kernel
  exact ⟨⟨n1, fun i => (val_lt_iff (n1.1 i) (n1.2 i)).2 (k1 i), fun i => (val_le_iff (n1.1 i) (n1.2 i)).2 (k1 i).le⟩,
    ⟨n2, fun i => (val_lt_iff (n2.1 i) (n2.2 i)).2 (k2 i)⟩,
    ⟨n3, fun i => (val_lt_iff (n3.1 i) (n3.2 i)).2 (k3 i), fun i => (val_le_iff (n3.1 i) (n3.2 i)).2 (k3 i).le⟩⟩

/-- The hypotheses of C46 and C47 are met, and both answers occur. -/
example : exBox.overlaps exBoxOver = true ∧ exBox.overlaps exBoxTouch = false := by decide +kernel

/-! ### C48 -/

/-- C48: the default box is empty. -/
theorem C48_empty (p : Point (Flt mw ew) 3) : (Bbox.default : Bbox (Flt mw ew)).inside p = false := by
  rw [Bool.eq_false_iff, ne_eq, Bbox.insideF_iff]
  intro h
  have h1 := (h 0).1.2.2
  have h2 := (h 0).2.2.2
  change (maxFin mw ew false).key ≤ _ at h1
  change _ ≤ (maxFin mw ew true).key at h2
  rw [key_maxFin] at h1 h2
  have := kInf_pos (mw := mw) (ew := ew)
  simp only [Bool.false_eq_true, if_false, if_true] at h1 h2
  omega

/-- C48: the default box is neutral for `union` with boxes with finite bounds, on both sides and bit for bit. -/
theorem C48_neutral (b : Bbox (Flt mw ew)) (h1 : b.pmin.Fin) (h2 : b.pmax.Fin) :
    Bbox.default.union b = b ∧ b.union Bbox.default = b := by
  have hlo : ∀ x : Flt mw ew, x.isFin = true → imin (maxFin mw ew false) x = x ∧ imin x (maxFin mw ew false) = x := by
    intro x hx
    have hk := isFin_iff_key.1 hx
    have hm := key_maxFin (mw := mw) (ew := ew) false
    have nm := notNaN_of_isFin (isFin_maxFin (mw := mw) (ew := ew) false)
    simp only [Bool.false_eq_true, if_false] at hm
    have big : x.key ≤ (maxFin mw ew false).key := by omega
    have eqv : (maxFin mw ew false).key = x.key → maxFin mw ew false = x := fun e => by
      have hp := kInf_pos (mw := mw) (ew := ew)
      exact eq_of_key_eq e (by omega)
    constructor
    · rcases imin_cases (maxFin mw ew false) x with ⟨h, e⟩ | ⟨h, e⟩ | ⟨_, _, h, e⟩ | ⟨_, _, h, e⟩
      · exact e
      · rw [notNaN_of_isFin hx] at h; cases h
      · omega
      · exact e
    · rcases imin_cases x (maxFin mw ew false) with ⟨h, e⟩ | ⟨h, e⟩ | ⟨_, _, h, e⟩ | ⟨_, _, h, e⟩
      · rw [notNaN_of_isFin hx] at h; cases h
      · exact e
      · exact e
      · rw [e]; exact eqv (by omega)
  have hhi : ∀ x : Flt mw ew, x.isFin = true → imax (maxFin mw ew true) x = x ∧ imax x (maxFin mw ew true) = x := by
    intro x hx
    have hk := isFin_iff_key.1 hx
    have hm := key_maxFin (mw := mw) (ew := ew) true
    simp only [if_true] at hm
    have big : (maxFin mw ew true).key ≤ x.key := by omega
    have nm := notNaN_of_isFin (isFin_maxFin (mw := mw) (ew := ew) true)
    have eqv : (maxFin mw ew true).key = x.key → maxFin mw ew true = x := fun e => by
      have hp := kInf_pos (mw := mw) (ew := ew)
      exact eq_of_key_eq e (by omega)
    constructor
    · rcases imax_cases (maxFin mw ew true) x with ⟨h, e⟩ | ⟨h, e⟩ | ⟨_, _, h, e⟩ | ⟨_, _, h, e⟩
      · exact e
      · rw [notNaN_of_isFin hx] at h; cases h
      · omega
      · exact e
    · rcases imax_cases x (maxFin mw ew true) with ⟨h, e⟩ | ⟨h, e⟩ | ⟨_, _, h, e⟩ | ⟨_, _, h, e⟩
      · rw [notNaN_of_isFin hx] at h; cases h
      · exact e
      · exact e
      · rw [e]; exact eqv (by omega)
  constructor
  · refine Bbox.ext (ext3 ?_ ?_ ?_) (ext3 ?_ ?_ ?_)
    exacts [(hlo _ (h1 0)).1, (hlo _ (h1 1)).1, (hlo _ (h1 2)).1, (hhi _ (h2 0)).1, (hhi _ (h2 1)).1, (hhi _ (h2 2)).1]
  · refine Bbox.ext (ext3 ?_ ?_ ?_) (ext3 ?_ ?_ ?_)
    exacts [(hlo _ (h1 0)).2, (hlo _ (h1 1)).2, (hlo _ (h1 2)).2, (hhi _ (h2 0)).2, (hhi _ (h2 1)).2, (hhi _ (h2 2)).2]

example : exBoxOver.pmin.Fin ∧ exBoxOver.pmax.Fin := by unfold GVec.Fin; decide +kernel

end Scarlet
