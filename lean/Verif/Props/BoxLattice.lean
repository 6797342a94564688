import Verif.Spec.Bbox
import Verif.Theory.Bbox
import Verif.Props.Bbox1
import Mathlib.Tactic.Tauto

/-!
C148: boxes of floats are a distributive lattice, inverted (empty) boxes included, and `overlaps` and `inside` fit it.

Bounds are compared as numbers (`val`, so -0 and +0 are the same bound); the hypotheses only exclude NaN bounds.
-/

set_option linter.unusedSectionVars false

namespace Scarlet
open Flt GVec

variable {mw ew : Nat} [Fmt mw ew]

namespace Bbox
/-- Specification: the same bounds, as numbers. -/
def SameBounds (a b : Bbox (Flt mw ew)) : Prop :=
  a.NoNaN ∧ b.NoNaN ∧ ∀ i, (a.pmin.vec i).val = (b.pmin.vec i).val ∧ (a.pmax.vec i).val = (b.pmax.vec i).val
/-- Specification: every bound of `a` is within the corresponding bound of `b`. -/
def Within (a b : Bbox (Flt mw ew)) : Prop :=
  ∀ i, (b.pmin.vec i).val ≤ (a.pmin.vec i).val ∧ (a.pmax.vec i).val ≤ (b.pmax.vec i).val

theorem union_noNaN {a b : Bbox (Flt mw ew)} (ha : a.NoNaN) (hb : b.NoNaN) : (a.union b).NoNaN :=
  ⟨fun i => by rw [(unionF a b i).1]; exact (imin_key (ha.1 i) (hb.1 i)).1,
   fun i => by rw [(unionF a b i).2]; exact (imax_key (ha.2 i) (hb.2 i)).1⟩
theorem intersect_noNaN {a b : Bbox (Flt mw ew)} (ha : a.NoNaN) (hb : b.NoNaN) : (a.intersect b).NoNaN :=
  ⟨fun i => by rw [(intersectF a b i).1]; exact (imax_key (ha.1 i) (hb.1 i)).1,
   fun i => by rw [(intersectF a b i).2]; exact (imin_key (ha.2 i) (hb.2 i)).1⟩

theorem union_key {a b : Bbox (Flt mw ew)} (ha : a.NoNaN) (hb : b.NoNaN) (i : _root_.Fin 3) :
    ((a.union b).pmin.vec i).key = Min.min (a.pmin.vec i).key (b.pmin.vec i).key ∧
    ((a.union b).pmax.vec i).key = Max.max (a.pmax.vec i).key (b.pmax.vec i).key := by
  rw [(unionF a b i).1, (unionF a b i).2]
  exact ⟨(imin_key (ha.1 i) (hb.1 i)).2, (imax_key (ha.2 i) (hb.2 i)).2⟩
theorem intersect_key {a b : Bbox (Flt mw ew)} (ha : a.NoNaN) (hb : b.NoNaN) (i : _root_.Fin 3) :
    ((a.intersect b).pmin.vec i).key = Max.max (a.pmin.vec i).key (b.pmin.vec i).key ∧
    ((a.intersect b).pmax.vec i).key = Min.min (a.pmax.vec i).key (b.pmax.vec i).key := by
  rw [(intersectF a b i).1, (intersectF a b i).2]
  exact ⟨(imax_key (ha.1 i) (hb.1 i)).2, (imin_key (ha.2 i) (hb.2 i)).2⟩

theorem same_iff {a b : Bbox (Flt mw ew)} (ha : a.NoNaN) (hb : b.NoNaN) :
    SameBounds a b ↔ ∀ i, (a.pmin.vec i).key = (b.pmin.vec i).key ∧ (a.pmax.vec i).key = (b.pmax.vec i).key := by
  constructor
  · rintro ⟨-, -, h⟩ i
    exact ⟨(val_eq_iff (ha.1 i) (hb.1 i)).1 (h i).1, (val_eq_iff (ha.2 i) (hb.2 i)).1 (h i).2⟩
  · exact fun h => ⟨ha, hb, fun i => ⟨(val_eq_iff (ha.1 i) (hb.1 i)).2 (h i).1, (val_eq_iff (ha.2 i) (hb.2 i)).2 (h i).2⟩⟩
theorem within_iff {a b : Bbox (Flt mw ew)} (ha : a.NoNaN) (hb : b.NoNaN) :
    Within a b ↔ ∀ i, (b.pmin.vec i).key ≤ (a.pmin.vec i).key ∧ (a.pmax.vec i).key ≤ (b.pmax.vec i).key :=
  forall_congr' fun i => by rw [val_le_iff (hb.1 i) (ha.1 i), val_le_iff (ha.2 i) (hb.2 i)]
end Bbox
open Bbox

/-- C148: `union` and `intersect` are commutative, associative and idempotent as bounds (C45 says so for the points of the
union), also on empty boxes. -/
theorem C148_semilattices (a b c : Bbox (Flt mw ew)) (ha : a.NoNaN) (hb : b.NoNaN) (hc : c.NoNaN) :
    SameBounds (a.union b) (b.union a) ∧ SameBounds (a.intersect b) (b.intersect a) ∧
    SameBounds ((a.union b).union c) (a.union (b.union c)) ∧
    SameBounds ((a.intersect b).intersect c) (a.intersect (b.intersect c)) ∧
    SameBounds (a.union a) a ∧ SameBounds (a.intersect a) a := by
  have uab := union_noNaN ha hb
  have uba := union_noNaN hb ha
  have ubc := union_noNaN hb hc
  have iab := intersect_noNaN ha hb
  have iba := intersect_noNaN hb ha
  have ibc := intersect_noNaN hb hc
  refine ⟨(same_iff uab uba).2 fun i => ?_, (same_iff iab iba).2 fun i => ?_,
    (same_iff (union_noNaN uab hc) (union_noNaN ha ubc)).2 fun i => ?_,
    (same_iff (intersect_noNaN iab hc) (intersect_noNaN ha ibc)).2 fun i => ?_,
    (same_iff (union_noNaN ha ha) ha).2 fun i => ?_, (same_iff (intersect_noNaN ha ha) ha).2 fun i => ?_⟩
  · have h1 := union_key ha hb i; have h2 := union_key hb ha i; omega
  · have h1 := intersect_key ha hb i; have h2 := intersect_key hb ha i; omega
  · have h1 := union_key uab hc i; have h2 := union_key ha ubc i; have h3 := union_key ha hb i
    have h4 := union_key hb hc i; omega
  · have h1 := intersect_key iab hc i; have h2 := intersect_key ha ibc i; have h3 := intersect_key ha hb i
    have h4 := intersect_key hb hc i; omega
  · have h1 := union_key ha ha i; omega
  · have h1 := intersect_key ha ha i; omega

/-- C148: the absorption laws. -/
theorem C148_absorption (a b : Bbox (Flt mw ew)) (ha : a.NoNaN) (hb : b.NoNaN) :
    SameBounds (a.union (a.intersect b)) a ∧ SameBounds (a.intersect (a.union b)) a := by
  have u := union_noNaN ha hb
  have n := intersect_noNaN ha hb
  refine ⟨(same_iff (union_noNaN ha n) ha).2 fun i => ?_, (same_iff (intersect_noNaN ha u) ha).2 fun i => ?_⟩
  · have h1 := union_key ha n i; have h2 := intersect_key ha hb i; omega
  · have h1 := intersect_key ha u i; have h2 := union_key ha hb i; omega

/-- C148: the distributive laws. -/
theorem C148_distributive (a b c : Bbox (Flt mw ew)) (ha : a.NoNaN) (hb : b.NoNaN) (hc : c.NoNaN) :
    SameBounds (a.intersect (b.union c)) ((a.intersect b).union (a.intersect c)) ∧
    SameBounds (a.union (b.intersect c)) ((a.union b).intersect (a.union c)) := by
  have u := union_noNaN hb hc
  have n := intersect_noNaN hb hc
  have u1 := union_noNaN ha hb
  have u2 := union_noNaN ha hc
  have n1 := intersect_noNaN ha hb
  have n2 := intersect_noNaN ha hc
  refine ⟨(same_iff (intersect_noNaN ha u) (union_noNaN n1 n2)).2 fun i => ?_,
    (same_iff (union_noNaN ha n) (intersect_noNaN u1 u2)).2 fun i => ?_⟩
  · have h1 := intersect_key ha u i; have h2 := union_key hb hc i; have h3 := union_key n1 n2 i
    have h4 := intersect_key ha hb i; have h5 := intersect_key ha hc i
    constructor <;> omega
  · have h1 := union_key ha n i; have h2 := intersect_key hb hc i; have h3 := intersect_key u1 u2 i
    have h4 := union_key ha hb i; have h5 := union_key ha hc i
    constructor <;> omega

/-- C148: "`a` within `b`" is `a ∪ b = b` is `a ∩ b = a`. -/
theorem C148_order (a b : Bbox (Flt mw ew)) (ha : a.NoNaN) (hb : b.NoNaN) :
    (Within a b ↔ SameBounds (a.union b) b) ∧ (Within a b ↔ SameBounds (a.intersect b) a) := by
  rw [same_iff (union_noNaN ha hb) hb, same_iff (intersect_noNaN ha hb) ha, within_iff ha hb]
  refine ⟨forall_congr' fun i => ?_, forall_congr' fun i => ?_⟩
  · have h1 := union_key ha hb i; constructor <;> intro h <;> omega
  · have h1 := intersect_key ha hb i; constructor <;> intro h <;> omega

/-- C148: for a box with a point, "within" says exactly that all its float points are points of `b`. -/
theorem C148_within (a b : Bbox (Flt mw ew)) (hb : b.NoNaN) (p : Point (Flt mw ew) 3) (hp : a.inside p = true) :
    Within a b ↔ ∀ q, a.inside q = true → b.inside q = true := by
  have ha := (C44_inside_nan a p hp).1
  rw [within_iff ha hb]
  simp only [insideF_iff]
  rw [insideF_iff] at hp
  have hd : ∀ i, FLe (a.pmin.vec i) (a.pmax.vec i) := fun i => (hp i).1.trans (hp i).2
  constructor
  · intro h q hq i
    exact ⟨FLe.trans ⟨hb.1 i, ha.1 i, (h i).1⟩ (hq i).1, (hq i).2.trans ⟨ha.2 i, hb.2 i, (h i).2⟩⟩
  · intro h i
    exact ⟨(h a.pmin (fun j => ⟨.refl (hd j).1, hd j⟩) i).1.2.2, (h a.pmax (fun j => ⟨hd j, .refl (hd j).2.1⟩) i).2.2.2⟩

/-- C148: `union` and `intersect` respect containment in both arguments. -/
theorem C148_monotone (a a' b b' : Bbox (Flt mw ew)) (ha : a.NoNaN) (ha' : a'.NoNaN) (hb : b.NoNaN) (hb' : b'.NoNaN)
    (h : Within a a') (h' : Within b b') : Within (a.union b) (a'.union b') ∧ Within (a.intersect b) (a'.intersect b') := by
  rw [within_iff ha ha'] at h
  rw [within_iff hb hb'] at h'
  rw [within_iff (union_noNaN ha hb) (union_noNaN ha' hb'), within_iff (intersect_noNaN ha hb) (intersect_noNaN ha' hb')]
  refine ⟨fun i => ?_, fun i => ?_⟩
  · have h1 := union_key ha hb i; have h2 := union_key ha' hb' i; have := h i; have := h' i; omega
  · have h1 := intersect_key ha hb i; have h2 := intersect_key ha' hb' i; have := h i; have := h' i; omega

/-- C148: `overlaps` respects containment: what overlaps a box overlaps every box around it. -/
theorem C148_overlaps_mono (a a' b : Bbox (Flt mw ew)) (ha : a.NoNaN) (ha' : a'.NoNaN) (hb : b.NoNaN) (h : Within a a')
    (ho : a.overlaps b = true) : a'.overlaps b = true ∧ b.overlaps a' = true := by
  rw [C47_symm b a', and_self]
  rw [overlaps_iff ha hb] at ho
  rw [overlaps_iff ha' hb]
  exact fun i => ⟨(ho i).1.trans_le (h i).2, (h i).1.trans_lt (ho i).2⟩

/-- C148: the intersection is a solid box exactly when both boxes are solid and `overlaps` answers yes. -/
theorem C148_overlaps_intersect (a b : Bbox (Flt mw ew)) (ha : a.NoNaN) (hb : b.NoNaN) :
    (a.intersect b).Solid ↔ a.Solid ∧ b.Solid ∧ a.overlaps b = true := by
  have n := intersect_noNaN ha hb
  rw [overlaps_iff ha hb]
  have k : ∀ i, (((a.intersect b).pmin.vec i).val < ((a.intersect b).pmax.vec i).val ↔
      (a.pmin.vec i).val < (a.pmax.vec i).val ∧ (b.pmin.vec i).val < (b.pmax.vec i).val ∧
      (b.pmin.vec i).val < (a.pmax.vec i).val ∧ (a.pmin.vec i).val < (b.pmax.vec i).val) := by
    intro i
    rw [val_lt_iff (n.1 i) (n.2 i), val_lt_iff (ha.1 i) (ha.2 i), val_lt_iff (hb.1 i) (hb.2 i), val_lt_iff (hb.1 i) (ha.2 i),
      val_lt_iff (ha.1 i) (hb.2 i)]
    have h1 := intersect_key ha hb i
    constructor <;> intro h <;> omega
  unfold Bbox.Solid
  rw [← forall_and, ← forall_and]
  exact forall_congr' k

/-- C148: `overlaps` distributes over the union of the second argument in one direction only: if `a` overlaps `b` or `c`, it
overlaps the union. -/
theorem C148_overlaps_union (a b c : Bbox (Flt mw ew)) (ha : a.NoNaN) (hb : b.NoNaN) (hc : c.NoNaN)
    (h : a.overlaps b = true ∨ a.overlaps c = true) : a.overlaps (b.union c) = true := by
  rw [C47_symm]
  have u := union_noNaN hb hc
  have k1 : Within b (b.union c) := (within_iff hb u).2 fun i => by have := union_key hb hc i; omega
  have k2 : Within c (b.union c) := (within_iff hc u).2 fun i => by have := union_key hb hc i; omega
  rcases h with h | h
  · exact (C148_overlaps_mono b _ a hb u ha k1 (by rw [C47_symm]; exact h)).1
  · exact (C148_overlaps_mono c _ a hc u ha k2 (by rw [C47_symm]; exact h)).1

/-- C148: a point is inside exactly when the box of that point alone is within, or when the union with it changes nothing. -/
theorem C148_point (b : Bbox (Flt mw ew)) (hb : b.NoNaN) (p : Point (Flt mw ew) 3) (hp : p.NoNaN) :
    (b.inside p = true ↔ Within (Bbox.new p p) b) ∧ (b.inside p = true ↔ SameBounds (b.union (Bbox.new p p)) b) := by
  have n : (Bbox.new p p).NoNaN :=
    ⟨fun i => by rw [(newF p p i).1]; exact (imin_key (hp i) (hp i)).1, fun i => by rw [(newF p p i).2]; exact (imax_key (hp i) (hp i)).1⟩
  have kk : ∀ i, ((Bbox.new p p).pmin.vec i).key = (p.vec i).key ∧ ((Bbox.new p p).pmax.vec i).key = (p.vec i).key := by
    intro i
    rw [(newF p p i).1, (newF p p i).2, (imin_key (hp i) (hp i)).2, (imax_key (hp i) (hp i)).2]
    omega
  rw [within_iff n hb, same_iff (union_noNaN hb n) hb, insideF_iff]
  refine ⟨forall_congr' fun i => ?_, forall_congr' fun i => ?_⟩
  · have := kk i
    unfold FLe
    rw [hp i, hb.1 i, hb.2 i]
    constructor
    · rintro ⟨⟨-, -, h⟩, -, -, h'⟩; omega
    · intro h; exact ⟨⟨rfl, rfl, by omega⟩, rfl, rfl, by omega⟩
  · have := kk i
    have h1 := union_key hb n i
    unfold FLe
    rw [hp i, hb.1 i, hb.2 i]
    constructor
    · rintro ⟨⟨-, -, h⟩, -, -, h'⟩; omega
    · intro h; exact ⟨⟨rfl, rfl, by omega⟩, rfl, rfl, by omega⟩

/-- An inverted box: it contains no point. -/
def exBoxInv : Bbox F32 := ⟨new3 (F32.lit 3) (F32.lit 3) (F32.lit 3), new3 (F32.lit 2) (F32.lit 2) (F32.lit 2)⟩
/-- A box around the place of the inverted one. -/
def exBoxBig : Bbox F32 := ⟨new3 (F32.lit 0) (F32.lit 0) (F32.lit 0), new3 (F32.lit 5) (F32.lit 5) (F32.lit 5)⟩

/-- C148: `overlaps` is not to be asked of empty boxes: an inverted box, which has no point, "overlaps" a box around its
bounds (`C148_overlaps_intersect` says what must be checked besides). -/
theorem C148_empty_refuted : (∀ p, exBoxInv.inside p = false) ∧ exBoxInv.overlaps exBoxBig = true ∧
    exBoxBig.overlaps exBoxInv = true := by
  refine ⟨fun p => ?_, by decide +kernel, by decide +kernel⟩
  rw [Bool.eq_false_iff, ne_eq, insideF_iff]
  intro h
  have := ((h 0).1.trans (h 0).2).2.2
  revert this
  decide +kernel

/-- The hypotheses are met: two overlapping cubes and an inverted box; unions and intersections differ from their arguments, and
the distributive law is not degenerate. -/
example : exBox.NoNaN ∧ exBoxOver.NoNaN ∧ exBoxInv.NoNaN ∧ exBox.overlaps exBoxOver = true ∧
    Within exBox exBoxOver ∧ ¬ Within exBoxInv exBox ∧ ¬ SameBounds (exBoxTouch.union exBox) exBox := by
  have n1 := exBox_ok.1.1
  have n2 := exBox_ok.2.1.1
  have n3 := exBox_ok.2.2.1
  have n4 : exBoxInv.NoNaN := ⟨by unfold GVec.NoNaN; decide +kernel, by unfold GVec.NoNaN; decide +kernel⟩
  refine ⟨n1, n3, n4, by decide +kernel, (within_iff n1 n3).2 (by decide +kernel), ?_, ?_⟩
  · rw [within_iff n4 n1]; decide +kernel
  · rw [same_iff (union_noNaN n2 n1) n1]; decide +kernel

end Scarlet
