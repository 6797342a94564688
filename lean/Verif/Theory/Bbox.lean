import Verif.Model.Bbox
import Verif.Theory.Interval
import Verif.Theory.Trig
import Verif.Theory.Mat

/-! Facts about `f32::min`/`max` (NaN-ignoring) and boxes. -/

set_option linter.unusedSectionVars false

namespace Scarlet
open Flt GVec

namespace Flt
variable {mw ew : Nat}

/-- `x <= y` on floats. -/
def FLe (x y : Flt mw ew) : Prop := x.isNaN = false ∧ y.isNaN = false ∧ x.key ≤ y.key

theorem FLe.trans {x y z : Flt mw ew} (h : FLe x y) (h' : FLe y z) : FLe x z := ⟨h.1, h'.2.1, h.2.2.trans h'.2.2⟩
theorem FLe.refl {x : Flt mw ew} (h : x.isNaN = false) : FLe x x := ⟨h, h, le_rfl⟩

theorem eq_of_key_eq {x y : Flt mw ew} (h : x.key = y.key) (h0 : x.key ≠ 0) : x = y := by
  have hi : x.idx = y.idx := by rw [← key_natAbs, ← key_natAbs, h]
  rcases lt_or_gt_of_ne h0 with h1 | h1
  · exact ext_sgn_idx (by rw [sgn_of_key_neg h1, sgn_of_key_neg (h ▸ h1)]) hi
  · exact ext_sgn_idx (by rw [sgn_of_key_pos h1, sgn_of_key_pos (h ▸ h1)]) hi

theorem imin_cases (x y : Flt mw ew) :
    (x.isNaN = true ∧ imin x y = y) ∨ (y.isNaN = true ∧ imin x y = x) ∨
    (x.isNaN = false ∧ y.isNaN = false ∧ x.key < y.key ∧ imin x y = x) ∨
    (x.isNaN = false ∧ y.isNaN = false ∧ y.key ≤ x.key ∧ imin x y = y) := by
  unfold imin
  cases hx : x.isNaN
  · cases hy : y.isNaN
    · by_cases h : x.key < y.key
      · exact Or.inr (Or.inr (Or.inl ⟨rfl, rfl, h, by simp [lt_iff.2 ⟨hx, hy, h⟩]⟩))
      · refine Or.inr (Or.inr (Or.inr ⟨rfl, rfl, not_lt.1 h, ?_⟩))
        have : ¬ x.lt y = true := fun h' => h (lt_iff.1 h').2.2
        simp [this]
    · simp
  · simp

theorem imax_cases (x y : Flt mw ew) :
    (x.isNaN = true ∧ imax x y = y) ∨ (y.isNaN = true ∧ imax x y = x) ∨
    (x.isNaN = false ∧ y.isNaN = false ∧ y.key < x.key ∧ imax x y = x) ∨
    (x.isNaN = false ∧ y.isNaN = false ∧ x.key ≤ y.key ∧ imax x y = y) := by
  unfold imax
  cases hx : x.isNaN
  · cases hy : y.isNaN
    · by_cases h : y.key < x.key
      · exact Or.inr (Or.inr (Or.inl ⟨rfl, rfl, h, by simp [lt_iff.2 ⟨hy, hx, h⟩]⟩))
      · refine Or.inr (Or.inr (Or.inr ⟨rfl, rfl, not_lt.1 h, ?_⟩))
        have : ¬ y.lt x = true := fun h' => h (lt_iff.1 h').2.2
        simp [this]
    · simp
  · simp

theorem imin_fle {x y z : Flt mw ew} : FLe (imin x y) z ↔ FLe x z ∨ FLe y z := by
  unfold FLe
  rcases imin_cases x y with ⟨h, e⟩ | ⟨h, e⟩ | ⟨h1, h2, h3, e⟩ | ⟨h1, h2, h3, e⟩ <;> rw [e]
  · simp [h]
  · simp [h]
  · rw [h1, h2]; refine ⟨fun h => Or.inl h, ?_⟩; rintro (h | h); exact h; exact ⟨h.1, h.2.1, by omega⟩
  · rw [h1, h2]; refine ⟨fun h => Or.inr h, ?_⟩; rintro (h | h); exact ⟨h.1, h.2.1, by omega⟩; exact h

theorem fle_imax {x y z : Flt mw ew} : FLe z (imax x y) ↔ FLe z x ∨ FLe z y := by
  unfold FLe
  rcases imax_cases x y with ⟨h, e⟩ | ⟨h, e⟩ | ⟨h1, h2, h3, e⟩ | ⟨h1, h2, h3, e⟩ <;> rw [e]
  · simp [h]
  · simp [h]
  · rw [h1, h2]; refine ⟨fun h => Or.inl h, ?_⟩; rintro (h | h); exact h; exact ⟨h.1, h.2.1, by omega⟩
  · rw [h1, h2]; refine ⟨fun h => Or.inr h, ?_⟩; rintro (h | h); exact ⟨h.1, h.2.1, by omega⟩; exact h

theorem fle_imin {x y z : Flt mw ew} (hx : x.isNaN = false) (hy : y.isNaN = false) :
    FLe z (imin x y) ↔ FLe z x ∧ FLe z y := by
  unfold FLe
  rcases imin_cases x y with ⟨h, e⟩ | ⟨h, e⟩ | ⟨h1, h2, h3, e⟩ | ⟨h1, h2, h3, e⟩
  · rw [hx] at h; cases h
  · rw [hy] at h; cases h
  · rw [e, hx, hy]; refine ⟨fun h => ⟨h, h.1, h.2.1, by omega⟩, fun h => h.1⟩
  · rw [e, hx, hy]; refine ⟨fun h => ⟨⟨h.1, h.2.1, by omega⟩, h⟩, fun h => h.2⟩

theorem imax_fle {x y z : Flt mw ew} (hx : x.isNaN = false) (hy : y.isNaN = false) :
    FLe (imax x y) z ↔ FLe x z ∧ FLe y z := by
  unfold FLe
  rcases imax_cases x y with ⟨h, e⟩ | ⟨h, e⟩ | ⟨h1, h2, h3, e⟩ | ⟨h1, h2, h3, e⟩
  · rw [hx] at h; cases h
  · rw [hy] at h; cases h
  · rw [e, hx, hy]; refine ⟨fun h => ⟨h, h.1, h.2.1, by omega⟩, fun h => h.1⟩
  · rw [e, hx, hy]; refine ⟨fun h => ⟨⟨h.1, h.2.1, by omega⟩, h⟩, fun h => h.2⟩

theorem imin_key {x y : Flt mw ew} (hx : x.isNaN = false) (hy : y.isNaN = false) :
    (imin x y).isNaN = false ∧ (imin x y).key = min x.key y.key := by
  rcases imin_cases x y with ⟨h, e⟩ | ⟨h, e⟩ | ⟨h1, h2, h3, e⟩ | ⟨h1, h2, h3, e⟩
  · rw [hx] at h; cases h
  · rw [hy] at h; cases h
  · rw [e]; exact ⟨h1, by omega⟩
  · rw [e]; exact ⟨h2, by omega⟩

theorem imax_key {x y : Flt mw ew} (hx : x.isNaN = false) (hy : y.isNaN = false) :
    (imax x y).isNaN = false ∧ (imax x y).key = max x.key y.key := by
  rcases imax_cases x y with ⟨h, e⟩ | ⟨h, e⟩ | ⟨h1, h2, h3, e⟩ | ⟨h1, h2, h3, e⟩
  · rw [hx] at h; cases h
  · rw [hy] at h; cases h
  · rw [e]; exact ⟨h1, by omega⟩
  · rw [e]; exact ⟨h2, by omega⟩

end Flt

namespace Bbox
variable {mw ew : Nat}

theorem insideF_iff {b : Bbox (Flt mw ew)} {p : Point (Flt mw ew) 3} :
    b.inside p = true ↔ ∀ i, FLe (b.pmin.vec i) (p.vec i) ∧ FLe (p.vec i) (b.pmax.vec i) := by
  unfold inside FLe
  simp only [Bool.and_eq_true, sge_iff, sle_iff, Fin.forall_fin_succ, IsEmpty.forall_iff, and_true]
  change (((((((p.vec 0).isNaN = false ∧ (b.pmin.vec 0).isNaN = false ∧ _) ∧ (_ ∧ (b.pmax.vec 0).isNaN = false ∧ _)) ∧
    ((p.vec 1).isNaN = false ∧ (b.pmin.vec 1).isNaN = false ∧ _)) ∧ (_ ∧ (b.pmax.vec 1).isNaN = false ∧ _)) ∧
    ((p.vec 2).isNaN = false ∧ (b.pmin.vec 2).isNaN = false ∧ _)) ∧ (_ ∧ (b.pmax.vec 2).isNaN = false ∧ _)) ↔
    ((((b.pmin.vec 0).isNaN = false ∧ (p.vec 0).isNaN = false ∧ _) ∧ (_ ∧ (b.pmax.vec 0).isNaN = false ∧ _)) ∧
    (((b.pmin.vec 1).isNaN = false ∧ (p.vec 1).isNaN = false ∧ _) ∧ (_ ∧ (b.pmax.vec 1).isNaN = false ∧ _)) ∧
    (((b.pmin.vec 2).isNaN = false ∧ (p.vec 2).isNaN = false ∧ _) ∧ (_ ∧ (b.pmax.vec 2).isNaN = false ∧ _)))
  tauto

theorem newF (p q : Point (Flt mw ew) 3) (i : Fin 3) :
    (Bbox.new p q).pmin.vec i = imin (p.vec i) (q.vec i) ∧ (Bbox.new p q).pmax.vec i = imax (p.vec i) (q.vec i) := by
  fin_cases i <;> exact ⟨rfl, rfl⟩
theorem unionF (a b : Bbox (Flt mw ew)) (i : Fin 3) :
    (a.union b).pmin.vec i = imin (a.pmin.vec i) (b.pmin.vec i) ∧ (a.union b).pmax.vec i = imax (a.pmax.vec i) (b.pmax.vec i) := by
  fin_cases i <;> exact ⟨rfl, rfl⟩
theorem intersectF (a b : Bbox (Flt mw ew)) (i : Fin 3) :
    (a.intersect b).pmin.vec i = imax (a.pmin.vec i) (b.pmin.vec i) ∧ (a.intersect b).pmax.vec i = imin (a.pmax.vec i) (b.pmax.vec i) := by
  fin_cases i <;> exact ⟨rfl, rfl⟩

end Bbox
end Scarlet
