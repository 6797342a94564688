import Verif.Props.Visibility
import Verif.Props.Transform3
import Mathlib.Analysis.SpecialFunctions.Complex.Arg

/-! C157: bounding boxes are the smallest ones, and for which spheres they are not. -/

set_option linter.unusedSectionVars false

namespace Scarlet
open GVec Matrix

/-! ### Specification -/

/-- `b` contains the points `R`, and every box that does contains `b`. -/
def SmallestBox (R : Point ℝ 3 → Prop) (b : Bbox ℝ) : Prop :=
  (∀ x, R x → b.inside x = true) ∧ ∀ c : Bbox ℝ, (∀ x, R x → c.inside x = true) → ∀ x, b.inside x = true → c.inside x = true

/-- Along no axis can a face of `b` be moved inwards without losing a point of `R`. -/
def Hugs (R : Point ℝ 3 → Prop) (b : Bbox ℝ) : Prop :=
  ∀ i, IsGLB {v | ∃ x, R x ∧ x.vec i = v} (b.pmin.vec i) ∧ IsLUB {v | ∃ x, R x ∧ x.vec i = v} (b.pmax.vec i)

/-- The sphere is cut by its `z` range on both sides of the equator only, the range does not exceed the sphere, and at least the
half `y ≤ 0` and the quarter `x, y ≥ 0` are left by `phi_max`. -/
def Sphere.Fits (s : Sphere ℝ) : Prop :=
  -s.radius ≤ s.zMin ∧ s.zMin ≤ 0 ∧ 0 ≤ s.zMax ∧ s.zMax ≤ s.radius ∧ Real.pi / 2 ≤ s.phiMax

/-- Scenes of boxes, such spheres, lists and transforms that move each axis on its own, with the points they occupy (C141). -/
inductive Axial : Primitive ℝ → (Point ℝ 3 → Prop) → Prop
  | box (b : Bbox ℝ) (hb : b.OrderedR) : Axial b.prim (fun x => b.inside x = true)
  | sphere (s : Sphere ℝ) (hr : 0 < s.radius) (h : s.Fits) : Axial s.prim s.OnSurface
  | moved (p : Primitive ℝ) (R) (t : Transform ℝ) (ht : t.Reachable) (ha : t.m.Affine)
      (hd : ∀ i j : _root_.Fin 3, i ≠ j → t.m.data i.castSucc j.castSucc = 0) (h : Axial p R) :
      Axial (p.transformed t) (fun x => ∃ y, R y ∧ t.mapPoint y = some x)
  | list (l : List (Primitive ℝ × (Point ℝ 3 → Prop))) (hne : l ≠ [])
      (hs : ∀ e ∈ l, ∀ i, e.1.bbox.pmin.vec i ≤ maxR ∧ -maxR ≤ e.1.bbox.pmax.vec i) (h : ∀ e ∈ l, Axial e.1 e.2) :
      Axial (PrimitiveList.prim (l.map (·.1))) (fun x => ∃ e ∈ l, e.2 x)

/-! ### boxes -/

theorem Hugs.smallest {R : Point ℝ 3 → Prop} {b : Bbox ℝ} (h : Hugs R b) : SmallestBox R b := by
  refine ⟨fun x hx => inside_iff.2 fun i => ⟨(h i).1.1 ⟨x, hx, rfl⟩, (h i).2.1 ⟨x, hx, rfl⟩⟩, fun c hc x hx => inside_iff.2 fun i => ?_⟩
  have hx' := inside_iff.1 hx i
  refine ⟨le_trans ((h i).1.2 ?_) hx'.1, le_trans hx'.2 ((h i).2.2 ?_)⟩
  · rintro _ ⟨y, hy, rfl⟩; exact (inside_iff.1 (hc y hy) i).1
  · rintro _ ⟨y, hy, rfl⟩; exact (inside_iff.1 (hc y hy) i).2

theorem SmallestBox.hugs {R : Point ℝ 3 → Prop} {b : Bbox ℝ} (hb : b.OrderedR) (h : SmallestBox R b) : Hugs R b := by
  have hin : ∀ x, R x → ∀ i, b.pmin.vec i ≤ x.vec i ∧ x.vec i ≤ b.pmax.vec i := fun x hx => inside_iff.1 (h.1 x hx)
  intro i
  refine ⟨⟨?_, fun B hB => ?_⟩, ⟨?_, fun B hB => ?_⟩⟩
  · rintro _ ⟨x, hx, rfl⟩; exact (hin x hx i).1
  · have := h.2 ⟨⟨Function.update b.pmin.vec i B⟩, b.pmax⟩ (fun x hx => inside_iff.2 fun j => ⟨?_, (hin x hx j).2⟩) b.pmin
      (inside_iff.2 fun j => ⟨le_rfl, hb j⟩)
    · have := (inside_iff.1 this i).1
      simpa using this
    · by_cases e : j = i
      · subst e; simpa using hB ⟨x, hx, rfl⟩
      · simpa [e] using (hin x hx j).1
  · rintro _ ⟨x, hx, rfl⟩; exact (hin x hx i).2
  · have := h.2 ⟨b.pmin, ⟨Function.update b.pmax.vec i B⟩⟩ (fun x hx => inside_iff.2 fun j => ⟨(hin x hx j).1, ?_⟩) b.pmax
      (inside_iff.2 fun j => ⟨hb j, le_rfl⟩)
    · have := (inside_iff.1 this i).2
      simpa using this
    · by_cases e : j = i
      · subst e; simpa using hB ⟨x, hx, rfl⟩
      · simpa [e] using (hin x hx j).2

theorem box_hugs (b : Bbox ℝ) (hb : b.OrderedR) : Hugs (fun x => b.inside x = true) b :=
  SmallestBox.hugs hb ⟨fun _ h => h, fun _ h x hx => h x hx⟩

/-! ### spheres -/

theorem sphere_bbox (s : Sphere ℝ) (hr : 0 < s.radius) (hz : s.zMin ≤ s.zMax) :
    s.bbox = ⟨new3 (-s.radius) (-s.radius) s.zMin, new3 s.radius s.radius s.zMax⟩ := by
  unfold Sphere.bbox
  have h1 : -s.radius ≤ s.radius := by linarith
  ext i
  · rw [(new_real _ _ i).1]; fin_cases i
    · exact min_eq_left h1
    · exact min_eq_left h1
    · exact min_eq_left hz
  · rw [(new_real _ _ i).2]; fin_cases i
    · exact max_eq_right h1
    · exact max_eq_right h1
    · exact max_eq_right hz

theorem sphere_hugs (s : Sphere ℝ) (hr : 0 < s.radius) (h : s.Fits) : Hugs s.OnSurface s.bbox := by
  obtain ⟨z1, z2, z3, z4, hp⟩ := h
  rw [sphere_bbox s hr (z2.trans z3)]
  have on : ∀ x y z : ℝ, x ^ 2 + y ^ 2 + z ^ 2 = s.radius ^ 2 → s.zMin ≤ z → z ≤ s.zMax → 0 ≤ x ∨ y < 0 →
      s.OnSurface (new3 x y z) := fun x y z h1 h2 h3 h4 =>
    ⟨h1, h2, h3, (Complex.arg_le_pi_div_two_iff.2 h4).trans hp⟩
  have bd : ∀ p, s.OnSurface p → (-s.radius ≤ p.x ∧ p.x ≤ s.radius) ∧ (-s.radius ≤ p.y ∧ p.y ≤ s.radius) := by
    rintro p ⟨h1, -⟩
    exact ⟨_root_.abs_le.1 (abs_le_of_sq_le_sq (by nlinarith [sq_nonneg p.y, sq_nonneg p.z]) hr.le),
      _root_.abs_le.1 (abs_le_of_sq_le_sq (by nlinarith [sq_nonneg p.x, sq_nonneg p.z]) hr.le)⟩
  have ring' : ∀ z : ℝ, s.zMin ≤ z → z ≤ s.zMax → s.OnSurface (new3 0 (-Real.sqrt (s.radius ^ 2 - z ^ 2)) z) := by
    intro z h1 h2
    refine on _ _ _ ?_ h1 h2 (Or.inl le_rfl)
    have : 0 ≤ s.radius ^ 2 - z ^ 2 := by nlinarith
    rw [neg_sq, Real.sq_sqrt this]; ring
  intro i
  fin_cases i
  · refine ⟨⟨?_, fun B hB => ?_⟩, ⟨?_, fun B hB => ?_⟩⟩
    · rintro _ ⟨x, hx, rfl⟩; exact (bd x hx).1.1
    · by_contra hc
      rw [not_le] at hc
      change -s.radius < B at hc
      set v := (-s.radius + Min.min B 0) / 2 with hv
      have m1 : Min.min B 0 ≤ B := min_le_left _ _
      have m2 : Min.min B 0 ≤ 0 := min_le_right _ _
      have m3 : -s.radius < Min.min B 0 := lt_min hc (by linarith)
      have q : 0 < s.radius ^ 2 - v ^ 2 := by nlinarith
      have := hB ⟨new3 v (-Real.sqrt (s.radius ^ 2 - v ^ 2)) 0, on _ _ _ (by rw [neg_sq, Real.sq_sqrt q.le]; ring) z2 z3
        (Or.inr (by have := Real.sqrt_pos.2 q; linarith)), rfl⟩
      change B ≤ v at this
      linarith
    · rintro _ ⟨x, hx, rfl⟩; exact (bd x hx).1.2
    · exact hB ⟨new3 s.radius 0 0, on _ _ _ (by ring) z2 z3 (Or.inl hr.le), rfl⟩
  · refine ⟨⟨?_, fun B hB => ?_⟩, ⟨?_, fun B hB => ?_⟩⟩
    · rintro _ ⟨x, hx, rfl⟩; exact (bd x hx).2.1
    · exact hB ⟨new3 0 (-s.radius) 0, on _ _ _ (by ring) z2 z3 (Or.inl le_rfl), rfl⟩
    · rintro _ ⟨x, hx, rfl⟩; exact (bd x hx).2.2
    · exact hB ⟨new3 0 s.radius 0, on _ _ _ (by ring) z2 z3 (Or.inl le_rfl), rfl⟩
  · refine ⟨⟨?_, fun B hB => ?_⟩, ⟨?_, fun B hB => ?_⟩⟩
    · rintro _ ⟨x, hx, rfl⟩; exact hx.2.1
    · exact hB ⟨_, ring' s.zMin le_rfl (by linarith), rfl⟩
    · rintro _ ⟨x, hx, rfl⟩; exact hx.2.2.1
    · exact hB ⟨_, ring' s.zMax (by linarith) le_rfl, rfl⟩

/-- C157: for which spheres the box is the smallest one.  The others: a `z` range that exceeds the sphere is not cut down to it,
and the sides do not take into account that the equator is cut off or that `phi_max` is less than a right angle. -/
theorem C157_sphere (s : Sphere ℝ) (hr : 0 < s.radius) (hz : s.zMin < s.zMax) : SmallestBox s.OnSurface s.bbox ↔ s.Fits := by
  refine ⟨fun h => ?_, fun h => (sphere_hugs s hr h).smallest⟩
  have e := sphere_bbox s hr hz.le
  have hug := h.hugs (by
    rw [e]; intro i; fin_cases i
    · change -s.radius ≤ s.radius; linarith
    · change -s.radius ≤ s.radius; linarith
    · exact hz.le)
  rw [e] at hug
  have hx := (hug 0).2.2
  have hy := (hug 1).2.2
  have hzl := (hug 2).1.2
  have hzu := (hug 2).2.2
  change ∀ B, _ → s.radius ≤ B at hx
  change ∀ B, _ → s.radius ≤ B at hy
  change ∀ B, _ → B ≤ s.zMin at hzl
  change ∀ B, _ → s.zMax ≤ B at hzu
  have side : ∀ w : ℝ, 0 < w → (∀ p, s.OnSurface p → w ^ 2 ≤ p.z ^ 2) → False := by
    intro w hw hp
    have := hx (Real.sqrt (s.radius ^ 2 - w ^ 2)) (by
      rintro _ ⟨p, h1, rfl⟩
      have h2 := hp p h1
      have h3 := h1.1
      exact Real.le_sqrt_of_sq_le (by change p.x ^ 2 ≤ _; nlinarith [sq_nonneg p.y]))
    have h4 : Real.sqrt (s.radius ^ 2 - w ^ 2) < s.radius := by rw [Real.sqrt_lt' hr]; nlinarith
    linarith
  refine ⟨hzl _ ?_, ?_, ?_, hzu _ ?_, ?_⟩
  · rintro _ ⟨p, h1, rfl⟩
    exact (_root_.abs_le.1 (abs_le_of_sq_le_sq (by nlinarith [sq_nonneg p.y, sq_nonneg p.x, h1.1]) hr.le : |p.z| ≤ s.radius)).1
  · by_contra hc
    rw [not_le] at hc
    exact side s.zMin hc fun p h1 => by nlinarith [h1.2.1]
  · by_contra hc
    rw [not_le] at hc
    exact side (-s.zMax) (by linarith) fun p h1 => by nlinarith [h1.2.2.1]
  · rintro _ ⟨p, h1, rfl⟩
    exact (_root_.abs_le.1 (abs_le_of_sq_le_sq (by nlinarith [sq_nonneg p.y, sq_nonneg p.x, h1.1]) hr.le : |p.z| ≤ s.radius)).2
  · by_contra hc
    rw [not_le] at hc
    have hpi := Real.pi_pos
    set φ := Max.max 0 s.phiMax with hφ
    have f0 : 0 ≤ φ := le_max_left _ _
    have f1 : φ < Real.pi / 2 := max_lt (by linarith) hc
    have f2 : Real.sin φ < 1 := by
      have := Real.sin_lt_sin_of_lt_of_le_pi_div_two (x := φ) (y := Real.pi / 2) (by linarith) le_rfl f1
      rwa [Real.sin_pi_div_two] at this
    have f3 : 0 ≤ Real.sin φ := Real.sin_nonneg_of_nonneg_of_le_pi f0 (by linarith)
    have := hy (s.radius * Real.sin φ) (by
      rintro _ ⟨p, h1, rfl⟩
      change p.y ≤ _
      rcases le_or_gt p.y 0 with h2 | h2
      · exact h2.trans (by positivity)
      · have a1 : Complex.arg ⟨p.x, p.y⟩ ≤ φ := h1.2.2.2.trans (le_max_right _ _)
        have a2 : 0 ≤ Complex.arg ⟨p.x, p.y⟩ := Complex.arg_nonneg_iff.2 h2.le
        have a3 : p.y = ‖(⟨p.x, p.y⟩ : ℂ)‖ * Real.sin (Complex.arg ⟨p.x, p.y⟩) := by
          rw [Complex.norm_mul_sin_arg]
        have a4 : ‖(⟨p.x, p.y⟩ : ℂ)‖ ≤ s.radius := by
          rw [Complex.norm_def, Complex.normSq_mk]
          rw [Real.sqrt_le_left hr.le]
          nlinarith [h1.1, sq_nonneg p.z]
        have a5 : Real.sin (Complex.arg ⟨p.x, p.y⟩) ≤ Real.sin φ :=
          Real.sin_le_sin_of_le_of_le_pi_div_two (by linarith) f1.le a1
        rw [a3]
        exact (mul_le_mul_of_nonneg_left a5 (norm_nonneg _)).trans (mul_le_mul_of_nonneg_right a4 f3))
    nlinarith

/-! ### transforms and lists -/

theorem affine_hugs {S : Set ℝ} {l u : ℝ} (a c : ℝ) (hl : IsGLB S l) (hu : IsLUB S u) (hne : S.Nonempty) :
    IsGLB ((fun v => a * v + c) '' S) (c + Min.min (a * l) (a * u)) ∧ IsLUB ((fun v => a * v + c) '' S) (c + Max.max (a * l) (a * u)) := by
  obtain ⟨w, hw⟩ := hne
  have lu : l ≤ u := (hl.1 hw).trans (hu.1 hw)
  rcases lt_trichotomy a 0 with h | h | h
  · have h1 : a * u ≤ a * l := mul_le_mul_of_nonpos_left lu h.le
    rw [min_eq_right h1, max_eq_left h1]
    refine ⟨⟨?_, fun B hB => ?_⟩, ⟨?_, fun B hB => ?_⟩⟩
    · rintro _ ⟨v, hv, rfl⟩; have := hu.1 hv; dsimp only; nlinarith
    · have := hu.2 (show (B - c) / a ∈ upperBounds S from fun v hv => by
        rw [le_div_iff_of_neg h]; have := hB ⟨v, hv, rfl⟩; dsimp only at this; linarith)
      rw [le_div_iff_of_neg h] at this; linarith
    · rintro _ ⟨v, hv, rfl⟩; have := hl.1 hv; dsimp only; nlinarith
    · have := hl.2 (show (B - c) / a ∈ lowerBounds S from fun v hv => by
        rw [div_le_iff_of_neg h]; have := hB ⟨v, hv, rfl⟩; dsimp only at this; linarith)
      rw [div_le_iff_of_neg h] at this; linarith
  · subst h
    simp only [zero_mul, min_self, max_self, add_zero, zero_add]
    refine ⟨⟨?_, fun B hB => hB ⟨w, hw, rfl⟩⟩, ⟨?_, fun B hB => hB ⟨w, hw, rfl⟩⟩⟩ <;> rintro _ ⟨v, hv, rfl⟩ <;> exact le_rfl
  · have h1 : a * l ≤ a * u := mul_le_mul_of_nonneg_left lu h.le
    rw [min_eq_left h1, max_eq_right h1]
    refine ⟨⟨?_, fun B hB => ?_⟩, ⟨?_, fun B hB => ?_⟩⟩
    · rintro _ ⟨v, hv, rfl⟩; have := hl.1 hv; dsimp only; nlinarith
    · have := hl.2 (show (B - c) / a ∈ lowerBounds S from fun v hv => by
        rw [div_le_iff₀ h]; have := hB ⟨v, hv, rfl⟩; dsimp only at this; linarith)
      rw [div_le_iff₀ h] at this; linarith
    · rintro _ ⟨v, hv, rfl⟩; have := hu.1 hv; dsimp only; nlinarith
    · have := hu.2 (show (B - c) / a ∈ upperBounds S from fun v hv => by
        rw [le_div_iff₀ h]; have := hB ⟨v, hv, rfl⟩; dsimp only at this; linarith)
      rw [le_div_iff₀ h] at this; linarith

theorem Hugs.nonempty {R : Point ℝ 3 → Prop} {b : Bbox ℝ} (h : Hugs R b) : ∃ x, R x := by
  by_contra hc
  push Not at hc
  have := (h 0).1.2 (show b.pmin.vec 0 + 1 ∈ _ from by rintro _ ⟨x, hx, -⟩; exact absurd hx (hc x))
  linarith

theorem moved_hugs {R : Point ℝ 3 → Prop} {b : Bbox ℝ} (t : Transform ℝ) (ha : t.m.Affine)
    (hd : ∀ i j : _root_.Fin 3, i ≠ j → t.m.data i.castSucc j.castSucc = 0) (h : Hugs R b) :
    Hugs (fun x => ∃ y, R y ∧ t.mapPoint y = some x) (t.mapBox b) := by
  intro i
  have hs : ∀ p : Point ℝ 3, (t.m.lin *ᵥ p.vec) i = t.m.data i.castSucc i.castSucc * p.vec i := by
    intro p
    rw [mulVec, dotProduct, Finset.sum_eq_single i]
    · rfl
    · intro k _ hk; change t.m.data i.castSucc k.castSucc * _ = 0; rw [hd i k hk.symm, zero_mul]
    · simp
  have e0 : ∀ k, k ≠ i → pLo t.m b k i = 0 ∧ pHi t.m b k i = 0 := by
    intro k hk; unfold pLo pHi; rw [hd k i hk]; simp
  have hlo : pLo t.m b 0 i + pLo t.m b 1 i + pLo t.m b 2 i = pLo t.m b i i := by
    rw [← Fin.sum_univ_three (fun k => pLo t.m b k i)]
    exact Finset.sum_eq_single i (fun k _ hk => (e0 k hk).1) (by simp)
  have hhi : pHi t.m b 0 i + pHi t.m b 1 i + pHi t.m b 2 i = pHi t.m b i i := by
    rw [← Fin.sum_univ_three (fun k => pHi t.m b k i)]
    exact Finset.sum_eq_single i (fun k _ hk => (e0 k hk).2) (by simp)
  have hle : pLo t.m b i i ≤ pHi t.m b i i := min_le_max
  obtain ⟨w, hw⟩ := h.nonempty
  have A := affine_hugs (t.m.data i.castSucc i.castSucc) (t.m.data i.castSucc 3) (h i).1 (h i).2 ⟨_, w, hw, rfl⟩
  have eS : {v | ∃ x, (∃ y, R y ∧ t.mapPoint y = some x) ∧ x.vec i = v} =
      (fun v => t.m.data i.castSucc i.castSucc * v + t.m.data i.castSucc 3) '' {v | ∃ x, R x ∧ x.vec i = v} := by
    ext v
    constructor
    · rintro ⟨x, ⟨y, hy, hx⟩, rfl⟩
      have := (mapPt_affine ha y).symm.trans hx
      refine ⟨y.vec i, ⟨y, hy, rfl⟩, ?_⟩
      rw [← Option.some.inj this]; dsimp only; rw [hs y]; rfl
    · rintro ⟨_, ⟨y, hy, rfl⟩, rfl⟩
      refine ⟨_, ⟨y, hy, mapPt_affine ha y⟩, ?_⟩
      dsimp only; rw [hs y]; rfl
  have eB : (t.mapBox b).pmin.vec i = t.m.data i.castSucc 3 + pLo t.m b i i ∧
      (t.mapBox b).pmax.vec i = t.m.data i.castSucc 3 + pHi t.m b i i := by
    unfold Transform.mapBox Transform.matrix
    rw [mapBbox_real, (new_real _ _ i).1, (new_real _ _ i).2]
    dsimp only
    rw [add_assoc, add_assoc, add_assoc (_ + pHi _ _ _ _), add_assoc _ (pHi _ _ _ _), ← add_assoc (pLo _ _ _ _), ← add_assoc (pHi _ _ _ _), hlo, hhi]
    exact ⟨min_eq_left (by linarith), max_eq_right (by linarith)⟩
  rw [eS, eB.1, eB.2]
  exact A

theorem union_bounds (a b : Bbox ℝ) (i : _root_.Fin 3) :
    (a + b).pmin.vec i = Min.min (a.pmin.vec i) (b.pmin.vec i) ∧ (a + b).pmax.vec i = Max.max (a.pmax.vec i) (b.pmax.vec i) := by
  fin_cases i <;> exact ⟨rfl, rfl⟩

theorem union_hugs {R S : Point ℝ 3 → Prop} {a b : Bbox ℝ} (ha : Hugs R a) (hb : Hugs S b) : Hugs (fun x => R x ∨ S x) (a + b) := by
  intro i
  have e : {v | ∃ x : Point ℝ 3, (R x ∨ S x) ∧ x.vec i = v} = {v | ∃ x, R x ∧ x.vec i = v} ∪ {v | ∃ x, S x ∧ x.vec i = v} := by
    ext v
    constructor
    · rintro ⟨x, h | h, rfl⟩
      · exact Or.inl ⟨x, h, rfl⟩
      · exact Or.inr ⟨x, h, rfl⟩
    · rintro (⟨x, h, rfl⟩ | ⟨x, h, rfl⟩)
      · exact ⟨x, Or.inl h, rfl⟩
      · exact ⟨x, Or.inr h, rfl⟩
  rw [e, (union_bounds a b i).1, (union_bounds a b i).2]
  exact ⟨(ha i).1.union (hb i).1, (ha i).2.union (hb i).2⟩

theorem foldl_hugs (l : List (Primitive ℝ × (Point ℝ 3 → Prop))) (h : ∀ e ∈ l, Hugs e.2 e.1.bbox) {R : Point ℝ 3 → Prop} {b : Bbox ℝ}
    (hb : Hugs R b) : Hugs (fun x => R x ∨ ∃ e ∈ l, e.2 x) ((l.map (·.1)).foldl (fun b p => b + p.bbox) b) := by
  induction l generalizing R b with
  | nil => simpa using hb
  | cons e l ih =>
    have := ih (fun e he => h e (List.mem_cons_of_mem _ he)) (union_hugs hb (h e (List.mem_cons_self ..)))
    rw [List.map_cons, List.foldl_cons]
    convert this using 2
    simp [or_assoc]

/-- C157: along no axis can the box of the scene be smaller. -/
theorem C157_hugs (p : Primitive ℝ) (R : Point ℝ 3 → Prop) (h : Axial p R) : Hugs R p.bbox := by
  induction h with
  | box b hb => exact box_hugs b hb
  | sphere s hr h => exact sphere_hugs s hr h
  | moved p R t ht ha hd _ ih => exact moved_hugs t ha hd ih
  | list l hne hs _ ih =>
    cases l with
    | nil => exact absurd rfl hne
    | cons e l =>
      have e1 : (Bbox.default : Bbox ℝ) + e.1.bbox = e.1.bbox := by
        have := hs e (List.mem_cons_self ..)
        ext i
        · rw [(union_bounds _ _ i).1]
          exact min_eq_right (le_trans (this i).1 (by fin_cases i <;> exact le_rfl))
        · rw [(union_bounds _ _ i).2]
          exact max_eq_right (le_trans (by fin_cases i <;> exact le_rfl) (this i).2)
      have := foldl_hugs l (fun e he => ih e (List.mem_cons_of_mem _ he)) (ih e (List.mem_cons_self ..))
      change Hugs _ (((e :: l).map (·.1)).foldl (fun b p => b + p.bbox) Bbox.default)
      rw [List.map_cons, List.foldl_cons, e1]
      convert this using 2
      simp

/-- C157: the bounding box of such a scene is the smallest box that contains the points of the scene. -/
theorem C157_smallest (p : Primitive ℝ) (R : Point ℝ 3 → Prop) (h : Axial p R) : SmallestBox R p.bbox := (C157_hugs p R h).smallest

/-- The points are those that rays hit: the scenes are scenes of C141. -/
theorem C157_occupies (p : Primitive ℝ) (R : Point ℝ 3 → Prop) (h : Axial p R) : ∃ M, Occupies p R M := by
  induction h with
  | box b hb => exact ⟨_, .box b hb⟩
  | sphere s hr h => exact ⟨_, .sphere s⟩
  | moved p R t ht ha hd _ ih =>
    obtain ⟨M, hM⟩ := ih
    exact ⟨_, .moved p R M t ht ha hM⟩
  | list l hne hs _ ih =>
    classical
    let f : Primitive ℝ × (Point ℝ 3 → Prop) → Primitive ℝ × (Point ℝ 3 → Prop) × (Ray ℝ → Prop) := fun e =>
      (e.1, e.2, if h : ∃ M, Occupies e.1 e.2 M then h.choose else fun _ => False)
    have hf : ∀ e ∈ l.map f, Occupies e.1 e.2.1 e.2.2 := by
      intro e he
      obtain ⟨e', he', rfl⟩ := List.mem_map.1 he
      have := ih e' he'
      change Occupies e'.1 e'.2 (if h : ∃ M, Occupies e'.1 e'.2 M then h.choose else fun _ => False)
      rw [dif_pos this]; exact this.choose_spec
    have := Occupies.list (l.map f) hf
    refine ⟨fun ray => ∀ e ∈ l.map f, e.2.2 ray, ?_⟩
    convert this using 1
    · rw [List.map_map]; rfl
    · funext x
      simp [f]

/-- C157: not all bounding boxes are the smallest ones: that of the cap `z ≥ 1/2` of the unit sphere is not, because
it is as wide as the sphere, and neither is that of a whole sphere whose `z` range was given too large. -/
theorem C157_refuted :
    ¬ SmallestBox (⟨1, 1 / 2, 1, 0, 0, Real.pi⟩ : Sphere ℝ).OnSurface (⟨1, 1 / 2, 1, 0, 0, Real.pi⟩ : Sphere ℝ).bbox ∧
    ¬ SmallestBox (⟨1, -2, 2, 0, 0, Real.pi⟩ : Sphere ℝ).OnSurface (⟨1, -2, 2, 0, 0, Real.pi⟩ : Sphere ℝ).bbox := by
  constructor
  · rw [C157_sphere _ (by norm_num) (by norm_num)]
    rintro ⟨-, h, -⟩
    norm_num at h
  · rw [C157_sphere _ (by norm_num) (by norm_num)]
    rintro ⟨h, -⟩
    norm_num at h

/-- Concrete case: a box, and a sphere cut at `z = -1/2` that is moved by one unit. -/
example : ∃ (p : Primitive ℝ) (R : Point ℝ 3 → Prop), Axial p R ∧ R (new3 2 0 0) ∧ R (new3 (-1) 0 0) ∧ ¬ R (new3 1 0 0) := by
  let s : Sphere ℝ := ⟨1, -(1 / 2), 1, 0, 0, Real.pi⟩
  let b : Bbox ℝ := ⟨new3 (-1) (-1) (-1), new3 0 0 0⟩
  let t : Transform ℝ := .translate (new3 1 0 0)
  have haff : t.m.Affine := ⟨rfl, rfl, rfl, rfl⟩
  have hf : s.Fits := ⟨by norm_num [s], by norm_num [s], by norm_num [s], by norm_num [s], by
    change Real.pi / 2 ≤ Real.pi; linarith [Real.pi_pos]⟩
  have hb : b.OrderedR := by intro i; fin_cases i <;> norm_num [b, new3]
  have hm : ∀ x y z : ℝ, t.mapPoint (new3 x y z) = some (new3 (x + 1) y z) := by
    intro x y z
    refine (mapPt_affine haff _).trans (congrArg some ?_)
    apply GVec.ext; funext i
    fin_cases i <;> simp [t, Transform.translate, Mat4.lin, Mat4.trans, mulVec, dotProduct, Fin.sum_univ_three, new3, GVec.x, GVec.y, GVec.z]
  have hd : ∀ i j : _root_.Fin 3, i ≠ j → t.m.data i.castSucc j.castSucc = 0 := by
    intro i j hij
    fin_cases i <;> fin_cases j <;> first | exact absurd rfl hij | rfl
  have on1 : s.OnSurface (new3 1 0 0) := by
    refine ⟨?_, ?_, ?_, Complex.arg_le_pi _⟩
    · change (1 : ℝ) ^ 2 + 0 ^ 2 + 0 ^ 2 = 1 ^ 2; norm_num
    · change (-(1 / 2) : ℝ) ≤ 0; norm_num
    · change (0 : ℝ) ≤ 1; norm_num
  have on2 : s.OnSurface (new3 (-1) 0 0) := by
    refine ⟨?_, ?_, ?_, Complex.arg_le_pi _⟩
    · change (-1 : ℝ) ^ 2 + 0 ^ 2 + 0 ^ 2 = 1 ^ 2; norm_num
    · change (-(1 / 2) : ℝ) ≤ 0; norm_num
    · change (0 : ℝ) ≤ 1; norm_num
  have hA := Axial.moved s.prim s.OnSurface t (.translate _) haff hd (.sphere s (by norm_num [s]) hf)
  have hM : (0 : ℝ) ≤ maxR := Flt.toReal_nonneg_iff.2 (by decide +kernel)
  let l : List (Primitive ℝ × (Point ℝ 3 → Prop)) := [(b.prim, fun x => b.inside x = true),
    (s.prim.transformed t, fun x => ∃ y, s.OnSurface y ∧ t.mapPoint y = some x)]
  refine ⟨_, _, Axial.list l (by simp [l]) ?_ ?_, ?_, ?_, ?_⟩
  · intro e he i
    rcases List.mem_cons.1 he with rfl | he
    · constructor
      · refine le_trans ?_ hM; change b.pmin.vec i ≤ 0; fin_cases i <;> norm_num [b, new3]
      · refine le_trans (neg_nonpos.2 hM) ?_; change 0 ≤ b.pmax.vec i; fin_cases i <;> norm_num [b, new3]
    · obtain rfl := List.mem_singleton.1 he
      have := C157_hugs _ _ hA i
      have h0 : ∀ i : _root_.Fin 3, (new3 (-1 + 1) 0 0 : Point ℝ 3).vec i = 0 := by intro i; fin_cases i <;> norm_num [new3]
      exact ⟨(this.1.1 ⟨_, ⟨_, on2, hm _ _ _⟩, h0 i⟩).trans hM, (neg_nonpos.2 hM).trans (this.2.1 ⟨_, ⟨_, on2, hm _ _ _⟩, h0 i⟩)⟩
  · intro e he
    rcases List.mem_cons.1 he with rfl | he
    · exact .box b hb
    · obtain rfl := List.mem_singleton.1 he; exact hA
  · refine ⟨_, List.mem_cons_of_mem _ (List.mem_singleton.2 rfl), _, on1, ?_⟩
    rw [hm]; norm_num
  · refine ⟨_, List.mem_cons_self .., inside_iff.2 fun i => ?_⟩
    fin_cases i <;> norm_num [b, new3]
  · rintro ⟨e, he, h⟩
    rcases List.mem_cons.1 he with rfl | he
    · have := (inside_iff.1 h 0).2
      norm_num [b, new3] at this
    · obtain rfl := List.mem_singleton.1 he
      obtain ⟨y, hy, h⟩ := h
      have e := (congrArg t.mapPoint (show y = new3 (y.vec 0) (y.vec 1) (y.vec 2) from by
        apply GVec.ext; funext i; fin_cases i <;> rfl)).symm.trans h
      rw [hm] at e
      have e := Option.some.inj e
      have e0 := congrFun (congrArg GVec.vec e) 0
      have e1 := congrFun (congrArg GVec.vec e) 1
      have e2 := congrFun (congrArg GVec.vec e) 2
      simp [new3] at e0 e1 e2
      have := hy.1
      simp [GVec.x, GVec.y, GVec.z, e0, e1, e2, s] at this

end Scarlet
