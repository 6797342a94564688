import Verif.Props.Scene

/-!
Exact characterisations for the properties C40, C41, C64, C67, C68, which fail of the code in general: precisely when the claim
holds.  C100: the bounding box of a whole scene.
-/

set_option linter.unusedSectionVars false

namespace Scarlet
open GVec Matrix

/-! ### C40 -/

/-- C40, exactly when it holds: for a transform built from the API, `map` of a normal is the inverse transpose if and only if the
normal's third component is 0 or 1. -/
theorem C40_exact (t : Transform ℝ) (h : t.Reachable) (ha : t.m.Affine) (n : Normal ℝ 3) :
    (t.mapNormal n).vec = (t.m.lin⁻¹)ᵀ *ᵥ n.vec ↔ n.z = 0 ∨ n.z = 1 := by
  refine ⟨fun e => ?_, fun hz => (C40_normal_partial t h ha n hz).1⟩
  have e1 : (t.mapNormal n).vec = (t.m.lin⁻¹)ᵀ *ᵥ ![n.x, n.y, n.z * n.z] := by
    funext i
    change (mapNrm t.minv n).vec i = _
    rw [mapNrm_real, lin_inv (reachable_carries h) ha]
  have e2 : t.m.lin⁻¹ * t.m.lin = 1 := by
    rw [← lin_inv (reachable_carries h) ha, ← Mat4.lin_mul ha]
    rw [show t.minv * t.m = Mat4.identity from (C34_reachable t h).2, Mat4.lin_identity]
  have e3 : t.m.linᵀ * (t.m.lin⁻¹)ᵀ = 1 := by rw [← Matrix.transpose_mul, e2, Matrix.transpose_one]
  have e4 := congrArg (fun v => t.m.linᵀ *ᵥ v) (e1.symm.trans e)
  simp only [Matrix.mulVec_mulVec, e3, Matrix.one_mulVec] at e4
  have e5 : n.z * n.z = n.z := congrFun e4 2
  rcases eq_or_ne n.z 0 with h0 | h0
  · exact Or.inl h0
  · exact Or.inr (mul_left_cancel₀ h0 (by rw [e5, mul_one]))

/-! ### C41, C68 -/

/-- The unit vector `j` as a point. -/
def unitPt (j : _root_.Fin 3) : Point ℝ 3 := ⟨fun i => if i = j then 1 else 0⟩

theorem mapBox_unit (m : Mat4 ℝ) (i j : _root_.Fin 3) (hij : i ≠ j) :
    (Bbox.mapBbox m ⟨unitPt j, unitPt j⟩).pmin.vec i = m.data i.castSucc 3 ∧
    (Bbox.mapBbox m ⟨unitPt j, unitPt j⟩).pmax.vec i = m.data i.castSucc 3 := by
  have e : ∀ k, pLo m ⟨unitPt j, unitPt j⟩ k i = 0 ∧ pHi m ⟨unitPt j, unitPt j⟩ k i = 0 := by
    intro k; unfold pLo pHi unitPt; simp [hij]
  rw [mapBbox_real, (new_real _ _ i).1, (new_real _ _ i).2]
  dsimp only
  rw [(e 0).1, (e 1).1, (e 2).1, (e 0).2, (e 1).2, (e 2).2]
  simp

/-- C41, exactly when it holds: the mapped box contains the image of every point of every box if and only if the linear part of
the transform is diagonal (no rotation, no shear). -/
theorem C41_exact (t : Transform ℝ) (ha : t.m.Affine) :
    (∀ (b : Bbox ℝ) (p : Point ℝ 3), b.inside p = true → ∃ q, t.mapPoint p = some q ∧ (t.mapBox b).inside q = true) ↔
      ∀ i j : _root_.Fin 3, i ≠ j → t.m.data i.castSucc j.castSucc = 0 := by
  refine ⟨fun H i j hij => ?_, fun hd b p hp => C41_bbox_partial t ha hd b p hp⟩
  obtain ⟨q, hq, hin⟩ := H ⟨unitPt j, unitPt j⟩ (unitPt j) (by rw [inside_iff]; exact fun i => ⟨le_rfl, le_rfl⟩)
  unfold Transform.mapPoint at hq
  rw [mapPt_affine ha, Option.some.injEq] at hq
  subst hq
  rw [inside_iff] at hin
  have h := hin i
  obtain ⟨h1, h2⟩ := mapBox_unit t.m i j hij
  change (Bbox.mapBbox t.m _).pmin.vec i ≤ _ ∧ _ ≤ (Bbox.mapBbox t.m _).pmax.vec i at h
  rw [h1, h2] at h
  have hv : (t.m.lin *ᵥ (unitPt j).vec) i = t.m.data i.castSucc j.castSucc := by
    rw [mulVec, dotProduct, Finset.sum_eq_single j]
    · simp only [unitPt, if_true, mul_one]; rfl
    · intro k _ hk; simp [unitPt, hk]
    · simp
  change _ ≤ (t.m.lin *ᵥ (unitPt j).vec) i + t.m.data i.castSucc 3 ∧ (t.m.lin *ᵥ (unitPt j).vec) i + t.m.data i.castSucc 3 ≤ _ at h
  rw [hv] at h
  linarith [h.1, h.2]

/-- A primitive that is just the point `p`: hit, at `t = 0`, by exactly the rays that start there. -/
noncomputable def pointPrim (p : Point ℝ 3) : Primitive ℝ := by
  classical exact
  { bbox := ⟨p, p⟩
    doIntersect := fun ray => some (decide (ray.eval 0 = p))
    intersect := fun ray => some (if ray.eval 0 = p then some ⟨⟨p, default, default, default, default⟩, 0⟩ else none) }

/-- C68, exactly when it holds: the transformed box contains the world-space hits of every primitive whose own box contains its
hits, if and only if the linear part of the transform is diagonal. -/
theorem C68_exact (t : Transform ℝ) (ht : t.Reachable) (ha : t.m.Affine) :
    (∀ prim : Primitive ℝ, (∀ ray r, prim.intersect ray = some (some r) → prim.bbox.inside (ray.eval r.tRay) = true) →
      ∀ ray r, (prim.transformed t).intersect ray = some (some r) → (prim.transformed t).bbox.inside (ray.eval r.tRay) = true) ↔
      ∀ i j : _root_.Fin 3, i ≠ j → t.m.data i.castSucc j.castSucc = 0 := by
  refine ⟨fun H => ?_, fun hd prim hp ray r hr => C68_diagonal_partial prim t ht ha hd hp ray r hr⟩
  intro i j hij
  set p := unitPt j with hp
  have hin : ∀ ray r, (pointPrim p).intersect ray = some (some r) → (pointPrim p).bbox.inside (ray.eval r.tRay) = true := by
    intro ray r hr
    unfold pointPrim at hr ⊢
    simp only [Option.some.injEq] at hr
    split at hr
    · rename_i h0
      cases hr
      rw [inside_iff]
      intro i; dsimp only; rw [h0]; exact ⟨le_rfl, le_rfl⟩
    · cases hr
  obtain ⟨w, h1, h2⟩ := transformed_hit (pointPrim p) t ht ha ⟨p, default, 0⟩
  have e0 : (⟨p, default, 0⟩ : Ray ℝ).eval 0 = p := by
    refine ext3 ?_ ?_ ?_
    · change p.vec 0 + _ * (0 : ℝ) = p.vec 0; rw [mul_zero, add_zero]
    · change p.vec 1 + _ * (0 : ℝ) = p.vec 1; rw [mul_zero, add_zero]
    · change p.vec 2 + _ * (0 : ℝ) = p.vec 2; rw [mul_zero, add_zero]
  have h3 : (pointPrim p).intersect ⟨p, default, 0⟩ = some (some ⟨⟨p, default, default, default, default⟩, 0⟩) := by
    unfold pointPrim; simp only [e0, if_true]
  have h4 := H (pointPrim p) hin w _ (h1.trans h3)
  have h5 := h2 0
  rw [e0, Transform.mapPoint, mapPt_affine ha, Option.some.injEq] at h5
  change (Bbox.mapBbox t.m ⟨p, p⟩).inside (w.eval 0) = true at h4
  rw [← h5, inside_iff] at h4
  have h := h4 i
  obtain ⟨h6, h7⟩ := mapBox_unit t.m i j hij
  rw [h6, h7] at h
  have hv : (t.m.lin *ᵥ (unitPt j).vec) i = t.m.data i.castSucc j.castSucc := by
    rw [mulVec, dotProduct, Finset.sum_eq_single j]
    · simp only [unitPt, if_true, mul_one]; rfl
    · intro k _ hk; simp [unitPt, hk]
    · simp
  change _ ≤ (t.m.lin *ᵥ (unitPt j).vec) i + t.m.data i.castSucc 3 ∧ (t.m.lin *ᵥ (unitPt j).vec) i + t.m.data i.castSucc 3 ≤ _ at h
  rw [hv] at h
  linarith [h.1, h.2]

/-! ### C64, C67 -/

/-- C64, exactly when it holds: the reported hit is the nearest one if and only if no earlier member of the list is hit before the
last member that is hit. -/
theorem C64_exact (ps : List (Primitive ℝ)) (ray : Ray ℝ) (ir : IntersectionResult ℝ)
    (h : (PrimitiveList.prim ps).intersect ray = some (some ir)) :
    (∀ p ∈ ps, ∀ a, p.intersect ray = some (some a) → ir.tRay ≤ a.tRay) ↔
    ∃ qs p rs, ps = qs ++ p :: rs ∧ p.intersect ray = some (some ir) ∧ (∀ q ∈ rs, q.intersect ray = some none) ∧
      ∀ q ∈ qs, ∀ a, q.intersect ray = some (some a) → ir.tRay ≤ a.tRay := by
  constructor
  · intro H
    obtain ⟨qs, p, rs, e, h1, h2⟩ := C64_last_partial ps ray ir h
    exact ⟨qs, p, rs, e, h1, h2, fun q hq a ha => H q (by rw [e]; simp [hq]) a ha⟩
  · rintro ⟨qs, p, rs, rfl, h1, h2, h3⟩ q hq a ha
    rcases List.mem_append.1 hq with hq | hq
    · exact h3 q hq a ha
    · rcases List.mem_cons.1 hq with rfl | hq
      · rw [h1] at ha; cases ha; exact le_rfl
      · rw [h2 q hq] at ha; cases ha

/-- C67, exactly when it holds: the point reported by a transformed primitive is the world-space hit point if and only if the
transform does not move it. -/
theorem C67_exact (prim : Primitive ℝ) (t : Transform ℝ) (h : t.minv.Affine)
    (hp : ∀ ray r, prim.intersect ray = some (some r) → r.surfaceInteraction.p = ray.eval r.tRay) (ray : Ray ℝ)
    (r : IntersectionResult ℝ) (hr : (prim.transformed t).intersect ray = some (some r)) :
    r.surfaceInteraction.p = ray.eval r.tRay ↔ t.mapPointInv (ray.eval r.tRay) = some (ray.eval r.tRay) := by
  rw [C67_object_space_partial prim t h hp ray r hr, Option.some.injEq]

/-! ### C100 -/

/-- The ray meets every part of the scene regularly: boxes are ordered and met by rays not parallel to a face, spheres are not
left tangentially, and every transform on the way is affine and, because of C41, has a diagonal linear part. -/
inductive Primitive.RegularOn : Primitive ℝ → Ray ℝ → Prop
  | sphere (s : Sphere ℝ) (ray) (h : s.Regular ray) : RegularOn s.prim ray
  | bbox (b : Bbox ℝ) (ray) (hb : b.OrderedR) (hd : ∀ i, ray.direction.vec i ≠ 0) : RegularOn b.prim ray
  | transformed (p : Primitive ℝ) (t : Transform ℝ) (ray obj) (ht : t.Reachable) (ha : t.m.Affine)
      (hd : ∀ i j : _root_.Fin 3, i ≠ j → t.m.data i.castSucc j.castSucc = 0) (ho : t.mapRayInv ray = some obj)
      (h : RegularOn p obj) : RegularOn (p.transformed t) ray
  | list (ps : List (Primitive ℝ)) (ray) (h : ∀ p ∈ ps, RegularOn p ray) : RegularOn (PrimitiveList.prim ps) ray

theorem add_inside (a b : Bbox ℝ) (p : Point ℝ 3) (h : a.inside p = true ∨ b.inside p = true) : (a + b).inside p = true := by
  simp only [inside_iff] at h ⊢
  intro i
  have e1 : (a + b).pmin.vec i = Min.min (a.pmin.vec i) (b.pmin.vec i) := by fin_cases i <;> rfl
  have e2 : (a + b).pmax.vec i = Max.max (a.pmax.vec i) (b.pmax.vec i) := by fin_cases i <;> rfl
  rw [e1, e2]
  rcases h with h | h
  · exact ⟨(min_le_left _ _).trans (h i).1, (h i).2.trans (le_max_left _ _)⟩
  · exact ⟨(min_le_right _ _).trans (h i).1, (h i).2.trans (le_max_right _ _)⟩

theorem list_inside (ps : List (Primitive ℝ)) (p : Primitive ℝ) (hp : p ∈ ps) (x : Point ℝ 3) (hx : p.bbox.inside x = true) :
    (PrimitiveList.prim ps).bbox.inside x = true := by
  change (ps.foldl (fun b p => b + p.bbox) Bbox.default).inside x = true
  have mono : ∀ (qs : List (Primitive ℝ)) (acc : Bbox ℝ), acc.inside x = true →
      (qs.foldl (fun b p => b + p.bbox) acc).inside x = true := by
    intro qs
    induction qs with
    | nil => exact fun acc h => h
    | cons q qs ih => exact fun acc h => ih _ (add_inside _ _ _ (Or.inl h))
  generalize (Bbox.default : Bbox ℝ) = acc
  induction ps generalizing acc with
  | nil => cases hp
  | cons q qs ih =>
    rcases List.mem_cons.1 hp with rfl | hp
    · exact mono qs _ (add_inside _ _ _ (Or.inr hx))
    · exact ih hp _

/-- C100, the part that holds: for every scene — boxes, spheres, transformed primitives, lists, nested to any depth — every hit of
a ray that meets the scene regularly lies in the bounding box of the whole scene.  Missing: transforms with off-diagonal entries,
for which it is false (`C68_exact`). -/
theorem C100_scene_partial (p : Primitive ℝ) (ray : Ray ℝ) (h : p.RegularOn ray) (r : IntersectionResult ℝ)
    (hr : p.intersect ray = some (some r)) : p.bbox.inside (ray.eval r.tRay) = true := by
  induction h generalizing r with
  | sphere s ray h =>
    have := C56_on_sphere s ray h r (Option.some.inj hr)
    exact C59_surface_in_bbox s _ (this.2.1 ▸ this.2.2)
  | bbox b ray hb hd =>
    have hr' : b.hit ray = some r := Option.some.inj hr
    obtain ⟨t1, f, hi, -⟩ := hit_real b ray r hr'
    rw [intersectRay_real] at hi
    split at hi
    · cases hi
    rename_i hc
    simp only [not_or, not_lt] at hc
    rw [Option.some.injEq, Prod.mk.injEq] at hi
    change b.inside _ = true
    rw [inside_eval_iff b ray hb hd, ← hi.1]
    exact ⟨le_max_left _ _, max_le hc.2.2 hc.2.1⟩
  | transformed p t ray obj ht ha hd ho _ ih =>
    have hr' : p.intersect obj = some (some r) := by
      change (t.mapRayInv ray).bind _ = _ at hr
      rw [ho] at hr; exact hr
    have h1 := ih r hr'
    obtain ⟨s, e1, -, e2⟩ := C42_map_inverse t (C42_affine_inverse t ht ha) ray
    rw [ho, Option.some.injEq] at e1
    subst e1
    obtain ⟨w, h3, h4⟩ := C41_bbox_partial t ha hd p.bbox _ h1
    rw [C35_point' t ht _ _ (e2 r.tRay), Option.some.injEq] at h3
    rw [h3]; exact h4
  | list ps ray _ ih =>
    obtain ⟨qs, q, rs, e, h1, -⟩ := C64_last_partial ps ray r hr
    have hq : q ∈ ps := by rw [e]; simp
    exact list_inside ps q hq _ (ih q hq r h1)

/-- The hypotheses of `C100_scene_partial` are met: a moved box in a list with a sphere, and a ray that hits the box. -/
example : ∃ (p : Primitive ℝ) (ray : Ray ℝ), p.RegularOn ray ∧ ∃ r, p.intersect ray = some (some r) := by
  let box : Bbox ℝ := ⟨new3 0 0 0, new3 1 1 1⟩
  let t : Transform ℝ := .translate (new3 1 1 1)
  let obj : Ray ℝ := ⟨new3 (-1) (-1) (-1), new3 1 1 1, 10⟩
  have ha : t.m.Affine := ⟨rfl, rfl, rfl, rfl⟩
  obtain ⟨w, hw, -, -⟩ := C42_map t ha obj
  have hinv := C35_ray t (.translate _) obj w hw
  have hb : box.OrderedR := by intro i; fin_cases i <;> simp [box]
  have hd : ∀ i, obj.direction.vec i ≠ 0 := by intro i; fin_cases i <;> simp [obj]
  have hoff : ∀ i j : _root_.Fin 3, i ≠ j → t.m.data i.castSucc j.castSucc = 0 := by
    intro i j hij; fin_cases i <;> fin_cases j <;> simp [t, Transform.translate] at hij ⊢
  have hreg : (box.prim.transformed t).RegularOn w := .transformed _ t w obj (.translate _) ha hoff hinv (.bbox box obj hb hd)
  have hsome : (box.intersectRay obj).isSome = true := by
    rw [C51_some_iff _ _ hb hd (by norm_num [obj])]
    refine ⟨1, zero_le_one, by norm_num [obj], ?_⟩
    rw [inside_iff]; intro i
    fin_cases i
    all_goals
      change (0 : ℝ) ≤ -1 + 1 * 1 ∧ (-1 + 1 * 1 : ℝ) ≤ 1
      norm_num
  obtain ⟨ts, hts⟩ := Option.isSome_iff_exists.1 hsome
  have hhit : ∃ r, box.hit obj = some r := by unfold Bbox.hit; rw [hts]; exact ⟨_, rfl⟩
  obtain ⟨r, hr⟩ := hhit
  refine ⟨PrimitiveList.prim [box.prim.transformed t], w, .list _ _ (by simpa using hreg), r, ?_⟩
  have h1 : (box.prim.transformed t).intersect w = some (some r) := by
    change (t.mapRayInv w).bind _ = _
    rw [hinv]; exact congrArg some hr
  change PrimitiveList.intersectLoop w [box.prim.transformed t] none w = _
  unfold PrimitiveList.intersectLoop
  rw [h1]; rfl

end Scarlet
