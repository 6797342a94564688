import Verif.Model.Primitive
import Verif.Props.Sphere2
import Verif.Props.Bbox1
import Verif.Props.Transform3

/-! C58 (do_intersect agrees with intersect), C63–C65 (scene lists), C66–C68 (transformed primitives). -/

set_option linter.unusedSectionVars false

namespace Scarlet
open GVec

/-! ### C58 -/

section
variable {T : Type} [Add T] [Sub T] [Mul T] [Div T] [Neg T] [Scalar T] [Inherent T] [GFloat T] [GTrig T]

/-- Whenever `intersect` returns (does not panic), `do_intersect` returns and tells whether it found something. -/
def Primitive.Agrees (p : Primitive T) : Prop :=
  ∀ ray r, p.intersect ray = some r → p.doIntersect ray = some r.isSome

/-- The primitives a program can build: spheres and boxes, transformed and collected in lists to any depth, over a set
`B` of user-supplied primitives. -/
inductive Primitive.Scene (B : Primitive T → Prop) : Primitive T → Prop
  | base (p) (h : B p) : Scene B p
  | sphere (s : Sphere T) : Scene B s.prim
  | bbox (b : Bbox T) : Scene B b.prim
  | transformed (p) (t : Transform T) (h : Scene B p) : Scene B (p.transformed t)
  | list (ps : List (Primitive T)) (h : ∀ p ∈ ps, Scene B p) : Scene B (PrimitiveList.prim ps)

theorem intersectLoop_isSome (ray : Ray T) (ps : List (Primitive T)) (result : Option (IntersectionResult T)) (rm : Ray T)
    (r : Option (IntersectionResult T)) (h : PrimitiveList.intersectLoop ray ps result rm = some r) (hr : result.isSome = true) :
    r.isSome = true := by
  induction ps generalizing result rm with
  | nil => cases h; exact hr
  | cons p ps ih =>
    unfold PrimitiveList.intersectLoop at h
    obtain ⟨x, -, h⟩ := Option.bind_eq_some_iff.1 h
    cases x with
    | none => exact ih _ _ h hr
    | some ir => exact ih _ _ h rfl

theorem list_agrees (ps : List (Primitive T)) (hp : ∀ p ∈ ps, p.Agrees) : (PrimitiveList.prim ps).Agrees := by
  intro ray r h
  change PrimitiveList.intersectLoop ray ps none ray = some r at h
  change PrimitiveList.doIntersectLoop ray ps = some r.isSome
  generalize ray.tmax = tm at h
  have : ∀ rm, PrimitiveList.intersectLoop ray ps none rm = some r → PrimitiveList.doIntersectLoop ray ps = some r.isSome := by
    clear h
    induction ps with
    | nil => intro rm h; cases h; rfl
    | cons p ps ih =>
      intro rm h
      unfold PrimitiveList.intersectLoop at h
      obtain ⟨x, hx, h⟩ := Option.bind_eq_some_iff.1 h
      have ha := hp p (by simp) ray x hx
      unfold PrimitiveList.doIntersectLoop
      rw [ha]
      cases x with
      | none => exact ih (fun q hq => hp q (by simp [hq])) _ h
      | some ir =>
        have := intersectLoop_isSome ray ps _ _ r h rfl
        rw [this]; rfl
  exact this _ h

/-- C58: `do_intersect` agrees with `intersect` on every scene, of any nesting depth and list lengths, over every set of
user-supplied primitives that agree, for every scalar type (`f32`, exact reals, …). -/
theorem C58_agrees (B : Primitive T → Prop) (hB : ∀ p, B p → p.Agrees) (p : Primitive T) (h : Primitive.Scene B p) : p.Agrees := by
  induction h with
  | base p h => exact hB p h
  | sphere s =>
    intro ray r h
    cases h
    change some (s.intersectRay ray).isSome = some ((s.intersectRay ray).map s.interaction).isSome
    rw [Option.isSome_map]
  | bbox b =>
    intro ray r h
    cases h
    change some (b.intersectRay ray).isSome = some (b.hit ray).isSome
    unfold Bbox.hit
    rw [Option.isSome_map]
  | transformed p t _ ih =>
    intro ray r h
    obtain ⟨x, hx, h⟩ := Option.bind_eq_some_iff.1 h
    change (t.mapRayInv ray).bind _ = _
    rw [hx]
    exact ih x r h
  | list ps _ ih => exact list_agrees ps ih

/-- C58 for the two concrete shapes, where nothing can panic. -/
theorem C58_sphere (s : Sphere T) (ray : Ray T) : s.doIntersect ray = (s.intersect ray).isSome := by
  unfold Sphere.doIntersect Sphere.intersect; rw [Option.isSome_map]
theorem C58_bbox (b : Bbox T) (ray : Ray T) : b.doIntersect ray = (b.hit ray).isSome := by
  unfold Bbox.doIntersect Bbox.hit; rw [Option.isSome_map]

/-! ### C63 -/

/-- C63: `intersect` of a list is `None` exactly when every member's is. -/
theorem C63_intersect (ps : List (Primitive T)) (ray : Ray T) :
    (PrimitiveList.prim ps).intersect ray = some none ↔ ∀ p ∈ ps, p.intersect ray = some none := by
  change PrimitiveList.intersectLoop ray ps none ray = some none ↔ _
  have : ∀ rm, PrimitiveList.intersectLoop ray ps none rm = some none ↔ ∀ p ∈ ps, p.intersect ray = some none := by
    induction ps with
    | nil => intro rm; simp [PrimitiveList.intersectLoop]
    | cons p ps ih =>
      intro rm
      unfold PrimitiveList.intersectLoop
      rw [List.forall_mem_cons]
      cases hx : p.intersect ray with
      | none => simp
      | some x =>
        cases x with
        | none => simp only [true_and]; exact ih _
        | some ir =>
          simp only [Option.some.injEq, reduceCtorEq, false_and, iff_false]
          intro h
          have := intersectLoop_isSome ray ps _ _ _ h rfl
          cases this
  exact this _

/-- C63: `do_intersect` of a list is true exactly when some member's is (no member panics on the ray). -/
theorem C63_doIntersect (ps : List (Primitive T)) (ray : Ray T) (hp : ∀ p ∈ ps, p.doIntersect ray ≠ none) :
    ∃ b, (PrimitiveList.prim ps).doIntersect ray = some b ∧ (b = true ↔ ∃ p ∈ ps, p.doIntersect ray = some true) := by
  change ∃ b, PrimitiveList.doIntersectLoop ray ps = some b ∧ _
  induction ps with
  | nil => exact ⟨false, rfl, by simp⟩
  | cons p ps ih =>
    obtain ⟨b, hb, e⟩ := ih (fun q hq => hp q (by simp [hq]))
    obtain ⟨x, hx⟩ := Option.ne_none_iff_exists'.1 (hp p (by simp))
    unfold PrimitiveList.doIntersectLoop
    rw [hx]
    cases x with
    | true => exact ⟨true, rfl, by simp [hx]⟩
    | false => exact ⟨b, hb, by simp [hx, e]⟩

/-- C63 with panics: a hit found before any panicking member is reported; otherwise the panic propagates. -/
theorem C63_doIntersect_true (ps : List (Primitive T)) (ray : Ray T) :
    (PrimitiveList.prim ps).doIntersect ray = some true ↔
      ∃ qs p rs, ps = qs ++ p :: rs ∧ p.doIntersect ray = some true ∧ ∀ q ∈ qs, q.doIntersect ray = some false := by
  change PrimitiveList.doIntersectLoop ray ps = some true ↔ _
  induction ps with
  | nil => simp [PrimitiveList.doIntersectLoop]
  | cons p ps ih =>
    unfold PrimitiveList.doIntersectLoop
    constructor
    · intro h
      cases hx : p.doIntersect ray with
      | none => rw [hx] at h; cases h
      | some x =>
        rw [hx] at h
        cases x with
        | true => exact ⟨[], p, ps, rfl, hx, by simp⟩
        | false =>
          obtain ⟨qs, q, rs, e, hq, hqs⟩ := ih.1 h
          exact ⟨p :: qs, q, rs, by rw [e]; rfl, hq, List.forall_mem_cons.2 ⟨hx, hqs⟩⟩
    · rintro ⟨qs, q, rs, e, hq, hqs⟩
      cases qs with
      | nil =>
        obtain ⟨rfl, rfl⟩ := List.cons.inj e
        rw [hq]; rfl
      | cons q' qs =>
        obtain ⟨rfl, rfl⟩ := List.cons.inj e
        rw [hqs p (by simp)]
        exact ih.2 ⟨qs, q, rs, rfl, hq, fun x hx => hqs x (by simp [hx])⟩

/-! ### C64 -/

theorem intersectLoop_last (ray : Ray T) (ps : List (Primitive T)) (ir : IntersectionResult T) :
    ∀ result rm, PrimitiveList.intersectLoop ray ps result rm = some (some ir) →
      (result = some ir ∧ ∀ q ∈ ps, q.intersect ray = some none) ∨
      ∃ qs p rs, ps = qs ++ p :: rs ∧ p.intersect ray = some (some ir) ∧ ∀ q ∈ rs, q.intersect ray = some none := by
  induction ps with
  | nil => intro result rm h; cases h; exact Or.inl ⟨rfl, by simp⟩
  | cons p ps ih =>
    intro result rm h
    unfold PrimitiveList.intersectLoop at h
    obtain ⟨x, hx, h⟩ := Option.bind_eq_some_iff.1 h
    cases x with
    | none =>
      rcases ih _ _ h with ⟨h1, h2⟩ | ⟨qs, q, rs, e, h1, h2⟩
      · exact Or.inl ⟨h1, List.forall_mem_cons.2 ⟨hx, h2⟩⟩
      · exact Or.inr ⟨p :: qs, q, rs, by rw [e]; rfl, h1, h2⟩
    | some ir' =>
      rcases ih _ _ h with ⟨h1, h2⟩ | ⟨qs, q, rs, e, h1, h2⟩
      · obtain rfl := Option.some.inj h1
        exact Or.inr ⟨[], p, ps, rfl, hx, h2⟩
      · exact Or.inr ⟨p :: qs, q, rs, by rw [e]; rfl, h1, h2⟩

/-- C64, the part that holds: the result is a hit of a member, namely of the last member in list order that is hit.
Missing: that it is the nearest, which is false (`C64_refuted`). -/
theorem C64_last_partial (ps : List (Primitive T)) (ray : Ray T) (ir : IntersectionResult T)
    (h : (PrimitiveList.prim ps).intersect ray = some (some ir)) :
    ∃ qs p rs, ps = qs ++ p :: rs ∧ p.intersect ray = some (some ir) ∧ ∀ q ∈ rs, q.intersect ray = some none := by
  rcases intersectLoop_last ray ps ir none ray h with ⟨h1, -⟩ | h1
  · cases h1
  · exact h1

end

/-- C64, the part that holds: if members later in the list are never hit farther away than earlier ones, the result is
the nearest hit.  Missing: other list orders, for which it is false (`C64_refuted`). -/
theorem C64_nearest_partial (ps : List (Primitive ℝ)) (ray : Ray ℝ) (ir : IntersectionResult ℝ)
    (h : (PrimitiveList.prim ps).intersect ray = some (some ir))
    (hord : ps.Pairwise fun p q => ∀ a b, p.intersect ray = some (some a) → q.intersect ray = some (some b) → b.tRay ≤ a.tRay)
    (p : Primitive ℝ) (hp : p ∈ ps) (a : IntersectionResult ℝ) (ha : p.intersect ray = some (some a)) : ir.tRay ≤ a.tRay := by
  obtain ⟨qs, q, rs, rfl, h1, h2⟩ := C64_last_partial ps ray ir h
  rw [List.pairwise_append] at hord
  rcases List.mem_append.1 hp with hp | hp
  · exact hord.2.2 p hp q (by simp) a ir ha h1
  · rcases List.mem_cons.1 hp with rfl | hp
    · rw [h1] at ha; cases ha; exact le_rfl
    · rw [h2 p hp] at ha; cases ha

section
/-- Two `f32` boxes in front of each other and a ray along z, hitting them at t = 1 and t = 3. -/
def exNear : Bbox F32 := let n : Int → F32 := GFloat.fromI64; ⟨new3 (n (-1)) (n (-1)) (n 1), new3 (n 1) (n 1) (n 2)⟩
def exFar : Bbox F32 := let n : Int → F32 := GFloat.fromI64; ⟨new3 (n (-1)) (n (-1)) (n 3), new3 (n 1) (n 1) (n 4)⟩
def exRayZ : Ray F32 := let n : Int → F32 := GFloat.fromI64; ⟨new3 (n 0) (n 0) (n 0), new3 (n 0) (n 0) (n 1), n 10⟩

/-- C64 as claimed is false of the code: with the nearer box first in the list, the farther hit (t = 3 rather than
t = 1) is returned. -/
theorem C64_refuted : ¬ ∀ (ps : List (Primitive F32)) (ray : Ray F32) (ir : IntersectionResult F32),
    (PrimitiveList.prim ps).intersect ray = some (some ir) →
    ∀ p ∈ ps, ∀ a, p.intersect ray = some (some a) → ir.tRay.val ≤ a.tRay.val := by
  intro H
  have e1 : ((PrimitiveList.prim [exNear.prim, exFar.prim]).intersect exRayZ).map (·.map (·.tRay)) = some (some (GFloat.fromI64 3)) := by
    decide +kernel
  have e2 : (exNear.prim.intersect exRayZ).map (·.map (·.tRay)) = some (some (GFloat.fromI64 1)) := by decide +kernel
  simp only [Option.map_eq_some_iff] at e1 e2
  obtain ⟨_, h1, ir, rfl, hir⟩ := e1
  obtain ⟨_, h2, a, rfl, ha⟩ := e2
  have := H _ _ ir h1 exNear.prim (by simp) a h2
  rw [hir, ha, Flt.val_le_iff (by decide +kernel) (by decide +kernel)] at this
  revert this
  decide +kernel

/-- Non-vacuity of the partial theorems: in the other order the nearer hit is returned. -/
example : ((PrimitiveList.prim [exFar.prim, exNear.prim]).intersect exRayZ).map (·.map (·.tRay)) = some (some (GFloat.fromI64 1)) := by
  decide +kernel
end

/-! ### C65 -/

section
variable {mw ew : Nat} [FltImpl mw ew] [LawfulFlt mw ew]

/-- C65: the box of a list contains everything inside any member's box; no hypothesis is needed. -/
theorem C65_contains (ps : List (Primitive (Flt mw ew))) (p : Primitive (Flt mw ew)) (hp : p ∈ ps) (x : Point (Flt mw ew) 3)
    (hx : p.bbox.inside x = true) : (PrimitiveList.prim ps).bbox.inside x = true := by
  change (ps.foldl (fun b p => b + p.bbox) Bbox.default).inside x = true
  have mono : ∀ (qs : List (Primitive (Flt mw ew))) (acc : Bbox (Flt mw ew)), acc.inside x = true →
      (qs.foldl (fun b p => b + p.bbox) acc).inside x = true := by
    intro qs
    induction qs with
    | nil => exact fun acc h => h
    | cons q qs ih => exact fun acc h => ih _ (C45_add _ _ _ (Or.inl h))
  generalize (Bbox.default : Bbox (Flt mw ew)) = acc
  induction ps generalizing acc with
  | nil => cases hp
  | cons q qs ih =>
    rcases List.mem_cons.1 hp with rfl | hp
    · exact mono qs _ (C45_add _ _ _ (Or.inr hx))
    · exact ih hp _

/-- C65: it is the least such box: every box containing all member boxes contains it (members finite and not empty). -/
theorem C65_least (ps : List (Primitive (Flt mw ew))) (hfin : ∀ p ∈ ps, p.bbox.pmin.Fin ∧ p.bbox.pmax.Fin)
    (hne : ∀ p ∈ ps, ∃ x, p.bbox.inside x = true) (c : Bbox (Flt mw ew))
    (hc : ∀ p ∈ ps, ∀ x, p.bbox.inside x = true → c.inside x = true)
    (x : Point (Flt mw ew) 3) (hx : (PrimitiveList.prim ps).bbox.inside x = true) : c.inside x = true := by
  change (ps.foldl (fun b p => b + p.bbox) Bbox.default).inside x = true at hx
  have key : ∀ (qs : List (Primitive (Flt mw ew))) (acc : Bbox (Flt mw ew)), (∀ q ∈ qs, q ∈ ps) →
      (∃ y, acc.inside y = true) → (∀ y, acc.inside y = true → c.inside y = true) →
      (qs.foldl (fun b p => b + p.bbox) acc).inside x = true → c.inside x = true := by
    intro qs
    induction qs with
    | nil => exact fun acc _ _ h1 h2 => h1 x h2
    | cons q qs ih =>
      intro acc hq h0 h1 h2
      obtain ⟨y, hy⟩ := h0
      obtain ⟨z, hz⟩ := hne q (hq q (by simp))
      exact ih _ (fun r hr => hq r (by simp [hr])) ⟨y, C45_add _ _ _ (Or.inl hy)⟩
        (C45_least acc q.bbox c y z hy hz h1 (hc q (hq q (by simp)))) h2
  cases ps with
  | nil => rw [List.foldl_nil, C48_empty] at hx; cases hx
  | cons q qs =>
    rw [List.foldl_cons] at hx
    have e : Bbox.default + q.bbox = q.bbox := (C48_neutral q.bbox (hfin q (by simp)).1 (hfin q (by simp)).2).1
    rw [e] at hx
    exact key qs q.bbox (fun r hr => by simp [hr]) (hne q (by simp)) (hc q (by simp)) hx

/-- The empty list has an empty box. -/
theorem C65_empty (x : Point (Flt mw ew) 3) : (PrimitiveList.prim ([] : List (Primitive (Flt mw ew)))).bbox.inside x = false :=
  C48_empty x
end

/-- Non-vacuity: the two boxes above. -/
example : (exNear.pmin.Fin ∧ exNear.pmax.Fin) ∧ (∃ x, exNear.inside x = true) ∧ (exFar.pmin.Fin ∧ exFar.pmax.Fin) ∧ ∃ x, exFar.inside x = true := by
  unfold GVec.Fin
  refine ⟨by decide +kernel, ⟨exNear.pmin, by decide +kernel⟩, by decide +kernel, ⟨exFar.pmin, by decide +kernel⟩⟩

/-! ### C66 -/

/-- C66: a transformed primitive reports the hit of the object-space ray, and the parameter means the same on both
rays: the world point at `t_ray` maps to the object-space point at `t_ray`, and `tmax` is kept.  The transform is any
whose inverse matrix is affine (`C42_affine_inverse` provides that for every reachable affine transform). -/
theorem C66_t_ray (prim : Primitive ℝ) (t : Transform ℝ) (h : t.minv.Affine) (ray : Ray ℝ) :
    ∃ obj : Ray ℝ, (prim.transformed t).intersect ray = prim.intersect obj ∧
      (prim.transformed t).doIntersect ray = prim.doIntersect obj ∧ obj.tmax = ray.tmax ∧
      ∀ k : ℝ, t.mapPointInv (ray.eval k) = some (obj.eval k) := by
  obtain ⟨s, hs, h1, h2⟩ := C42_map_inverse t h ray
  refine ⟨s, ?_, ?_, h1, h2⟩
  · change (t.mapRayInv ray).bind _ = _
    rw [hs]; rfl
  · change (t.mapRayInv ray).bind _ = _
    rw [hs]; rfl

/-- C66: the hits of a transformed primitive, when the primitive's own hits are genuine (`p` is the point of the ray at
`t_ray`) and in object space satisfy some surface predicate `S`: the world point at `t_ray` maps back to a point of `S`. -/
theorem C66_surface (prim : Primitive ℝ) (S : Point ℝ 3 → Prop) (t : Transform ℝ) (h : t.minv.Affine)
    (hp : ∀ ray r, prim.intersect ray = some (some r) → S (ray.eval r.tRay)) (ray : Ray ℝ) (r : IntersectionResult ℝ)
    (hr : (prim.transformed t).intersect ray = some (some r)) :
    ∃ q, t.mapPointInv (ray.eval r.tRay) = some q ∧ S q := by
  obtain ⟨s, h1, -, -, h2⟩ := C66_t_ray prim t h ray
  rw [h1] at hr
  exact ⟨_, h2 r.tRay, hp _ _ hr⟩

example : (Transform.translate (new3 1 2 3) : Transform ℝ).minv.Affine := ⟨rfl, rfl, rfl, rfl⟩

/-! ### C67 -/

/-- C67, what is true: the reported point is the hit point in object space, i.e. the image of the world point under the
inverse transform.  Missing: that it is the world point itself, which is false (`C67_refuted`). -/
theorem C67_object_space_partial (prim : Primitive ℝ) (t : Transform ℝ) (h : t.minv.Affine)
    (hp : ∀ ray r, prim.intersect ray = some (some r) → r.surfaceInteraction.p = ray.eval r.tRay) (ray : Ray ℝ)
    (r : IntersectionResult ℝ) (hr : (prim.transformed t).intersect ray = some (some r)) :
    t.mapPointInv (ray.eval r.tRay) = some r.surfaceInteraction.p := by
  obtain ⟨s, h1, -, -, h2⟩ := C66_t_ray prim t h ray
  rw [h1] at hr
  rw [h2, hp _ _ hr]

/-- Mapping a ray and transforming the primitive, for a reachable transform. -/
theorem transformed_hit (prim : Primitive ℝ) (t : Transform ℝ) (ht : t.Reachable) (ha : t.m.Affine) (obj : Ray ℝ) :
    ∃ w : Ray ℝ, (prim.transformed t).intersect w = prim.intersect obj ∧ ∀ k : ℝ, t.mapPoint (obj.eval k) = some (w.eval k) := by
  obtain ⟨w, hw, -, h2⟩ := C42_map t ha obj
  refine ⟨w, ?_, h2⟩
  have := C35_ray t ht obj w hw
  change (t.mapRayInv w).bind _ = _
  rw [this]; rfl

/-- C67 as claimed is false of the code: a unit sphere moved by (7,0,0) reports its hit points around the origin. -/
theorem C67_refuted : ¬ ∀ (prim : Primitive ℝ) (t : Transform ℝ), t.Reachable → t.m.Affine →
    (∀ ray r, prim.intersect ray = some (some r) → r.surfaceInteraction.p = ray.eval r.tRay) → ∀ (ray : Ray ℝ)
    (r : IntersectionResult ℝ), (prim.transformed t).intersect ray = some (some r) →
    r.surfaceInteraction.p = ray.eval r.tRay := by
  intro H
  have haff : (Transform.translate (new3 7 0 0) : Transform ℝ).m.Affine := ⟨rfl, rfl, rfl, rfl⟩
  obtain ⟨w, h1, h2⟩ := transformed_hit unitS.prim (.translate (new3 7 0 0)) (.translate _) haff (vray (3/5) (-5) 1)
  obtain ⟨r, h, e⟩ := lower_witness
  have hgen : ∀ ray r, unitS.prim.intersect ray = some (some r) → r.surfaceInteraction.p = ray.eval r.tRay := by
    intro ray r hr
    obtain ⟨hit, he, rfl⟩ := Option.map_eq_some_iff.1 (Option.some.inj hr)
    obtain ⟨t, ht⟩ := intersectRay_some he
    obtain ⟨-, -, -, rfl⟩ := getIntersection_some ht
    rfl
  have h3 := H unitS.prim _ (.translate _) haff hgen w r (h1.trans (congrArg some h))
  have h4 := hgen _ r (congrArg some h)
  have h5 := h2 r.tRay
  rw [← h3, ← h4, e, Transform.mapPoint, mapPt_affine haff] at h5
  have h6 := congrArg (fun p : Point ℝ 3 => p.x) (Option.some.inj h5)
  change _ = (3/5 : ℝ) at h6
  revert h6
  change ¬ ((_ ⬝ᵥ _ : ℝ) + 7 = 3 / 5)
  rw [dotProduct, Fin.sum_univ_three]
  change ¬ ((1 : ℝ) * (3/5) + 0 * 0 + 0 * (-(4/5)) + 7 = 3 / 5)
  norm_num

/-! ### C68 -/

/-- C68, the part that holds: for affine transforms with a diagonal linear part (translations, scalings and their
products), world-space hit points lie in the transformed box.  Missing: transforms with off-diagonal entries, for which
it is false (`C68_refuted`). -/
theorem C68_diagonal_partial (prim : Primitive ℝ) (t : Transform ℝ) (ht : t.Reachable) (ha : t.m.Affine)
    (hd : ∀ i j : _root_.Fin 3, i ≠ j → t.m.data i.castSucc j.castSucc = 0)
    (hp : ∀ ray r, prim.intersect ray = some (some r) → prim.bbox.inside (ray.eval r.tRay) = true) (ray : Ray ℝ)
    (r : IntersectionResult ℝ) (hr : (prim.transformed t).intersect ray = some (some r)) :
    (prim.transformed t).bbox.inside (ray.eval r.tRay) = true := by
  obtain ⟨q, h1, h2⟩ := C66_surface prim (fun q => prim.bbox.inside q = true) t (C42_affine_inverse t ht ha) hp ray r hr
  obtain ⟨w, h3, h4⟩ := C41_bbox_partial t ha hd prim.bbox q h2
  rw [C35_point' t ht _ _ h1] at h3
  obtain rfl := Option.some.inj h3
  exact h4

/-- The upper unit hemisphere. -/
noncomputable def hemiS : Sphere ℝ := ⟨1, 0, 1, codeTheta 1 0, codeTheta 1 1, Real.pi⟩

/-- C68 as claimed is false of the code: the upper hemisphere turned by 90 degrees about y has a world-space hit at
z = -3/5, but its box ends at z = 0. -/
theorem C68_refuted : ¬ ∀ (s : Sphere ℝ) (t : Transform ℝ), t.Reachable → t.m.Affine →
    (∀ ray r, s.prim.intersect ray = some (some r) → s.Regular ray → s.prim.bbox.inside (ray.eval r.tRay) = true) →
    ∀ (ray : Ray ℝ) (r : IntersectionResult ℝ), (∀ obj, t.mapRayInv ray = some obj → s.Regular obj) →
    (s.prim.transformed t).intersect ray = some (some r) →
    (s.prim.transformed t).bbox.inside (ray.eval r.tRay) = true := by
  intro H
  obtain ⟨r, h, e, -⟩ := vray_hit hemiS (3/5) (4/5) (-1) (Or.inr rfl) (by norm_num) (by norm_num) rfl rfl
    (by norm_num [hemiS]) (by norm_num [hemiS])
  have haff : (Transform.rotateY (Real.pi / 2) : Transform ℝ).m.Affine := ⟨rfl, rfl, rfl, rfl⟩
  have hreach : (Transform.rotateY (Real.pi / 2) : Transform ℝ).Reachable := .rotateY _
  obtain ⟨w, hw, -, h2⟩ := C42_map _ haff (vray (3/5) (-5 * -1) (-1))
  have hinv := C35_ray _ hreach _ _ hw
  have hreg : hemiS.Regular (vray (3/5) (-5 * -1) (-1)) := vray_regular _ _ _ _ (by norm_num) (by norm_num)
  have hbox := H hemiS _ hreach haff (fun ray r hr hreg => by
      have := C56_on_sphere hemiS ray hreg r (Option.some.inj hr)
      exact C59_surface_in_bbox hemiS _ this.1.2.2) w r
      (fun obj ho => by rw [hinv] at ho; obtain rfl := Option.some.inj ho; exact hreg)
      (by change (Transform.mapRayInv _ w).bind _ = _
          rw [hinv]; exact congrArg some h)
  have hp := (C56_on_sphere hemiS _ hreg r h).2.1
  have hz : (w.eval r.tRay).z = -(3/5) := by
    have h5 := h2 r.tRay
    rw [← hp, e, Transform.mapPoint, mapPt_affine haff] at h5
    have h6 := congrArg (fun p : Point ℝ 3 => p.z) (Option.some.inj h5)
    rw [← h6]
    unfold Transform.rotateY
    simp [GVec.z, Matrix.mulVec, dotProduct, Fin.sum_univ_three, Mat4.trans]
    change (-1 : ℝ) * (3 / 5) + 0 * (4 / 5) = -(3 / 5)
    norm_num
  rw [inside_iff] at hbox
  have h0 := (hbox 2).1
  change (Transform.mapBox _ _).pmin.vec 2 ≤ (w.eval r.tRay).z at h0
  rw [hz] at h0
  unfold Transform.mapBox Transform.matrix at h0
  rw [mapBbox_real, (new_real _ _ 2).1] at h0
  unfold pLo pHi Transform.rotateY at h0
  have hb : hemiS.prim.bbox = ⟨new3 (-1) (-1) 0, new3 1 1 1⟩ := by
    change Bbox.new _ _ = _
    unfold Bbox.new
    simp [hemiS]
  rw [hb] at h0
  simp at h0
  norm_num at h0

end Scarlet
