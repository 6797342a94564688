import Verif.Props.Bbox2
import Verif.Props.Bbox3
import Verif.Props.Primitive
import Verif.Props.Sphere1
import Verif.Props.Transform1

/-! C141: what a scene is, as a set of points: `do_intersect` is true exactly when the segment meets the set, so visibility
between two points is symmetric and depends on the segment only. -/

set_option linter.unusedSectionVars false

namespace Scarlet
open GVec Matrix

/-! ### Specification -/

/-- `p` is a scene that occupies the points `R`; `M` tells which rays meet it regularly: along a box no direction component is zero
and a ray neither starts tangentially on a sphere nor is without direction (the cases of `0 / 0`).  Spheres are surfaces, boxes are
solid, a transformed object occupies the images of the object's points, a list the points of its members. -/
inductive Occupies : Primitive ℝ → (Point ℝ 3 → Prop) → (Ray ℝ → Prop) → Prop
  | sphere (s : Sphere ℝ) : Occupies s.prim s.OnSurface s.Regular
  | box (b : Bbox ℝ) (hb : b.OrderedR) : Occupies b.prim (fun x => b.inside x = true) (fun ray => ∀ i, ray.direction.vec i ≠ 0)
  | moved (p : Primitive ℝ) (R M) (t : Transform ℝ) (ht : t.Reachable) (ha : t.m.Affine) (h : Occupies p R M) :
      Occupies (p.transformed t) (fun x => ∃ y, R y ∧ t.mapPoint y = some x) (fun ray => ∀ obj, t.mapRayInv ray = some obj → M obj)
  | list (l : List (Primitive ℝ × (Point ℝ 3 → Prop) × (Ray ℝ → Prop))) (h : ∀ e ∈ l, Occupies e.1 e.2.1 e.2.2) :
      Occupies (PrimitiveList.prim (l.map (·.1))) (fun x => ∃ e ∈ l, e.2.1 x) (fun ray => ∀ e ∈ l, e.2.2 ray)

/-- The points of the ray. -/
def Covers (ray : Ray ℝ) (x : Point ℝ 3) : Prop := ∃ t, 0 ≤ t ∧ t ≤ ray.tmax ∧ ray.eval t = x

/-- The ray from one point to another: `eval 0` is the one, `eval 1` the other. -/
noncomputable def segment (A B : Point ℝ 3) : Ray ℝ := ⟨A, B - A, 1⟩

/-! ### C141 -/

/-- C141: on every scene, of any depth, `do_intersect` returns (without panic) true exactly when a point of the ray is a point
of the scene. -/
theorem C141_exact (p : Primitive ℝ) (R : Point ℝ 3 → Prop) (M : Ray ℝ → Prop) (h : Occupies p R M) (ray : Ray ℝ) (hm : M ray)
    (h0 : 0 ≤ ray.tmax) : ∃ v, p.doIntersect ray = some v ∧ (v = true ↔ ∃ x, Covers ray x ∧ R x) := by
  induction h generalizing ray with
  | sphere s =>
    refine ⟨_, rfl, ?_⟩
    rw [C58_sphere, C57_complete s ray hm]
    constructor
    · rintro ⟨t, h1, h2, h3⟩; exact ⟨_, ⟨t, h1, h2, rfl⟩, h3⟩
    · rintro ⟨x, ⟨t, h1, h2, rfl⟩, h3⟩; exact ⟨t, h1, h2, h3⟩
  | box b hb =>
    refine ⟨_, rfl, ?_⟩
    change (b.intersectRay ray).isSome = true ↔ _
    rw [C51_some_iff b ray hb hm h0]
    constructor
    · rintro ⟨t, h1, h2, h3⟩; exact ⟨_, ⟨t, h1, h2, rfl⟩, h3⟩
    · rintro ⟨x, ⟨t, h1, h2, rfl⟩, h3⟩; exact ⟨t, h1, h2, h3⟩
  | moved p R M t ht ha _ ih =>
    obtain ⟨obj, ho, hmax, hev⟩ := C42_map_inverse t (C42_affine_inverse t ht ha) ray
    obtain ⟨v, hv, hiff⟩ := ih obj (hm obj ho) (by rw [hmax]; exact h0)
    refine ⟨v, ?_, ?_⟩
    · change (t.mapRayInv ray).bind _ = _
      rw [ho]; exact hv
    · rw [hiff]
      constructor
      · rintro ⟨x, ⟨k, h1, h2, rfl⟩, h3⟩
        exact ⟨ray.eval k, ⟨k, h1, hmax ▸ h2, rfl⟩, _, h3, C35_point' t ht _ _ (hev k)⟩
      · rintro ⟨x, ⟨k, h1, h2, rfl⟩, y, h3, h4⟩
        have h5 := C35_point t ht _ _ h4
        rw [hev k, Option.some.injEq] at h5
        exact ⟨obj.eval k, ⟨k, h1, hmax ▸ h2, rfl⟩, h5 ▸ h3⟩
  | list l _ ih =>
    have hp : ∀ p ∈ l.map (·.1), p.doIntersect ray ≠ none := by
      intro p hp e
      obtain ⟨x, hx, rfl⟩ := List.mem_map.1 hp
      obtain ⟨v, hv, -⟩ := ih x hx ray (hm x hx) h0
      rw [e] at hv; cases hv
    obtain ⟨v, hv, hiff⟩ := C63_doIntersect _ ray hp
    refine ⟨v, hv, hiff.trans ?_⟩
    constructor
    · rintro ⟨p, hp, e⟩
      obtain ⟨y, hy, rfl⟩ := List.mem_map.1 hp
      obtain ⟨v, hv, h'⟩ := ih y hy ray (hm y hy) h0
      rw [e, Option.some.injEq] at hv
      obtain ⟨x, h1, h2⟩ := h'.1 hv.symm
      exact ⟨x, h1, y, hy, h2⟩
    · rintro ⟨x, h1, y, hy, h2⟩
      obtain ⟨v, hv, h'⟩ := ih y hy ray (hm y hy) h0
      exact ⟨y.1, List.mem_map.2 ⟨y, hy, rfl⟩, by rw [hv, h'.2 ⟨x, h1, h2⟩]⟩

/-- C141: a reported hit is at a point of the scene and of the ray. -/
theorem C141_hit (p : Primitive ℝ) (R : Point ℝ 3 → Prop) (M : Ray ℝ → Prop) (h : Occupies p R M) (ray : Ray ℝ) (hm : M ray)
    (h0 : 0 ≤ ray.tmax) (r : IntersectionResult ℝ) (hr : p.intersect ray = some (some r)) :
    R (ray.eval r.tRay) ∧ 0 ≤ r.tRay ∧ r.tRay ≤ ray.tmax := by
  induction h generalizing ray with
  | sphere s =>
    obtain ⟨h1, h2, h3⟩ := (C56_on_sphere s ray hm r (Option.some.inj hr)).1
    exact ⟨h3, h1, h2⟩
  | box b hb =>
    have hr' : b.hit ray = some r := Option.some.inj hr
    unfold Bbox.hit at hr'
    rw [Option.map_eq_some_iff] at hr'
    obtain ⟨⟨t0, t1⟩, hi, rfl⟩ := hr'
    obtain ⟨t, ht⟩ := (C51_some_iff b ray hb hm h0).1 (by rw [hi]; rfl)
    have h1 := (C51_range b ray hb hm t0 t1 hi t).2 ht
    have h2 := (C51_range b ray hb hm t0 t1 hi t0).1 ⟨le_rfl, h1.1.trans h1.2⟩
    exact ⟨h2.2.2, h2.1, h2.2.1⟩
  | moved p R M t ht ha _ ih =>
    obtain ⟨obj, ho, hmax, hev⟩ := C42_map_inverse t (C42_affine_inverse t ht ha) ray
    change (t.mapRayInv ray).bind _ = _ at hr
    rw [ho] at hr
    obtain ⟨h1, h2, h3⟩ := ih obj (hm obj ho) (by rw [hmax]; exact h0) hr
    exact ⟨⟨_, h1, C35_point' t ht _ _ (hev r.tRay)⟩, h2, hmax ▸ h3⟩
  | list l _ ih =>
    obtain ⟨qs, q, rs, e, hq, -⟩ := C64_last_partial _ ray r hr
    obtain ⟨y, hy, rfl⟩ := List.mem_map.1 (e ▸ List.mem_append_right qs (List.mem_cons_self ..) : q ∈ l.map (·.1))
    obtain ⟨h1, h2⟩ := ih y hy ray (hm y hy) h0 hq
    exact ⟨⟨y, hy, h1⟩, h2⟩

/-- C141: whether something is in the way depends on the points of the ray only, not on where it starts, on the length of the
direction or on the way round. -/
theorem C141_points (p : Primitive ℝ) (R : Point ℝ 3 → Prop) (M : Ray ℝ → Prop) (h : Occupies p R M) (r s : Ray ℝ)
    (hr : M r) (hs : M s) (r0 : 0 ≤ r.tmax) (s0 : 0 ≤ s.tmax) (heq : ∀ x, Covers r x ↔ Covers s x) :
    p.doIntersect r = p.doIntersect s := by
  obtain ⟨v, hv, h1⟩ := C141_exact p R M h r hr r0
  obtain ⟨w, hw, h2⟩ := C141_exact p R M h s hs s0
  rw [hv, hw, Option.some.injEq, Bool.eq_iff_iff, h1, h2]
  simp only [heq]

theorem segment_eval (A B : Point ℝ 3) (t : ℝ) (i : _root_.Fin 3) :
    ((segment A B).eval t).vec i = A.vec i + (B.vec i - A.vec i) * t := rfl

theorem segment_reverse (A B : Point ℝ 3) (x : Point ℝ 3) : Covers (segment A B) x → Covers (segment B A) x := by
  rintro ⟨t, h0, h1, rfl⟩
  have h1' : t ≤ 1 := h1
  refine ⟨1 - t, by linarith, by change 1 - t ≤ 1; linarith, ?_⟩
  apply GVec.ext; funext i
  rw [segment_eval, segment_eval]; ring

/-- C141: visibility is symmetric: something is in the way from `A` to `B` exactly if something is in the way from `B` to `A`. -/
theorem C141_symmetric (p : Primitive ℝ) (R : Point ℝ 3 → Prop) (M : Ray ℝ → Prop) (h : Occupies p R M) (A B : Point ℝ 3)
    (h1 : M (segment A B)) (h2 : M (segment B A)) : p.doIntersect (segment A B) = p.doIntersect (segment B A) :=
  C141_points p R M h _ _ h1 h2 (zero_le_one (α := ℝ)) (zero_le_one (α := ℝ))
    fun x => ⟨segment_reverse A B x, segment_reverse B A x⟩

/-- C141: if `B` is seen from `A`, so is every point between. -/
theorem C141_between (p : Primitive ℝ) (R : Point ℝ 3 → Prop) (M : Ray ℝ → Prop) (h : Occupies p R M) (A B C : Point ℝ 3)
    (hC : Covers (segment A B) C) (h1 : M (segment A B)) (h2 : M (segment A C)) (hv : p.doIntersect (segment A B) = some false) :
    p.doIntersect (segment A C) = some false := by
  obtain ⟨v, e1, i1⟩ := C141_exact p R M h _ h1 (zero_le_one (α := ℝ))
  obtain ⟨w, e2, i2⟩ := C141_exact p R M h _ h2 (zero_le_one (α := ℝ))
  rw [hv, Option.some.injEq] at e1
  rw [e2, Option.some.injEq]
  cases w
  · rfl
  · exfalso
    obtain ⟨x, ⟨t, t0, t1, rfl⟩, hR⟩ := i2.1 rfl
    obtain ⟨k, k0, k1, rfl⟩ := hC
    have t1' : t ≤ 1 := t1
    have k1' : k ≤ 1 := k1
    have := i1.2 ⟨_, ⟨k * t, mul_nonneg k0 t0, by change k * t ≤ 1; nlinarith, ?_⟩, hR⟩
    · rw [this] at e1; cases e1
    · apply GVec.ext; funext i
      rw [segment_eval, segment_eval, segment_eval]; ring

/-- C141: two scenes made of the same points agree on every ray both meet regularly, however they are put together. -/
theorem C141_same (p q : Primitive ℝ) (R : Point ℝ 3 → Prop) (M N : Ray ℝ → Prop) (hp : Occupies p R M) (hq : Occupies q R N)
    (ray : Ray ℝ) (h1 : M ray) (h2 : N ray) (h0 : 0 ≤ ray.tmax) : p.doIntersect ray = q.doIntersect ray := by
  obtain ⟨v, hv, i1⟩ := C141_exact p R M hp ray h1 h0
  obtain ⟨w, hw, i2⟩ := C141_exact q R N hq ray h2 h0
  rw [hv, hw, Option.some.injEq, Bool.eq_iff_iff, i1, i2]

/-- On floats visibility is not quite symmetric: seen from `(1, 1.9, 1.4)` the point `(0.4, 0.3, -0.2)` is behind the box, which the
exact segment touches within rounding of an edge; the other way round nothing is in the way. -/
theorem C141_float_refuted : ¬ ∀ (b : Bbox F32) (A B : Point F32 3), b.doIntersect ⟨A, B - A, F32.lit 1⟩ = b.doIntersect ⟨B, A - B, F32.lit 1⟩ := by
  intro h
  let q (n : Nat) : F32 := Flt.ofRat 23 8 false n 10
  have := h ⟨new3 (q 5) (q 8) (q 0), new3 (q 9) (q 10) (q 3)⟩ (new3 (q 10) (q 19) (q 14)) (new3 (q 4) (q 3) (-q 2))
  revert this; decide +kernel

/-- The hypotheses are met: a list of the unit sphere and a box moved by 5 along x, the segment from `(-3, 1, 2)` to `(9, -1, -2)`
through the box and the segment back. -/
example : ∃ (p : Primitive ℝ) (R : Point ℝ 3 → Prop) (M : Ray ℝ → Prop) (A B : Point ℝ 3), Occupies p R M ∧
    M (segment A B) ∧ M (segment B A) ∧ ∃ x, Covers (segment A B) x ∧ R x := by
  let sph : Sphere ℝ := ⟨1, -1, 1, 0, Real.pi, Real.pi⟩
  let b : Bbox ℝ := ⟨new3 (-1) (-1) (-1), new3 1 1 1⟩
  let t : Transform ℝ := .translate (new3 5 0 0)
  have haff : t.minv.Affine := ⟨rfl, rfl, rfl, rfl⟩
  have hdir : ∀ (ray obj : Ray ℝ), t.mapRayInv ray = some obj → obj.direction = ray.direction := by
    intro ray obj h
    unfold Transform.mapRayInv Transform.mapVecInv Transform.mapPointInv at h
    rw [mapVector_affine haff, mapPt_affine haff] at h
    obtain rfl := Option.some.inj h
    apply GVec.ext; funext i
    change (t.minv.lin *ᵥ ray.direction.vec) i = ray.direction.vec i
    have : t.minv.lin = 1 := by
      ext i j
      fin_cases i <;> fin_cases j <;> simp [t, Transform.translate, Mat4.lin, Mat4.mk4]
    rw [this, Matrix.one_mulVec]
  let l : List (Primitive ℝ × (Point ℝ 3 → Prop) × (Ray ℝ → Prop)) := [(sph.prim, sph.OnSurface, sph.Regular),
    (b.prim.transformed t, fun x => ∃ y, b.inside y = true ∧ t.mapPoint y = some x,
      fun ray => ∀ obj, t.mapRayInv ray = some obj → ∀ i, obj.direction.vec i ≠ 0)]
  have hl : ∀ e ∈ l, Occupies e.1 e.2.1 e.2.2 := by
    intro e he
    simp only [l, List.mem_cons, List.not_mem_nil, or_false] at he
    rcases he with rfl | rfl
    · exact .sphere sph
    · refine .moved _ _ _ t (.translate _) ⟨rfl, rfl, rfl, rfl⟩ (.box b fun i => ?_)
      fin_cases i <;> · change (-1 : ℝ) ≤ 1; norm_num
  have hreg : ∀ A B : Point ℝ 3, (∀ i, B.vec i - A.vec i ≠ 0) → A.x ^ 2 + A.y ^ 2 + A.z ^ 2 ≠ 1 →
      ∀ e ∈ l, e.2.2 (segment A B) := by
    intro A B h1 h2 e he
    simp only [l, List.mem_cons, List.not_mem_nil, or_false] at he
    rcases he with rfl | rfl
    · exact ⟨⟨0, h1 0⟩, fun h => h2 (by have := h.2; simpa [sph, segment] using this)⟩
    · intro obj ho i
      rw [hdir _ _ ho]; exact h1 i
  refine ⟨_, _, _, new3 (-3) 1 2, new3 9 (-1) (-2), .list l hl, hreg _ _ ?_ ?_, hreg _ _ ?_ ?_,
    new3 5 (-1 / 3) (-2 / 3), ⟨2 / 3, by norm_num, by change (2 / 3 : ℝ) ≤ 1; norm_num, ?_⟩,
    l[1], List.getElem_mem _, ?_⟩
  · intro i; fin_cases i <;> simp [new3] <;> norm_num
  · simp [new3, x, y, z]; norm_num
  · intro i; fin_cases i <;> simp [new3] <;> norm_num
  · simp [new3, x, y, z]; norm_num
  · apply GVec.ext; funext i
    rw [segment_eval]
    fin_cases i <;> simp [new3] <;> norm_num
  refine ⟨new3 0 (-1 / 3) (-2 / 3), ?_, ?_⟩
  · rw [inside_iff]; intro i
    fin_cases i <;> simp [b, new3] <;> norm_num
  · change mapPt t.m _ = _
    rw [mapPt_affine (m := t.m) ⟨rfl, rfl, rfl, rfl⟩]
    have h1 : t.m.lin = 1 := by
      ext i j
      fin_cases i <;> fin_cases j <;> simp [t, Transform.translate, Mat4.lin, Mat4.mk4]
    congr 1
    apply GVec.ext; funext i
    rw [h1, Matrix.one_mulVec]
    fin_cases i <;> simp [t, Transform.translate, Mat4.trans, Mat4.mk4, new3, x, y, z]

end Scarlet
