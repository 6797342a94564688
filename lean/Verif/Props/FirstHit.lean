import Verif.Props.Visibility

/-! C142: the hit reported for an object is the first point of the ray on it, and in a list the first point can be found with
`do_intersect`. -/

set_option linter.unusedSectionVars false

namespace Scarlet
open GVec Matrix

/-! ### Specification -/

/-- `Occupies` without lists: a sphere or a box, moved any number of times. -/
inductive OccupiesOne : Primitive ℝ → (Point ℝ 3 → Prop) → (Ray ℝ → Prop) → Prop
  | sphere (s : Sphere ℝ) : OccupiesOne s.prim s.OnSurface s.Regular
  | box (b : Bbox ℝ) (hb : b.OrderedR) : OccupiesOne b.prim (fun x => b.inside x = true) (fun ray => ∀ i, ray.direction.vec i ≠ 0)
  | moved (p : Primitive ℝ) (R M) (t : Transform ℝ) (ht : t.Reachable) (ha : t.m.Affine) (h : OccupiesOne p R M) :
      OccupiesOne (p.transformed t) (fun x => ∃ y, R y ∧ t.mapPoint y = some x) (fun ray => ∀ obj, t.mapRayInv ray = some obj → M obj)

/-- The parameters at which the ray is in the set. -/
def MeetsAt (ray : Ray ℝ) (R : Point ℝ 3 → Prop) : Set ℝ := {t | 0 ≤ t ∧ t ≤ ray.tmax ∧ R (ray.eval t)}

/-- The ray cut off (or continued) at `s`. -/
def Ray.upTo (ray : Ray ℝ) (s : ℝ) : Ray ℝ := { ray with tmax := s }

theorem OccupiesOne.occupies {p : Primitive ℝ} {R : Point ℝ 3 → Prop} {M : Ray ℝ → Prop} (h : OccupiesOne p R M) : Occupies p R M := by
  induction h with
  | sphere s => exact .sphere s
  | box b hb => exact .box b hb
  | moved p R M t ht ha _ ih => exact .moved p R M t ht ha ih

/-! ### C142 -/

/-- C142: on a single object, moved any number of times, `intersect` does not panic; it returns `None` exactly when the ray does
not meet the object, and otherwise the least parameter at which it does. -/
theorem C142_first (p : Primitive ℝ) (R : Point ℝ 3 → Prop) (M : Ray ℝ → Prop) (h : OccupiesOne p R M) (ray : Ray ℝ) (hm : M ray)
    (h0 : 0 ≤ ray.tmax) : ∃ o, p.intersect ray = some o ∧ (o = none → MeetsAt ray R = ∅) ∧
      ∀ r, o = some r → IsLeast (MeetsAt ray R) r.tRay := by
  induction h generalizing ray with
  | sphere s =>
    refine ⟨_, rfl, fun hn => ?_, fun r hr => ⟨?_, ?_⟩⟩
    · ext t; refine ⟨fun ht => ?_, False.elim⟩
      have := (C57_complete s ray hm).2 ⟨t, ht⟩
      rw [hn] at this; cases this
    · exact (C56_on_sphere s ray hm r hr).1
    · intro t ht; exact C57_first s ray hm r hr t ht
  | box b hb =>
    refine ⟨_, rfl, fun hn => ?_, fun r hr => ?_⟩
    · ext t; refine ⟨fun ht => ?_, False.elim⟩
      have := (C51_some_iff b ray hb hm h0).2 ⟨t, ht⟩
      unfold Bbox.hit at hn
      rw [Option.map_eq_none_iff] at hn
      rw [hn] at this; cases this
    · unfold Bbox.hit at hr
      rw [Option.map_eq_some_iff] at hr
      obtain ⟨⟨t0, t1⟩, hi, rfl⟩ := hr
      obtain ⟨t, ht⟩ := (C51_some_iff b ray hb hm h0).1 (by rw [hi]; rfl)
      have h1 := (C51_range b ray hb hm t0 t1 hi t).2 ht
      have h2 := (C51_range b ray hb hm t0 t1 hi t0).1 ⟨le_rfl, h1.1.trans h1.2⟩
      exact ⟨h2, fun t ht => ((C51_range b ray hb hm t0 t1 hi t).2 ht).1⟩
  | moved p R M t ht ha _ ih =>
    obtain ⟨obj, ho, hmax, hev⟩ := C42_map_inverse t (C42_affine_inverse t ht ha) ray
    obtain ⟨o, e, hn, hs⟩ := ih obj (hm obj ho) (by rw [hmax]; exact h0)
    have hset : MeetsAt ray (fun x => ∃ y, R y ∧ t.mapPoint y = some x) = MeetsAt obj R := by
      ext k
      refine ⟨fun ⟨h1, h2, y, h3, h4⟩ => ⟨h1, hmax ▸ h2, ?_⟩, fun ⟨h1, h2, h3⟩ => ⟨h1, hmax ▸ h2, _, h3, C35_point' t ht _ _ (hev k)⟩⟩
      have h5 := C35_point t ht _ _ h4
      rw [hev k, Option.some.injEq] at h5
      exact h5 ▸ h3
    refine ⟨o, ?_, ?_, ?_⟩
    · change (t.mapRayInv ray).bind _ = _
      rw [ho]; exact e
    · rw [hset]; exact hn
    · rw [hset]; exact hs

/-- C142: so the parameter of the hit depends on the set of points only: two objects made of the same points are hit at the same
parameter, or both missed. -/
theorem C142_same (p q : Primitive ℝ) (R : Point ℝ 3 → Prop) (M N : Ray ℝ → Prop) (hp : OccupiesOne p R M) (hq : OccupiesOne q R N)
    (ray : Ray ℝ) (h1 : M ray) (h2 : N ray) (h0 : 0 ≤ ray.tmax) :
    (p.intersect ray).map (Option.map (·.tRay)) = (q.intersect ray).map (Option.map (·.tRay)) := by
  obtain ⟨o, e1, n1, s1⟩ := C142_first p R M hp ray h1 h0
  obtain ⟨o', e2, n2, s2⟩ := C142_first q R N hq ray h2 h0
  rw [e1, e2]
  cases o with
  | none =>
    cases o' with
    | none => rfl
    | some r => exact absurd (n1 rfl) (Set.nonempty_iff_ne_empty.1 ⟨_, (s2 r rfl).1⟩)
  | some r =>
    cases o' with
    | none => exact absurd (n2 rfl) (Set.nonempty_iff_ne_empty.1 ⟨_, (s1 r rfl).1⟩)
    | some r' => simp only [Option.map_some, (s1 r rfl).unique (s2 r' rfl)]

/-- Where a ray ends plays no part in whether it is regular. -/
theorem Occupies.regular_upTo {p : Primitive ℝ} {R : Point ℝ 3 → Prop} {M : Ray ℝ → Prop} (h : Occupies p R M) (ray : Ray ℝ) (s : ℝ)
    (hm : M ray) : M (ray.upTo s) := by
  induction h generalizing ray with
  | sphere q => exact hm
  | box b hb => exact hm
  | moved p R M t ht ha _ ih =>
    intro obj ho
    obtain ⟨obj', ho', hmax, hev⟩ := C42_map_inverse t (C42_affine_inverse t ht ha) ray
    have : t.mapRayInv (ray.upTo s) = some (obj'.upTo s) := by
      unfold Transform.mapRayInv at ho' ⊢
      cases h1 : t.mapPointInv ray.origin <;> cases h2 : t.mapVecInv ray.direction <;>
        simp_all [Ray.upTo, Option.bind, bind] <;> simp [← ho']
    rw [ho, Option.some.injEq] at this
    rw [this]; exact ih obj' (hm obj' ho')
  | list l _ ih => exact fun e he => ih e he ray (hm e he)

theorem upTo_eval (ray : Ray ℝ) (s t : ℝ) : (ray.upTo s).eval t = ray.eval t := rfl

/-- A ray that meets a scene has a first point on it. -/
theorem Occupies.least {p : Primitive ℝ} {R : Point ℝ 3 → Prop} {M : Ray ℝ → Prop} (h : Occupies p R M) (ray : Ray ℝ)
    (hm : M ray) (h0 : 0 ≤ ray.tmax) (hne : (MeetsAt ray R).Nonempty) : ∃ t, IsLeast (MeetsAt ray R) t := by
  induction h generalizing ray with
  | sphere s =>
    obtain ⟨o, -, n, g⟩ := C142_first _ _ _ (.sphere s) ray hm h0
    cases o with
    | none => exact absurd (n rfl) hne.ne_empty
    | some r => exact ⟨_, g r rfl⟩
  | box b hb =>
    obtain ⟨o, -, n, g⟩ := C142_first _ _ _ (.box b hb) ray hm h0
    cases o with
    | none => exact absurd (n rfl) hne.ne_empty
    | some r => exact ⟨_, g r rfl⟩
  | moved p R M t ht ha _ ih =>
    obtain ⟨obj, ho, hmax, hev⟩ := C42_map_inverse t (C42_affine_inverse t ht ha) ray
    have hset : MeetsAt ray (fun x => ∃ y, R y ∧ t.mapPoint y = some x) = MeetsAt obj R := by
      ext k
      refine ⟨fun ⟨h1, h2, y, h3, h4⟩ => ⟨h1, hmax ▸ h2, ?_⟩, fun ⟨h1, h2, h3⟩ => ⟨h1, hmax ▸ h2, _, h3, C35_point' t ht _ _ (hev k)⟩⟩
      have h5 := C35_point t ht _ _ h4
      rw [hev k, Option.some.injEq] at h5
      exact h5 ▸ h3
    rw [hset] at hne ⊢
    exact ih obj (hm obj ho) (by rw [hmax]; exact h0) hne
  | list l hl ih =>
    clear hl
    induction l with
    | nil => obtain ⟨t, -, -, e, he, -⟩ := hne; cases he
    | cons e l ihl =>
      have hset : MeetsAt ray (fun x => ∃ y ∈ e :: l, y.2.1 x) = MeetsAt ray e.2.1 ∪ MeetsAt ray (fun x => ∃ y ∈ l, y.2.1 x) := by
        ext t; simp [MeetsAt, and_or_left]
      rw [hset] at hne ⊢
      have ih1 := ih e (List.mem_cons_self ..) ray (hm e (List.mem_cons_self ..)) h0
      have ih2 := ihl (fun y hy => ih y (List.mem_cons_of_mem _ hy)) (fun y hy => hm y (List.mem_cons_of_mem _ hy))
      rcases (MeetsAt ray e.2.1).eq_empty_or_nonempty with h1 | h1
      · rw [h1, Set.empty_union] at hne ⊢; exact ih2 hne
      · obtain ⟨a, ha⟩ := ih1 h1
        rcases (MeetsAt ray (fun x => ∃ y ∈ l, y.2.1 x)).eq_empty_or_nonempty with h2 | h2
        · rw [h2, Set.union_empty]; exact ⟨a, ha⟩
        · obtain ⟨b, hb⟩ := ih2 h2
          exact ⟨_, ha.union hb⟩

/-- C142: in a scene with lists, where `intersect` may report a later hit (C64), the first one can still be found by asking
`do_intersect` about shorter rays: it exists, it is a point of the scene, and a shorter ray is blocked exactly when it reaches there. -/
theorem C142_shorten (p : Primitive ℝ) (R : Point ℝ 3 → Prop) (M : Ray ℝ → Prop) (h : Occupies p R M) (ray : Ray ℝ) (hm : M ray)
    (h0 : 0 ≤ ray.tmax) (hit : p.doIntersect ray = some true) :
    ∃ t, IsLeast (MeetsAt ray R) t ∧ ∀ s, 0 ≤ s → s ≤ ray.tmax → ∃ v, p.doIntersect (ray.upTo s) = some v ∧ (v = true ↔ t ≤ s) := by
  obtain ⟨v, e, hv⟩ := C141_exact p R M h ray hm h0
  rw [hit, Option.some.injEq] at e
  obtain ⟨x, ⟨t, h1, h2, rfl⟩, hR⟩ := hv.1 e.symm
  obtain ⟨k, hk⟩ := h.least ray hm h0 ⟨t, h1, h2, hR⟩
  refine ⟨k, hk, fun s s0 s1 => ?_⟩
  obtain ⟨w, e, hw⟩ := C141_exact p R M h (ray.upTo s) (h.regular_upTo ray s hm) s0
  refine ⟨w, e, hw.trans ⟨?_, fun h => ?_⟩⟩
  · rintro ⟨x, ⟨u, u0, u1, rfl⟩, hR⟩
    exact (hk.2 ⟨u0, le_trans u1 s1, hR⟩).trans u1
  · exact ⟨_, ⟨k, hk.1.1, h, rfl⟩, hk.1.2.2⟩

/-- C142: what `intersect` reports in a scene with lists is never nearer than the first point. -/
theorem C142_list (p : Primitive ℝ) (R : Point ℝ 3 → Prop) (M : Ray ℝ → Prop) (h : Occupies p R M) (ray : Ray ℝ) (hm : M ray)
    (h0 : 0 ≤ ray.tmax) (r : IntersectionResult ℝ) (hr : p.intersect ray = some (some r)) :
    ∃ t, IsLeast (MeetsAt ray R) t ∧ t ≤ r.tRay := by
  obtain ⟨h1, h2, h3⟩ := C141_hit p R M h ray hm h0 r hr
  obtain ⟨k, hk⟩ := h.least ray hm h0 ⟨_, h2, h3, h1⟩
  exact ⟨k, hk, hk.2 ⟨h2, h3, h1⟩⟩

/-- The hypotheses are met: a box moved by 5 along x and the ray from `(-3, 1, 2)` to `(9, -1, -2)` through it. -/
example : ∃ (p : Primitive ℝ) (R : Point ℝ 3 → Prop) (M : Ray ℝ → Prop) (ray : Ray ℝ), OccupiesOne p R M ∧ M ray ∧ 0 ≤ ray.tmax ∧
    (MeetsAt ray R).Nonempty := by
  let b : Bbox ℝ := ⟨new3 (-1) (-1) (-1), new3 1 1 1⟩
  let t : Transform ℝ := .translate (new3 5 0 0)
  have haff : t.minv.Affine := ⟨rfl, rfl, rfl, rfl⟩
  have hdir : ∀ (ray obj : Ray ℝ), t.mapRayInv ray = some obj → obj.direction = ray.direction := by
    intro ray obj h
    unfold Transform.mapRayInv Transform.mapVecInv Transform.mapPointInv at h
    rw [mapVector_affine haff, mapPt_affine haff] at h
    obtain rfl := Option.some.inj h
    apply GVec.ext; funext i
    change (t.minv.lin *ᵥ ray.direction.vec) i = ray.direction.vec i
    have : t.minv.lin = 1 := by
      ext i j
      fin_cases i <;> fin_cases j <;> simp [t, Transform.translate, Mat4.lin, Mat4.mk4]
    rw [this, Matrix.one_mulVec]
  refine ⟨_, _, _, ⟨new3 (-3) 1 2, new3 12 (-2) (-4), 1⟩,
    .moved b.prim _ _ t (.translate _) ⟨rfl, rfl, rfl, rfl⟩ (.box b fun i => ?_), ?_, by norm_num, 2 / 3, by norm_num, by norm_num,
    new3 0 (-1 / 3) (-2 / 3), ?_, ?_⟩
  · fin_cases i <;> · change (-1 : ℝ) ≤ 1; norm_num
  · intro obj ho i
    rw [hdir _ _ ho]
    fin_cases i <;> norm_num [new3]
  · rw [inside_iff]
    intro i
    fin_cases i <;> norm_num [b, new3]
  · change mapPt t.m _ = _
    rw [mapPt_affine (m := t.m) ⟨rfl, rfl, rfl, rfl⟩]
    have h1 : t.m.lin = 1 := by
      ext i j
      fin_cases i <;> fin_cases j <;> simp [t, Transform.translate, Mat4.lin, Mat4.mk4]
    congr 1
    apply GVec.ext; funext i
    rw [h1, Matrix.one_mulVec]
    fin_cases i <;> simp [t, Transform.translate, Mat4.trans, Mat4.mk4, new3, Ray.eval, x, y, z] <;> norm_num

end Scarlet
