import Verif.Props.Cull
import Verif.Props.Contain

/-! C158: a bounding volume hierarchy over the scene, written against the API, gives the same picture. -/

set_option linter.unusedSectionVars false

namespace Scarlet
open GVec

/-! ### Specification -/

section
variable {T : Type} [Add T] [Sub T] [Mul T] [Div T] [Neg T] [Scalar T] [Inherent T] [GFloat T]

/-- A node of a bounding volume hierarchy as a user of the library writes it (an `impl Primitive` outside of the library): the box `b`
is tested first, and the content `p` is asked only if the ray meets `b`. -/
def Primitive.guardedBy (p : Primitive T) (b : Bbox T) : Primitive T where
  bbox := b
  intersect ray := if b.doIntersect ray then p.intersect ray else some none
  doIntersect ray := if b.doIntersect ray then p.doIntersect ray else some false
end

/-- `q` is the scene `p` with nodes put around any parts of it, at any depth, repeatedly.  The box of a node contains the `bbox()` of its
content and may be larger; transforms act on each axis on its own (C41) and no ray runs parallel to a face of a node. -/
inductive Hier : Primitive ℝ → Primitive ℝ → Ray ℝ → Prop
  | leaf (p) (ray) (h : p.RegularOn ray) : Hier p p ray
  | node (p q) (b : Bbox ℝ) (ray) (h : Hier p q ray) (hd : ∀ i, ray.direction.vec i ≠ 0)
      (hb : ∀ x, q.bbox.inside x = true → b.inside x = true) : Hier p (q.guardedBy b) ray
  | moved (p q) (t : Transform ℝ) (ray obj) (ht : t.Reachable) (ha : t.m.Affine)
      (hd : ∀ i j : _root_.Fin 3, i ≠ j → t.m.data i.castSucc j.castSucc = 0) (ho : t.mapRayInv ray = some obj)
      (h : Hier p q obj) : Hier (p.transformed t) (q.transformed t) ray
  | list (l : List (Primitive ℝ × Primitive ℝ)) (ray) (h : ∀ e ∈ l, Hier e.1 e.2 ray) :
      Hier (PrimitiveList.prim (l.map (·.1))) (PrimitiveList.prim (l.map (·.2))) ray

/-! ### lists -/

section
variable {T : Type} [Scalar T] [Inherent T]

theorem list_congr_intersect (l : List (Primitive T × Primitive T)) (ray : Ray T) (h : ∀ e ∈ l, e.2.intersect ray = e.1.intersect ray) :
    (PrimitiveList.prim (l.map (·.2))).intersect ray = (PrimitiveList.prim (l.map (·.1))).intersect ray := by
  change PrimitiveList.intersectLoop ray _ none ray = PrimitiveList.intersectLoop ray _ none ray
  have : ∀ res rm, PrimitiveList.intersectLoop ray (l.map (·.2)) res rm = PrimitiveList.intersectLoop ray (l.map (·.1)) res rm := by
    induction l with
    | nil => intro res rm; rfl
    | cons e l ih =>
      intro res rm
      have ih' := ih fun e he => h e (List.mem_cons_of_mem _ he)
      rw [List.map_cons, List.map_cons]
      unfold PrimitiveList.intersectLoop
      rw [h e (List.mem_cons_self ..)]
      simp only [ih']
  exact this _ _

theorem list_congr_doIntersect (l : List (Primitive T × Primitive T)) (ray : Ray T) (h : ∀ e ∈ l, e.2.doIntersect ray = e.1.doIntersect ray) :
    (PrimitiveList.prim (l.map (·.2))).doIntersect ray = (PrimitiveList.prim (l.map (·.1))).doIntersect ray := by
  change PrimitiveList.doIntersectLoop ray _ = PrimitiveList.doIntersectLoop ray _
  induction l with
  | nil => rfl
  | cons e l ih =>
    have ih' := ih fun e he => h e (List.mem_cons_of_mem _ he)
    rw [List.map_cons, List.map_cons]
    unfold PrimitiveList.doIntersectLoop
    rw [h e (List.mem_cons_self ..), ih']
end

/-! ### exact arithmetic -/

theorem Hier.regular {p q : Primitive ℝ} {ray : Ray ℝ} (h : Hier p q ray) : p.RegularOn ray := by
  induction h with
  | leaf p ray h => exact h
  | node p q b ray _ hd hb ih => exact ih
  | moved p q t ray obj ht ha hd ho _ ih => exact .transformed p t ray obj ht ha hd ho ih
  | list l ray _ ih =>
    refine .list _ ray fun p hp => ?_
    obtain ⟨e, he, rfl⟩ := List.mem_map.1 hp
    exact ih e he

/-- every hit of the scene is in the box of the hierarchy -/
theorem Hier.inside {p q : Primitive ℝ} {ray : Ray ℝ} (h : Hier p q ray) (r : IntersectionResult ℝ)
    (hr : p.intersect ray = some (some r)) : q.bbox.inside (ray.eval r.tRay) = true := by
  induction h generalizing r with
  | leaf p ray h => exact C100_scene_partial p ray h r hr
  | node p q b ray _ hd hb ih => exact hb _ (ih r hr)
  | moved p q t ray obj ht ha hd ho _ ih =>
    have hr' : p.intersect obj = some (some r) := by
      change (t.mapRayInv ray).bind _ = _ at hr
      rw [ho] at hr; exact hr
    have h1 := ih r hr'
    obtain ⟨s, e1, -, e2⟩ := C42_map_inverse t (C42_affine_inverse t ht ha) ray
    rw [ho, Option.some.injEq] at e1
    subst e1
    obtain ⟨w, h3, h4⟩ := C41_bbox_partial t ha hd q.bbox _ h1
    rw [C35_point' t ht _ _ (e2 r.tRay), Option.some.injEq] at h3
    rw [h3]; exact h4
  | list l ray _ ih =>
    obtain ⟨qs, q, rs, eq, h1, -⟩ := C64_last_partial _ ray r hr
    have hq : q ∈ l.map (·.1) := by rw [eq]; simp
    obtain ⟨e, he, rfl⟩ := List.mem_map.1 hq
    exact list_inside _ e.2 (List.mem_map.2 ⟨e, he, rfl⟩) _ (ih e he r h1)

/-- C158: in exact arithmetic the hierarchy answers exactly what the scene does: the same hit, parameter and surface data included, and
the same for shadow rays. -/
theorem C158_same (p q : Primitive ℝ) (ray : Ray ℝ) (h : Hier p q ray) (h0 : 0 ≤ ray.tmax) :
    q.intersect ray = p.intersect ray ∧ q.doIntersect ray = p.doIntersect ray := by
  induction h with
  | leaf p ray h => exact ⟨rfl, rfl⟩
  | node p q b ray h hd hb ih =>
    obtain ⟨i1, i2⟩ := ih h0
    change (if b.doIntersect ray then q.intersect ray else some none) = _ ∧ (if b.doIntersect ray then q.doIntersect ray else some false) = _
    by_cases hc : b.doIntersect ray = true
    · rw [if_pos hc, if_pos hc]; exact ⟨i1, i2⟩
    · rw [if_neg hc, if_neg hc]
      obtain ⟨r, hr⟩ := regular_returns h.regular
      cases r with
      | none => exact ⟨hr.symm, (C58_agrees _ (fun _ h => h.elim) p (regular_scene h.regular) ray none hr).symm⟩
      | some r =>
        exfalso
        have hin := hb _ (h.inside r hr)
        obtain ⟨s0, s1⟩ := regular_segment h.regular h0 r hr
        exact hc ((C51_some_iff b ray (fun i => (inside_iff.1 hin i).1.trans (inside_iff.1 hin i).2) hd h0).2 ⟨_, s0, s1, hin⟩)
  | moved p q t ray obj ht ha hd ho h ih =>
    obtain ⟨s, e1, e2, -⟩ := C42_map_inverse t (C42_affine_inverse t ht ha) ray
    rw [ho, Option.some.injEq] at e1
    subst e1
    obtain ⟨i1, i2⟩ := ih (by rw [e2]; exact h0)
    constructor
    · change (t.mapRayInv ray).bind _ = (t.mapRayInv ray).bind _
      rw [ho]; exact i1
    · change (t.mapRayInv ray).bind _ = (t.mapRayInv ray).bind _
      rw [ho]; exact i2
  | list l ray _ ih => exact ⟨list_congr_intersect l ray fun e he => (ih e he h0).1, list_congr_doIntersect l ray fun e he => (ih e he h0).2⟩

/-- C158 without the restrictions on transforms is false of the code: the node around a rotated hemisphere, with its own `bbox()`, loses
hits (C115). -/
theorem C158_rotated_refuted : ¬ ∀ (p : Primitive ℝ) (ray : Ray ℝ), p.MetOn ray → 0 ≤ ray.tmax → (∀ i, ray.direction.vec i ≠ 0) →
    (p.guardedBy p.bbox).intersect ray = p.intersect ray := by
  intro H
  refine C115_rotated_refuted fun p ray hp h0 hd hn => ?_
  rw [← H p ray hp h0 hd]
  change (if (p.bbox.intersectRay ray).isSome then _ else _) = _
  rw [hn]; rfl

/-! ### floats -/

section floats
open Flt Contain
variable {mw ew : Nat} [FltImpl mw ew] [LawfulFlt mw ew] [Libm mw ew]

/-- `b` clears the box of the sphere on all sides by the margins of C115, at every hit of the ray; nothing over- or underflows. -/
def GrownAround (s : Sphere (Flt mw ew)) (b : Bbox (Flt mw ew)) (ray : Ray (Flt mw ew)) : Prop :=
  SphereRegular s ray ∧ s.radius.isFin = true ∧ etaRnd mw ew ≤ uRnd mw * s.radius.toReal ∧ (s.zMin.isFin = true ∧ s.zMax.isFin = true) ∧
  SlabFinite b ray ∧
  (∀ t0 t1, solveQuadratic ray.direction.squareNorm ((GVec.conv .vector ray.origin).dot ray.direction * GFloat.fromI64 2)
    ((GVec.conv .vector ray.origin).squareNorm - Scalar.square s.radius) = some (t0, t1) → t0.isFin = true ∧ t1.isFin = true) ∧
  ∀ h, s.intersectRay ray = some h → etaRnd mw ew ≤ uRnd mw * |h.tRay.toReal| ∧
    ∀ i, (b.pmin.vec i).toReal + slabMargin b ray i + cullDelta s ray h.tRay.toReal ≤ (s.bbox.pmin.vec i).toReal ∧
      (s.bbox.pmax.vec i).toReal + slabMargin b ray i + cullDelta s ray h.tRay.toReal ≤ (b.pmax.vec i).toReal

/-- The same on floats, for lists of finite boxes and of spheres in nodes that clear them by the margins of C115.  The box of any other
node is finite and contains the `bbox()` of its content, without margin, and the ray does not run within its lower face (C140). -/
inductive HierF : Primitive (Flt mw ew) → Primitive (Flt mw ew) → Ray (Flt mw ew) → Prop
  | leaf (b : Bbox (Flt mw ew)) (ray) (hne : ∃ p, b.inside p = true) (hb : b.pmin.Fin ∧ b.pmax.Fin) : HierF b.prim b.prim ray
  | sphere (s : Sphere (Flt mw ew)) (b : Bbox (Flt mw ew)) (ray) (hs : GrownAround s b ray) (hne : ∃ p, b.inside p = true)
      (hb : b.pmin.Fin ∧ b.pmax.Fin) : HierF s.prim (s.prim.guardedBy b) ray
  | node (p q) (b : Bbox (Flt mw ew)) (ray) (h : HierF p q ray) (hb : b.pmin.Fin ∧ b.pmax.Fin)
      (hf : ∀ i, (ray.direction.vec i).toReal = 0 → (ray.origin.vec i).toReal ≠ (b.pmin.vec i).toReal)
      (hin : ∀ x, q.bbox.inside x = true → b.inside x = true) : HierF p (q.guardedBy b) ray
  | list (l : List (Primitive (Flt mw ew) × Primitive (Flt mw ew))) (ray) (h : ∀ e ∈ l, HierF e.1 e.2 ray) :
      HierF (PrimitiveList.prim (l.map (·.1))) (PrimitiveList.prim (l.map (·.2))) ray

theorem HierF.scene {p q : Primitive (Flt mw ew)} {ray : Ray (Flt mw ew)} (h : HierF p q ray) : Primitive.Scene (fun _ => False) p := by
  induction h with
  | leaf b ray hne hb => exact .bbox b
  | sphere s b ray hs hne hb => exact .sphere s
  | node p q b ray _ hb hf hin ih => exact ih
  | list l ray _ ih =>
    refine .list _ fun p hp => ?_
    obtain ⟨e, he, rfl⟩ := List.mem_map.1 hp
    exact ih e he

theorem HierF.returns {p q : Primitive (Flt mw ew)} {ray : Ray (Flt mw ew)} (h : HierF p q ray) : ∃ r, p.intersect ray = some r := by
  induction h with
  | leaf b ray hne hb => exact ⟨_, rfl⟩
  | sphere s b ray hs hne hb => exact ⟨_, rfl⟩
  | node p q b ray _ hb hf hin ih => exact ih
  | list l ray _ ih =>
    change ∃ r, PrimitiveList.intersectLoop ray (l.map (·.1)) none ray = some r
    have : ∀ (res : Option (IntersectionResult (Flt mw ew))) (rm : Ray (Flt mw ew)),
        ∃ r, PrimitiveList.intersectLoop ray (l.map (·.1)) res rm = some r := by
      clear * - ih
      induction l with
      | nil => exact fun res rm => ⟨res, rfl⟩
      | cons q qs ihq =>
        intro res rm
        obtain ⟨r, hr⟩ := ih q (by simp)
        have ih' := ihq (fun p hp => ih p (by simp [hp]))
        rw [List.map_cons]
        unfold PrimitiveList.intersectLoop
        rw [hr]
        cases r with
        | none => exact ih' _ _
        | some ir => exact ih' _ _
    exact this _ _

/-- where the scene is hit there is a box in the hierarchy that is -/
theorem HierF.leafBox (hm : 9 ≤ mw) (hw : mw + 3 ≤ 2 ^ (ew - 1)) {p q : Primitive (Flt mw ew)} {ray : Ray (Flt mw ew)} (h : HierF p q ray)
    (r : IntersectionResult (Flt mw ew)) (hr : p.intersect ray = some (some r)) :
    ∃ a : Bbox (Flt mw ew), (∃ p, a.inside p = true) ∧ (a.pmin.Fin ∧ a.pmax.Fin) ∧
      (∀ x, a.inside x = true → q.bbox.inside x = true) ∧ (a.intersectRay ray).isSome = true := by
  induction h generalizing r with
  | leaf b ray hne hb =>
    refine ⟨b, hne, hb, fun _ h => h, ?_⟩
    have hh : b.hit ray = some r := Option.some.inj hr
    unfold Bbox.hit at hh
    rw [Option.map_eq_some_iff] at hh
    obtain ⟨_, hs, -⟩ := hh
    rw [hs]; rfl
  | sphere s b ray hs hne hb =>
    have hh : (s.intersectRay ray).map s.interaction = some r := Option.some.inj hr
    rw [Option.map_eq_some_iff] at hh
    obtain ⟨h, hh, -⟩ := hh
    obtain ⟨h1, h2, h3, h4, h5, h6, h7⟩ := hs
    exact ⟨b, hne, hb, fun _ h => h, C115_grown_partial hm hw s ray h hh h1 h6 (h7 h hh).1 h2 h3 h4 b h5 (h7 h hh).2⟩
  | node p q b ray _ hb hf hin ih =>
    obtain ⟨a, h1, h2, h3, h4⟩ := ih r hr
    exact ⟨a, h1, h2, fun x hx => hin x (h3 x hx), h4⟩
  | list l ray _ ih =>
    obtain ⟨qs, q, rs, eq, hq, -⟩ := C64_last_partial _ ray r hr
    have hm : q ∈ l.map (·.1) := by rw [eq]; simp
    obtain ⟨e, he, rfl⟩ := List.mem_map.1 hm
    obtain ⟨a, h1, h2, h3, h4⟩ := ih e he r hq
    exact ⟨a, h1, h2, fun x hx => C65_contains _ e.2 (List.mem_map.2 ⟨e, he, rfl⟩) x (h3 x hx), h4⟩

/-- C158: on floats a hierarchy over lists of boxes and spheres answers exactly what the scene does; margins are needed around the
spheres only. -/
theorem C158_floats (hm : 9 ≤ mw) (hw : mw + 3 ≤ 2 ^ (ew - 1)) (p q : Primitive (Flt mw ew)) (ray : Ray (Flt mw ew)) (h : HierF p q ray)
    (ho : ray.origin.Fin) (hd : ray.direction.Fin) (ht : ray.tmax.isNaN = false) :
    q.intersect ray = p.intersect ray ∧ q.doIntersect ray = p.doIntersect ray := by
  have guard : ∀ (p q : Primitive (Flt mw ew)) (b : Bbox (Flt mw ew)) (ray : Ray (Flt mw ew)) (_ : ∃ r, p.intersect ray = some r)
      (_ : Primitive.Scene (fun _ => False) p) (_ : q.intersect ray = p.intersect ray ∧ q.doIntersect ray = p.doIntersect ray)
      (_ : ∀ r, p.intersect ray = some (some r) → (b.intersectRay ray).isSome = true),
      (q.guardedBy b).intersect ray = p.intersect ray ∧ (q.guardedBy b).doIntersect ray = p.doIntersect ray := by
    intro p q b ray h1 h2 h3 h4
    change (if b.doIntersect ray then q.intersect ray else some none) = _ ∧ (if b.doIntersect ray then q.doIntersect ray else some false) = _
    by_cases hc : b.doIntersect ray = true
    · rw [if_pos hc, if_pos hc]; exact h3
    · rw [if_neg hc, if_neg hc]
      obtain ⟨r, hr⟩ := h1
      cases r with
      | none => exact ⟨hr.symm, (C58_agrees _ (fun _ h => h.elim) p h2 ray none hr).symm⟩
      | some r => exact absurd (h4 r hr) hc
  induction h with
  | leaf b ray hne hb => exact ⟨rfl, rfl⟩
  | sphere s b ray hs hne hb =>
    refine guard _ _ b ray ⟨_, rfl⟩ (.sphere s) ⟨rfl, rfl⟩ fun r hr => ?_
    have hh : (s.intersectRay ray).map s.interaction = some r := Option.some.inj hr
    rw [Option.map_eq_some_iff] at hh
    obtain ⟨h, hh, -⟩ := hh
    obtain ⟨h1, h2, h3, h4, h5, h6, h7⟩ := hs
    exact C115_grown_partial hm hw s ray h hh h1 h6 (h7 h hh).1 h2 h3 h4 b h5 (h7 h hh).2
  | node p q b ray h hb hf hin ih =>
    refine guard p q b ray h.returns h.scene (ih ho hd ht) fun r hr => ?_
    obtain ⟨a, hne, ha, hab, hh⟩ := h.leafBox hm hw r hr
    obtain ⟨⟨s0, s1⟩, hs⟩ := Option.isSome_iff_exists.1 hh
    obtain ⟨t0, t1, he, -, -⟩ := C140_hit a b ray hne (fun x hx => hin x (hab x hx)) ha hb ho hd ht
      (fun i hi => hf i hi.1 hi.2.1) s0 s1 hs
    rw [he]; rfl
  | list l ray _ ih =>
    exact ⟨list_congr_intersect l ray fun e he => (ih e he ho hd ht).1, list_congr_doIntersect l ray fun e he => (ih e he ho hd ht).2⟩

end floats

/-- C158 without margins around spheres is false of the code on `f32`: the node around the unit sphere, with its own `bbox()`, loses a
grazing hit (C115). -/
theorem C158_graze_refuted [Libm 23 8] (ha : Atan2Lawful) : ∃ s : Sphere F32,
    Sphere.new (F32.lit 1) (-F32.lit 1) (F32.lit 1) GFloat.pi = some s ∧
    s.prim.doIntersect grazeRay = some true ∧ (s.prim.guardedBy s.bbox).doIntersect grazeRay = some false := by
  obtain ⟨s, h1, -, h2, h3⟩ := C115_graze_refuted ha
  refine ⟨s, h1, congrArg some h2, ?_⟩
  change (if (s.bbox.intersectRay grazeRay).isSome then _ else _) = _
  rw [h3]; rfl

/-! ### concrete cases -/

/-- The hypotheses of `C158_same` are met: a hemisphere and a cube, each in a node, in a list in a node that is larger than needed; the
ray hits the hemisphere. -/
example : ∃ p q : Primitive ℝ, Hier p q cullObj ∧ 0 ≤ cullObj.tmax ∧ p.doIntersect cullObj = some true := by
  let c : Bbox ℝ := ⟨new3 5 5 5, new3 6 6 6⟩
  let n1 := hemiS.prim.guardedBy hemiS.bbox
  let n2 := c.prim.guardedBy c
  let b : Bbox ℝ := (PrimitiveList.prim [n1, n2]).bbox + ⟨new3 (-7) (-7) (-7), new3 7 7 7⟩
  have hd : ∀ i, cullObj.direction.vec i ≠ 0 := by
    intro i
    fin_cases i
    · change (1 : ℝ) ≠ 0; norm_num
    · change (1 : ℝ) ≠ 0; norm_num
    · change (-4 : ℝ) ≠ 0; norm_num
  have hc : c.OrderedR := by intro i; fin_cases i <;> norm_num [c, new3]
  refine ⟨PrimitiveList.prim [hemiS.prim, c.prim], (PrimitiveList.prim [n1, n2]).guardedBy b, ?_, by change (0 : ℝ) ≤ 10; norm_num, ?_⟩
  · refine .node _ _ b _ (.list [(hemiS.prim, n1), (c.prim, n2)] _ fun e he => ?_) hd fun x hx => add_inside _ _ x (Or.inl hx)
    rcases List.mem_cons.1 he with rfl | he
    · exact .node _ _ _ _ (.leaf _ _ (.sphere hemiS _ cullObj_regular)) hd fun x hx => hx
    · obtain rfl := List.mem_singleton.1 he
      exact .node _ _ _ _ (.leaf _ _ (.bbox c _ hc hd)) hd fun x hx => hx
  · refine (C63_doIntersect_true _ _).2 ⟨[], hemiS.prim, [c.prim], rfl, ?_, by simp⟩
    obtain ⟨r, hr⟩ := Option.isSome_iff_exists.1 cullObj_hit
    exact C58_agrees _ (fun _ h => h.elim) _ (.sphere hemiS : Primitive.Scene (fun _ => False) hemiS.prim) _ (some r) (congrArg some hr)

/-- The hypotheses of `C158_floats` are met on `f32`: the unit sphere in a node twice its size and a cube, in a list in a node with the
list's `bbox()`; the ray hits the sphere. -/
example : ∃ (_ : Libm 23 8) (p q : Primitive F32), HierF p q cullRay ∧ cullRay.origin.Fin ∧ cullRay.direction.Fin ∧
    cullRay.tmax.isNaN = false ∧ p.doIntersect cullRay = some true := by
  obtain ⟨L, h, hh, h1, h2, h3, h4, h5, h6⟩ := cull_case
  let c : Bbox F32 := ⟨new3 (F32.lit 3) (F32.lit 3) (F32.lit 3), new3 (F32.lit 4) (F32.lit 4) (F32.lit 4)⟩
  let n := exSphF.prim.guardedBy cullBox
  refine ⟨L, PrimitiveList.prim [exSphF.prim, c.prim], (PrimitiveList.prim [n, c.prim]).guardedBy (Bbox.default + cullBox + c), ?_,
    fun i => ?_, fun i => ?_, by decide +kernel, ?_⟩
  · refine .node _ _ _ _ (.list [(exSphF.prim, n), (c.prim, c.prim)] _ fun e he => ?_) ⟨fun i => ?_, fun i => ?_⟩ (fun i hi => ?_) fun x hx => hx
    · rcases List.mem_cons.1 he with rfl | he
      · refine .sphere _ _ _ ⟨h1, by decide +kernel, h4, ⟨by decide +kernel, by decide +kernel⟩, h5, h2, fun h' hh' => ?_⟩
          ⟨new3 (F32.lit 0) (F32.lit 0) (F32.lit 0), by decide +kernel⟩
          ⟨fun j => by fin_cases j <;> decide +kernel, fun j => by fin_cases j <;> decide +kernel⟩
        obtain rfl : h = h' := Option.some.inj (hh.symm.trans hh')
        exact ⟨h3, h6⟩
      · obtain rfl := List.mem_singleton.1 he
        exact .leaf _ _ ⟨new3 (F32.lit 3) (F32.lit 3) (F32.lit 3), by decide +kernel⟩
          ⟨fun j => by fin_cases j <;> decide +kernel, fun j => by fin_cases j <;> decide +kernel⟩
    · revert i; decide +kernel
    · revert i; decide +kernel
    · exfalso
      have : cullRay.direction.vec i = F32.lit 1 := by clear hi; revert i; decide +kernel
      rw [this, toReal_lit_small.1] at hi
      norm_num at hi
  · revert i; decide +kernel
  · revert i; decide +kernel
  · refine (C63_doIntersect_true _ _).2 ⟨[], exSphF.prim, [c.prim], rfl, ?_, by simp⟩
    change some (exSphF.intersectRay cullRay).isSome = _
    rw [hh]; rfl

end Scarlet
