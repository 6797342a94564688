import Verif.Props.Primitive
import Mathlib.Data.List.Perm.Basic

/-!
C135: laws for rearranging a scene.

A scene is built from `PrimitiveList` and `TransformedPrimitive` (primitive.rs:80-172).  Someone who flattens nested
lists, pushes a transform into a list, or merges two nested transforms relies on the picture staying the same.  The laws
are stated with `SameHits`: the two scenes return the same thing for every ray, panics included.
-/

set_option linter.unusedSectionVars false

namespace Scarlet
open GVec

/-- Specification: no ray can tell the two primitives apart: `intersect` and `do_intersect` return the same, or both
panic. -/
def Primitive.SameHits {T : Type} (p q : Primitive T) : Prop :=
  ∀ ray, p.intersect ray = q.intersect ray ∧ p.doIntersect ray = q.doIntersect ray

namespace Primitive.SameHits
variable {T : Type} {p q r : Primitive T}
theorem refl (p : Primitive T) : p.SameHits p := fun _ => ⟨rfl, rfl⟩
theorem symm (h : p.SameHits q) : q.SameHits p := fun ray => ⟨(h ray).1.symm, (h ray).2.symm⟩
theorem trans (h : p.SameHits q) (k : q.SameHits r) : p.SameHits r :=
  fun ray => ⟨(h ray).1.trans (k ray).1, (h ray).2.trans (k ray).2⟩
end Primitive.SameHits

section
variable {T : Type}

theorem intersectLoop_cons (ray : Ray T) (p : Primitive T) (ps : List (Primitive T)) (result : Option (IntersectionResult T))
    (rm : Ray T) : PrimitiveList.intersectLoop ray (p :: ps) result rm = (p.intersect ray).bind fun x => match x with
      | some ir => PrimitiveList.intersectLoop ray ps (some ir) { rm with tmax := ir.tRay }
      | none => PrimitiveList.intersectLoop ray ps result rm := rfl

theorem doIntersectLoop_cons (ray : Ray T) (p : Primitive T) (ps : List (Primitive T)) :
    PrimitiveList.doIntersectLoop ray (p :: ps) =
      (p.doIntersect ray).bind fun b => if b then some true else PrimitiveList.doIntersectLoop ray ps := rfl

/-- the mutable ray of the loop never matters -/
theorem intersectLoop_rm (ray : Ray T) (ps : List (Primitive T)) (result : Option (IntersectionResult T)) (rm rm' : Ray T) :
    PrimitiveList.intersectLoop ray ps result rm = PrimitiveList.intersectLoop ray ps result rm' := by
  induction ps generalizing result rm rm' with
  | nil => rfl
  | cons p ps ih =>
    unfold PrimitiveList.intersectLoop
    cases p.intersect ray with
    | none => rfl
    | some x => cases x with
      | none => exact ih _ _ _
      | some ir => exact ih _ _ _

/-- the loop started with a result: what it finds on its own, else that result -/
theorem intersectLoop_orElse (ray : Ray T) (ps : List (Primitive T)) (result : Option (IntersectionResult T)) (rm : Ray T) :
    PrimitiveList.intersectLoop ray ps result rm = (PrimitiveList.intersectLoop ray ps none rm).map (fun x => x.or result) := by
  induction ps generalizing result rm with
  | nil => rfl
  | cons p ps ih =>
    unfold PrimitiveList.intersectLoop
    cases p.intersect ray with
    | none => rfl
    | some x => cases x with
      | none => exact ih _ _
      | some ir =>
        change PrimitiveList.intersectLoop ray ps (some ir) _ = (PrimitiveList.intersectLoop ray ps (some ir) _).map _
        rw [ih (some ir)]
        cases PrimitiveList.intersectLoop ray ps none { rm with tmax := ir.tRay } with
        | none => rfl
        | some y => cases y <;> rfl

theorem intersectLoop_append (ray : Ray T) (ps qs : List (Primitive T)) (result : Option (IntersectionResult T)) (rm : Ray T) :
    PrimitiveList.intersectLoop ray (ps ++ qs) result rm =
      (PrimitiveList.intersectLoop ray ps result rm).bind fun x => PrimitiveList.intersectLoop ray qs x rm := by
  induction ps generalizing result rm with
  | nil => rfl
  | cons p ps ih =>
    rw [List.cons_append, intersectLoop_cons, intersectLoop_cons]
    cases p.intersect ray with
    | none => rfl
    | some x => cases x with
      | none => exact ih _ _
      | some ir =>
        refine (ih (some ir) _).trans ?_
        change _ = (PrimitiveList.intersectLoop ray ps (some ir) _).bind _
        congr 1
        funext y
        exact intersectLoop_rm ..

theorem doIntersectLoop_append (ray : Ray T) (ps qs : List (Primitive T)) :
    PrimitiveList.doIntersectLoop ray (ps ++ qs) =
      (PrimitiveList.doIntersectLoop ray ps).bind fun b => if b then some true else PrimitiveList.doIntersectLoop ray qs := by
  induction ps with
  | nil => rfl
  | cons p ps ih =>
    rw [List.cons_append, doIntersectLoop_cons, doIntersectLoop_cons]
    cases p.doIntersect ray with
    | none => rfl
    | some b => cases b with
      | true => rfl
      | false => exact ih

end

section
variable {T : Type} [Add T] [Sub T] [Mul T] [Div T] [Neg T] [Scalar T] [Inherent T]

/-- C135: a list inside a list can be spliced into it (nested lists can be flattened, empty lists dropped, lists of one
element unwrapped), for every scalar type. -/
theorem C135_splice (as bs cs : List (Primitive T)) :
    (PrimitiveList.prim (as ++ PrimitiveList.prim bs :: cs)).SameHits (PrimitiveList.prim (as ++ bs ++ cs)) := by
  intro ray
  constructor
  · change PrimitiveList.intersectLoop ray _ none ray = PrimitiveList.intersectLoop ray _ none ray
    rw [List.append_assoc, intersectLoop_append, intersectLoop_append ray as]
    congr 1
    funext x
    rw [intersectLoop_append, intersectLoop_orElse ray bs x]
    rw [intersectLoop_cons]
    change (PrimitiveList.intersectLoop ray bs none ray).bind _ = _
    cases PrimitiveList.intersectLoop ray bs none ray with
    | none => rfl
    | some y => cases y with
      | none => rfl
      | some ir => exact intersectLoop_rm ..
  · change PrimitiveList.doIntersectLoop ray _ = PrimitiveList.doIntersectLoop ray _
    rw [List.append_assoc, doIntersectLoop_append, doIntersectLoop_append ray as, doIntersectLoop_append ray bs]
    congr 1

/-- C135: a list of one element behaves like the element. -/
theorem C135_single (p : Primitive T) : (PrimitiveList.prim [p]).SameHits p := by
  intro ray
  constructor
  · change (p.intersect ray).bind _ = _
    cases p.intersect ray with
    | none => rfl
    | some x => cases x <;> rfl
  · change (p.doIntersect ray).bind _ = _
    cases p.doIntersect ray with
    | none => rfl
    | some b => cases b <;> rfl

/-- C135: listing an object twice in a row is the same as listing it once. -/
theorem C135_duplicate (as cs : List (Primitive T)) (p : Primitive T) :
    (PrimitiveList.prim (as ++ p :: p :: cs)).SameHits (PrimitiveList.prim (as ++ p :: cs)) := by
  intro ray
  constructor
  · change PrimitiveList.intersectLoop ray _ none ray = PrimitiveList.intersectLoop ray _ none ray
    rw [intersectLoop_append, intersectLoop_append ray as]
    congr 1
    funext x
    simp only [PrimitiveList.intersectLoop]
    cases h : p.intersect ray with
    | none => rfl
    | some x => cases x <;> rfl
  · change PrimitiveList.doIntersectLoop ray _ = PrimitiveList.doIntersectLoop ray _
    rw [doIntersectLoop_append, doIntersectLoop_append ray as]
    congr 1
    funext x
    simp only [PrimitiveList.doIntersectLoop]
    cases h : p.doIntersect ray with
    | none => rfl
    | some x => cases x <;> rfl

/-- C135: transforming a non-empty list is the same as listing the transformed members, for every scalar type and every
transform, also ones whose ray mapping panics. -/
theorem C135_distribute (p : Primitive T) (ps : List (Primitive T)) (t : Transform T) :
    ((PrimitiveList.prim (p :: ps)).transformed t).SameHits (PrimitiveList.prim ((p :: ps).map (·.transformed t))) := by
  intro ray
  cases hr : t.mapRayInv ray with
  | none =>
    constructor
    · change (t.mapRayInv ray).bind _ = ((t.mapRayInv ray).bind _).bind _
      rw [hr]; rfl
    · change (t.mapRayInv ray).bind _ = ((t.mapRayInv ray).bind _).bind _
      rw [hr]; rfl
  | some r =>
    have h1 : ∀ q : Primitive T, (q.transformed t).intersect ray = q.intersect r := fun q => by
      change (t.mapRayInv ray).bind _ = _; rw [hr]; rfl
    have h2 : ∀ q : Primitive T, (q.transformed t).doIntersect ray = q.doIntersect r := fun q => by
      change (t.mapRayInv ray).bind _ = _; rw [hr]; rfl
    rw [h1, h2]
    generalize p :: ps = qs
    constructor
    · change PrimitiveList.intersectLoop r qs none r = PrimitiveList.intersectLoop ray _ none ray
      have : ∀ (x : Option (IntersectionResult T)) (rm rm' : Ray T),
          PrimitiveList.intersectLoop r qs x rm = PrimitiveList.intersectLoop ray (qs.map (·.transformed t)) x rm' := by
        induction qs with
        | nil => exact fun _ _ _ => rfl
        | cons q qs ih =>
          intro x rm rm'
          rw [List.map_cons]
          unfold PrimitiveList.intersectLoop
          rw [h1]
          cases q.intersect r with
          | none => rfl
          | some y => cases y with
            | none => exact ih _ _ _
            | some ir => exact ih _ _ _
      exact this _ _ _
    · change PrimitiveList.doIntersectLoop r qs = PrimitiveList.doIntersectLoop ray _
      induction qs with
      | nil => rfl
      | cons q qs ih =>
        rw [List.map_cons]
        rw [doIntersectLoop_cons, doIntersectLoop_cons, h2, ih]

/-- C135: a member of a list can be replaced by one that behaves the same. -/
theorem C135_congr_list (as cs : List (Primitive T)) (p q : Primitive T) (h : p.SameHits q) :
    (PrimitiveList.prim (as ++ p :: cs)).SameHits (PrimitiveList.prim (as ++ q :: cs)) := by
  intro ray
  constructor
  · change PrimitiveList.intersectLoop ray _ none ray = PrimitiveList.intersectLoop ray _ none ray
    rw [intersectLoop_append, intersectLoop_append ray as]
    congr 1
    funext x
    rw [intersectLoop_cons, intersectLoop_cons, (h ray).1]
  · change PrimitiveList.doIntersectLoop ray _ = PrimitiveList.doIntersectLoop ray _
    rw [doIntersectLoop_append, doIntersectLoop_append ray as]
    congr 1
    funext x
    rw [doIntersectLoop_cons, doIntersectLoop_cons, (h ray).2]

/-- C135: so can the object under a transform. -/
theorem C135_congr_transformed (p q : Primitive T) (t : Transform T) (h : p.SameHits q) :
    (p.transformed t).SameHits (q.transformed t) := by
  intro ray
  constructor
  · change (t.mapRayInv ray).bind _ = (t.mapRayInv ray).bind _
    congr 1; funext r; exact (h r).1
  · change (t.mapRayInv ray).bind _ = (t.mapRayInv ray).bind _
    congr 1; funext r; exact (h r).2

/-- Specification: the second scene is obtained from the first by any number of the rearrangements, forwards or
backwards, anywhere in the scene. -/
inductive Primitive.Rearranged : Primitive T → Primitive T → Prop
  | splice (as bs cs) : Rearranged (PrimitiveList.prim (as ++ PrimitiveList.prim bs :: cs)) (PrimitiveList.prim (as ++ bs ++ cs))
  | single (p) : Rearranged (PrimitiveList.prim [p]) p
  | duplicate (as cs p) : Rearranged (PrimitiveList.prim (as ++ p :: p :: cs)) (PrimitiveList.prim (as ++ p :: cs))
  | distribute (p ps t) : Rearranged ((PrimitiveList.prim (p :: ps)).transformed t)
      (PrimitiveList.prim ((p :: ps).map (·.transformed t)))
  | inList (as cs p q) (h : Rearranged p q) : Rearranged (PrimitiveList.prim (as ++ p :: cs)) (PrimitiveList.prim (as ++ q :: cs))
  | under (p q) (t) (h : Rearranged p q) : Rearranged (p.transformed t) (q.transformed t)
  | refl (p) : Rearranged p p
  | symm (p q) (h : Rearranged p q) : Rearranged q p
  | trans (p q r) (h : Rearranged p q) (k : Rearranged q r) : Rearranged p r

/-- C135: any sequence of these rearrangements, at any depth, leaves every ray's result unchanged, for every scalar
type: on floats bit for bit. -/
theorem C135_rearranged (p q : Primitive T) (h : p.Rearranged q) : p.SameHits q := by
  induction h with
  | splice as bs cs => exact C135_splice as bs cs
  | single p => exact C135_single p
  | duplicate as cs p => exact C135_duplicate as cs p
  | distribute p ps t => exact C135_distribute p ps t
  | inList as cs p q _ ih => exact C135_congr_list as cs p q ih
  | under p q t _ ih => exact C135_congr_transformed p q t ih
  | refl p => exact .refl p
  | symm p q _ ih => exact ih.symm
  | trans p q r _ _ ih1 ih2 => exact ih1.trans ih2

/-- no member panics on the ray -/
theorem intersectLoop_total (ray : Ray T) (ps : List (Primitive T)) (hp : ∀ p ∈ ps, p.intersect ray ≠ none) :
    (PrimitiveList.prim ps).intersect ray ≠ none := by
  change PrimitiveList.intersectLoop ray ps none ray ≠ none
  have : ∀ x rm, PrimitiveList.intersectLoop ray ps x rm ≠ none := by
    induction ps with
    | nil => intro x rm h; cases h
    | cons p ps ih =>
      intro x rm
      obtain ⟨y, hy⟩ := Option.ne_none_iff_exists'.1 (hp p (by simp))
      unfold PrimitiveList.intersectLoop
      rw [hy]
      cases y with
      | none => exact ih (fun q hq => hp q (by simp [hq])) _ _
      | some ir => exact ih (fun q hq => hp q (by simp [hq])) _ _
  exact this _ _

variable [GFloat T] [GTrig T]

/-- C135: reordering a list does not change whether a ray hits it (no member panicking on the ray), and does not change
the reported hit either when all members the ray hits report the same one (in particular when it hits only one). -/
theorem C135_order (ps qs : List (Primitive T)) (h : ps.Perm qs) (ray : Ray T)
    (hp : ∀ p ∈ ps, p.intersect ray ≠ none ∧ p.doIntersect ray ≠ none) :
    (PrimitiveList.prim ps).doIntersect ray = (PrimitiveList.prim qs).doIntersect ray ∧
    ((PrimitiveList.prim ps).intersect ray = some none ↔ (PrimitiveList.prim qs).intersect ray = some none) ∧
    ((∀ p ∈ ps, ∀ q ∈ ps, ∀ a b, p.intersect ray = some (some a) → q.intersect ray = some (some b) → a = b) →
      (PrimitiveList.prim ps).intersect ray = (PrimitiveList.prim qs).intersect ray) := by
  have hm : ∀ p, p ∈ ps ↔ p ∈ qs := fun p => h.mem_iff
  have hq : ∀ p ∈ qs, p.intersect ray ≠ none ∧ p.doIntersect ray ≠ none := fun p hq => hp p ((hm p).2 hq)
  have hn : (PrimitiveList.prim ps).intersect ray = some none ↔ (PrimitiveList.prim qs).intersect ray = some none := by
    rw [C63_intersect, C63_intersect]
    exact forall_congr' fun p => by rw [hm p]
  refine ⟨?_, hn, fun hu => ?_⟩
  · obtain ⟨b, h1, h2⟩ := C63_doIntersect ps ray fun p hx => (hp p hx).2
    obtain ⟨c, h3, h4⟩ := C63_doIntersect qs ray fun p hx => (hq p hx).2
    rw [h1, h3]
    have : (b = true ↔ c = true) := by
      rw [h2, h4]
      exact exists_congr fun p => by rw [hm p]
    rw [Bool.eq_iff_iff.2 this]
  · obtain ⟨x, hx⟩ := Option.ne_none_iff_exists'.1 (intersectLoop_total ray ps fun p h => (hp p h).1)
    obtain ⟨y, hy⟩ := Option.ne_none_iff_exists'.1 (intersectLoop_total ray qs fun p h => (hq p h).1)
    rw [hx, hy] at hn
    rw [hx, hy]
    cases x with
    | none => rw [hn.1 rfl]
    | some a => cases y with
      | none => cases hn.2 rfl
      | some b =>
        obtain ⟨as, p, cs, e, hpa, -⟩ := C64_last_partial ps ray a hx
        obtain ⟨as', q, cs', e', hqb, -⟩ := C64_last_partial qs ray b hy
        rw [hu p (by simp [e]) q ((hm q).2 (by simp [e'])) a b hpa hqb]
end

/-- C135: reordering can change the reported hit: of two boxes one behind the other, the one listed last is reported. -/
theorem C135_refuted_order : ¬ ∀ (ps qs : List (Primitive F32)), ps.Perm qs → ∀ ray : Ray F32,
    (PrimitiveList.prim ps).intersect ray = (PrimitiveList.prim qs).intersect ray := by
  intro H
  have e1 : ((PrimitiveList.prim [exNear.prim, exFar.prim]).intersect exRayZ).map (·.map (·.tRay)) = some (some (GFloat.fromI64 3)) := by
    decide +kernel
  have e2 : ((PrimitiveList.prim [exFar.prim, exNear.prim]).intersect exRayZ).map (·.map (·.tRay)) = some (some (GFloat.fromI64 1)) := by
    decide +kernel
  rw [H _ _ (List.Perm.swap exFar.prim exNear.prim []) exRayZ, e2] at e1
  revert e1
  decide +kernel

/-! ### Merging transforms (exact arithmetic) -/

/-- the inverse ray mapping of a product is the composition -/
theorem mapRayInv_mul (s t : Transform ℝ) (hs : s.minv.Affine) (ht : t.minv.Affine) (ray : Ray ℝ) :
    (t * s).mapRayInv ray = (t.mapRayInv ray).bind s.mapRayInv := by
  obtain ⟨⟨o, h1, h2⟩, ⟨d, h3, h4⟩⟩ := C36_affine s.inverse t.inverse hs ht ray.origin ray.direction
  obtain ⟨o', h5, h6⟩ := Option.bind_eq_some_iff.1 h2
  obtain ⟨d', h7, h8⟩ := Option.bind_eq_some_iff.1 h4
  have e1 : (t * s).mapPointInv ray.origin = some o := h1
  have e2 : (t * s).mapVecInv ray.direction = some d := h3
  have e3 : t.mapPointInv ray.origin = some o' := h5
  have e4 : t.mapVecInv ray.direction = some d' := h7
  have e5 : s.mapPointInv o' = some o := h6
  have e6 : s.mapVecInv d' = some d := h8
  simp [Transform.mapRayInv, e1, e2, e3, e4, e5, e6]

/-- C135: nested affine transforms can be merged, the outer one on the left. -/
theorem C135_merge (p : Primitive ℝ) (s t : Transform ℝ) (hs : s.minv.Affine) (ht : t.minv.Affine) :
    ((p.transformed s).transformed t).SameHits (p.transformed (t * s)) := by
  intro ray
  constructor
  · change (t.mapRayInv ray).bind (fun r => (s.mapRayInv r).bind _) = ((t * s).mapRayInv ray).bind _
    rw [mapRayInv_mul s t hs ht, Option.bind_assoc]
  · change (t.mapRayInv ray).bind (fun r => (s.mapRayInv r).bind _) = ((t * s).mapRayInv ray).bind _
    rw [mapRayInv_mul s t hs ht, Option.bind_assoc]

/-- C135: the identity transform has no effect. -/
theorem C135_identity (p : Primitive ℝ) : (p.transformed .identity).SameHits p := by
  have h : ∀ ray : Ray ℝ, (Transform.identity : Transform ℝ).mapRayInv ray = some ray := by
    intro ray
    have hi : (Transform.identity : Transform ℝ).minv.Affine := ⟨rfl, rfl, rfl, rfl⟩
    have h1 : (Transform.identity : Transform ℝ).mapPointInv ray.origin = some ray.origin := by
      refine (mapPt_affine hi _).trans ?_
      congr 1
      apply ext3 <;> simp [Transform.identity, Mat4.lin, Mat4.trans, Matrix.mulVec, dotProduct, Fin.sum_univ_three, Mat4.identity, GVec.x, GVec.y, GVec.z]
    have h2 : (Transform.identity : Transform ℝ).mapVecInv ray.direction = some ray.direction := by
      refine (mapVector_affine hi _).trans ?_
      congr 1
      apply ext3 <;> simp [Transform.identity, Mat4.lin, Mat4.trans, Matrix.mulVec, dotProduct, Fin.sum_univ_three, Mat4.identity, GVec.x, GVec.y, GVec.z]
    simp [Transform.mapRayInv, h1, h2]
  intro ray
  constructor
  · change (Transform.mapRayInv _ ray).bind _ = _
    rw [h]; rfl
  · change (Transform.mapRayInv _ ray).bind _ = _
    rw [h]; rfl

/-- C135: an object moved and moved back is where it was. -/
theorem C135_undo (p : Primitive ℝ) (t : Transform ℝ) (h : t.Reachable) (ha : t.m.Affine) :
    ((p.transformed t).transformed t.inverse).SameHits p := by
  refine (C135_merge p t t.inverse (C42_affine_inverse t h ha) ha).trans ?_
  rw [(C36_inverse_mul t h).2]
  exact C135_identity p

/-- Non-vacuity: the hypotheses of `C135_merge` and `C135_undo` hold of a translation and a rotation. -/
example : (Transform.translate (new3 1 2 3) : Transform ℝ).minv.Affine ∧ (Transform.rotateX 1 : Transform ℝ).minv.Affine ∧
    (Transform.rotateX 1 : Transform ℝ).Reachable ∧ (Transform.rotateX 1 : Transform ℝ).m.Affine :=
  ⟨⟨rfl, rfl, rfl, rfl⟩, ⟨rfl, rfl, rfl, rfl⟩, .rotateX _, ⟨rfl, rfl, rfl, rfl⟩⟩

/-- Non-vacuity: a scene with a transformed group inside a list, flattened; and a ray that hits it (at t = 3), as it
hits the original. -/
example (t : Transform F32) :
    (PrimitiveList.prim [exNear.prim, (PrimitiveList.prim [exFar.prim, exNear.prim]).transformed t]).Rearranged
      (PrimitiveList.prim [exNear.prim, exFar.prim.transformed t, exNear.prim.transformed t]) :=
  .trans _ _ _ (.inList [exNear.prim] [] _ _ (.distribute exFar.prim [exNear.prim] t))
    (.splice [exNear.prim] [exFar.prim.transformed t, exNear.prim.transformed t] [])
example : ((PrimitiveList.prim [exNear.prim, (PrimitiveList.prim [exFar.prim]).transformed .identity]).intersect exRayZ).map
    (·.map (·.tRay)) = some (some (GFloat.fromI64 3)) := by decide +kernel

/-- Non-vacuity of the last part of `C135_order`: a ray that hits just one of two boxes. -/
example : ((PrimitiveList.prim [exNear.prim, exFar.prim]).intersect { exRayZ with tmax := GFloat.fromI64 2 }).map (·.map (·.tRay)) =
      some (some (GFloat.fromI64 1)) ∧
    (exFar.prim.intersect { exRayZ with tmax := GFloat.fromI64 2 }).map (·.map (·.tRay)) = some none := by
  decide +kernel

end Scarlet
