import Verif.Props.Contain
import Verif.Props.Visibility
import Verif.Props.Zones

/-!
C155: enlarging a scene never opens a way: adding members to lists, enlarging boxes, cutting less off spheres, at any depth and under
transforms, on floats and without tolerance.
-/

set_option linter.unusedSectionVars false

namespace Scarlet
open Flt GVec

section
variable {mw ew : Nat} [FltImpl mw ew] [LawfulFlt mw ew] [Libm mw ew]

/-- Specification: less is cut off the sphere `s'` than off `s`, or the same. -/
def LessCut (s s' : Sphere (Flt mw ew)) : Prop :=
  s'.radius = s.radius ∧ FLe s'.zMin s.zMin ∧ FLe s.zMax s'.zMax ∧ FLe s.phiMax s'.phiMax

/-- Specification: the box `b` contains the box `a`, which is not empty; both are finite. -/
def BoxGrows (a b : Bbox (Flt mw ew)) : Prop :=
  (∃ p, a.inside p = true) ∧ (∀ p, a.inside p = true → b.inside p = true) ∧ (a.pmin.Fin ∧ a.pmax.Fin) ∧ b.pmin.Fin ∧ b.pmax.Fin

/-- Specification: for this ray, the scene `q` is the scene `p` enlarged. `same` is for primitives of the user, too; the conditions on the
ray in `box` are those of C140. -/
inductive Grown : Ray (Flt mw ew) → Primitive (Flt mw ew) → Primitive (Flt mw ew) → Prop
  | same (ray p) : Grown ray p p
  | sphere (ray) (s s' : Sphere (Flt mw ew)) (h : LessCut s s') : Grown ray s.prim s'.prim
  | box (ray) (a b : Bbox (Flt mw ew)) (h : BoxGrows a b) (ho : ray.origin.Fin) (hd : ray.direction.Fin) (ht : ray.tmax.isNaN = false)
      (hf : ∀ i, ¬ FlatInFace a b ray i) : Grown ray a.prim b.prim
  | moved (ray p q) (t : Transform (Flt mw ew)) (h : ∀ obj, t.mapRayInv ray = some obj → Grown obj p q) :
      Grown ray (p.transformed t) (q.transformed t)
  | list (ray) (l m : List (Primitive (Flt mw ew))) (f : _root_.Fin l.length → Primitive (Flt mw ew)) (hf : ∀ i, f i ∈ m)
      (h : ∀ i, Grown ray (l.get i) (f i)) : Grown ray (PrimitiveList.prim l) (PrimitiveList.prim m)
  | join (ray p q) (m : List (Primitive (Flt mw ew))) (hq : q ∈ m) (h : Grown ray p q) : Grown ray p (PrimitiveList.prim m)

theorem FLe.trans' {a b c : Flt mw ew} (h : FLe a b) (k : FLe b c) : FLe a c := ⟨h.1, k.2.1, h.2.2.trans k.2.2⟩

theorem accepts_more {s s' : Sphere (Flt mw ew)} (h : LessCut s s') (ray : Ray (Flt mw ew)) (t : Flt mw ew) (x : SphereHit (Flt mw ew))
    (hx : s.getIntersection ray t = some x) : s'.getIntersection ray t = some x := by
  rw [accepts_iff] at hx ⊢
  obtain ⟨h1, ⟨h2, h3⟩, h4, h5⟩ := hx
  refine ⟨h1, ⟨FLe.trans' h.2.1 h2, FLe.trans' h3 h.2.2.1⟩, ?_, h5⟩
  rw [Bool.eq_false_iff, ne_eq, sgt_iff] at h4 ⊢
  rintro ⟨a, b, c⟩
  obtain ⟨p1, p2, p3⟩ := h.2.2.2
  exact h4 ⟨a, p1, by omega⟩

/-- C155: cutting less off a sphere keeps every hit, or brings it nearer. -/
theorem C155_sphere (s s' : Sphere (Flt mw ew)) (h : LessCut s s') (ray : Ray (Flt mw ew)) (x : SphereHit (Flt mw ew))
    (hx : s.intersectRay ray = some x) : ∃ x', s'.intersectRay ray = some x' ∧ Scalar.le x'.tRay x.tRay = true := by
  have refl : ∀ t y, s.getIntersection ray t = some y → FLe y.tRay y.tRay ∧ y.tRay = t := by
    intro t y k
    obtain ⟨k1, -, -, rfl⟩ := (accepts_iff s ray t y).1 k
    unfold Scalar.inRange at k1
    rw [Bool.and_eq_true, sge_iff] at k1
    exact ⟨FLe.refl k1.1.1, rfl⟩
  unfold Sphere.intersectRay at hx ⊢
  dsimp only at hx ⊢
  rw [h.1]
  cases hq : solveQuadratic ray.direction.squareNorm ((GVec.conv .vector ray.origin).dot ray.direction * GFloat.fromI64 2)
        ((GVec.conv .vector ray.origin).squareNorm - Scalar.square s.radius) with
  | none => rw [hq] at hx; cases hx
  | some p =>
    obtain ⟨t0, t1⟩ := p
    rw [hq] at hx
    dsimp only at hx ⊢
    cases k0 : s.getIntersection ray t0 with
    | some y =>
      rw [k0] at hx
      have e : y = x := Option.some.inj hx
      subst e
      rw [accepts_more h ray t0 y k0]
      exact ⟨y, rfl, sle_iff.2 (refl t0 y k0).1⟩
    | none =>
      rw [k0] at hx
      dsimp only at hx
      obtain ⟨r1, rfl⟩ := refl t1 x hx
      cases k1 : s'.getIntersection ray t0 with
      | none => exact ⟨x, accepts_more h ray _ x hx, sle_iff.2 r1⟩
      | some y =>
        obtain ⟨k2, -, -, rfl⟩ := (accepts_iff s' ray t0 y).1 k1
        unfold Scalar.inRange at k2
        rw [Bool.and_eq_true, sge_iff] at k2
        obtain ⟨a, b, hab⟩ := solveQuadratic_minMax _ _ _ _ hq
        have := minMax_le (a := a) (b := b)
        rw [← hab] at this
        exact ⟨_, rfl, sle_iff.2 (this k2.1.1 r1.1)⟩

/-- What makes a list report that it is missed: every member does. -/
theorem loop_false {ray : Ray (Flt mw ew)} {m : List (Primitive (Flt mw ew))} (h : PrimitiveList.doIntersectLoop ray m = some false) :
    ∀ q ∈ m, q.doIntersect ray = some false := by
  induction m with
  | nil => intro q hq; cases hq
  | cons p m ih =>
    rw [PrimitiveList.doIntersectLoop] at h
    cases k : p.doIntersect ray with
    | none => rw [k] at h; cases h
    | some v =>
      rw [k] at h
      cases v with
      | true => cases h
      | false =>
        intro q hq
        rcases List.mem_cons.1 hq with rfl | hq
        · exact k
        · exact ih h q hq

theorem loop_true {ray : Ray (Flt mw ew)} {m : List (Primitive (Flt mw ew))} (h : PrimitiveList.doIntersectLoop ray m = some true) :
    ∃ q ∈ m, q.doIntersect ray = some true := by
  induction m with
  | nil => cases h
  | cons p m ih =>
    rw [PrimitiveList.doIntersectLoop] at h
    cases k : p.doIntersect ray with
    | none => rw [k] at h; cases h
    | some v =>
      cases v with
      | true => exact ⟨p, List.mem_cons_self, k⟩
      | false =>
        rw [k] at h
        obtain ⟨q, hq, e⟩ := ih h
        exact ⟨q, List.mem_cons_of_mem _ hq, e⟩

/-- C155: enlarging a scene never opens a way: where the scene is reported to block, the enlarged scene is not reported free (it blocks, or
a member that was added panics). -/
theorem C155_blocked (ray : Ray (Flt mw ew)) (p q : Primitive (Flt mw ew)) (h : Grown ray p q) (hp : p.doIntersect ray = some true) :
    q.doIntersect ray ≠ some false := by
  induction h with
  | same ray p => rw [hp]; simp
  | sphere ray s s' h =>
    have : (s.intersectRay ray).isSome = true := Option.some.inj hp
    obtain ⟨x, hx⟩ := Option.isSome_iff_exists.1 this
    obtain ⟨x', hx', -⟩ := C155_sphere s s' h ray x hx
    change some (s'.intersectRay ray).isSome ≠ _
    rw [hx']; simp
  | box ray a b h ho hd ht hf =>
    have : (a.intersectRay ray).isSome = true := Option.some.inj hp
    obtain ⟨⟨s0, s1⟩, hx⟩ := Option.isSome_iff_exists.1 this
    obtain ⟨t0, t1, e, -⟩ := C140_hit a b ray h.1 h.2.1 h.2.2.1 h.2.2.2 ho hd ht hf s0 s1 hx
    change some (b.intersectRay ray).isSome ≠ _
    rw [e]; simp
  | moved ray p q t h ih =>
    change (t.mapRayInv ray).bind _ = _ at hp
    change (t.mapRayInv ray).bind _ ≠ _
    cases k : t.mapRayInv ray with
    | none => rw [k] at hp; cases hp
    | some obj => rw [k] at hp; exact ih obj k hp
  | list ray l m f hf h ih =>
    intro hc
    obtain ⟨p, hpl, e⟩ := loop_true hp
    obtain ⟨i, rfl⟩ := List.mem_iff_get.1 hpl
    exact ih i e (loop_false hc _ (hf i))
  | join ray p q m hq h ih => exact fun hc => ih hp (loop_false hc q hq)

/-- C155: so if the enlarged scene does not panic on the ray, the ray is blocked; and if the enlarged scene is free, the scene was not blocked. -/
theorem C155_free (ray : Ray (Flt mw ew)) (p q : Primitive (Flt mw ew)) (h : Grown ray p q) :
    (q.doIntersect ray ≠ none → p.doIntersect ray = some true → q.doIntersect ray = some true) ∧
    (q.doIntersect ray = some false → p.doIntersect ray ≠ some true) := by
  refine ⟨fun hn hp => ?_, fun hq hp => C155_blocked ray p q h hp hq⟩
  have := C155_blocked ray p q h hp
  cases k : q.doIntersect ray with
  | none => exact absurd k hn
  | some v => cases v with
    | true => rfl
    | false => exact absurd k this

end

/-- C155: in exact arithmetic the same holds of any two scenes of which one has the other's points among its own, however they are built. -/
theorem C155_exact (p q : Primitive ℝ) (R R' : Point ℝ 3 → Prop) (M M' : Ray ℝ → Prop) (hp : Occupies p R M) (hq : Occupies q R' M')
    (hR : ∀ x, R x → R' x) (ray : Ray ℝ) (hM : M ray) (hM' : M' ray) (h0 : 0 ≤ ray.tmax) (h : p.doIntersect ray = some true) :
    q.doIntersect ray = some true := by
  obtain ⟨v, hv, hi⟩ := C141_exact p R M hp ray hM h0
  obtain ⟨w, hw, hj⟩ := C141_exact q R' M' hq ray hM' h0
  rw [h, Option.some.injEq] at hv
  obtain ⟨x, h1, h2⟩ := hi.1 hv.symm
  rw [hw, hj.2 ⟨x, h1, hR x h2⟩]

/-! ### the hypotheses are met -/

/-- some trigonometric functions -/
@[reducible] def growLibm : Libm 23 8 := ⟨id, id, id, id, id, id, fun y _ => y⟩
attribute [local instance] growLibm

/-- the unit cube, a larger box, the lower half of the unit sphere and the whole, and a ray straight up -/
def growIn : Bbox F32 := ⟨new3 (-F32.lit 1) (-F32.lit 1) (-F32.lit 1), new3 (F32.lit 1) (F32.lit 1) (F32.lit 1)⟩
def growOut : Bbox F32 := ⟨new3 (-F32.lit 2) (-F32.lit 1) (-F32.lit 3), new3 (F32.lit 1) (F32.lit 4) (F32.lit 2)⟩
def growHalf : Sphere F32 := ⟨F32.lit 1, -F32.lit 1, F32.lit 0, F32.lit 0, F32.lit 0, F32.lit 4⟩
def growFull : Sphere F32 := ⟨F32.lit 1, -F32.lit 1, F32.lit 1, F32.lit 0, F32.lit 0, F32.lit 5⟩
def growRay : Ray F32 := ⟨new3 (F32.lit 0) (F32.lit 0) (-F32.lit 8), new3 (F32.lit 0) (F32.lit 0) (F32.lit 1), F32.lit 100⟩

theorem grow_box : BoxGrows growIn growOut := by
  refine ⟨⟨new3 (F32.lit 0) (F32.lit 0) (F32.lit 0), by decide +kernel⟩, fun p hp => ?_, ⟨?_, ?_⟩, ?_, ?_⟩
  · rw [Bbox.insideF_iff] at hp ⊢
    have k : ∀ i, (growOut.pmin.vec i).isNaN = false ∧ (growOut.pmax.vec i).isNaN = false ∧
        (growOut.pmin.vec i).key ≤ (growIn.pmin.vec i).key ∧ (growIn.pmax.vec i).key ≤ (growOut.pmax.vec i).key := by decide +kernel
    intro i
    obtain ⟨k1, k2, k3, k4⟩ := k i
    obtain ⟨⟨-, h1, h2⟩, -, -, h3⟩ := hp i
    exact ⟨⟨k1, h1, k3.trans h2⟩, h1, k2, h3.trans k4⟩
  all_goals unfold GVec.Fin; decide +kernel

theorem grow_ball : LessCut growHalf growFull := by unfold LessCut FLe; decide +kernel

/-- the objects are moved up by 2 -/
def growUp : Transform F32 := .translate (new3 (F32.lit 0) (F32.lit 0) (F32.lit 2))

/-- A moved list of the cube and the half sphere grows to a list with larger ones and one more object, and that to a list with one more;
the ray is blocked. -/
example : let p := (PrimitiveList.prim [growIn.prim, growHalf.prim]).transformed growUp
    let q := (PrimitiveList.prim [growFull.prim, growHalf.prim, growOut.prim]).transformed growUp
    Grown growRay p (PrimitiveList.prim [growIn.prim, q]) ∧ p.doIntersect growRay = some true := by
  refine ⟨.join _ _ _ _ (List.mem_cons_of_mem _ List.mem_cons_self) (.moved _ _ _ _ fun obj ho => ?_), by decide +kernel⟩
  have k : ∀ o, o = growUp.mapRayInv growRay → (o.all fun r => decide ((∀ i, (r.origin.vec i).isFin = true) ∧
      (∀ i, (r.direction.vec i).isFin = true) ∧ r.tmax.isNaN = false ∧
      ∀ i, (r.direction.vec i).key = 0 → (r.origin.vec i).key ≠ (growOut.pmin.vec i).key)) = true := by
    rintro o rfl; decide +kernel
  obtain ⟨h1, h2, h3, h4⟩ := of_decide_eq_true (k _ ho.symm)
  refine .list _ _ _ ![growOut.prim, growFull.prim] (fun i => ?_) (fun i => ?_)
  · fin_cases i <;> simp
  · fin_cases i
    · exact .box _ _ _ grow_box h1 h2 h3 fun i hi => h4 i (toReal_eq_zero_iff.1 hi.1) (toReal_eq_iff.1 hi.2.1)
    · exact .sphere _ _ _ grow_ball

end Scarlet
