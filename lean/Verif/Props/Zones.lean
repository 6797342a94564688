import Verif.Props.Scene
import Verif.Props.SphereFloat

/-!
C153: cutting a sphere into zones `z_min ≤ z ≤ z_max` leaves no cracks on floats: the zones together are hit by exactly the rays that
hit the sphere, at the same point.
-/

set_option linter.unusedSectionVars false

namespace Scarlet
open Flt GVec

/-- Specification: the spheres that `Sphere::new` makes of the zones into which planes across the z axis cut `lo ≤ z ≤ hi`. -/
inductive Zones {T : Type} [Div T] [Scalar T] [Inherent T] [GTrig T] (radius phiMax : T) : T → T → List (Sphere T) → Prop
  | whole (lo hi s) (h : Sphere.new radius lo hi phiMax = some s) : Zones radius phiMax lo hi [s]
  | cut (lo mid hi l r) (h : Zones radius phiMax lo mid l) (h' : Zones radius phiMax mid hi r) : Zones radius phiMax lo hi (l ++ r)

section
variable {mw ew : Nat} [FltImpl mw ew] [LawfulFlt mw ew] [Libm mw ew]

theorem zone_fields {radius lo hi phiMax : Flt mw ew} {s : Sphere (Flt mw ew)} (h : Sphere.new radius lo hi phiMax = some s) :
    s.radius = radius ∧ s.zMin = lo ∧ s.zMax = hi ∧ s.phiMax = phiMax ∧ lo.isNaN = false ∧ hi.isNaN = false ∧ lo.key < hi.key := by
  unfold Sphere.new at h
  split at h
  · rename_i hl
    rw [slt_iff] at hl
    cases h
    exact ⟨rfl, rfl, rfl, rfl, hl⟩
  · cases h

theorem Zones.lt {radius phiMax lo hi : Flt mw ew} {l : List (Sphere (Flt mw ew))} (h : Zones radius phiMax lo hi l) :
    lo.isNaN = false ∧ hi.isNaN = false ∧ lo.key < hi.key := by
  induction h with
  | whole lo hi s h => exact (zone_fields h).2.2.2.2
  | cut lo mid hi l r _ _ ih ih' => exact ⟨ih.1, ih'.2.1, ih.2.2.trans ih'.2.2⟩

/-- What the closure `get_intersection` accepts. -/
theorem accepts_iff (s : Sphere (Flt mw ew)) (ray : Ray (Flt mw ew)) (t : Flt mw ew) (h : SphereHit (Flt mw ew)) :
    s.getIntersection ray t = some h ↔ Scalar.inRange t Scalar.zero ray.tmax = true ∧ (FLe s.zMin (ray.eval t).z ∧ FLe (ray.eval t).z s.zMax) ∧
      Scalar.gt (GTrig.atan2 (ray.eval t).y (ray.eval t).x) s.phiMax = false ∧
      h = ⟨t, ray.eval t, GTrig.atan2 (ray.eval t).y (ray.eval t).x⟩ := by
  unfold Sphere.getIntersection
  cases h1 : Scalar.inRange t Scalar.zero ray.tmax
  · simp
  · have h2 : Scalar.inRange (ray.eval t).z s.zMin s.zMax = true ↔ FLe s.zMin (ray.eval t).z ∧ FLe (ray.eval t).z s.zMax := by
      unfold Scalar.inRange FLe
      rw [Bool.and_eq_true, sge_iff, sle_iff]
      tauto
    cases h3 : Scalar.inRange (ray.eval t).z s.zMin s.zMax
    · rw [h3] at h2
      have : ¬ (FLe s.zMin (ray.eval t).z ∧ FLe (ray.eval t).z s.zMax) := fun k => Bool.false_ne_true (h2.2 k)
      simp [h3, this]
    · have := h2.1 h3
      cases h4 : Scalar.gt (GTrig.atan2 (ray.eval t).y (ray.eval t).x) s.phiMax
      · simp [h3, h4, this, eq_comm]
      · simp [h3, h4]

theorem zones_accept {radius phiMax lo hi : Flt mw ew} {l : List (Sphere (Flt mw ew))} (hz : Zones radius phiMax lo hi l)
    (ray : Ray (Flt mw ew)) (t : Flt mw ew) (h : SphereHit (Flt mw ew)) :
    (∃ c ∈ l, c.getIntersection ray t = some h) ↔ Scalar.inRange t Scalar.zero ray.tmax = true ∧
      (FLe lo (ray.eval t).z ∧ FLe (ray.eval t).z hi) ∧ Scalar.gt (GTrig.atan2 (ray.eval t).y (ray.eval t).x) phiMax = false ∧
      h = ⟨t, ray.eval t, GTrig.atan2 (ray.eval t).y (ray.eval t).x⟩ := by
  induction hz with
  | whole lo hi s hs =>
    obtain ⟨-, e2, e3, e4, -⟩ := zone_fields hs
    simp only [List.mem_singleton, exists_eq_left]
    rw [accepts_iff, e2, e3, e4]
  | cut lo mid hi l r h1 h2 ih ih' =>
    have m1 := h1.lt
    have m2 := h2.lt
    have e : (∃ c ∈ l ++ r, c.getIntersection ray t = some h) ↔
        (∃ c ∈ l, c.getIntersection ray t = some h) ∨ ∃ c ∈ r, c.getIntersection ray t = some h := by
      simp only [List.mem_append, or_and_right, exists_or]
    rw [e, ih, ih']
    have z : (FLe lo (ray.eval t).z ∧ FLe (ray.eval t).z hi) ↔
        (FLe lo (ray.eval t).z ∧ FLe (ray.eval t).z mid) ∨ (FLe mid (ray.eval t).z ∧ FLe (ray.eval t).z hi) := by
      generalize (ray.eval t).z = z
      unfold FLe
      constructor
      · rintro ⟨⟨a1, a2, a3⟩, -, a4, a5⟩
        rcases le_total z.key mid.key with k | k
        · exact Or.inl ⟨⟨a1, a2, a3⟩, a2, m1.2.1, k⟩
        · exact Or.inr ⟨⟨m1.2.1, a2, k⟩, a2, a4, a5⟩
      · rintro (⟨⟨a1, a2, a3⟩, -, a4, a5⟩ | ⟨⟨a1, a2, a3⟩, -, a4, a5⟩)
        · exact ⟨⟨a1, a2, a3⟩, a2, m2.2.1, by omega⟩
        · exact ⟨⟨m1.1, a2, by omega⟩, a2, a4, a5⟩
    rw [z]
    clear z e ih ih'
    constructor
    · rintro (⟨a, b, c⟩ | ⟨a, b, c⟩)
      · exact ⟨a, Or.inl b, c⟩
      · exact ⟨a, Or.inr b, c⟩
    · rintro ⟨a, b | b, c⟩
      · exact Or.inl ⟨a, b, c⟩
      · exact Or.inr ⟨a, b, c⟩

theorem zones_radius {radius phiMax lo hi : Flt mw ew} {l : List (Sphere (Flt mw ew))} (hz : Zones radius phiMax lo hi l)
    (c : Sphere (Flt mw ew)) (hc : c ∈ l) : c.radius = radius := by
  induction hz with
  | whole lo hi s hs => rw [List.mem_singleton.1 hc]; exact (zone_fields hs).1
  | cut lo mid hi l r _ _ ih ih' => exact (List.mem_append.1 hc).elim ih ih'

theorem minMax_le {a b : Flt mw ew} (h0 : (Scalar.minMax a b).1.isNaN = false) (h1 : (Scalar.minMax a b).2.isNaN = false) :
    FLe (Scalar.minMax a b).1 (Scalar.minMax a b).2 := by
  by_contra hn
  exact minMax_order (t' := (Scalar.minMax a b).2) hn h0 h1 (FLe.refl h1)

/-- C153: cutting a sphere into zones.  What hits the sphere hits a zone at the same point, no zone reports anything nearer, and what
hits a zone hits the sphere. -/
theorem C153_hit (radius phiMax lo hi : Flt mw ew) (s : Sphere (Flt mw ew)) (hs : Sphere.new radius lo hi phiMax = some s)
    (l : List (Sphere (Flt mw ew))) (hz : Zones radius phiMax lo hi l) (ray : Ray (Flt mw ew)) :
    (∀ h, s.intersectRay ray = some h → (∃ c ∈ l, c.intersectRay ray = some h) ∧
      ∀ c ∈ l, ∀ h', c.intersectRay ray = some h' → Scalar.le h.tRay h'.tRay = true) ∧
    (s.intersectRay ray = none → ∀ c ∈ l, c.intersectRay ray = none) := by
  have e : ∀ t h, s.getIntersection ray t = some h ↔ ∃ c ∈ l, c.getIntersection ray t = some h := by
    intro t h
    rw [zones_accept hz, ← zones_accept (.whole lo hi s hs)]
    simp
  have er : ∀ c ∈ l, c.radius = s.radius := fun c hc => (zones_radius hz c hc).trans (zone_fields hs).1.symm
  have num : ∀ t h, s.getIntersection ray t = some h → h.tRay = t ∧ t.isNaN = false := by
    intro t h k
    obtain ⟨k1, -, -, rfl⟩ := (accepts_iff s ray t h).1 k
    unfold Scalar.inRange at k1
    rw [Bool.and_eq_true, sge_iff] at k1
    exact ⟨rfl, k1.1.1⟩
  unfold Sphere.intersectRay
  dsimp only
  cases hq : solveQuadratic ray.direction.squareNorm ((GVec.conv .vector ray.origin).dot ray.direction * GFloat.fromI64 2)
        ((GVec.conv .vector ray.origin).squareNorm - Scalar.square s.radius) with
  | none =>
    refine ⟨fun h k => by simp at k, fun _ c hc => ?_⟩
    rw [er c hc, hq]
  | some p =>
    obtain ⟨t0, t1⟩ := p
    obtain ⟨x, y, hxy⟩ := solveQuadratic_minMax _ _ _ _ hq
    have q : ∀ c ∈ l, solveQuadratic ray.direction.squareNorm ((GVec.conv .vector ray.origin).dot ray.direction * GFloat.fromI64 2)
        ((GVec.conv .vector ray.origin).squareNorm - Scalar.square c.radius) = some (t0, t1) := fun c hc => by rw [er c hc, hq]
    have order : t0.isNaN = false → t1.isNaN = false → FLe t0 t1 := by
      intro h0 h1
      have := minMax_le (a := x) (b := y)
      rw [← hxy] at this
      exact this h0 h1
    have none0 : s.getIntersection ray t0 = none → ∀ c ∈ l, c.getIntersection ray t0 = none := by
      intro k c hc
      cases k' : c.getIntersection ray t0 with
      | none => rfl
      | some h => rw [(e t0 h).2 ⟨c, hc, k'⟩] at k; cases k
    have none1 : s.getIntersection ray t1 = none → ∀ c ∈ l, c.getIntersection ray t1 = none := by
      intro k c hc
      cases k' : c.getIntersection ray t1 with
      | none => rfl
      | some h => rw [(e t1 h).2 ⟨c, hc, k'⟩] at k; cases k
    dsimp only
    cases g0 : s.getIntersection ray t0 with
    | some h =>
      dsimp only
      refine ⟨?_, by simp⟩
      intro h' hh
      obtain rfl := Option.some.inj hh
      obtain ⟨c, hc, k⟩ := (e t0 h).1 g0
      obtain ⟨i1, i2⟩ := num t0 h g0
      refine ⟨⟨c, hc, by rw [q c hc]; dsimp only; rw [k]⟩, fun c hc h' k => ?_⟩
      rw [q c hc] at k
      dsimp only at k
      rw [sle_iff, i1]
      cases g : c.getIntersection ray t0 with
      | some h'' =>
        rw [g] at k
        obtain rfl := Option.some.inj k
        obtain ⟨j1, j2⟩ := num t0 _ ((e t0 _).2 ⟨c, hc, g⟩)
        rw [j1]
        exact ⟨i2, i2, le_rfl⟩
      | none =>
        rw [g] at k
        obtain ⟨j1, j2⟩ := num t1 _ ((e t1 _).2 ⟨c, hc, k⟩)
        rw [j1]
        exact order i2 j2
    | none =>
      dsimp only
      have n0 := none0 g0
      refine ⟨fun h g1 => ?_, fun g1 c hc => ?_⟩
      · obtain ⟨c, hc, k⟩ := (e t1 h).1 g1
        obtain ⟨i1, i2⟩ := num t1 h g1
        refine ⟨⟨c, hc, by rw [q c hc]; dsimp only; rw [n0 c hc]; exact k⟩, fun c hc h' k => ?_⟩
        rw [q c hc] at k
        dsimp only at k
        rw [n0 c hc] at k
        obtain ⟨j1, j2⟩ := num t1 _ ((e t1 _).2 ⟨c, hc, k⟩)
        rw [sle_iff, i1, j1]
        exact ⟨i2, i2, le_rfl⟩
      · rw [q c hc]
        dsimp only
        rw [n0 c hc]
        exact none1 g1 c hc

theorem loop_spheres (l : List (Sphere (Flt mw ew))) (ray : Ray (Flt mw ew)) :
    PrimitiveList.doIntersectLoop ray (l.map Sphere.prim) = some (l.any fun c => c.doIntersect ray) := by
  induction l with
  | nil => rfl
  | cons c l ih =>
    rw [List.map_cons, PrimitiveList.doIntersectLoop, ih, List.any_cons]
    change (if c.doIntersect ray = true then some true else some _) = _
    cases c.doIntersect ray <;> rfl

/-- C153: so a list of the zones and the sphere stop exactly the same rays. -/
theorem C153_scene (radius phiMax lo hi : Flt mw ew) (s : Sphere (Flt mw ew)) (hs : Sphere.new radius lo hi phiMax = some s)
    (l : List (Sphere (Flt mw ew))) (hz : Zones radius phiMax lo hi l) (ray : Ray (Flt mw ew)) :
    (PrimitiveList.prim (l.map Sphere.prim)).doIntersect ray = s.prim.doIntersect ray := by
  change PrimitiveList.doIntersectLoop ray (l.map Sphere.prim) = some (s.doIntersect ray)
  obtain ⟨h1, h2⟩ := C153_hit radius phiMax lo hi s hs l hz ray
  rw [loop_spheres, Option.some.injEq, Bool.eq_iff_iff, List.any_eq_true]
  unfold Sphere.doIntersect
  cases hi : s.intersectRay ray with
  | none =>
    refine ⟨?_, by simp⟩
    rintro ⟨c, hc, k⟩
    rw [h2 hi c hc] at k; cases k
  | some h =>
    obtain ⟨⟨c, hc, k⟩, -⟩ := h1 h hi
    exact ⟨fun _ => rfl, fun _ => ⟨c, hc, by rw [k]; rfl⟩⟩

/-- C153: the bounding boxes of the zones together contain exactly the points of that of the sphere. -/
theorem C153_bbox (radius phiMax lo hi : Flt mw ew) (s : Sphere (Flt mw ew)) (hs : Sphere.new radius lo hi phiMax = some s)
    (l : List (Sphere (Flt mw ew))) (hz : Zones radius phiMax lo hi l) (p : Point (Flt mw ew) 3) :
    s.bbox.inside p = true ↔ ∃ c ∈ l, c.bbox.inside p = true := by
  have box : ∀ lo hi (s : Sphere (Flt mw ew)), Sphere.new radius lo hi phiMax = some s → (s.bbox.inside p = true ↔
      (∀ i, i ≠ 2 → FLe (imin (-radius) radius) (p.vec i) ∧ FLe (p.vec i) (imax (-radius) radius)) ∧ FLe lo (p.vec 2) ∧ FLe (p.vec 2) hi) := by
    intro lo hi s hs
    obtain ⟨e1, e2, e3, -, n1, n2, k⟩ := zone_fields hs
    rw [Bbox.insideF_iff]
    have b0 : s.bbox.pmin.vec 0 = imin (-radius) radius ∧ s.bbox.pmax.vec 0 = imax (-radius) radius := by rw [← e1]; exact ⟨rfl, rfl⟩
    have b1 : s.bbox.pmin.vec 1 = imin (-radius) radius ∧ s.bbox.pmax.vec 1 = imax (-radius) radius := by rw [← e1]; exact ⟨rfl, rfl⟩
    have b2 : s.bbox.pmin.vec 2 = imin lo hi ∧ s.bbox.pmax.vec 2 = imax lo hi := by rw [← e2, ← e3]; exact ⟨rfl, rfl⟩
    have m : imin lo hi = lo := by
      rcases imin_cases lo hi with ⟨h, e⟩ | ⟨h, e⟩ | ⟨-, -, h, e⟩ | ⟨-, -, h, e⟩ <;> rw [e]
      · rw [n1] at h; cases h
      · omega
    have M : imax lo hi = hi := by
      rcases imax_cases lo hi with ⟨h, e⟩ | ⟨h, e⟩ | ⟨-, -, h, e⟩ | ⟨-, -, h, e⟩ <;> rw [e]
      · rw [n2] at h; cases h
      · omega
    constructor
    · intro h
      refine ⟨fun i hi => ?_, ?_⟩
      · have := h i
        fin_cases i
        · rwa [show (⟨0, by decide⟩ : _root_.Fin 3) = 0 from rfl, b0.1, b0.2] at this
        · rwa [show (⟨1, by decide⟩ : _root_.Fin 3) = 1 from rfl, b1.1, b1.2] at this
        · exact absurd rfl hi
      · have := h 2
        rwa [b2.1, b2.2, m, M] at this
    · rintro ⟨h, h2⟩ i
      fin_cases i
      · have := h 0 (by decide)
        rw [show (⟨0, by decide⟩ : _root_.Fin 3) = 0 from rfl, b0.1, b0.2]; exact this
      · have := h 1 (by decide)
        rw [show (⟨1, by decide⟩ : _root_.Fin 3) = 1 from rfl, b1.1, b1.2]; exact this
      · rw [show (⟨2, by decide⟩ : _root_.Fin 3) = 2 from rfl, b2.1, b2.2, m, M]; exact h2
  rw [box lo hi s hs]
  clear hs
  induction hz with
  | whole lo hi c hc =>
    simp only [List.mem_singleton, exists_eq_left]
    rw [box lo hi c hc]
  | cut lo mid hi l r h1 h2 ih ih' =>
    have m1 := h1.lt
    have m2 := h2.lt
    have e : (∃ c ∈ l ++ r, c.bbox.inside p = true) ↔ (∃ c ∈ l, c.bbox.inside p = true) ∨ ∃ c ∈ r, c.bbox.inside p = true := by
      simp only [List.mem_append, or_and_right, exists_or]
    refine Iff.trans ?_ (e.trans (or_congr ih.symm ih'.symm)).symm
    generalize p.vec 2 = z
    unfold FLe
    constructor
    · rintro ⟨h, ⟨a1, a2, a3⟩, -, a4, a5⟩
      rcases le_total z.key mid.key with k | k
      · exact Or.inl ⟨h, ⟨a1, a2, a3⟩, a2, m1.2.1, k⟩
      · exact Or.inr ⟨h, ⟨m1.2.1, a2, k⟩, a2, a4, a5⟩
    · rintro (⟨h, ⟨a1, a2, a3⟩, -, a4, a5⟩ | ⟨h, ⟨a1, a2, a3⟩, -, a4, a5⟩)
      · exact ⟨h, ⟨a1, a2, a3⟩, a2, m2.2.1, by omega⟩
      · exact ⟨h, ⟨m1.1, a2, by omega⟩, a2, a4, a5⟩

end

/-- C153: the areas of the zones add up to that of the sphere, exactly computed (although each is too small, C62). -/
theorem C153_area (radius phiMax lo hi : ℝ) (s : Sphere ℝ) (hs : Sphere.new radius lo hi phiMax = some s) (l : List (Sphere ℝ))
    (hz : Zones radius phiMax lo hi l) : (l.map Sphere.area).sum = s.area := by
  have area : ∀ lo hi (s : Sphere ℝ), Sphere.new radius lo hi phiMax = some s → s.area = phiMax * radius * (hi - lo) := by
    intro lo hi s hs
    unfold Sphere.new at hs
    split at hs
    · cases hs; rfl
    · cases hs
  rw [area lo hi s hs]
  clear hs
  induction hz with
  | whole lo hi c hc => simp [area lo hi c hc]
  | cut lo mid hi l r _ _ ih ih' => rw [List.map_append, List.sum_append, ih, ih']; ring

/-! ### the hypotheses are met -/

/-- the zone of the unit sphere between two heights -/
def zoneOf [Libm 23 8] (lo hi : F32) : Option (Sphere F32) := Sphere.new (F32.lit 1) lo hi (F32.lit 4)
theorem zone_some [Libm 23 8] (lo hi : F32) (h : Scalar.lt lo hi = true) : (zoneOf lo hi).isSome = true := by
  unfold zoneOf Sphere.new
  rw [if_pos h]; rfl

/-- some trigonometric functions -/
@[reducible] def zoneLibm : Libm 23 8 := ⟨id, id, id, id, id, id, fun y _ => y⟩
attribute [local instance] zoneLibm

/-- The unit sphere cut at its equator, and a ray along the z axis: it enters through the lower half at 2, where the sphere
reports it, and leaves through the upper half at 4. -/
example : let ray : Ray F32 := ⟨new3 (F32.lit 0) (F32.lit 0) (-F32.lit 3), new3 (F32.lit 0) (F32.lit 0) (F32.lit 1), F32.lit 8⟩
    ∃ s a b : Sphere F32, Sphere.new (F32.lit 1) (-F32.lit 1) (F32.lit 1) (F32.lit 4) = some s ∧
      Zones (F32.lit 1) (F32.lit 4) (-F32.lit 1) (F32.lit 1) [a, b] ∧
      (s.intersectRay ray).map (·.tRay) = some (F32.lit 2) ∧ (a.intersectRay ray).map (·.tRay) = some (F32.lit 2) ∧
      (b.intersectRay ray).map (·.tRay) = some (F32.lit 4) := by
  refine ⟨_, _, _, (Option.some_get (zone_some _ _ (by decide +kernel))).symm,
    .cut _ (F32.lit 0) _ [_] [_]
      (.whole _ _ _ (Option.some_get (zone_some _ _ (by decide +kernel))).symm)
      (.whole _ _ _ (Option.some_get (zone_some _ _ (by decide +kernel))).symm), ?_, ?_, ?_⟩ <;>
    decide +kernel

end Scarlet
