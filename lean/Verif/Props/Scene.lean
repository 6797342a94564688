import Verif.Props.Primitive

/-! C90 (hit parameters of every scene), C91 (shortening a ray), C93 (box of a list: order and grouping). -/

set_option linter.unusedSectionVars false

namespace Scarlet
open GVec Flt

section
variable {mw ew : Nat} [FltImpl mw ew] [LawfulFlt mw ew] [Libm mw ew]

/-! ## C90 -/

/-- Every hit reported for a ray with `tmax ≥ 0` has its parameter within `[0, tmax]`, a number. -/
def Primitive.InRange (p : Primitive (Flt mw ew)) : Prop :=
  ∀ ray r, ray.tmax.isNaN = false → 0 ≤ ray.tmax.val → p.intersect ray = some (some r) →
    r.tRay.isNaN = false ∧ 0 ≤ r.tRay.val ∧ r.tRay.val ≤ ray.tmax.val

theorem inRange_list (ps : List (Primitive (Flt mw ew))) (h : ∀ p ∈ ps, p.InRange) : (PrimitiveList.prim ps).InRange := by
  intro ray r ht h0 hr
  obtain ⟨qs, p, rs, rfl, hp, -⟩ := C64_last_partial ps ray r hr
  exact h p (by simp) ray r ht h0 hp

theorem mapRayInv_tmax {t : Transform (Flt mw ew)} {ray s : Ray (Flt mw ew)} (h : t.mapRayInv ray = some s) : s.tmax = ray.tmax := by
  unfold Transform.mapRayInv at h
  obtain ⟨o, -, h⟩ := Option.bind_eq_some_iff.1 h
  obtain ⟨d, -, h⟩ := Option.bind_eq_some_iff.1 h
  cases h; rfl

theorem sphere_inRange (s : Sphere (Flt mw ew)) (ray : Ray (Flt mw ew)) (r : IntersectionResult (Flt mw ew))
    (h : s.intersect ray = some r) :
    r.tRay.isNaN = false ∧ ray.tmax.isNaN = false ∧ 0 ≤ r.tRay.key ∧ r.tRay.key ≤ ray.tmax.key := by
  obtain ⟨hit, he, rfl⟩ := Option.map_eq_some_iff.1 h
  obtain ⟨t, ht⟩ := intersectRay_some he
  obtain ⟨h1, -, -, rfl⟩ := getIntersection_some ht
  unfold Scalar.inRange at h1
  rw [Bool.and_eq_true, sge_iff, sle_iff, key_szero] at h1
  exact ⟨h1.1.1, h1.2.2.1, h1.1.2.2, h1.2.2.2⟩

/-- C90: every hit of every scene — spheres, boxes, transformed primitives and lists, nested to any depth, over any
user-supplied primitives that obey it — has `0 ≤ t_ray ≤ ray.tmax`, on floats, whatever NaNs and infinities occur. -/
theorem C90_scene (B : Primitive (Flt mw ew) → Prop) (hB : ∀ p, B p → p.InRange) (p : Primitive (Flt mw ew))
    (h : Primitive.Scene B p) : p.InRange := by
  induction h with
  | base p h => exact hB p h
  | sphere s =>
    intro ray r ht _ hr
    obtain ⟨h1, -, h3, h4⟩ := sphere_inRange s ray r (Option.some.inj hr)
    exact ⟨h1, (val_nonneg_iff h1).2 h3, (val_le_iff h1 ht).2 h4⟩
  | bbox b =>
    intro ray r ht h0 hr
    obtain ⟨h1, h2, h3, -⟩ := C54_hit b ray r ht h0 (Option.some.inj hr)
    exact ⟨h1, h2, h3⟩
  | transformed p t _ ih =>
    intro ray r ht h0 hr
    obtain ⟨x, hx, hr⟩ := Option.bind_eq_some_iff.1 hr
    have e := mapRayInv_tmax hx
    have := ih x r (by rw [e]; exact ht) (by rw [e]; exact h0) hr
    rwa [e] at this
  | list ps _ ih => exact inRange_list ps ih

/-! ## C91 -/

/-- the ray cut at `t'` -/
def Ray.cut (ray : Ray (Flt mw ew)) (t' : Flt mw ew) : Ray (Flt mw ew) := { ray with tmax := t' }

theorem cut_origin (ray : Ray (Flt mw ew)) (t' : Flt mw ew) : (ray.cut t').origin = ray.origin := rfl
theorem cut_direction (ray : Ray (Flt mw ew)) (t' : Flt mw ew) : (ray.cut t').direction = ray.direction := rfl
theorem cut_tmax (ray : Ray (Flt mw ew)) (t' : Flt mw ew) : (ray.cut t').tmax = t' := rfl

/-- Cutting the ray at `t' ≤ tmax`: panics are the same, a miss stays a miss, and a hit at `t ≤ t'` is reported
unchanged. -/
def Primitive.Cuttable (p : Primitive (Flt mw ew)) : Prop :=
  ∀ (ray : Ray (Flt mw ew)) (t' : Flt mw ew), 0 ≤ t'.val → FLe t' ray.tmax →
    (p.intersect ray = none ↔ p.intersect (ray.cut t') = none) ∧
    (p.intersect ray = some none → p.intersect (ray.cut t') = some none) ∧
    (∀ r, p.intersect ray = some (some r) → FLe r.tRay t' → p.intersect (ray.cut t') = some (some r))

/-- A primitive that moreover misses when the ray is cut before its hit. -/
def Primitive.Sharp (p : Primitive (Flt mw ew)) : Prop :=
  ∀ (ray : Ray (Flt mw ew)) (t' : Flt mw ew) r, 0 ≤ t'.val → FLe t' ray.tmax →
    p.intersect ray = some (some r) → ¬ FLe r.tRay t' → p.intersect (ray.cut t') = some none

theorem cut_list (ps : List (Primitive (Flt mw ew))) (h : ∀ p ∈ ps, p.Cuttable) : (PrimitiveList.prim ps).Cuttable := by
  intro ray t' h0 ht
  have key : ∀ (qs : List (Primitive (Flt mw ew))), (∀ p ∈ qs, p.Cuttable) → ∀ acc acc' rm rm',
      (PrimitiveList.intersectLoop ray qs acc rm = none ↔ PrimitiveList.intersectLoop (ray.cut t') qs acc' rm' = none) := by
    intro qs
    induction qs with
    | nil => intro _ acc acc' rm rm'; simp [PrimitiveList.intersectLoop]
    | cons q qs ih =>
      intro hq acc acc' rm rm'
      have hc := (hq q (by simp) ray t' h0 ht).1
      have ih := ih (fun p hp => hq p (by simp [hp]))
      unfold PrimitiveList.intersectLoop
      cases h1 : q.intersect ray with
      | none =>
        rw [hc.1 h1]; simp
      | some x =>
        cases h2 : q.intersect (ray.cut t') with
        | none => rw [hc.2 h2] at h1; cases h1
        | some y =>
          cases x <;> cases y <;> exact ih _ _ _ _
  have key2 : ∀ (qs : List (Primitive (Flt mw ew))), (∀ p ∈ qs, p.Cuttable) → ∀ r, FLe r.tRay t' → ∀ acc acc' rm rm',
      (acc = some r → acc' = some r) →
      PrimitiveList.intersectLoop ray qs acc rm = some (some r) →
      PrimitiveList.intersectLoop (ray.cut t') qs acc' rm' = some (some r) := by
    intro qs
    induction qs with
    | nil =>
      intro _ r _ acc acc' rm rm' hacc h
      simp only [PrimitiveList.intersectLoop, Option.some.injEq] at h ⊢
      exact hacc h
    | cons q qs ih =>
      intro hq r hr acc acc' rm rm' hacc h
      obtain ⟨hc1, hc2, hc3⟩ := hq q (by simp) ray t' h0 ht
      have ih := ih (fun p hp => hq p (by simp [hp])) r hr
      unfold PrimitiveList.intersectLoop at h ⊢
      cases h1 : q.intersect ray with
      | none => rw [h1] at h; cases h
      | some x =>
        rw [h1] at h
        cases h2 : q.intersect (ray.cut t') with
        | none => rw [hc1.2 h2] at h1; cases h1
        | some y =>
          cases x with
          | none =>
            rw [hc2 h1] at h2; cases h2
            exact ih _ _ _ _ hacc h
          | some a =>
            have hy : some a = some r → y = some r := by
              intro e; cases e
              have := hc3 r h1 hr
              rw [h2] at this; exact Option.some.inj this
            cases y with
            | none => exact ih (some a) _ _ _ (fun e => by cases hy e) h
            | some b => exact ih (some a) (some b) _ _ hy h
  refine ⟨key ps h _ _ _ _, fun hn => ?_, fun r hr hle => ?_⟩
  · rw [C63_intersect] at hn ⊢
    exact fun p hp => (h p hp ray t' h0 ht).2.1 (hn p hp)
  · exact key2 ps h r hle none none _ _ (fun e => e) hr

theorem getIntersection_cut (s : Sphere (Flt mw ew)) (ray : Ray (Flt mw ew)) (t' t : Flt mw ew) (ht : FLe t' ray.tmax) :
    (s.getIntersection ray t = none → s.getIntersection (ray.cut t') t = none) ∧
    (∀ h, s.getIntersection ray t = some h → h.tRay = t ∧ (FLe t t' → s.getIntersection (ray.cut t') t = some h) ∧
      (¬ FLe t t' → s.getIntersection (ray.cut t') t = none)) := by
  have e : (ray.cut t').eval t = ray.eval t := rfl
  have hr : Scalar.inRange t Scalar.zero (ray.cut t').tmax = true ↔ (Scalar.inRange t Scalar.zero ray.tmax = true ∧ FLe t t') := by
    unfold Scalar.inRange FLe
    rw [Bool.and_eq_true, Bool.and_eq_true, sge_iff, sle_iff, sle_iff]
    obtain ⟨a, b, c⟩ := ht
    constructor
    · rintro ⟨h1, h2, h3, h4⟩; exact ⟨⟨h1, h2, b, h4.trans c⟩, h2, h3, h4⟩
    · rintro ⟨⟨h1, -⟩, h2⟩; exact ⟨h1, h2⟩
  constructor
  · intro h
    unfold Sphere.getIntersection at h ⊢
    rw [e]
    by_cases hx : Scalar.inRange t Scalar.zero (ray.cut t').tmax = true
    · rw [(hr.1 hx).1] at h; rw [hx]; exact h
    · rw [Bool.eq_false_iff.2 hx]; rfl
  · intro h hh
    have h' := hh
    obtain ⟨h1, -, -, rfl⟩ := getIntersection_some hh
    refine ⟨rfl, fun hl => ?_, fun hl => ?_⟩
    · unfold Sphere.getIntersection at h' ⊢
      rw [e, hr.2 ⟨h1, hl⟩]
      rw [h1] at h'
      exact h'
    · unfold Sphere.getIntersection
      rw [Bool.eq_false_iff.2 (fun hx => hl (hr.1 hx).2)]; rfl

theorem minMax_order {a b : Flt mw ew} {t' : Flt mw ew} (h0 : ¬ FLe (Scalar.minMax a b).1 t') (hn : (Scalar.minMax a b).1.isNaN = false)
    (hn' : t'.isNaN = false) : ¬ FLe (Scalar.minMax a b).2 t' := by
  revert h0 hn
  unfold Scalar.minMax FLe
  cases h : Scalar.lt a b
  · intro h0 hn h1
    have hk : ¬ (a.isNaN = false ∧ b.isNaN = false ∧ a.key < b.key) := by rw [← slt_iff, h]; simp
    simp only [Bool.false_eq_true, if_false] at h0 hn h1
    apply h0
    refine ⟨hn, hn', ?_⟩
    by_contra hc
    exact hk ⟨h1.1, hn, by omega⟩
  · intro h0 hn h1
    rw [slt_iff] at h
    simp only [if_true] at h0 hn h1
    exact h0 ⟨hn, hn', by omega⟩

theorem solveQuadratic_minMax (a b c : Flt mw ew) (p : Flt mw ew × Flt mw ew) (h : solveQuadratic a b c = some p) :
    ∃ x y, p = Scalar.minMax x y := by
  unfold solveQuadratic at h
  dsimp only at h
  split at h
  · split at h
    · cases h; exact ⟨_, _, rfl⟩
    · cases h; exact ⟨_, _, rfl⟩
  · cases h

theorem cut_sphere (s : Sphere (Flt mw ew)) : s.prim.Cuttable ∧ s.prim.Sharp := by
  have main : ∀ (ray : Ray (Flt mw ew)) (t' : Flt mw ew), FLe t' ray.tmax →
      (s.intersectRay ray = none → s.intersectRay (ray.cut t') = none) ∧
      (∀ h, s.intersectRay ray = some h → (FLe h.tRay t' → s.intersectRay (ray.cut t') = some h) ∧
        (¬ FLe h.tRay t' → s.intersectRay (ray.cut t') = none)) := by
    intro ray t' ht
    unfold Sphere.intersectRay
    simp only [cut_origin, cut_direction]
    cases hq : solveQuadratic ray.direction.squareNorm ((GVec.conv .vector ray.origin).dot ray.direction * GFloat.fromI64 2)
        ((GVec.conv .vector ray.origin).squareNorm - Scalar.square s.radius) with
    | none => simp
    | some p =>
      obtain ⟨t0, t1⟩ := p
      obtain ⟨x, y, hxy⟩ := solveQuadratic_minMax _ _ _ _ hq
      obtain ⟨a1, a2⟩ := getIntersection_cut s ray t' t0 ht
      obtain ⟨b1, b2⟩ := getIntersection_cut s ray t' t1 ht
      dsimp only
      cases h0 : s.getIntersection ray t0 with
      | none =>
        rw [a1 h0]
        dsimp only
        refine ⟨b1, fun h hh => ?_⟩
        obtain ⟨c1, c2, c3⟩ := b2 h hh
        rw [c1]; exact ⟨c2, c3⟩
      | some i =>
        obtain ⟨c1, c2, c3⟩ := a2 i h0
        refine ⟨fun h => (by cases h), fun h hh => ?_⟩
        cases hh
        rw [c1]
        refine ⟨fun hl => by rw [c2 hl], fun hl => ?_⟩
        rw [c3 hl]
        dsimp only
        have hn : t0.isNaN = false := by
          have := (getIntersection_some h0).1
          unfold Scalar.inRange at this
          rw [Bool.and_eq_true, sge_iff] at this
          exact this.1.1
        have e0 : t0 = (Scalar.minMax x y).1 := congrArg Prod.fst hxy
        have e1 : t1 = (Scalar.minMax x y).2 := congrArg Prod.snd hxy
        have hl1 : ¬ FLe t1 t' := by
          rw [e1]; rw [e0] at hl hn; exact minMax_order hl hn ht.1
        cases h1 : s.getIntersection ray t1 with
        | none => exact b1 h1
        | some j => exact (b2 j h1).2.2 hl1
  constructor
  · intro ray t' _ ht
    obtain ⟨m1, m2⟩ := main ray t' ht
    refine ⟨by simp [Sphere.prim], fun h => ?_, fun r h hl => ?_⟩
    · have h := Option.map_eq_none_iff.1 (Option.some.inj h)
      change some ((s.intersectRay _).map _) = _
      rw [m1 h]; rfl
    · obtain ⟨hit, he, rfl⟩ := Option.map_eq_some_iff.1 (Option.some.inj h)
      change some ((s.intersectRay _).map _) = _
      rw [(m2 hit he).1 hl]; rfl
  · intro ray t' r _ ht h hl
    obtain ⟨hit, he, rfl⟩ := Option.map_eq_some_iff.1 (Option.some.inj h)
    change some ((s.intersectRay _).map _) = _
    rw [((main ray t' ht).2 hit he).2 hl]; rfl

theorem cut_bbox (b : Bbox (Flt mw ew)) : b.prim.Cuttable ∧ b.prim.Sharp := by
  have main : ∀ (ray : Ray (Flt mw ew)) (t' : Flt mw ew), 0 ≤ t'.val → FLe t' ray.tmax →
      (b.intersectRay ray = none → b.intersectRay (ray.cut t') = none) ∧
      (∀ t0 t1, b.intersectRay ray = some (t0, t1) → (FLe t0 t' → ∃ t1', b.intersectRay (ray.cut t') = some (t0, t1')) ∧
        (¬ FLe t0 t' → b.intersectRay (ray.cut t') = none)) := by
    intro ray t' h0 ht
    obtain ⟨tn, tf, hI⟩ : ∃ tn tf : Flt mw ew, ∀ tm, b.intersectRay (ray.cut tm) =
        if (Scalar.gt tn tm || Scalar.lt tf Scalar.zero || Scalar.gt tn tf) = true then none
        else some (Inherent.max tn Scalar.zero, Inherent.min tf tm) :=
      ⟨Inherent.max (Inherent.max (((b.pmin - ray.origin) / ray.direction).min ((b.pmax - ray.origin) / ray.direction)).x
          (((b.pmin - ray.origin) / ray.direction).min ((b.pmax - ray.origin) / ray.direction)).y)
          (((b.pmin - ray.origin) / ray.direction).min ((b.pmax - ray.origin) / ray.direction)).z,
        Inherent.min (Inherent.min (((b.pmin - ray.origin) / ray.direction).max ((b.pmax - ray.origin) / ray.direction)).x
          (((b.pmin - ray.origin) / ray.direction).max ((b.pmax - ray.origin) / ray.direction)).y)
          (((b.pmin - ray.origin) / ray.direction).max ((b.pmax - ray.origin) / ray.direction)).z, fun tm => rfl⟩
    have e : b.intersectRay ray = b.intersectRay (ray.cut ray.tmax) := rfl
    rw [e, hI, hI]
    have hk : 0 ≤ t'.key := (val_nonneg_iff ht.1).1 h0
    have hc : ∀ tm : Flt mw ew, tm.isNaN = false →
        ((Scalar.gt tn tm || Scalar.lt tf Scalar.zero || Scalar.gt tn tf) = true ↔
        ((tn.isNaN = false ∧ tm.key < tn.key) ∨ Scalar.lt tf Scalar.zero = true ∨ Scalar.gt tn tf = true)) := by
      intro tm htm
      rw [Bool.or_eq_true, Bool.or_eq_true, sgt_iff, htm, or_assoc]; simp
    have z := szero_notNaN (mw := mw) (ew := ew)
    have kz := key_szero (mw := mw) (ew := ew)
    constructor
    · intro h
      rw [if_pos]
      rw [hc _ ht.1]
      split at h
      · rename_i hx
        rw [hc _ ht.2.1] at hx
        rcases hx with ⟨h1, h2⟩ | h2
        · exact Or.inl ⟨h1, by have := ht.2.2; omega⟩
        · exact Or.inr h2
      · cases h
    · intro t0 t1 h
      split at h
      · cases h
      rename_i hx
      rw [hc _ ht.2.1, not_or] at hx
      simp only [Option.some.injEq, Prod.mk.injEq] at h
      obtain ⟨e1, -⟩ := h
      have e1 : imax tn Scalar.zero = t0 := e1
      have cases' : (tn.isNaN = true ∧ t0.key = 0 ∧ t0.isNaN = false) ∨
          (tn.isNaN = false ∧ t0.isNaN = false ∧ t0.key = max tn.key 0) := by
        cases hn : tn.isNaN
        · right
          have := imax_key hn z
          rw [kz, e1] at this; exact ⟨rfl, this.1, this.2⟩
        · left
          rcases imax_cases tn Scalar.zero with ⟨h, e⟩ | ⟨h, e⟩ | ⟨a1, a2, a3, e⟩ | ⟨a1, a2, a3, e⟩
          · rw [← e1, e, kz]; exact ⟨rfl, rfl, z⟩
          · rw [z] at h; cases h
          · rw [hn] at a1; cases a1
          · rw [hn] at a1; cases a1
      refine ⟨fun hl => ?_, fun hl => ?_⟩
      · refine ⟨imin tf t', ?_⟩
        rw [if_neg]
        · rw [← e1]; rfl
        rw [hc _ ht.1, not_or]
        refine ⟨?_, hx.2⟩
        rintro ⟨h1, h2⟩
        have := hl.2.2
        rcases cases' with ⟨c1, -⟩ | ⟨-, -, c2⟩
        · rw [h1] at c1; cases c1
        · omega
      · rw [if_pos]
        rw [hc _ ht.1]
        left
        rcases cases' with ⟨c1, c2, c3⟩ | ⟨c1, c2, c3⟩
        · exact absurd ⟨c3, ht.1, by omega⟩ hl
        · refine ⟨c1, ?_⟩
          by_contra hn
          exact hl ⟨c2, ht.1, by omega⟩
  constructor
  · intro ray t' h0 ht
    obtain ⟨m1, m2⟩ := main ray t' h0 ht
    refine ⟨by simp [Bbox.prim], fun h => ?_, fun r h hl => ?_⟩
    · have h := Option.map_eq_none_iff.1 (Option.some.inj h)
      change some ((b.intersectRay _).map _) = _
      rw [m1 h]; rfl
    · obtain ⟨⟨t0, t1⟩, he, rfl⟩ := Option.map_eq_some_iff.1 (Option.some.inj h)
      obtain ⟨t1', h'⟩ := (m2 t0 t1 he).1 hl
      change some ((b.intersectRay _).map _) = _
      rw [h']; rfl
  · intro ray t' r h0 ht h hl
    obtain ⟨⟨t0, t1⟩, he, rfl⟩ := Option.map_eq_some_iff.1 (Option.some.inj h)
    change some ((b.intersectRay _).map _) = _
    rw [((main ray t' h0 ht).2 t0 t1 he).2 hl]; rfl

theorem mapRayInv_cut (t : Transform (Flt mw ew)) (ray : Ray (Flt mw ew)) (t' : Flt mw ew) :
    t.mapRayInv (ray.cut t') = (t.mapRayInv ray).map (·.cut t') := by
  unfold Transform.mapRayInv Ray.cut
  change (t.mapPointInv ray.origin).bind _ = Option.map _ ((t.mapPointInv ray.origin).bind _)
  cases t.mapPointInv ray.origin with
  | none => rfl
  | some o =>
    change (t.mapVecInv ray.direction).bind _ = Option.map _ ((t.mapVecInv ray.direction).bind _)
    cases t.mapVecInv ray.direction with
    | none => rfl
    | some d => rfl

/-- C91: on every scene, shortening a ray to `t' ≤ tmax` keeps misses and panics, and leaves the reported hit unchanged
as long as it lies within the shortened ray; on floats, nested to any depth. -/
theorem C91_scene (B : Primitive (Flt mw ew) → Prop) (hB : ∀ p, B p → p.Cuttable) (p : Primitive (Flt mw ew))
    (h : Primitive.Scene B p) : p.Cuttable := by
  induction h with
  | base p h => exact hB p h
  | sphere s => exact (cut_sphere s).1
  | bbox b => exact (cut_bbox b).1
  | transformed p t _ ih =>
    intro ray t' h0 ht
    change ((t.mapRayInv ray).bind p.intersect = none ↔ (t.mapRayInv (ray.cut t')).bind p.intersect = none) ∧
      ((t.mapRayInv ray).bind p.intersect = some none → (t.mapRayInv (ray.cut t')).bind p.intersect = some none) ∧
      (∀ r, (t.mapRayInv ray).bind p.intersect = some (some r) → FLe r.tRay t' →
        (t.mapRayInv (ray.cut t')).bind p.intersect = some (some r))
    rw [mapRayInv_cut]
    cases hx : t.mapRayInv ray with
    | none => simp
    | some x => exact ih x t' h0 (by rw [mapRayInv_tmax hx]; exact ht)
  | list ps _ ih => exact cut_list ps ih

/-- C91: a sphere or a box, transformed any number of times, is missed by a ray cut before the hit it reports: what it
reports is the first hit along the ray in its own parameter. -/
theorem C91_sharp (s : Sphere (Flt mw ew)) (b : Bbox (Flt mw ew)) (p : Primitive (Flt mw ew)) (t : Transform (Flt mw ew)) :
    s.prim.Sharp ∧ b.prim.Sharp ∧ (p.Sharp → (p.transformed t).Sharp) := by
  refine ⟨(cut_sphere s).2, (cut_bbox b).2, fun hp ray t' r h0 ht h hl => ?_⟩
  change (t.mapRayInv ray).bind p.intersect = _ at h
  change (t.mapRayInv (ray.cut t')).bind p.intersect = _
  rw [mapRayInv_cut]
  cases hx : t.mapRayInv ray with
  | none => rw [hx] at h; cases h
  | some x =>
    rw [hx] at h
    exact hp x t' r h0 (by rw [mapRayInv_tmax hx]; exact ht) h hl

/-- The list reports its last hit, so cutting before the reported hit may uncover another one: with `[near, far]` the
ray of `C64_refuted` reports t = 3, and cut at 2 reports t = 1. -/
theorem C91_list_not_sharp [Libm 23 8] : ¬ ∀ ps : List (Primitive F32), (∀ p ∈ ps, p.Sharp) → (PrimitiveList.prim ps).Sharp := by
  intro H
  have h := H [exNear.prim, exFar.prim] (by
    intro p hp
    simp only [List.mem_cons, List.not_mem_nil, or_false] at hp
    rcases hp with rfl | rfl
    · exact (cut_bbox _).2
    · exact (cut_bbox _).2)
  have e1 : ((PrimitiveList.prim [exNear.prim, exFar.prim]).intersect exRayZ).map (·.map (·.tRay)) = some (some (GFloat.fromI64 3)) := by
    decide +kernel
  simp only [Option.map_eq_some_iff] at e1
  obtain ⟨_, h1, ir, rfl, hir⟩ := e1
  have h2 := h exRayZ (F32.lit 2) ir ((val_nonneg_iff (by decide +kernel)).2 (by decide +kernel))
    ⟨by decide +kernel, by decide +kernel, by decide +kernel⟩ h1
    (by rw [hir]; intro hl; exact absurd hl.2.2 (by decide +kernel))
  have h3 := congrArg (fun x => x.map (·.isSome)) h2
  revert h3
  decide +kernel

/-- Non-vacuity: the near box alone, hit at t = 1 by a ray of length 10, also when cut at 2, and not when cut at 1/2. -/
example : ((exNear.prim.intersect exRayZ).map (·.map (·.tRay)) = some (some (F32.lit 1))) ∧
    ((exNear.prim.intersect (exRayZ.cut (F32.lit 2))).map (·.map (·.tRay)) = some (some (F32.lit 1))) ∧
    ((exNear.prim.intersect (exRayZ.cut (ofRat 23 8 false 1 2))).map (·.isSome) = some false) := by decide +kernel

/-! ## C93 -/

theorem fold_inside (ps : List (Primitive (Flt mw ew))) (x : Flt mw ew) (i : _root_.Fin 3) : ∀ acc : Bbox (Flt mw ew),
    (FLe ((ps.foldl (fun b p => b + p.bbox) acc).pmin.vec i) x ↔ FLe (acc.pmin.vec i) x ∨ ∃ p ∈ ps, FLe (p.bbox.pmin.vec i) x) ∧
    (FLe x ((ps.foldl (fun b p => b + p.bbox) acc).pmax.vec i) ↔ FLe x (acc.pmax.vec i) ∨ ∃ p ∈ ps, FLe x (p.bbox.pmax.vec i)) := by
  induction ps with
  | nil => intro acc; simp
  | cons p ps ih =>
    intro acc
    rw [List.foldl_cons, (ih _).1, (ih _).2]
    have e : acc + p.bbox = acc.union p.bbox := rfl
    rw [e, (Bbox.unionF acc p.bbox i).1, (Bbox.unionF acc p.bbox i).2, imin_fle, fle_imax]
    simp only [List.mem_cons, exists_eq_or_imp, or_assoc, and_self]

/-- The points reached by a set of boxes: in every coordinate some lower bound is at most, and some upper bound at
least, the coordinate of the point (an empty set has bounds `highest()` and `lowest()`). -/
def Hull (S : Bbox (Flt mw ew) → Prop) (x : Point (Flt mw ew) 3) : Prop :=
  ∀ i, (FLe Scalar.highest (x.vec i) ∨ ∃ b, S b ∧ FLe (b.pmin.vec i) (x.vec i)) ∧
    (FLe (x.vec i) Scalar.lowest ∨ ∃ b, S b ∧ FLe (x.vec i) (b.pmax.vec i))

/-- C93: exactly which points are inside the box of a list, without any hypothesis on the members (NaN bounds are
ignored): it depends only on which boxes occur. -/
theorem C93_inside (ps : List (Primitive (Flt mw ew))) (x : Point (Flt mw ew) 3) :
    (PrimitiveList.prim ps).bbox.inside x = true ↔ Hull (fun b => ∃ p ∈ ps, p.bbox = b) x := by
  rw [Bbox.insideF_iff]
  refine forall_congr' fun i => ?_
  have h := fold_inside ps (x.vec i) i Bbox.default
  have d1 : (Bbox.default : Bbox (Flt mw ew)).pmin.vec i = Scalar.highest := by fin_cases i <;> rfl
  have d2 : (Bbox.default : Bbox (Flt mw ew)).pmax.vec i = Scalar.lowest := by fin_cases i <;> rfl
  rw [d1, d2] at h
  refine and_congr (h.1.trans (or_congr_right ?_)) (h.2.trans (or_congr_right ?_)) <;>
  · constructor
    · rintro ⟨p, hp, hl⟩; exact ⟨p.bbox, ⟨p, hp, rfl⟩, hl⟩
    · rintro ⟨_, ⟨p, hp, rfl⟩, hl⟩; exact ⟨p, hp, hl⟩

/-- C93: the box of a list does not depend on the order of the members nor on repetitions, as a region. -/
theorem C93_order (ps qs : List (Primitive (Flt mw ew))) (h : ∀ p, p ∈ ps ↔ p ∈ qs) (x : Point (Flt mw ew) 3) :
    (PrimitiveList.prim ps).bbox.inside x = (PrimitiveList.prim qs).bbox.inside x := by
  rw [Bool.eq_iff_iff, C93_inside, C93_inside]
  simp only [h]

/-- C93: grouping members into a sublist does not change the box, as a region. -/
theorem C93_grouping (ps qs rs : List (Primitive (Flt mw ew))) (x : Point (Flt mw ew) 3) :
    (PrimitiveList.prim (ps ++ PrimitiveList.prim qs :: rs)).bbox.inside x = (PrimitiveList.prim (ps ++ qs ++ rs)).bbox.inside x := by
  rw [Bool.eq_iff_iff, C93_inside, C93_inside]
  refine forall_congr' fun i => ?_
  have h := fold_inside qs (x.vec i) i Bbox.default
  have d1 : (Bbox.default : Bbox (Flt mw ew)).pmin.vec i = Scalar.highest := by fin_cases i <;> rfl
  have d2 : (Bbox.default : Bbox (Flt mw ew)).pmax.vec i = Scalar.lowest := by fin_cases i <;> rfl
  rw [d1, d2] at h
  have e : ∀ (Q : Bbox (Flt mw ew) → Prop) (D : Prop), (Q (PrimitiveList.prim qs).bbox ↔ D ∨ ∃ p ∈ qs, Q p.bbox) →
      ((D ∨ ∃ b, (∃ p ∈ ps ++ PrimitiveList.prim qs :: rs, p.bbox = b) ∧ Q b) ↔
        (D ∨ ∃ b, (∃ p ∈ ps ++ qs ++ rs, p.bbox = b) ∧ Q b)) := by
    intro Q D hQ
    constructor
    · rintro (hD | ⟨_, ⟨p, hp, rfl⟩, hb⟩)
      · exact Or.inl hD
      · simp only [List.mem_append, List.mem_cons] at hp
        rcases hp with hp | rfl | hp
        · exact Or.inr ⟨_, ⟨p, by simp [hp], rfl⟩, hb⟩
        · rcases hQ.1 hb with hD | ⟨q, hq, hb⟩
          · exact Or.inl hD
          · exact Or.inr ⟨_, ⟨q, by simp [hq], rfl⟩, hb⟩
        · exact Or.inr ⟨_, ⟨p, by simp [hp], rfl⟩, hb⟩
    · rintro (hD | ⟨_, ⟨p, hp, rfl⟩, hb⟩)
      · exact Or.inl hD
      · simp only [List.mem_append] at hp
        rcases hp with (hp | hp) | hp
        · exact Or.inr ⟨_, ⟨p, by simp [hp], rfl⟩, hb⟩
        · exact Or.inr ⟨_, ⟨PrimitiveList.prim qs, by simp, rfl⟩, hQ.2 (Or.inr ⟨p, hp, hb⟩)⟩
        · exact Or.inr ⟨_, ⟨p, by simp [hp], rfl⟩, hb⟩
  exact and_congr (e _ _ h.1) (e _ _ h.2)

/-- Non-vacuity: a point between the two boxes is in the box of the list, in either order. -/
example : let x : Point F32 3 := new3 (F32.lit 0) (F32.lit 0) (ofRat 23 8 false 5 2)
    exNear.inside x = false ∧ exFar.inside x = false ∧ (PrimitiveList.prim [exNear.prim, exFar.prim]).bbox.inside x = true ∧
    (PrimitiveList.prim [exFar.prim, exNear.prim]).bbox.inside x = true := by decide +kernel

end
end Scarlet
