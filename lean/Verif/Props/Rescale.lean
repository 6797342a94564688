import Verif.Props.Scene

/-! C95: scaling a ray's direction, in exact arithmetic. -/

set_option linter.unusedSectionVars false

namespace Scarlet
open GVec

/-- the same half-line, parametrised `c` times faster -/
noncomputable def Ray.rescale (ray : Ray ℝ) (c : ℝ) : Ray ℝ :=
  ⟨ray.origin, new3 (ray.direction.x * c) (ray.direction.y * c) (ray.direction.z * c), ray.tmax / c⟩

/-- same surface interaction, parameter divided by `c` -/
noncomputable def IntersectionResult.rescale (r : IntersectionResult ℝ) (c : ℝ) : IntersectionResult ℝ :=
  { r with tRay := r.tRay / c }

/-- Scaling the direction by `c > 0` and `tmax` by `1/c` changes the result only by scaling `t_ray` by `1/c`. -/
def Primitive.Homogeneous (p : Primitive ℝ) : Prop :=
  ∀ (ray : Ray ℝ) (c : ℝ), 0 < c → p.intersect (ray.rescale c) = (p.intersect ray).map (·.map (·.rescale c)) ∧
    p.doIntersect (ray.rescale c) = p.doIntersect ray

theorem rescale_eval (ray : Ray ℝ) (c t : ℝ) (hc : 0 < c) : (ray.rescale c).eval (t / c) = ray.eval t := by
  refine GVec.ext (funext fun i => ?_)
  change ray.origin.vec i + (ray.rescale c).direction.vec i * (t / c) = ray.origin.vec i + ray.direction.vec i * t
  have : (ray.rescale c).direction.vec i = ray.direction.vec i * c := by fin_cases i <;> rfl
  rw [this]
  field_simp

theorem minMax_rescale (x y c : ℝ) (hc : 0 < c) :
    Scalar.minMax (x / c) (y / c) = ((Scalar.minMax x y).1 / c, (Scalar.minMax x y).2 / c) := by
  unfold Scalar.minMax
  by_cases h : x < y
  · rw [if_pos (rlt_iff.2 h), if_pos (rlt_iff.2 (div_lt_div_of_pos_right h hc))]
  · have h' : ¬ x / c < y / c := fun h' => h ((div_lt_div_iff_of_pos_right hc).1 h')
    rw [if_neg (fun e => h (rlt_iff.1 e)), if_neg (fun e => h' (rlt_iff.1 e))]

theorem solveQuadratic_rescale (a b k c : ℝ) (hc : 0 < c) :
    solveQuadratic (a * (c * c)) (b * c) k = (solveQuadratic a b k).map fun p => (p.1 / c, p.2 / c) := by
  unfold solveQuadratic
  have e : Scalar.square (b * c) - a * (c * c) * k * GFloat.fromI64 4 = (Scalar.square b - a * k * GFloat.fromI64 4) * (c * c) := by
    simp only [rsquare, rfromI64]; ring
  dsimp only
  rw [e]
  generalize Scalar.square b - a * k * (GFloat.fromI64 4 : ℝ) = d
  have hcc : 0 < c * c := mul_pos hc hc
  by_cases hd : 0 ≤ d
  · have hs : GFloat.sqrt (d * (c * c)) = GFloat.sqrt d * c := by
      simp only [rsqrt]; rw [Real.sqrt_mul hd, Real.sqrt_mul_self hc.le]
    rw [if_pos (risNonneg.2 hd), if_pos (risNonneg.2 (mul_nonneg hd hcc.le)), hs]
    generalize GFloat.sqrt d = s
    by_cases hb : 0 ≤ b
    · rw [if_pos (risNonneg.2 hb), if_pos (risNonneg.2 (mul_nonneg hb hc.le)), Option.map_some, ← minMax_rescale _ _ _ hc]
      congr 2
      · rcases eq_or_ne a 0 with rfl | ha
        · simp
        · field_simp
      · rcases eq_or_ne (b + s) 0 with h0 | h0
        · rw [show b * c + s * c = (b + s) * c by ring, h0]; simp
        · rw [show b * c + s * c = (b + s) * c by ring]; field_simp
    · rw [if_neg (fun e => hb (risNonneg.1 e)), if_neg (fun e =>
        (not_le.2 (mul_neg_of_neg_of_pos (not_le.1 hb) hc)) (risNonneg.1 e)), Option.map_some, ← minMax_rescale _ _ _ hc]
      congr 2
      · rcases eq_or_ne a 0 with rfl | ha
        · simp
        · field_simp
      · rcases eq_or_ne (-b + s) 0 with h0 | h0
        · rw [show -(b * c) + s * c = (-b + s) * c by ring, h0]; simp
        · rw [show -(b * c) + s * c = (-b + s) * c by ring]; field_simp
  · rw [if_neg (fun e => hd (risNonneg.1 e)), if_neg (fun e =>
      (not_le.2 (mul_neg_of_neg_of_pos (not_le.1 hd) hcc)) (risNonneg.1 e))]
    rfl

theorem getIntersection_rescale (s : Sphere ℝ) (ray : Ray ℝ) (c t : ℝ) (hc : 0 < c) :
    s.getIntersection (ray.rescale c) (t / c) = (s.getIntersection ray t).map fun h => { h with tRay := h.tRay / c } := by
  unfold Sphere.getIntersection
  rw [rescale_eval ray c t hc]
  have hr : Scalar.inRange (t / c) Scalar.zero (ray.rescale c).tmax = Scalar.inRange t Scalar.zero ray.tmax := by
    rw [Bool.eq_iff_iff, rinRange, rinRange]
    change ((0 : ℝ) ≤ t / c ∧ t / c ≤ ray.tmax / c) ↔ ((0 : ℝ) ≤ t ∧ t ≤ ray.tmax)
    rw [div_le_div_iff_of_pos_right hc, le_div_iff₀ hc, zero_mul]
  rw [hr]
  dsimp only
  split
  · rfl
  · split
    · rfl
    · split
      · rfl
      · rfl

theorem homogeneous_sphere (s : Sphere ℝ) : s.prim.Homogeneous := by
  intro ray c hc
  have ha : (ray.rescale c).direction.squareNorm = ray.direction.squareNorm * (c * c) := by
    rw [squareNorm3, squareNorm3]
    change ray.direction.x * c * (ray.direction.x * c) + ray.direction.y * c * (ray.direction.y * c) +
      ray.direction.z * c * (ray.direction.z * c) = _
    ring
  have hb : (GVec.conv .vector (ray.rescale c).origin).dot (ray.rescale c).direction * GFloat.fromI64 2 =
      (GVec.conv .vector ray.origin).dot ray.direction * GFloat.fromI64 2 * c := by
    rw [dot3, dot3]
    change (ray.origin.x * (ray.direction.x * c) + ray.origin.y * (ray.direction.y * c) +
      ray.origin.z * (ray.direction.z * c)) * _ = (ray.origin.x * ray.direction.x + ray.origin.y * ray.direction.y +
      ray.origin.z * ray.direction.z) * _ * c
    ring
  have main : s.intersectRay (ray.rescale c) = (s.intersectRay ray).map fun h => { h with tRay := h.tRay / c } := by
    unfold Sphere.intersectRay
    dsimp only
    rw [ha, hb, show (ray.rescale c).origin = ray.origin from rfl, solveQuadratic_rescale _ _ _ _ hc]
    cases solveQuadratic ray.direction.squareNorm ((GVec.conv .vector ray.origin).dot ray.direction * GFloat.fromI64 2)
        ((GVec.conv .vector ray.origin).squareNorm - Scalar.square s.radius) with
    | none => rfl
    | some p =>
      obtain ⟨t0, t1⟩ := p
      dsimp only [Option.map_some]
      rw [getIntersection_rescale s ray c t0 hc, getIntersection_rescale s ray c t1 hc]
      cases s.getIntersection ray t0 with
      | none => rfl
      | some h => rfl
  constructor
  · change some ((s.intersectRay (ray.rescale c)).map s.interaction) = some (((s.intersectRay ray).map s.interaction).map _)
    rw [main, Option.map_map, Option.map_map]
    rfl
  · change some (s.intersectRay (ray.rescale c)).isSome = some (s.intersectRay ray).isSome
    rw [main, Option.isSome_map]

theorem homogeneous_bbox (b : Bbox ℝ) : b.prim.Homogeneous := by
  intro ray c hc
  have hd : ∀ i, (ray.rescale c).direction.vec i = ray.direction.vec i * c := fun i => by fin_cases i <;> rfl
  have q : ∀ x d : ℝ, x / (d * c) = x / d / c := fun x d => by rw [div_div]
  have mn : ∀ x y : ℝ, Min.min (x / c) (y / c) = Min.min x y / c := fun x y => by
    rw [min_div_div_right hc.le]
  have mx : ∀ x y : ℝ, Max.max (x / c) (y / c) = Max.max x y / c := fun x y => by
    rw [max_div_div_right hc.le]
  have hin : ∀ i, tIn b (ray.rescale c) i = tIn b ray i / c := fun i => by
    unfold tIn; rw [hd, q, q, mn]; rfl
  have hout : ∀ i, tOut b (ray.rescale c) i = tOut b ray i / c := fun i => by
    unfold tOut; rw [hd, q, q, mx]; rfl
  have main : b.intersectRay (ray.rescale c) = (b.intersectRay ray).map fun p => (p.1 / c, p.2 / c) := by
    rw [intersectRay_real, intersectRay_real]
    simp only [hin, hout, mn, mx]
    generalize Max.max (Max.max (tIn b ray 0) (tIn b ray 1)) (tIn b ray 2) = n
    generalize Min.min (Min.min (tOut b ray 0) (tOut b ray 1)) (tOut b ray 2) = f
    have ht : (ray.rescale c).tmax = ray.tmax / c := rfl
    have e : (ray.tmax / c < n / c ∨ f / c < 0 ∨ f / c < n / c) ↔ (ray.tmax < n ∨ f < 0 ∨ f < n) := by
      rw [div_lt_div_iff_of_pos_right hc, div_lt_div_iff_of_pos_right hc, div_lt_iff₀ hc, zero_mul]
    rw [ht]
    by_cases h : ray.tmax < n ∨ f < 0 ∨ f < n
    · rw [if_pos h, if_pos (e.2 h)]; rfl
    · rw [if_neg h, if_neg (fun h' => h (e.1 h')), mn, show Max.max (n / c) 0 = Max.max n 0 / c by
        rw [← mx, zero_div]]
      rfl
  constructor
  · change some ((b.intersectRay (ray.rescale c)).map _) = some (((b.intersectRay ray).map _).map _)
    rw [main, Option.map_map, Option.map_map]
    congr 2
    funext p
    simp only [Function.comp_apply, rescale_eval ray c _ hc, IntersectionResult.rescale]
  · change some (b.intersectRay (ray.rescale c)).isSome = some (b.intersectRay ray).isSome
    rw [main, Option.isSome_map]

theorem mapRayInv_rescale (t : Transform ℝ) (ray : Ray ℝ) (c : ℝ) (hc : 0 < c) :
    t.mapRayInv (ray.rescale c) = (t.mapRayInv ray).map (·.rescale c) := by
  have hv : t.mapVecInv (ray.rescale c).direction =
      (t.mapVecInv ray.direction).map fun d => new3 (d.x * c) (d.y * c) (d.z * c) := by
    unfold Transform.mapVecInv mapVector
    have e : ∀ a b d : ℝ, (ray.rescale c).direction.x * a + (ray.rescale c).direction.y * b + (ray.rescale c).direction.z * d =
        (ray.direction.x * a + ray.direction.y * b + ray.direction.z * d) * c := by
      intro a b d
      change ray.direction.x * c * a + ray.direction.y * c * b + ray.direction.z * c * d = _
      ring
    simp only [e]
    have hz : ∀ w : ℝ, Scalar.eq (w * c) (Scalar.zero : ℝ) = Scalar.eq w Scalar.zero := by
      intro w
      rw [Bool.eq_iff_iff, req_iff, req_iff]
      change w * c = 0 ↔ w = 0
      rw [mul_eq_zero]; simp [hc.ne']
    rw [hz]
    split
    · rfl
    · rfl
  unfold Transform.mapRayInv
  change (t.mapPointInv ray.origin).bind _ = Option.map _ ((t.mapPointInv ray.origin).bind _)
  cases t.mapPointInv ray.origin with
  | none => rfl
  | some o =>
    change (t.mapVecInv (ray.rescale c).direction).bind _ = Option.map _ ((t.mapVecInv ray.direction).bind _)
    rw [hv]
    cases t.mapVecInv ray.direction with
    | none => rfl
    | some d => rfl

/-- C95: in exact arithmetic, scaling the direction of a ray by `c > 0` (and `tmax` by `1/c`) scales `t_ray` by `1/c`
and changes nothing else, on every scene, nested to any depth, for arbitrary (also singular or projective) transforms.
(In the exact model `x / 0 = 0`.) -/
theorem C95_scene (B : Primitive ℝ → Prop) (hB : ∀ p, B p → p.Homogeneous) (p : Primitive ℝ) (h : Primitive.Scene B p) :
    p.Homogeneous := by
  induction h with
  | base p h => exact hB p h
  | sphere s => exact homogeneous_sphere s
  | bbox b => exact homogeneous_bbox b
  | transformed p t _ ih =>
    intro ray c hc
    change (t.mapRayInv (ray.rescale c)).bind p.intersect = Option.map _ ((t.mapRayInv ray).bind p.intersect) ∧
      (t.mapRayInv (ray.rescale c)).bind p.doIntersect = (t.mapRayInv ray).bind p.doIntersect
    rw [mapRayInv_rescale t ray c hc]
    cases t.mapRayInv ray with
    | none => exact ⟨rfl, rfl⟩
    | some x => exact ih x c hc
  | list ps _ ih =>
    intro ray c hc
    constructor
    · have : ∀ (qs : List (Primitive ℝ)), (∀ p ∈ qs, p.Homogeneous) → ∀ acc rm rm',
          PrimitiveList.intersectLoop (ray.rescale c) qs (Option.map (·.rescale c) acc) rm' =
          (PrimitiveList.intersectLoop ray qs acc rm).map (·.map (·.rescale c)) := by
        intro qs
        induction qs with
        | nil => intro _ acc rm rm'; rfl
        | cons q qs ih =>
          intro hq acc rm rm'
          unfold PrimitiveList.intersectLoop
          rw [(hq q (by simp) ray c hc).1]
          have ih := ih (fun p hp => hq p (by simp [hp]))
          cases q.intersect ray with
          | none => rfl
          | some x =>
            cases x with
            | none => exact ih _ _ _
            | some ir => exact ih (some ir) _ _
      exact this ps ih none ray (ray.rescale c)
    · change PrimitiveList.doIntersectLoop (ray.rescale c) ps = PrimitiveList.doIntersectLoop ray ps
      clear * - ih hc
      induction ps with
      | nil => rfl
      | cons q qs ih2 =>
        unfold PrimitiveList.doIntersectLoop
        rw [(ih q (by simp) ray c hc).2, ih2 (fun p hp => ih p (by simp [hp]))]

/-- Non-vacuity: scaling the direction of a ray that hits a box at t = 1/2 by 3 gives a hit at t = 1/6. -/
example : (⟨new3 0 0 0, new3 1 1 1⟩ : Bbox ℝ).intersectRay (⟨new3 (-1) (-1) (-1), new3 2 2 2, 10⟩ : Ray ℝ) = some (1 / 2, 1) := by
  rw [intersectRay_real]
  have h1 : ∀ i, tIn ⟨new3 0 0 0, new3 1 1 1⟩ (⟨new3 (-1) (-1) (-1), new3 2 2 2, 10⟩ : Ray ℝ) i = 1 / 2 := by
    intro i; unfold tIn; fin_cases i <;> simp [new3] <;> norm_num
  have h2 : ∀ i, tOut ⟨new3 0 0 0, new3 1 1 1⟩ (⟨new3 (-1) (-1) (-1), new3 2 2 2, 10⟩ : Ray ℝ) i = 1 := by
    intro i; unfold tOut; fin_cases i <;> simp [new3] <;> norm_num
  simp only [h1, h2]
  norm_num

end Scarlet
