import Verif.Props.MapBox
import Verif.Props.Exact2
import Verif.Props.FloatBox
import Verif.Props.SphereUV

/-! C115: testing the bounding box first loses no hits. -/

set_option linter.unusedSectionVars false

namespace Scarlet
open Flt GVec

/-! ### exact arithmetic -/

/-- a ray that meets a scene regularly does not make it panic -/
theorem regular_returns {p : Primitive ℝ} {ray : Ray ℝ} (h : p.RegularOn ray) : ∃ r, p.intersect ray = some r := by
  induction h with
  | sphere s ray h => exact ⟨_, rfl⟩
  | bbox b ray hb hd => exact ⟨_, rfl⟩
  | transformed p t ray obj ht ha hd ho _ ih =>
    obtain ⟨r, hr⟩ := ih
    refine ⟨r, ?_⟩
    change (t.mapRayInv ray).bind _ = _
    rw [ho]; exact hr
  | list ps ray _ ih =>
    change ∃ r, PrimitiveList.intersectLoop ray ps none ray = some r
    have : ∀ (res : Option (IntersectionResult ℝ)) (rm : Ray ℝ), ∃ r, PrimitiveList.intersectLoop ray ps res rm = some r := by
      clear * - ih
      induction ps with
      | nil => exact fun res rm => ⟨res, rfl⟩
      | cons q qs ihq =>
        intro res rm
        obtain ⟨r, hr⟩ := ih q (by simp)
        have ih' := ihq (fun p hp => ih p (by simp [hp]))
        unfold PrimitiveList.intersectLoop
        rw [hr]
        cases r with
        | none => exact ih' _ _
        | some ir => exact ih' _ _
    exact this _ _

theorem regular_scene {p : Primitive ℝ} {ray : Ray ℝ} (h : p.RegularOn ray) : Primitive.Scene (fun _ => False) p := by
  induction h with
  | sphere s ray h => exact .sphere s
  | bbox b ray hb hd => exact .bbox b
  | transformed p t ray obj ht ha hd ho _ ih => exact .transformed p t ih
  | list ps ray _ ih => exact .list ps ih

/-- every hit is on the segment of the ray -/
theorem regular_segment {p : Primitive ℝ} {ray : Ray ℝ} (h : p.RegularOn ray) (h0 : 0 ≤ ray.tmax)
    (r : IntersectionResult ℝ) (hr : p.intersect ray = some (some r)) : 0 ≤ r.tRay ∧ r.tRay ≤ ray.tmax := by
  induction h generalizing r with
  | sphere s ray h =>
    have := (C56_on_sphere s ray h r (Option.some.inj hr)).1
    exact ⟨this.1, this.2.1⟩
  | bbox b ray hb hd =>
    obtain ⟨t1, f, hi, -⟩ := hit_real b ray r (Option.some.inj hr)
    have hle : r.tRay ≤ t1 ∧ 0 ≤ r.tRay := by
      rw [intersectRay_real] at hi
      split at hi
      · cases hi
      · rename_i hc
        simp only [not_or, not_lt] at hc
        rw [Option.some.injEq, Prod.mk.injEq] at hi
        rw [← hi.1, ← hi.2]
        exact ⟨max_le (le_min hc.2.2 hc.1) (le_min hc.2.1 h0), le_max_right _ _⟩
    have := (C51_range b ray hb hd _ _ hi r.tRay).1 ⟨le_rfl, hle.1⟩
    exact ⟨this.1, this.2.1⟩
  | transformed p t ray obj ht ha hd ho _ ih =>
    have hr' : p.intersect obj = some (some r) := by
      change (t.mapRayInv ray).bind _ = _ at hr
      rw [ho] at hr; exact hr
    obtain ⟨s, e1, e2, -⟩ := C42_map_inverse t (C42_affine_inverse t ht ha) ray
    rw [ho, Option.some.injEq] at e1
    subst e1
    rw [← e2]
    exact ih (e2 ▸ h0) r hr'
  | list ps ray _ ih =>
    obtain ⟨qs, q, rs, e, h1, -⟩ := C64_last_partial ps ray r hr
    exact ih q (by rw [e]; simp) h0 r h1


/-- C115, the part that holds in exact arithmetic: for every scene of boxes, spheres, transformed primitives and lists met
regularly, the slab test of the scene's bounding box reports a range, and the range contains the parameter of the hit.  So a
renderer may skip the scene when the box is missed or when the range starts beyond the nearest hit so far.  Missing: transforms
with off-diagonal entries, for which it is false (`C115_rotated_refuted`). -/
theorem C115_range_partial (p : Primitive ℝ) (ray : Ray ℝ) (h : p.RegularOn ray) (h0 : 0 ≤ ray.tmax)
    (hd : ∀ i, ray.direction.vec i ≠ 0) (r : IntersectionResult ℝ) (hr : p.intersect ray = some (some r)) :
    ∃ t0 t1, p.bbox.intersectRay ray = some (t0, t1) ∧ t0 ≤ r.tRay ∧ r.tRay ≤ t1 := by
  have hin := C100_scene_partial p ray h r hr
  obtain ⟨s0, s1⟩ := regular_segment h h0 r hr
  have hb : p.bbox.OrderedR := by
    rw [inside_iff] at hin
    exact fun i => (hin i).1.trans (hin i).2
  obtain ⟨⟨t0, t1⟩, ht⟩ := Option.isSome_iff_exists.1 ((C51_some_iff p.bbox ray hb hd h0).2 ⟨_, s0, s1, hin⟩)
  exact ⟨t0, t1, ht, (C51_range p.bbox ray hb hd t0 t1 ht _).2 ⟨s0, s1, hin⟩⟩

/-- C115, the part that holds in exact arithmetic: a scene whose bounding box the ray misses is not hit, by `intersect` nor by
`do_intersect`, and does not panic.  Missing: as for `C115_range_partial`. -/
theorem C115_cull_partial (p : Primitive ℝ) (ray : Ray ℝ) (h : p.RegularOn ray) (h0 : 0 ≤ ray.tmax)
    (hd : ∀ i, ray.direction.vec i ≠ 0) (hb : p.bbox.intersectRay ray = none) :
    p.intersect ray = some none ∧ p.doIntersect ray = some false := by
  obtain ⟨r, hr⟩ := regular_returns h
  cases r with
  | none => exact ⟨hr, C58_agrees _ (fun _ h => h.elim) p (regular_scene h) ray none hr⟩
  | some r =>
    obtain ⟨t0, t1, ht, -⟩ := C115_range_partial p ray h h0 hd r hr
    rw [hb] at ht; cases ht

/-- the ray used in `C115_rotated_refuted`, in object space -/
noncomputable def cullObj : Ray ℝ := ⟨new3 (1/7) (2/7) (10/7), new3 1 1 (-4), 10⟩

theorem cullObj_regular : hemiS.Regular cullObj := by
  refine ⟨⟨0, by change (1 : ℝ) ≠ 0; norm_num⟩, fun h => ?_⟩
  have h := h.1
  change (1/7 : ℝ) * 1 + 2/7 * 1 + 10/7 * (-4) = 0 at h
  norm_num at h

theorem cullObj_hit : (hemiS.intersect cullObj).isSome = true := by
  have hco : ∀ k, (cullObj.eval k).x = 1/7 + 1 * k ∧ (cullObj.eval k).y = 2/7 + 1 * k ∧ (cullObj.eval k).z = 10/7 + -4 * k :=
    fun k => ⟨rfl, rfl, rfl⟩
  rw [C57_complete _ _ cullObj_regular]
  refine ⟨1/7, by norm_num, by change (1/7 : ℝ) ≤ 10; norm_num, ?_, ?_, ?_, Complex.arg_le_pi _⟩
  · rw [(hco _).1, (hco _).2.1, (hco _).2.2]; change _ = (1 : ℝ) ^ 2; norm_num
  · rw [(hco _).2.2]; change (0 : ℝ) ≤ _; norm_num
  · rw [(hco _).2.2]; change _ ≤ (1 : ℝ); norm_num

/-- Non-vacuity of `C115_range_partial`: a scene met regularly and hit. -/
example : ∃ p : Primitive ℝ, p.RegularOn cullObj ∧ 0 ≤ cullObj.tmax ∧ (∀ i, cullObj.direction.vec i ≠ 0) ∧
    ∃ r, p.intersect cullObj = some (some r) := by
  refine ⟨PrimitiveList.prim [hemiS.prim], .list _ _ (by simpa using .sphere hemiS _ cullObj_regular),
    by change (0 : ℝ) ≤ 10; norm_num, ?_, ?_⟩
  · intro i
    fin_cases i
    · change (1 : ℝ) ≠ 0; norm_num
    · change (1 : ℝ) ≠ 0; norm_num
    · change (-4 : ℝ) ≠ 0; norm_num
  · obtain ⟨r, hr⟩ := Option.isSome_iff_exists.1 cullObj_hit
    refine ⟨r, ?_⟩
    change PrimitiveList.intersectLoop cullObj [hemiS.prim] none cullObj = _
    unfold PrimitiveList.intersectLoop
    rw [show hemiS.prim.intersect cullObj = some (some r) from congrArg some hr]; rfl

/-- C115 as claimed is false of the code in exact arithmetic: the upper hemisphere turned by 90 degrees about the y axis is hit
by a ray that misses its bounding box. -/
theorem C115_rotated_refuted : ¬ ∀ (p : Primitive ℝ) (ray : Ray ℝ), p.MetOn ray → 0 ≤ ray.tmax →
    (∀ i, ray.direction.vec i ≠ 0) → p.bbox.intersectRay ray = none → p.intersect ray = some none := by
  intro H
  have haff : (Transform.rotateY (Real.pi / 2) : Transform ℝ).m.Affine := ⟨rfl, rfl, rfl, rfl⟩
  have hreach : (Transform.rotateY (Real.pi / 2) : Transform ℝ).Reachable := .rotateY _
  obtain ⟨w, hw, ht, h2⟩ := C42_map _ haff cullObj
  have hinv := C35_ray _ hreach _ _ hw
  have hev : ∀ k, (w.eval k).vec 0 = (cullObj.eval k).z ∧ (w.eval k).vec 1 = (cullObj.eval k).y ∧
      (w.eval k).vec 2 = -(cullObj.eval k).x := by
    intro k
    have h5 := h2 k
    rw [Transform.mapPoint, mapPt_affine haff, Option.some.injEq] at h5
    rw [← h5]
    unfold Transform.rotateY
    refine ⟨?_, ?_, ?_⟩ <;> simp [GVec.x, GVec.y, GVec.z, Matrix.mulVec, dotProduct, Fin.sum_univ_three, Mat4.trans]
    · change (0 : ℝ) * _ + 0 * _ + 1 * _ = _; ring
    · change (0 : ℝ) * _ + 1 * _ + 0 * _ = _; ring
    · change (-1 : ℝ) * _ + 0 * _ + 0 * _ = _; ring
  have hco : ∀ k, (cullObj.eval k).x = 1/7 + 1 * k ∧ (cullObj.eval k).y = 2/7 + 1 * k ∧ (cullObj.eval k).z = 10/7 + -4 * k :=
    fun k => ⟨rfl, rfl, rfl⟩
  have hev' : ∀ k i, (w.eval k).vec i = w.origin.vec i + w.direction.vec i * k := fun k i => rfl
  have hd : ∀ i, w.direction.vec i ≠ 0 := by
    intro i h
    have a := hev' 0 i
    have b := hev' 1 i
    rw [h] at a b
    have e : (w.eval 1).vec i = (w.eval 0).vec i := by rw [a, b]; ring
    fin_cases i
    · change (w.eval 1).vec 0 = (w.eval 0).vec 0 at e
      rw [(hev 1).1, (hev 0).1, (hco 1).2.2, (hco 0).2.2] at e; norm_num at e
    · change (w.eval 1).vec 1 = (w.eval 0).vec 1 at e
      rw [(hev 1).2.1, (hev 0).2.1, (hco 1).2.1, (hco 0).2.1] at e; norm_num at e
    · change (w.eval 1).vec 2 = (w.eval 0).vec 2 at e
      rw [(hev 1).2.2, (hev 0).2.2, (hco 1).1, (hco 0).1] at e; norm_num at e
  have hreg := cullObj_regular
  have hhit := cullObj_hit
  have hbox : hemiS.prim.bbox = ⟨new3 (-1) (-1) 0, new3 1 1 1⟩ := by
    change Bbox.new _ _ = _
    unfold Bbox.new
    simp [hemiS]
  have hlo : (hemiS.prim.transformed (Transform.rotateY (Real.pi / 2))).bbox.pmin.vec 2 = 0 := by
    change (Transform.mapBox _ _).pmin.vec 2 = 0
    unfold Transform.mapBox Transform.matrix
    rw [hbox, mapBbox_real, (new_real _ _ 2).1]
    unfold pLo pHi Transform.rotateY
    simp
  have hnone : (hemiS.prim.transformed (Transform.rotateY (Real.pi / 2))).bbox.intersectRay w = none := by
    have hord : (hemiS.prim.transformed (Transform.rotateY (Real.pi / 2))).bbox.OrderedR := by
      intro i
      change (Transform.mapBox _ _).pmin.vec i ≤ (Transform.mapBox _ _).pmax.vec i
      unfold Transform.mapBox Transform.matrix
      rw [mapBbox_real, (new_real _ _ i).1, (new_real _ _ i).2]
      exact min_le_max
    cases hc : (hemiS.prim.transformed (Transform.rotateY (Real.pi / 2))).bbox.intersectRay w with
    | none => rfl
    | some ts =>
      obtain ⟨t, t0, -, hin⟩ := (C51_some_iff _ w hord hd (by rw [ht]; change (0 : ℝ) ≤ 10; norm_num)).1
        (by rw [hc]; rfl)
      rw [inside_iff] at hin
      have := (hin 2).1
      rw [hlo, (hev t).2.2, (hco t).1] at this
      linarith
  have := H _ w (.transformed _ _ w cullObj hreach haff hinv (.sphere hemiS _ hreg)) (by rw [ht]; change (0 : ℝ) ≤ 10; norm_num) hd hnone
  change (Transform.mapRayInv _ w).bind _ = _ at this
  rw [hinv] at this
  change some (hemiS.intersect cullObj) = some none at this
  rw [Option.some.inj this] at hhit
  cases hhit

/-! ### floats -/

/-- a ray parallel to the z axis passing the unit sphere at the distance of the float after 1 -/
def grazeRay : Ray F32 := ⟨new3 (F32.lit 1).nextUp (F32.lit 0) (-F32.lit 3), new3 (F32.lit 0) (F32.lit 0) (F32.lit 1), F32.lit 10⟩

/-- C115 as claimed is false of the code on `f32`, without any transform: a ray passing the unit sphere at the distance of the float
after 1 hits the sphere (the discriminant rounds to 0) and misses the sphere's bounding box. -/
theorem C115_graze_refuted [Libm 23 8] (ha : Atan2Lawful) : ∃ s : Sphere F32,
    Sphere.new (F32.lit 1) (-F32.lit 1) (F32.lit 1) GFloat.pi = some s ∧
    (s.intersect grazeRay).isSome = true ∧ s.doIntersect grazeRay = true ∧ s.bbox.intersectRay grazeRay = none := by
  have hn : Scalar.lt (-F32.lit 1) (F32.lit 1 : F32) = true := by decide +kernel
  refine ⟨_, by unfold Sphere.new; rw [if_pos hn], ?_⟩
  have key : ∀ s : Sphere F32, s.radius = F32.lit 1 → s.zMin = -F32.lit 1 → s.zMax = F32.lit 1 → s.phiMax = GFloat.pi →
      (s.intersectRay grazeRay).isSome = true ∧ s.bbox.intersectRay grazeRay = none := by
    intro s e1 e2 e3 e4
    have hq : solveQuadratic grazeRay.direction.squareNorm ((GVec.conv .vector grazeRay.origin).dot grazeRay.direction * GFloat.fromI64 2)
        ((GVec.conv .vector grazeRay.origin).squareNorm - Scalar.square (F32.lit 1)) = some (F32.lit 3, F32.lit 3) := by decide +kernel
    have g1 : (!Scalar.inRange (F32.lit 3) Scalar.zero grazeRay.tmax) = false := by decide +kernel
    have g2 : (!Scalar.inRange (grazeRay.eval (F32.lit 3)).z (-F32.lit 1) (F32.lit 1)) = false := by decide +kernel
    have fx : (grazeRay.eval (F32.lit 3)).x.isFin = true := by decide +kernel
    have fy : (grazeRay.eval (F32.lit 3)).y.isFin = true := by decide +kernel
    have g3 : Scalar.gt (Libm.atan2 (grazeRay.eval (F32.lit 3)).y (grazeRay.eval (F32.lit 3)).x) (GFloat.pi : F32) = false := by
      rw [Bool.eq_false_iff]
      intro h
      have h1 := toReal_lt_iff.2 (sgt_iff.1 h).2.2
      have h2 := (_root_.abs_le.1 (ha.range _ _ fy fx)).2
      linarith
    have hg : (s.getIntersection grazeRay (F32.lit 3)).isSome = true := by
      unfold Sphere.getIntersection
      dsimp only
      rw [e2, e3, e4, g1, g2]
      change (if Scalar.gt (Libm.atan2 (grazeRay.eval (F32.lit 3)).y (grazeRay.eval (F32.lit 3)).x) (GFloat.pi : F32) then none
        else some _).isSome = true
      rw [g3]
      rfl
    constructor
    · unfold Sphere.intersectRay
      dsimp only
      rw [e1, hq]
      dsimp only
      obtain ⟨i, hi⟩ := Option.isSome_iff_exists.1 hg
      rw [hi]; rfl
    · unfold Sphere.bbox
      rw [e1, e2, e3]
      decide +kernel
  obtain ⟨h1, h2⟩ := key ⟨F32.lit 1, -F32.lit 1, F32.lit 1, _, _, GFloat.pi⟩ rfl rfl rfl rfl
  refine ⟨?_, h1, h2⟩
  unfold Sphere.intersect
  rw [Option.isSome_map]
  exact h1

/-- how far the exact ray at a reported hit may be outside the sphere's box -/
noncomputable def cullDelta {mw ew : Nat} (s : Sphere (Flt mw ew)) (ray : Ray (Flt mw ew)) (t : ℝ) : ℝ :=
  32 * uRnd mw * sphereScale s ray t / s.radius.toReal

theorem outside_core {r u S x : ℝ} (hr : 0 < r) (hu : 0 ≤ u) (hS : 0 ≤ S) (h : x ^ 2 ≤ r ^ 2 + 64 * u * S) :
    |x| ≤ r + 32 * u * S / r := by
  have h1 : 0 ≤ 32 * u * S / r := by positivity
  refine abs_le_of_sq_le_sq (h.trans ?_) (by linarith)
  have e : (32 * u * S / r) * r = 32 * u * S := by field_simp
  nlinarith [sq_nonneg (32 * u * S / r)]

theorem height_err_core {r u η S o m z : ℝ} (hr : 0 < r) (hu : 0 < u) (hu1 : u ≤ 1 / 1024) (hη0 : 0 ≤ η) (hη : η ≤ u * r)
    (hS : o ^ 2 + m ^ 2 + r ^ 2 ≤ S) (h : |z - (o + m)| ≤ u * |o + m| + (1 + u) * Max.max η (u * |m|)) :
    |z - (o + m)| ≤ 32 * u * S / r := by
  have a1 : |o + m| ≤ |o| + |m| := abs_add_le _ _
  have a2 : Max.max η (u * |m|) ≤ u * r + u * |m| := max_le (by nlinarith [abs_nonneg m]) (by nlinarith)
  have b1 : |o| * r ≤ S := by nlinarith [sq_abs o, sq_nonneg (|o| - r), sq_nonneg m, sq_nonneg (|o| + r), abs_nonneg o]
  have b2 : |m| * r ≤ S := by nlinarith [sq_abs m, sq_nonneg (|m| - r), sq_nonneg o, abs_nonneg m]
  have b3 : r * r ≤ S := by nlinarith [sq_nonneg m, sq_nonneg o]
  rw [le_div_iff₀ hr]
  have c1 : |z - (o + m)| ≤ u * (|o| + |m|) + 2 * (u * r + u * |m|) := by
    refine h.trans (add_le_add (mul_le_mul_of_nonneg_left a1 hu.le) ?_)
    have n0 : 0 ≤ u * r + u * |m| := by positivity
    nlinarith [mul_le_mul_of_nonneg_left a2 (show 0 ≤ 1 + u by linarith)]
  have S0 : 0 ≤ S := by nlinarith
  calc |z - (o + m)| * r ≤ (u * (|o| + |m|) + 2 * (u * r + u * |m|)) * r := mul_le_mul_of_nonneg_right c1 hr.le
    _ = u * (|o| * r + 3 * (|m| * r) + 2 * (r * r)) := by ring
    _ ≤ u * (32 * S) := mul_le_mul_of_nonneg_left (by linarith) hu.le
    _ = 32 * u * S := by ring

section
variable {mw ew : Nat} [FltImpl mw ew] [LawfulFlt mw ew] [Libm mw ew]

/-- C115, the part that holds on floats: at a hit reported for a sphere the exact ray is within `cullDelta` of the sphere's bounding
box. -/
theorem C115_near_partial (hm : 9 ≤ mw) (hw : mw + 3 ≤ 2 ^ (ew - 1)) (s : Sphere (Flt mw ew)) (ray : Ray (Flt mw ew))
    (h : SphereHit (Flt mw ew)) (hh : s.intersectRay ray = some h) (hs : SphereRegular s ray)
    (hf : ∀ t0 t1, solveQuadratic ray.direction.squareNorm ((GVec.conv .vector ray.origin).dot ray.direction * GFloat.fromI64 2)
      ((GVec.conv .vector ray.origin).squareNorm - Scalar.square s.radius) = some (t0, t1) → t0.isFin = true ∧ t1.isFin = true)
    (hn : etaRnd mw ew ≤ uRnd mw * |h.tRay.toReal|) (hr : s.radius.isFin = true) (hr0 : etaRnd mw ew ≤ uRnd mw * s.radius.toReal)
    (hz : s.zMin.isFin = true ∧ s.zMax.isFin = true) (i : _root_.Fin 3) :
    (s.bbox.pmin.vec i).toReal - cullDelta s ray h.tRay.toReal ≤ exactAt ray h.tRay.toReal i ∧
    exactAt ray h.tRay.toReal i ≤ (s.bbox.pmax.vec i).toReal + cullDelta s ray h.tRay.toReal := by
  have hu := uRnd_pos (mw := mw)
  have hη := etaRnd_pos (mw := mw) (ew := ew)
  have R0 : 0 < s.radius.toReal := by
    by_contra hc
    have := mul_nonpos_of_nonneg_of_nonpos hu.le (not_lt.1 hc)
    linarith
  have hd := (C102_hit_partial hm hw s ray h hh hs hf hn).1
  obtain ⟨t, ht⟩ := intersectRay_some hh
  obtain ⟨-, h2, -, rfl⟩ := getIntersection_some ht
  have S0 : 0 ≤ sphereScale s ray t.toReal := by unfold sphereScale; positivity
  have hx : |exactAt ray t.toReal i| ≤ s.radius.toReal + cullDelta s ray t.toReal := by
    refine outside_core R0 hu.le S0 ?_
    have h3 := (_root_.abs_le.1 hd).2
    unfold sphereDefect at h3
    have h4 : exactAt ray t.toReal i ^ 2 ≤ ∑ i, ((ray.origin.vec i).toReal + (ray.direction.vec i).toReal * t.toReal) ^ 2 :=
      Finset.single_le_sum (f := fun i => ((ray.origin.vec i).toReal + (ray.direction.vec i).toReal * t.toReal) ^ 2)
        (fun i _ => sq_nonneg _) (Finset.mem_univ i)
    linarith
  obtain ⟨x1, x2⟩ := _root_.abs_le.1 hx
  have nr := notNaN_of_isFin hr
  have nnr : (-s.radius).isNaN = false := by rw [isNaN_negop]; exact nr
  have kmin : (Inherent.min (-s.radius) s.radius).toReal ≤ -s.radius.toReal := by
    rw [← toReal_negop, toReal_le_iff]
    change (imin _ _).key ≤ _
    rw [(imin_key nnr nr).2]; exact min_le_left _ _
  have kmax : s.radius.toReal ≤ (Inherent.max (-s.radius) s.radius).toReal := by
    rw [toReal_le_iff]
    change _ ≤ (imax _ _).key
    rw [(imax_key nnr nr).2]; exact le_max_right _ _
  have key : ∀ b : ℝ × ℝ, b.1 ≤ -s.radius.toReal → s.radius.toReal ≤ b.2 →
      b.1 - cullDelta s ray t.toReal ≤ exactAt ray t.toReal i ∧ exactAt ray t.toReal i ≤ b.2 + cullDelta s ray t.toReal :=
    fun b h1 h2 => ⟨by linarith, by linarith⟩
  fin_cases i
  · exact key (_, _) kmin kmax
  · exact key (_, _) kmin kmax
  · unfold Scalar.inRange at h2
    rw [Bool.and_eq_true, sge_iff, sle_iff] at h2
    obtain ⟨⟨b1, b2, b3⟩, b4, b5, b6⟩ := h2
    have zf : (ray.eval t).z.isFin = true := by
      have a := isFin_iff_key.1 hz.1
      have b := isFin_iff_key.1 hz.2
      exact isFin_iff_key.2 ⟨by omega, by omega⟩
    have e := C86_eval ray t 2 zf
    have hS : (ray.origin.vec 2).toReal ^ 2 + ((ray.direction.vec 2).toReal * t.toReal) ^ 2 + s.radius.toReal ^ 2 ≤
        sphereScale s ray t.toReal := by
      unfold sphereScale
      have q1 := Finset.single_le_sum (f := fun i => (ray.origin.vec i).toReal ^ 2) (fun i _ => sq_nonneg _) (Finset.mem_univ (2 : _root_.Fin 3))
      have q2 := Finset.single_le_sum (f := fun i => ((ray.direction.vec i).toReal * t.toReal) ^ 2) (fun i _ => sq_nonneg _)
        (Finset.mem_univ (2 : _root_.Fin 3))
      linarith
    have e' := _root_.abs_le.1 (height_err_core R0 hu (uRnd_small hm) hη.le hr0 hS e)
    have m1 := toReal_le_iff.2 b3
    have m2 := toReal_le_iff.2 b6
    have k1 : (Inherent.min s.zMin s.zMax).toReal ≤ s.zMin.toReal := by
      rw [toReal_le_iff]
      change (imin _ _).key ≤ _
      rw [(imin_key b2 b5).2]; exact min_le_left _ _
    have k2 : s.zMax.toReal ≤ (Inherent.max s.zMin s.zMax).toReal := by
      rw [toReal_le_iff]
      change _ ≤ (imax _ _).key
      rw [(imax_key b2 b5).2]; exact le_max_right _ _
    change (Inherent.min s.zMin s.zMax).toReal - 32 * uRnd mw * sphereScale s ray t.toReal / s.radius.toReal ≤
        (ray.origin.vec 2).toReal + (ray.direction.vec 2).toReal * t.toReal ∧
      (ray.origin.vec 2).toReal + (ray.direction.vec 2).toReal * t.toReal ≤
        (Inherent.max s.zMin s.zMax).toReal + 32 * uRnd mw * sphereScale s ray t.toReal / s.radius.toReal
    change _ ≤ ((ray.eval t).vec 2).toReal at m1
    change ((ray.eval t).vec 2).toReal ≤ _ at m2
    constructor <;> linarith

/-- C115, the part that holds on floats: a box that clears the sphere's own box by `cullDelta` and the margin of the slab test
(`slabMargin`) on every side is never missed by a ray that hits the sphere.  Missing: boxes without a margin, for which it is
false (`C115_graze_refuted`). -/
theorem C115_grown_partial (hm : 9 ≤ mw) (hw : mw + 3 ≤ 2 ^ (ew - 1)) (s : Sphere (Flt mw ew)) (ray : Ray (Flt mw ew))
    (h : SphereHit (Flt mw ew)) (hh : s.intersectRay ray = some h) (hs : SphereRegular s ray)
    (hf : ∀ t0 t1, solveQuadratic ray.direction.squareNorm ((GVec.conv .vector ray.origin).dot ray.direction * GFloat.fromI64 2)
      ((GVec.conv .vector ray.origin).squareNorm - Scalar.square s.radius) = some (t0, t1) → t0.isFin = true ∧ t1.isFin = true)
    (hn : etaRnd mw ew ≤ uRnd mw * |h.tRay.toReal|) (hr : s.radius.isFin = true) (hr0 : etaRnd mw ew ≤ uRnd mw * s.radius.toReal)
    (hz : s.zMin.isFin = true ∧ s.zMax.isFin = true) (b : Bbox (Flt mw ew)) (hb : SlabFinite b ray)
    (hg : ∀ i, (b.pmin.vec i).toReal + slabMargin b ray i + cullDelta s ray h.tRay.toReal ≤ (s.bbox.pmin.vec i).toReal ∧
      (s.bbox.pmax.vec i).toReal + slabMargin b ray i + cullDelta s ray h.tRay.toReal ≤ (b.pmax.vec i).toReal) :
    (b.intersectRay ray).isSome = true := by
  have hu := uRnd_pos (mw := mw)
  have hη := etaRnd_pos (mw := mw) (ew := ew)
  have near := C115_near_partial hm hw s ray h hh hs hf hn hr hr0 hz
  have R0 : 0 < s.radius.toReal := by
    by_contra hc
    have := mul_nonpos_of_nonneg_of_nonpos hu.le (not_lt.1 hc)
    linarith
  obtain ⟨t, ht⟩ := intersectRay_some hh
  obtain ⟨h1, -, -, rfl⟩ := getIntersection_some ht
  unfold Scalar.inRange at h1
  rw [Bool.and_eq_true, sge_iff, sle_iff] at h1
  obtain ⟨⟨a1, a2, a3⟩, a4, a5, a6⟩ := h1
  have tf : t.isFin = true := by
    obtain ⟨p, hp⟩ : ∃ p, solveQuadratic ray.direction.squareNorm ((GVec.conv .vector ray.origin).dot ray.direction * GFloat.fromI64 2)
      ((GVec.conv .vector ray.origin).squareNorm - Scalar.square s.radius) = some p := by
      unfold Sphere.intersectRay at hh
      dsimp only at hh
      split at hh
      · cases hh
      · rename_i q hq
        exact ⟨_, hq⟩
    obtain ⟨f0, f1⟩ := hf p.1 p.2 hp
    unfold Sphere.intersectRay at hh
    dsimp only at hh
    rw [hp] at hh
    dsimp only at hh
    split at hh
    · have := (getIntersection_some hh).2.2.2
      rw [SphereHit.mk.injEq] at this
      rw [this.1]; exact f1
    · rename_i j hj
      have e := (getIntersection_some hj).2.2.2
      rw [Option.some.injEq] at hh
      rw [hh, SphereHit.mk.injEq] at e
      rw [e.1]; exact f0
  have m0 : ∀ i, 0 ≤ slabMargin b ray i := by
    intro i
    unfold slabMargin
    have : 0 ≤ (1 + uRnd mw) ^ 2 - 1 := by nlinarith
    positivity
  have d0 : 0 ≤ cullDelta s ray t.toReal := by unfold cullDelta sphereScale; positivity
  refine C92_hit b ray hb (fun i => ?_) a5 t.toReal ?_ ?_ fun i => ⟨?_, ?_⟩
  · have := hg i
    have := near i
    have := m0 i
    dsimp only at *
    linarith
  · rw [← toReal_szero (mw := mw) (ew := ew)]; exact toReal_le_iff.2 a3
  · rw [← val_of_isFin tf, val_le_iff a4 a5]; exact a6
  · have := hg i
    have := near i
    dsimp only at *
    linarith
  · have := hg i
    have := near i
    dsimp only at *
    linarith
end

/-! ### non-vacuity -/

def cullRay : Ray F32 := ⟨new3 (-F32.lit 3) (-F32.lit 3) (-F32.lit 3), new3 (F32.lit 1) (F32.lit 1) (F32.lit 1), F32.lit 10⟩
def cullBox : Bbox F32 := ⟨new3 (-F32.lit 2) (-F32.lit 2) (-F32.lit 2), new3 (F32.lit 2) (F32.lit 2) (F32.lit 2)⟩

/-- The hypotheses of `C115_range_partial` and `C115_near_partial`, `C115_grown_partial` are met: the latter by the unit sphere, a ray along the diagonal and the box
twice the size. -/
theorem cull_case : ∃ (_ : Libm 23 8) (h : SphereHit F32), exSphF.intersectRay cullRay = some h ∧ SphereRegular exSphF cullRay ∧
    (∀ t0 t1, solveQuadratic cullRay.direction.squareNorm ((GVec.conv .vector cullRay.origin).dot cullRay.direction * GFloat.fromI64 2)
      ((GVec.conv .vector cullRay.origin).squareNorm - Scalar.square exSphF.radius) = some (t0, t1) → t0.isFin = true ∧ t1.isFin = true) ∧
    etaRnd 23 8 ≤ uRnd 23 * |h.tRay.toReal| ∧ etaRnd 23 8 ≤ uRnd 23 * exSphF.radius.toReal ∧ SlabFinite cullBox cullRay ∧
    ∀ i, (cullBox.pmin.vec i).toReal + slabMargin cullBox cullRay i + cullDelta exSphF cullRay h.tRay.toReal ≤ (exSphF.bbox.pmin.vec i).toReal ∧
      (exSphF.bbox.pmax.vec i).toReal + slabMargin cullBox cullRay i + cullDelta exSphF cullRay h.tRay.toReal ≤ (cullBox.pmax.vec i).toReal := by
  have l1 := toReal_lit_small.1
  have l2 := toReal_lit_small.2.1
  have l3 := toReal_lit_small.2.2
  have hu : uRnd 23 = 1 / 2 ^ 24 := by unfold uRnd; norm_num
  have hη : 3 * etaRnd 23 8 ≤ uRnd 23 * 1 := by unfold etaRnd uRnd fK; norm_num
  have hη0 := etaRnd_pos (mw := 23) (ew := 8)
  have hu0 := uRnd_pos (mw := 23)
  let L : Libm 23 8 := ⟨id, id, id, id, id, id, fun y _ => y⟩
  have hsome : ((exSphF.intersectRay cullRay).map fun h => decide ((F32.lit 2).key ≤ h.tRay.key ∧ h.tRay.key ≤ (F32.lit 3).key)) =
    some true := by decide +kernel
  obtain ⟨h, hh, hk⟩ := Option.map_eq_some_iff.1 hsome
  rw [decide_eq_true_iff] at hk
  have t2 := toReal_le_iff.2 hk.1
  have t3 := toReal_le_iff.2 hk.2
  rw [l2] at t2
  rw [l3] at t3
  have et : |h.tRay.toReal| = h.tRay.toReal := abs_of_nonneg (by linarith)
  refine ⟨L, h, hh, ⟨?_, ?_, by decide +kernel, ?_, ?_⟩, ?_, ?_, ?_, by unfold SlabFinite; decide +kernel, ?_⟩
  · rw [Fin.sum_univ_three]
    change _ ≤ uRnd 23 * ((F32.lit 1).toReal ^ 2 + (F32.lit 1).toReal ^ 2 + (F32.lit 1).toReal ^ 2)
    rw [l1]; linarith
  · rw [Fin.sum_univ_three]
    change _ ≤ uRnd 23 * ((-F32.lit 3).toReal ^ 2 + (-F32.lit 3).toReal ^ 2 + (-F32.lit 3).toReal ^ 2 + (F32.lit 1).toReal ^ 2)
    rw [l1, toReal_negop, l3]; linarith
  · have e : (GVec.conv .vector cullRay.origin).dot cullRay.direction * GFloat.fromI64 2 = -F32.lit 18 := by decide +kernel
    rw [e, toReal_negop, toReal_lit (by decide)]
    exact normal_f32 (by norm_num)
  · have e : cullRay.direction.squareNorm = F32.lit 3 := by decide +kernel
    have e2 : (GVec.conv .vector cullRay.origin).squareNorm - Scalar.square exSphF.radius = F32.lit 26 := by decide +kernel
    rw [e, e2, toReal_lit (by decide), toReal_lit (by decide)]
    exact normal_f32 (by norm_num)
  · have e : ((solveQuadratic cullRay.direction.squareNorm ((GVec.conv .vector cullRay.origin).dot cullRay.direction * GFloat.fromI64 2)
      ((GVec.conv .vector cullRay.origin).squareNorm - Scalar.square exSphF.radius)).all fun p => p.1.isFin && p.2.isFin) = true := by
        decide +kernel
    intro t0 t1 h
    rw [h] at e
    exact Bool.and_eq_true_iff.1 e
  · rw [et]; nlinarith
  · change _ ≤ uRnd 23 * (F32.lit 1).toReal; rw [l1]; linarith
  · have hd : cullDelta exSphF cullRay h.tRay.toReal ≤ 1 / 100 := by
      unfold cullDelta sphereScale
      rw [Fin.sum_univ_three, Fin.sum_univ_three]
      change 32 * uRnd 23 * ((-F32.lit 3).toReal ^ 2 + (-F32.lit 3).toReal ^ 2 + (-F32.lit 3).toReal ^ 2 +
        (((F32.lit 1).toReal * h.tRay.toReal) ^ 2 + ((F32.lit 1).toReal * h.tRay.toReal) ^ 2 + ((F32.lit 1).toReal * h.tRay.toReal) ^ 2) +
        (F32.lit 1).toReal ^ 2) / (F32.lit 1).toReal ≤ _
      rw [l1, toReal_negop, l3, hu]
      have : h.tRay.toReal ^ 2 ≤ 9 := by nlinarith
      norm_num
      nlinarith
    have hs : ∀ i, slabMargin cullBox cullRay i ≤ 1 / 100 := by
      intro i
      have e : slabMargin cullBox cullRay i = ((1 + uRnd 23) ^ 2 - 1) * Max.max |(-F32.lit 2).toReal - (-F32.lit 3).toReal|
          |(F32.lit 2).toReal - (-F32.lit 3).toReal| + etaRnd 23 8 * |(F32.lit 1).toReal| := by fin_cases i <;> rfl
      rw [e, toReal_negop, toReal_negop, l1, l2, l3]
      have : Max.max |(-2 : ℝ) - -3| |(2 : ℝ) - -3| = 5 := by norm_num
      rw [this, abs_one, hu]
      rw [hu] at hη
      norm_num at hη ⊢
      linarith
    intro i
    have e1 : (cullBox.pmin.vec i).toReal = -2 ∧ (cullBox.pmax.vec i).toReal = 2 := by
      have : cullBox.pmin.vec i = -F32.lit 2 ∧ cullBox.pmax.vec i = F32.lit 2 := by fin_cases i <;> exact ⟨rfl, rfl⟩
      rw [this.1, this.2, toReal_negop, l2]; exact ⟨rfl, rfl⟩
    have e2 : (exSphF.bbox.pmin.vec i).toReal = -1 ∧ (exSphF.bbox.pmax.vec i).toReal = 1 := by
      have : exSphF.bbox.pmin.vec i = -F32.lit 1 ∧ exSphF.bbox.pmax.vec i = F32.lit 1 := by clear e1; revert i; decide +kernel
      rw [this.1, this.2, toReal_negop, l1]; exact ⟨rfl, rfl⟩
    have := hs i
    rw [e1.1, e1.2, e2.1, e2.2]
    constructor <;> linarith

/-! ### C90 -/

/-- C90 needs `tmax ≥ 0`: for a ray starting inside a box, with `tmax = -1`, the box reports a hit at `t = 0`. -/
theorem C90_negative : ∃ (b : Bbox F32) (ray : Ray F32) (r : IntersectionResult F32), ray.tmax = -F32.lit 1 ∧
    b.prim.intersect ray = some (some r) ∧ r.tRay = F32.lit 0 := by
  have h : ((cullBox.hit ⟨new3 (F32.lit 1) (F32.lit 1) (F32.lit 1), new3 (F32.lit 1) (F32.lit 1) (F32.lit 1), -F32.lit 1⟩).map (·.tRay)) =
      some (F32.lit 0) := by decide +kernel
  obtain ⟨r, hr, ht⟩ := Option.map_eq_some_iff.1 h
  exact ⟨cullBox, _, r, rfl, congrArg some hr, ht⟩

end Scarlet
