import Verif.Props.FloatBox
import Verif.Props.FloatVec
import Verif.Props.Camera4

/-! C124: the hit that a box reports on floats: point, face and normal against the exact ray. -/

set_option linter.unusedSectionVars false

namespace Scarlet
open Flt GVec

variable {mw ew : Nat} [FltImpl mw ew] [LawfulFlt mw ew]

/-- The rounding error of coordinate `i` of `ray.eval(t)` (the bound of `C86_eval`). -/
noncomputable def evalMargin (ray : Ray (Flt mw ew)) (t : Flt mw ew) (i : _root_.Fin 3) : ℝ :=
  uRnd mw * |exactAt ray t.toReal i| +
    (1 + uRnd mw) * Max.max (etaRnd mw ew) (uRnd mw * |(ray.direction.vec i).toReal * t.toReal|)

/-- Face `g` is one through which the ray enters: the direction points against its outward normal. -/
def EntersBy (ray : Ray (Flt mw ew)) (g : _root_.Fin 6) : Prop :=
  if g.val % 2 = 0 then 0 < (ray.direction.vec (faceAxis g)).toReal else (ray.direction.vec (faceAxis g)).toReal < 0

/-- The lower and upper face of axis `i`. -/
def loFace (i : _root_.Fin 3) : _root_.Fin 6 := ![0, 2, 4] i
def hiFace (i : _root_.Fin 3) : _root_.Fin 6 := ![1, 3, 5] i

theorem loFace_spec (b : Bbox (Flt mw ew)) (i : _root_.Fin 3) :
    faceAxis (loFace i) = i ∧ faceBound b (loFace i) = b.pmin.vec i ∧ (loFace i).val % 2 = 0 := by
  fin_cases i <;> exact ⟨rfl, rfl, rfl⟩

theorem hiFace_spec (b : Bbox (Flt mw ew)) (i : _root_.Fin 3) :
    faceAxis (hiFace i) = i ∧ faceBound b (hiFace i) = b.pmax.vec i ∧ (hiFace i).val % 2 = 1 := by
  fin_cases i <;> exact ⟨rfl, rfl, rfl⟩

/-- Quotients of ordered planes are ordered by the sign of the direction. -/
theorem quot_mono {p q o d : Flt mw ew} (hd : d.isFin = true) (h1 : ((p - o) / d).isFin = true)
    (h2 : ((q - o) / d).isFin = true) (hpq : p.toReal ≤ q.toReal) :
    (0 < d.toReal → ((p - o) / d).toReal ≤ ((q - o) / d).toReal) ∧
    (d.toReal < 0 → ((q - o) / d).toReal ≤ ((p - o) / d).toReal) := by
  obtain ⟨f1, -, h3⟩ := isFin_of_div h1
  obtain ⟨f2, -, -⟩ := isFin_of_div h2
  obtain ⟨hp, ho⟩ := isFin_of_sub f1
  obtain ⟨hq, -⟩ := isFin_of_sub f2
  have k1 : (p - o).key ≤ (q - o).key := by
    rw [(sub_fin' hp ho).2, (sub_fin' hq ho).2]
    exact rndK_mono _ _ (by linarith)
  have k2 := (key_le_toReal f1 f2).1 k1
  have e1 : ((p - o) / d).key = rndK mw ew ((p - o).toReal / d.toReal) := (div_fin f1 hd h3).2
  have e2 : ((q - o) / d).key = rndK mw ew ((q - o).toReal / d.toReal) := (div_fin f2 hd h3).2
  constructor
  · intro h
    rw [← key_le_toReal h1 h2, e1, e2]
    exact rndK_mono _ _ (div_le_div_of_nonneg_right k2 h.le)
  · intro h
    rw [← key_le_toReal h2 h1, e1, e2]
    exact rndK_mono _ _ (div_le_div_of_nonpos_of_le h.le k2)

/-- The near end of slab `i` is the parameter of the plane through which the ray enters, up to the margin. -/
theorem slab_near (b : Bbox (Flt mw ew)) (ray : Ray (Flt mw ew)) (h : SlabFinite b ray) (i : _root_.Fin 3)
    (hb : (b.pmin.vec i).toReal ≤ (b.pmax.vec i).toReal) :
    ∃ g, faceAxis g = i ∧ EntersBy ray g ∧
      |exactAt ray (slab b ray i).1.toReal i - (faceBound b g).toReal| ≤ slabMargin b ray i := by
  obtain ⟨hd, h1, h2⟩ := h i
  obtain ⟨d0, e1⟩ := quot_err hd h1
  obtain ⟨-, e2⟩ := quot_err hd h2
  obtain ⟨-, r1⟩ := smin_fin h1 h2
  obtain ⟨m1, m2⟩ := quot_mono hd h1 h2 hb
  have hu := uRnd_pos (mw := mw)
  have hc : 0 ≤ (1 + uRnd mw) ^ 2 - 1 := by nlinarith
  have rs : (slab b ray i).1.toReal = (Scalar.min ((b.pmin.vec i - ray.origin.vec i) / ray.direction.vec i)
    ((b.pmax.vec i - ray.origin.vec i) / ray.direction.vec i)).toReal := rfl
  rw [rs, r1]
  rcases lt_or_gt_of_ne d0 with hneg | hpos
  · obtain ⟨a1, a2, a3⟩ := hiFace_spec b i
    refine ⟨hiFace i, a1, ?_, ?_⟩
    · unfold EntersBy; rw [a1, a3]; simpa using hneg
    · rw [a2, min_eq_right (m2 hneg)]
      refine le_trans (le_of_eq ?_) (e2.trans ?_)
      · unfold exactAt; congr 1; ring
      · unfold slabMargin; gcongr; exact le_max_right _ _
  · obtain ⟨a1, a2, a3⟩ := loFace_spec b i
    refine ⟨loFace i, a1, ?_, ?_⟩
    · unfold EntersBy; rw [a1, a3]; simpa using hpos
    · rw [a2, min_eq_left (m1 hpos)]
      refine le_trans (le_of_eq ?_) (e1.trans ?_)
      · unfold exactAt; congr 1; ring
      · unfold slabMargin; gcongr; exact le_max_left _ _

/-- A positive near end is the near end of one slab. -/
theorem near_slab (b : Bbox (Flt mw ew)) (ray : Ray (Flt mw ew)) (h : SlabFinite b ray)
    (hb : ∀ i, (b.pmin.vec i).toReal ≤ (b.pmax.vec i).toReal)
    (t0 t1 : Flt mw ew) (he : b.intersectRay ray = some (t0, t1)) (h0 : 0 < t0.toReal) :
    ∃ i, t0.toReal = (slab b ray i).1.toReal := by
  have hf := fun i => (slab_err b ray h i (hb i) 0).1
  have e : b.intersectRay ray =
      if Scalar.gt (imax (imax (slab b ray 0).1 (slab b ray 1).1) (slab b ray 2).1) ray.tmax ||
        Scalar.lt (imin (imin (slab b ray 0).2 (slab b ray 1).2) (slab b ray 2).2) Scalar.zero ||
        Scalar.gt (imax (imax (slab b ray 0).1 (slab b ray 1).1) (slab b ray 2).1)
          (imin (imin (slab b ray 0).2 (slab b ray 1).2) (slab b ray 2).2) then none
      else some (imax (imax (imax (slab b ray 0).1 (slab b ray 1).1) (slab b ray 2).1) Scalar.zero,
        imin (imin (imin (slab b ray 0).2 (slab b ray 1).2) (slab b ray 2).2) ray.tmax) := rfl
  rw [e] at he
  split at he
  · cases he
  rw [Option.some.injEq, Prod.mk.injEq] at he
  obtain ⟨e0, -⟩ := he
  have nf := fun i => notNaN_of_isFin (hf i)
  obtain ⟨a1, a2⟩ := imax_key (nf 0) (nf 1)
  obtain ⟨a3, a4⟩ := imax_key a1 (nf 2)
  obtain ⟨-, a6⟩ := imax_key a3 (szero_notNaN (mw := mw) (ew := ew))
  rw [e0, a4, a2, key_szero] at a6
  have hk : t0.key ≠ 0 := fun hk => by rw [toReal_eq_zero_iff.2 hk] at h0; exact lt_irrefl _ h0
  have hor : t0.key = (slab b ray 0).1.key ∨ t0.key = (slab b ray 1).1.key ∨ t0.key = (slab b ray 2).1.key := by omega
  rcases hor with k | k | k
  · exact ⟨0, by rw [toReal_eq_key, toReal_eq_key, k]⟩
  · exact ⟨1, by rw [toReal_eq_key, toReal_eq_key, k]⟩
  · exact ⟨2, by rw [toReal_eq_key, toReal_eq_key, k]⟩

omit [FltImpl mw ew] [LawfulFlt mw ew] in
theorem uRnd_quarter [Fmt mw ew] : uRnd mw ≤ 1 / 4 := by
  have : (2 : ℝ) ^ 2 ≤ 2 ^ (mw + 1) := pow_le_pow_right₀ (by norm_num) (by have := Fmt.hmw (mw := mw) (ew := ew); omega)
  unfold uRnd
  rw [div_le_div_iff₀ (by positivity) (by norm_num)]
  linarith

/-- The distances of the face choice: relative error only. -/
theorem dist_err {p q : Flt mw ew} (h : (p - q).isFin = true) :
    (iabs (p - q)).isFin = true ∧ (1 - uRnd mw) * |p.toReal - q.toReal| ≤ (iabs (p - q)).toReal ∧
      (iabs (p - q)).toReal ≤ (1 + uRnd mw) * |p.toReal - q.toReal| := by
  obtain ⟨hp, hq⟩ := isFin_of_sub h
  have e := sub_err hp hq h
  have ha : (iabs (p - q)).isFin = true := by rw [isFin_iabs]; exact h
  have hr : (iabs (p - q)).toReal = |(p - q).toReal| := toReal_iabs _
  refine ⟨ha, ?_, ?_⟩
  · rw [hr]
    have := abs_sub_abs_le_abs_sub (p.toReal - q.toReal) (p - q).toReal
    rw [abs_sub_comm _ (p - q).toReal] at this
    linarith
  · rw [hr]
    have := abs_sub_abs_le_abs_sub (p - q).toReal (p.toReal - q.toReal)
    linarith

/-- What the reported hit is made of: the near end of the slab test, and a face at minimal float distance. -/
theorem hit_parts (b : Bbox (Flt mw ew)) (ray : Ray (Flt mw ew)) (r : IntersectionResult (Flt mw ew)) (h : b.hit ray = some r) :
    ∃ t1, b.intersectRay ray = some (r.tRay, t1) := by
  unfold Bbox.hit at h
  rw [Option.map_eq_some_iff] at h
  obtain ⟨⟨t0, t1⟩, hi, hr⟩ := h
  have et : r.tRay = t0 := by rw [← hr]
  exact ⟨t1, by rw [et]; exact hi⟩

/-- The six differences between the point `ray.eval(t)` and the faces do not overflow. -/
def FaceFinite (b : Bbox (Flt mw ew)) (ray : Ray (Flt mw ew)) (t : Flt mw ew) : Prop :=
  ∀ g, ((ray.eval t).vec (faceAxis g) - faceBound b g).isFin = true

theorem eval_margin {b : Bbox (Flt mw ew)} {ray : Ray (Flt mw ew)} {t : Flt mw ew} (h : FaceFinite b ray t) (i : _root_.Fin 3) :
    |((ray.eval t).vec i).toReal - exactAt ray t.toReal i| ≤ evalMargin ray t i := by
  have := (isFin_of_sub (h (loFace i))).1
  rw [(loFace_spec b i).1] at this
  exact C86_eval ray t i this

theorem slabMargin_nonneg (b : Bbox (Flt mw ew)) (ray : Ray (Flt mw ew)) (i : _root_.Fin 3) : 0 ≤ slabMargin b ray i := by
  have hu := uRnd_pos (mw := mw)
  have hη := etaRnd_pos (mw := mw) (ew := ew)
  have hc : 0 ≤ (1 + uRnd mw) ^ 2 - 1 := by nlinarith
  unfold slabMargin
  exact add_nonneg (mul_nonneg hc (le_max_of_le_left (abs_nonneg _))) (mul_nonneg hη.le (abs_nonneg _))

theorem evalMargin_nonneg (ray : Ray (Flt mw ew)) (t : Flt mw ew) (i : _root_.Fin 3) : 0 ≤ evalMargin ray t i := by
  have hu := uRnd_pos (mw := mw)
  have hη := etaRnd_pos (mw := mw) (ew := ew)
  unfold evalMargin
  exact add_nonneg (mul_nonneg hu.le (abs_nonneg _)) (mul_nonneg (by linarith) (le_max_of_le_left hη.le))

/-- C124, rays from outside: if the origin is outside the box by more than the margin on some axis, a reported hit has
`t_ray > 0`. -/
theorem C124_outside (b : Bbox (Flt mw ew)) (ray : Ray (Flt mw ew)) (h : SlabFinite b ray)
    (hb : ∀ i, (b.pmin.vec i).toReal ≤ (b.pmax.vec i).toReal) (ht : ray.tmax.isNaN = false) (h0 : 0 ≤ ray.tmax.val)
    (hout : ∃ i, (ray.origin.vec i).toReal < (b.pmin.vec i).toReal - slabMargin b ray i ∨
      (b.pmax.vec i).toReal + slabMargin b ray i < (ray.origin.vec i).toReal)
    (r : IntersectionResult (Flt mw ew)) (hr : b.hit ray = some r) : 0 < r.tRay.toReal := by
  obtain ⟨t1, hi⟩ := hit_parts b ray r hr
  obtain ⟨⟨-, -, p0, p1, -⟩, hin⟩ := C92_range b ray h hb ht h0 _ _ hi
  refine lt_of_le_of_ne p0 fun e => ?_
  obtain ⟨i, hi⟩ := hout
  have := hin r.tRay.toReal le_rfl p1 i
  rw [← e] at this
  unfold exactAt at this
  rw [mul_zero, add_zero] at this
  rcases hi with hi | hi <;> linarith [this.1, this.2]

/-- C124, the point: a hit with `t_ray > 0` is on a face `f` of the box, coordinate exact, and its normal is the outward unit
normal of that face.  It is within `3 D` of the exact point of the ray at `t_ray`, and inside the box up to `D`, where `D` bounds
the slab margin plus the rounding error of `eval` on every axis. -/
theorem C124_point (b : Bbox (Flt mw ew)) (ray : Ray (Flt mw ew)) (h : SlabFinite b ray)
    (hb : ∀ i, (b.pmin.vec i).toReal ≤ (b.pmax.vec i).toReal) (ht : ray.tmax.isNaN = false) (h0 : 0 ≤ ray.tmax.val)
    (r : IntersectionResult (Flt mw ew)) (hr : b.hit ray = some r) (hpos : 0 < r.tRay.toReal)
    (hf : FaceFinite b ray r.tRay) (D : ℝ) (hD : ∀ i, slabMargin b ray i + evalMargin ray r.tRay i ≤ D) :
    (∃ f, r.surfaceInteraction.n.vec = faceNormal f ∧ r.surfaceInteraction.p.vec (faceAxis f) = faceBound b f) ∧
    ∀ i, |(r.surfaceInteraction.p.vec i).toReal - exactAt ray r.tRay.toReal i| ≤ 3 * D ∧
      (b.pmin.vec i).toReal - D ≤ (r.surfaceInteraction.p.vec i).toReal ∧
      (r.surfaceInteraction.p.vec i).toReal ≤ (b.pmax.vec i).toReal + D := by
  obtain ⟨-, -, -, f, hn, hp, hmin⟩ := C54_hit b ray r ht h0 hr
  obtain ⟨t1, hi⟩ := hit_parts b ray r hr
  obtain ⟨⟨-, -, -, p1, -⟩, hin⟩ := C92_range b ray h hb ht h0 _ _ hi
  obtain ⟨k, hk⟩ := near_slab b ray h hb _ _ hi hpos
  obtain ⟨g, ga, -, ge⟩ := slab_near b ray h k (hb k)
  rw [← hk, ← ga] at ge
  have hu := uRnd_pos (mw := mw)
  have hu' := uRnd_quarter (mw := mw) (ew := ew)
  have hin := hin r.tRay.toReal le_rfl p1
  have hE := eval_margin hf
  have hs := slabMargin_nonneg b ray
  have he := evalMargin_nonneg ray r.tRay
  have hD0 : 0 ≤ D := by linarith [hD 0, hs 0, he 0]
  have hg : |((ray.eval r.tRay).vec (faceAxis g)).toReal - (faceBound b g).toReal| ≤ D := by
    have := abs_sub_le ((ray.eval r.tRay).vec (faceAxis g)).toReal (exactAt ray r.tRay.toReal (faceAxis g)) (faceBound b g).toReal
    rw [← ga] at hk
    linarith [hE (faceAxis g), hD (faceAxis g), ga ▸ ge]
  have hfd : |((ray.eval r.tRay).vec (faceAxis f)).toReal - (faceBound b f).toReal| ≤ 2 * D := by
    obtain ⟨x1, x2, x3⟩ := dist_err (hf f)
    obtain ⟨y1, y2, y3⟩ := dist_err (hf g)
    have hle : (iabs ((ray.eval r.tRay).vec (faceAxis f) - faceBound b f)).toReal ≤
        (iabs ((ray.eval r.tRay).vec (faceAxis g) - faceBound b g)).toReal := by
      rw [← key_le_toReal x1 y1]
      have := hmin g
      rw [Bool.eq_false_iff, ne_eq, slt_iff] at this
      by_contra hc
      exact this ⟨notNaN_of_isFin y1, notNaN_of_isFin x1, by omega⟩
    have q1 := x2.trans (hle.trans y3)
    generalize |((ray.eval r.tRay).vec (faceAxis f)).toReal - (faceBound b f).toReal| = X at *
    generalize |((ray.eval r.tRay).vec (faceAxis g)).toReal - (faceBound b g).toReal| = Y at *
    nlinarith
  refine ⟨⟨f, hn, by rw [hp]; simp⟩, fun i => ?_⟩
  rw [hp]
  dsimp only
  split
  · rename_i hif
    subst hif
    refine ⟨?_, ?_⟩
    · have := abs_sub_le (faceBound b f).toReal ((ray.eval r.tRay).vec (faceAxis f)).toReal
        (exactAt ray r.tRay.toReal (faceAxis f))
      rw [abs_sub_comm (faceBound b f).toReal ((ray.eval r.tRay).vec (faceAxis f)).toReal] at this
      linarith [hE (faceAxis f), hD (faceAxis f), hs (faceAxis f)]
    · have hbf : (b.pmin.vec (faceAxis f)).toReal ≤ (faceBound b f).toReal ∧
          (faceBound b f).toReal ≤ (b.pmax.vec (faceAxis f)).toReal := by
        fin_cases f
        exacts [⟨le_rfl, hb 0⟩, ⟨hb 0, le_rfl⟩, ⟨le_rfl, hb 1⟩, ⟨hb 1, le_rfl⟩, ⟨le_rfl, hb 2⟩, ⟨hb 2, le_rfl⟩]
      constructor <;> linarith [hbf.1, hbf.2]
  · have a := _root_.abs_le.1 (hE i)
    refine ⟨?_, ?_, ?_⟩
    · linarith [hE i, hD i, hs i]
    · linarith [(hin i).1, hD i, a.1]
    · linarith [(hin i).2, hD i, a.2]

/-- C124, the face: the ray enters through some face `g` (its direction points against the outward normal of `g`, and the exact
point at `t_ray` is within `D` of the plane of `g`); if that point is further than `4 D` from every other face, the reported face
is `g`, so the reported normal points against the ray. -/
theorem C124_face (b : Bbox (Flt mw ew)) (ray : Ray (Flt mw ew)) (h : SlabFinite b ray)
    (hb : ∀ i, (b.pmin.vec i).toReal ≤ (b.pmax.vec i).toReal) (ht : ray.tmax.isNaN = false) (h0 : 0 ≤ ray.tmax.val)
    (r : IntersectionResult (Flt mw ew)) (hr : b.hit ray = some r) (hpos : 0 < r.tRay.toReal)
    (hf : FaceFinite b ray r.tRay) (D : ℝ) (hD : ∀ i, slabMargin b ray i + evalMargin ray r.tRay i ≤ D) :
    ∃ g, EntersBy ray g ∧ |exactAt ray r.tRay.toReal (faceAxis g) - (faceBound b g).toReal| ≤ D ∧
      ((∀ g', g' ≠ g → 4 * D < |exactAt ray r.tRay.toReal (faceAxis g') - (faceBound b g').toReal|) →
        r.surfaceInteraction.n.vec = faceNormal g ∧ r.surfaceInteraction.p.vec (faceAxis g) = faceBound b g) := by
  obtain ⟨-, -, -, f, hn, hp, hmin⟩ := C54_hit b ray r ht h0 hr
  obtain ⟨t1, hi⟩ := hit_parts b ray r hr
  obtain ⟨k, hk⟩ := near_slab b ray h hb _ _ hi hpos
  obtain ⟨g, ga, gb, ge⟩ := slab_near b ray h k (hb k)
  rw [← hk] at ge
  clear hk
  subst ga
  have hu := uRnd_pos (mw := mw)
  have hu' := uRnd_quarter (mw := mw) (ew := ew)
  have hE := eval_margin hf
  have hs := slabMargin_nonneg b ray
  have he := evalMargin_nonneg ray r.tRay
  have hD0 : 0 ≤ D := by linarith [hD 0, hs 0, he 0]
  refine ⟨g, gb, by linarith [hD (faceAxis g), he (faceAxis g)], fun hsep => ?_⟩
  have hfg : f = g := by
    by_contra hne
    have s1 := hsep f hne
    have s2 := abs_sub_le (exactAt ray r.tRay.toReal (faceAxis f)) ((ray.eval r.tRay).vec (faceAxis f)).toReal
      (faceBound b f).toReal
    rw [abs_sub_comm (exactAt ray r.tRay.toReal (faceAxis f)) ((ray.eval r.tRay).vec (faceAxis f)).toReal] at s2
    have s3 := abs_sub_le ((ray.eval r.tRay).vec (faceAxis g)).toReal (exactAt ray r.tRay.toReal (faceAxis g)) (faceBound b g).toReal
    have s4 := hE (faceAxis f)
    have s5 := hE (faceAxis g)
    have s6 := hD (faceAxis f)
    have s7 := hD (faceAxis g)
    have s8 := hs (faceAxis f)
    obtain ⟨x1, x2, x3⟩ := dist_err (hf f)
    obtain ⟨y1, y2, y3⟩ := dist_err (hf g)
    have hle : (iabs ((ray.eval r.tRay).vec (faceAxis f) - faceBound b f)).toReal ≤
        (iabs ((ray.eval r.tRay).vec (faceAxis g) - faceBound b g)).toReal := by
      rw [← key_le_toReal x1 y1]
      have := hmin g
      rw [Bool.eq_false_iff, ne_eq, slt_iff] at this
      by_contra hc
      exact this ⟨notNaN_of_isFin y1, notNaN_of_isFin x1, by omega⟩
    have q1 := x2.trans (hle.trans y3)
    have q2 : 3 * D < |((ray.eval r.tRay).vec (faceAxis f)).toReal - (faceBound b f).toReal| := by linarith
    have q3 : |((ray.eval r.tRay).vec (faceAxis g)).toReal - (faceBound b g).toReal| ≤ D := by linarith
    clear s1 s2 s3 s4 s5 s6 s7 s8 x2 x3 y2 y3 ge
    generalize |((ray.eval r.tRay).vec (faceAxis f)).toReal - (faceBound b f).toReal| = X at *
    generalize |((ray.eval r.tRay).vec (faceAxis g)).toReal - (faceBound b g).toReal| = Y at *
    nlinarith
  subst hfg
  exact ⟨hn, by rw [hp]; simp⟩

/-- A cube of side 8, and a ray that enters it at `t = 1` in the point `(0, 2, 3)`. -/
def exBox8 : Bbox F32 := ⟨new3 (F32.lit 0) (F32.lit 0) (F32.lit 0), new3 (F32.lit 8) (F32.lit 8) (F32.lit 8)⟩
def exRay8 : Ray F32 := ⟨new3 (-F32.lit 4) (F32.lit 1) (F32.lit 2), new3 (F32.lit 4) (F32.lit 1) (F32.lit 1), F32.lit 3⟩

theorem ex8_hit : (exBox8.hit exRay8).isSome = true := by decide +kernel

/-- Non-vacuity of `C124_outside`, `C124_point` and `C124_face`: the ray meets their hypotheses with `D = 1/1000`. -/
example : SlabFinite exBox8 exRay8 ∧ (∀ i, (exBox8.pmin.vec i).toReal ≤ (exBox8.pmax.vec i).toReal) ∧
    ∃ r, exBox8.hit exRay8 = some r ∧ r.tRay = F32.lit 1 ∧ FaceFinite exBox8 exRay8 r.tRay ∧
      (exRay8.origin.vec 0).toReal < (exBox8.pmin.vec 0).toReal - slabMargin exBox8 exRay8 0 ∧
      (∀ i, slabMargin exBox8 exRay8 i + evalMargin exRay8 r.tRay i ≤ 1 / 1000) ∧
      ∀ g', g' ≠ 0 → 4 * (1 / 1000) < |exactAt exRay8 r.tRay.toReal (faceAxis g') - (faceBound exBox8 g').toReal| := by
  have l0 : (F32.lit 0).toReal = 0 := (toReal_lit (by norm_num)).trans (by norm_num)
  have l1 : (F32.lit 1).toReal = 1 := (toReal_lit (by norm_num)).trans (by norm_num)
  have l2 : (F32.lit 2).toReal = 2 := (toReal_lit (by norm_num)).trans (by norm_num)
  have l4 : (F32.lit 4).toReal = 4 := (toReal_lit (by norm_num)).trans (by norm_num)
  have l8 : (F32.lit 8).toReal = 8 := (toReal_lit (by norm_num)).trans (by norm_num)
  have e0 : ∀ i, (exBox8.pmin.vec i).toReal = 0 := by intro i; fin_cases i <;> exact l0
  have e1 : ∀ i, (exBox8.pmax.vec i).toReal = 8 := by intro i; fin_cases i <;> exact l8
  have o0 : (exRay8.origin.vec 0).toReal = -4 := by
    have : (-F32.lit 4).toReal = -4 := by rw [toReal_negop, l4]
    exact this
  have o1 : (exRay8.origin.vec 1).toReal = 1 := l1
  have o2 : (exRay8.origin.vec 2).toReal = 2 := l2
  have d0 : (exRay8.direction.vec 0).toReal = 4 := l4
  have d1 : (exRay8.direction.vec 1).toReal = 1 := l1
  have d2 : (exRay8.direction.vec 2).toReal = 1 := l1
  have et : ((exBox8.hit exRay8).get ex8_hit).tRay = F32.lit 1 := by decide +kernel
  have hsm : ∀ i, slabMargin exBox8 exRay8 i ≤ 1 / 2000 := by
    intro i
    unfold slabMargin uRnd etaRnd fK
    rw [e0, e1]
    fin_cases i <;> simp only [Fin.zero_eta, Fin.mk_one, Fin.reduceFinMk, o0, o1, o2, d0, d1, d2] <;> norm_num
  refine ⟨fun i => by fin_cases i <;> decide +kernel, fun i => by rw [e0, e1]; norm_num, (exBox8.hit exRay8).get ex8_hit, by simp, et,
    fun g => by rw [et]; fin_cases g <;> decide +kernel, by rw [o0, e0]; linarith [hsm 0], fun i => ?_, fun g hg => ?_⟩
  · rw [et]
    have : evalMargin exRay8 (F32.lit 1) i ≤ 1 / 2000 := by
      unfold evalMargin exactAt uRnd etaRnd fK
      rw [l1]
      fin_cases i <;> simp only [Fin.zero_eta, Fin.mk_one, Fin.reduceFinMk, o0, o1, o2, d0, d1, d2] <;> norm_num
    linarith [hsm i]
  · rw [et, l1]
    unfold exactAt
    fin_cases g
    · exact absurd rfl hg
    · change _ < |(exRay8.origin.vec 0).toReal + (exRay8.direction.vec 0).toReal * 1 - (F32.lit 8).toReal|
      rw [o0, d0, l8]; norm_num
    · change _ < |(exRay8.origin.vec 1).toReal + (exRay8.direction.vec 1).toReal * 1 - (F32.lit 0).toReal|
      rw [o1, d1, l0]; norm_num
    · change _ < |(exRay8.origin.vec 1).toReal + (exRay8.direction.vec 1).toReal * 1 - (F32.lit 8).toReal|
      rw [o1, d1, l8]; norm_num
    · change _ < |(exRay8.origin.vec 2).toReal + (exRay8.direction.vec 2).toReal * 1 - (F32.lit 0).toReal|
      rw [o2, d2, l0]; norm_num
    · change _ < |(exRay8.origin.vec 2).toReal + (exRay8.direction.vec 2).toReal * 1 - (F32.lit 8).toReal|
      rw [o2, d2, l8]; norm_num

/-- A box of thickness 1/2 seen from 2^24 away, and a ray in the direction `+x`. -/
def thinBox : Bbox F32 :=
  ⟨new3 (F32.lit 3 / F32.lit 2) (-F32.lit 100) (-F32.lit 100), new3 (F32.lit 2) (F32.lit 100) (F32.lit 100)⟩
def thinRay : Ray F32 := ⟨new3 (-F32.lit 16777216) (F32.lit 0) (F32.lit 0),
  new3 (F32.lit 1) (F32.lit 1 / F32.lit 16777216) (F32.lit 1 / F32.lit 16777216), F32.lit 1073741824⟩

theorem thin_hit : (thinBox.hit thinRay).isSome = true := by decide +kernel

/-- The condition on the distance from the other faces is needed: seen from `2^24` away, a box of thickness `1/2` reports the face
on its far side, whose normal points along the ray. -/
theorem C124_refuted : SlabFinite thinBox thinRay ∧ ∃ r, thinBox.hit thinRay = some r ∧ r.tRay = F32.lit 16777218 ∧
    FaceFinite thinBox thinRay r.tRay ∧ r.surfaceInteraction.n.vec 0 = F32.lit 1 ∧
    thinRay.direction.vec 0 = F32.lit 1 := by
  refine ⟨fun i => by fin_cases i <;> decide +kernel, ?_⟩
  refine ⟨(thinBox.hit thinRay).get thin_hit, by simp, by decide +kernel, fun g => ?_, ?_, by decide +kernel⟩
  · fin_cases g <;> decide +kernel
  · decide +kernel
end Scarlet
