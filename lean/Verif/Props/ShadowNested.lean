import Verif.Props.ShadowRay
import Verif.Props.FloatNested

/-!
C151 for scenes with transforms: shadow rays in nested scenes on floats are right and the same both ways outside a margin that grows by
the factor `1 + 4.04u` per transform.
-/

set_option linter.unusedSectionVars false

namespace Scarlet
open Flt GVec
variable {mw ew : Nat} [FltImpl mw ew] [LawfulFlt mw ew]

/-- A size for the coordinates of the points of the segment, and of the rays both ways. -/
noncomputable def endSize (A B : Point (Flt mw ew) 3) (i : _root_.Fin 3) : ℝ := 2 * (|(A.vec i).toReal| + |(B.vec i).toReal|)
/-- The size of the coordinates seen by a shape under the transforms `ts`. -/
noncomputable def nestSize (A B : Point (Flt mw ew) 3) (ts : List (Transform (Flt mw ew))) (i : _root_.Fin 3) : ℝ :=
  pathSize (padding mw ew 1) ts (endSize A B) i
/-- Growth of the error under `k` transforms; the direction is rounded once. -/
noncomputable def growth (mw k : Nat) : ℝ := (1 + uRnd mw) * (1 + 4.04 * uRnd mw) ^ k

theorem endSize_swap (A B : Point (Flt mw ew) 3) : endSize B A = endSize A B := by funext i; unfold endSize; ring
theorem nestSize_swap (A B : Point (Flt mw ew) 3) (ts : List (Transform (Flt mw ew))) : nestSize B A ts = nestSize A B ts := by
  unfold nestSize; rw [endSize_swap]
theorem one_le_growth (k : Nat) : 1 ≤ growth mw k := by
  have hu := uRnd_pos (mw := mw)
  have : 1 ≤ (1 + 4.04 * uRnd mw) ^ k := one_le_pow₀ (by linarith)
  unfold growth
  nlinarith

theorem affAbs_mono' (m : Mat4 (Flt mw ew)) {v w : _root_.Fin 3 → ℝ} (h0 : ∀ i, 0 ≤ v i) (h : ∀ i, v i ≤ w i) (i : _root_.Fin 4) :
    affAbs m v 1 i ≤ affAbs m w 1 i := by
  have := affAbs_mono m v w 1 le_rfl h0 (fun i => by rw [one_mul]; exact h i) i
  rwa [one_mul] at this

theorem pathSize_mono {ω ω' : ℝ} (h0 : 0 ≤ ω) (h : ω ≤ ω') (ts : List (Transform (Flt mw ew))) (v w : _root_.Fin 3 → ℝ) (hv : ∀ i, 0 ≤ v i)
    (hw : ∀ i, v i ≤ w i) (i : _root_.Fin 3) : pathSize ω ts v i ≤ pathSize ω' ts w i := by
  induction ts generalizing v w with
  | nil => exact hw i
  | cons t ts ih =>
    refine ih _ _ (fun i => add_nonneg (affAbs_nonneg _ _ _) h0) fun i => ?_
    exact add_le_add (affAbs_mono' t.minv hv hw _) h

theorem endSize_nonneg (A B : Point (Flt mw ew) 3) (i : _root_.Fin 3) : 0 ≤ endSize A B i := by unfold endSize; positivity

/-- The ray that reaches a shape under `ts`, against the exact image of the exact segment. -/
theorem nest_err (hm : 9 ≤ mw) {A B : Point (Flt mw ew) 3} (h : Ends A B) {ts : List (Transform (Flt mw ew))} {obj : Ray (Flt mw ew)}
    (hc : Chain ts (shadow A B) obj) (hf : ChainFin ts (shadow A B)) {t : ℝ} (h0 : 0 ≤ t) (h1 : t ≤ 1) (i : _root_.Fin 3) :
    |pathPoint ts (onSegment A B t) i| ≤ nestSize A B ts i ∧
    |rayPoint obj t i - pathPoint ts (onSegment A B t) i| ≤ (growth mw ts.length - 1) * nestSize A B ts i ∧
    raySize obj t i ≤ growth mw ts.length * nestSize A B ts i := by
  have hu := uRnd_pos (mw := mw)
  have hη := etaRnd_pos (mw := mw) (ew := ew)
  have base : ∀ i, |onSegment A B t i| ≤ endSize A B i ∧ |rayPoint (shadow A B) t i - onSegment A B t i| ≤ (1 + uRnd mw - 1) * endSize A B i ∧
      raySize (shadow A B) t i ≤ (1 + uRnd mw) * endSize A B i := by
    intro i
    have e := shadow_err h i
    unfold onSegment rayPoint raySize endSize
    change _ ∧ |(A.vec i).toReal + ((shadow A B).direction.vec i).toReal * t - _| ≤ _ ∧ |(A.vec i).toReal| + _ ≤ _
    generalize ((shadow A B).direction.vec i).toReal = d at *
    generalize (A.vec i).toReal = a at *
    generalize (B.vec i).toReal = b at *
    have hD : |b - a| ≤ |a| + |b| := by rw [add_comm]; exact abs_sub b a
    have m0 : 0 ≤ |a| + |b| := by positivity
    have ht : |(b - a) * t| ≤ |a| + |b| := by
      rw [abs_mul, abs_of_nonneg h0]
      exact (mul_le_of_le_one_right (abs_nonneg _) h1).trans hD
    have he : |d * t - (b - a) * t| ≤ uRnd mw * (|a| + |b|) := by
      rw [← sub_mul, abs_mul, abs_of_nonneg h0]
      exact (mul_le_of_le_one_right (abs_nonneg _) h1).trans (e.trans (mul_le_mul_of_nonneg_left hD hu.le))
    refine ⟨?_, ?_, ?_⟩
    · refine (abs_add_le _ _).trans ?_
      linarith [abs_nonneg b]
    · have : a + d * t - (a + (b - a) * t) = d * t - (b - a) * t := by ring
      rw [this]
      nlinarith
    · have := abs_sub_abs_le_abs_sub (d * t) ((b - a) * t)
      nlinarith [abs_nonneg b, abs_nonneg a]
  obtain ⟨k1, k2, k3⟩ := chain_err hm ts _ obj hc hf t (onSegment A B t) (endSize A B) (1 + uRnd mw) (by linarith) (fun i => (base i).1)
    (fun i => (base i).2.1) (fun i => (base i).2.2) i
  have mono : pathSize (padding mw ew t) ts (endSize A B) i ≤ nestSize A B ts i := by
    refine pathSize_mono (by unfold padding; positivity) ?_ ts _ _ (endSize_nonneg A B) (fun _ => le_rfl) i
    unfold padding
    rw [abs_of_nonneg h0, abs_one]
    gcongr
  have hg := one_le_growth (mw := mw) ts.length
  exact ⟨k1.trans mono, k2.trans (mul_le_mul_of_nonneg_left mono (by change 0 ≤ growth mw ts.length - 1; linarith)),
    k3.trans (mul_le_mul_of_nonneg_left mono (by change 0 ≤ growth mw ts.length; linarith))⟩

/-! ### boxes -/

/-- How far the planes of a box under `ts` are moved. -/
noncomputable def nestMargin (b : Bbox (Flt mw ew)) (ts : List (Transform (Flt mw ew))) (A B : Point (Flt mw ew) 3) (i : _root_.Fin 3) : ℝ :=
  ((1 + uRnd mw) ^ 2 - 1) * (Max.max |(b.pmin.vec i).toReal| |(b.pmax.vec i).toReal| + growth mw ts.length * nestSize A B ts i) +
    etaRnd mw ew * (growth mw ts.length * nestSize A B ts i) + (growth mw ts.length - 1) * nestSize A B ts i

/-- The exact image of the segment passes through the box with its planes moved inwards. -/
def NestBlocks (b : Bbox (Flt mw ew)) (ts : List (Transform (Flt mw ew))) (A B : Point (Flt mw ew) 3) : Prop := ∃ t : ℝ, 0 ≤ t ∧ t ≤ 1 ∧ ∀ i,
  (b.pmin.vec i).toReal + nestMargin b ts A B i ≤ pathPoint ts (onSegment A B t) i ∧
    pathPoint ts (onSegment A B t) i ≤ (b.pmax.vec i).toReal - nestMargin b ts A B i
/-- The exact image of the segment misses the box with its planes moved outwards. -/
def NestClear (b : Bbox (Flt mw ew)) (ts : List (Transform (Flt mw ew))) (A B : Point (Flt mw ew) 3) : Prop := ∀ t : ℝ, 0 ≤ t → t ≤ 1 → ∃ i,
  pathPoint ts (onSegment A B t) i < (b.pmin.vec i).toReal - nestMargin b ts A B i ∨
    (b.pmax.vec i).toReal + nestMargin b ts A B i < pathPoint ts (onSegment A B t) i

theorem segment_swap (A B : Point (Flt mw ew) 3) (t : ℝ) : onSegment B A (1 - t) = onSegment A B t := funext fun i => onSegment_swap A B t i
theorem nestMargin_swap (b : Bbox (Flt mw ew)) (ts : List (Transform (Flt mw ew))) (A B : Point (Flt mw ew) 3) (i : _root_.Fin 3) :
    nestMargin b ts B A i = nestMargin b ts A B i := by unfold nestMargin; rw [nestSize_swap]

theorem NestBlocks.swap {b : Bbox (Flt mw ew)} {ts : List (Transform (Flt mw ew))} {A B : Point (Flt mw ew) 3} (h : NestBlocks b ts A B) :
    NestBlocks b ts B A := by
  obtain ⟨t, h0, h1, h⟩ := h
  refine ⟨1 - t, by linarith, by linarith, fun i => ?_⟩
  rw [segment_swap, nestMargin_swap]
  exact h i
theorem NestClear.swap {b : Bbox (Flt mw ew)} {ts : List (Transform (Flt mw ew))} {A B : Point (Flt mw ew) 3} (h : NestClear b ts A B) :
    NestClear b ts B A := by
  intro t h0 h1
  obtain ⟨i, hi⟩ := h (1 - t) (by linarith) (by linarith)
  refine ⟨i, ?_⟩
  rw [nestMargin_swap]
  rwa [segment_swap] at hi

theorem nest_margin (hm : 9 ≤ mw) {A B : Point (Flt mw ew) 3} (h : Ends A B) {ts : List (Transform (Flt mw ew))} {obj : Ray (Flt mw ew)}
    (hc : Chain ts (shadow A B) obj) (hf : ChainFin ts (shadow A B)) (b : Bbox (Flt mw ew)) {t : ℝ} (h0 : 0 ≤ t) (h1 : t ≤ 1) (i : _root_.Fin 3) :
    slabMargin b obj i + |exactAt obj t i - pathPoint ts (onSegment A B t) i| ≤ nestMargin b ts A B i := by
  have hu := uRnd_pos (mw := mw)
  have hη := etaRnd_pos (mw := mw) (ew := ew)
  have k2 := (nest_err hm h hc hf h0 h1 i).2.1
  have k3 := (nest_err hm h hc hf zero_le_one le_rfl i).2.2
  unfold raySize at k3
  rw [mul_one] at k3
  have a0 := abs_nonneg (obj.origin.vec i).toReal
  have d0 := abs_nonneg (obj.direction.vec i).toReal
  have m : Max.max |(b.pmin.vec i).toReal - (obj.origin.vec i).toReal| |(b.pmax.vec i).toReal - (obj.origin.vec i).toReal| ≤
      Max.max |(b.pmin.vec i).toReal| |(b.pmax.vec i).toReal| + growth mw ts.length * nestSize A B ts i := by
    refine max_le ?_ ?_
    · exact (abs_sub _ _).trans (add_le_add (le_max_left _ _) (by linarith))
    · exact (abs_sub _ _).trans (add_le_add (le_max_right _ _) (by linarith))
  unfold slabMargin nestMargin
  refine add_le_add (add_le_add (mul_le_mul_of_nonneg_left m (by nlinarith)) (mul_le_mul_of_nonneg_left (by linarith) hη.le)) k2

theorem chain_tmax_one {A B : Point (Flt mw ew) 3} {ts : List (Transform (Flt mw ew))} {obj : Ray (Flt mw ew)} (hc : Chain ts (shadow A B) obj) :
    obj.tmax = Scalar.one := chain_tmax ts _ obj hc

theorem nest_blocked (hm : 9 ≤ mw) {A B : Point (Flt mw ew) 3} (h : Ends A B) {ts : List (Transform (Flt mw ew))} {obj : Ray (Flt mw ew)}
    (hc : Chain ts (shadow A B) obj) (hf : ChainFin ts (shadow A B)) (b : Bbox (Flt mw ew)) (hb : ∀ i, (b.pmin.vec i).toReal ≤ (b.pmax.vec i).toReal)
    (hs : SlabFinite b obj) (hB : NestBlocks b ts A B) : b.doIntersect obj = true := by
  obtain ⟨t, h0, h1, hin⟩ := hB
  have e := chain_tmax_one hc
  refine C92_hit b obj hs hb (by rw [e]; exact notNaN_of_isFin sone_spec.1) t h0 ?_ fun i => ?_
  · rw [e, sone_val]; exact_mod_cast h1
  · have := nest_margin hm h hc hf b h0 h1 i
    have a := _root_.abs_le.1 (le_refl |exactAt obj t i - pathPoint ts (onSegment A B t) i|)
    obtain ⟨k1, k2⟩ := hin i
    exact ⟨by linarith [a.1], by linarith [a.2]⟩

theorem nest_clear (hm : 9 ≤ mw) {A B : Point (Flt mw ew) 3} (h : Ends A B) {ts : List (Transform (Flt mw ew))} {obj : Ray (Flt mw ew)}
    (hc : Chain ts (shadow A B) obj) (hf : ChainFin ts (shadow A B)) (b : Bbox (Flt mw ew)) (hb : ∀ i, (b.pmin.vec i).toReal ≤ (b.pmax.vec i).toReal)
    (hs : SlabFinite b obj) (hC : NestClear b ts A B) : b.doIntersect obj = false := by
  by_contra hn
  have hn : (b.intersectRay obj).isSome = true := Bool.not_eq_false _ ▸ hn
  obtain ⟨⟨t0, t1⟩, he⟩ := Option.isSome_iff_exists.1 hn
  have e := chain_tmax_one hc
  have z1 : (0 : EReal) ≤ obj.tmax.val := by rw [e, sone_val]; exact_mod_cast zero_le_one
  obtain ⟨⟨f0, f1, k0, k1, k2⟩, hr⟩ := C92_range b obj hs hb (by rw [e]; exact notNaN_of_isFin sone_spec.1) z1 t0 t1 he
  have k3 : t1.toReal ≤ 1 := by
    rw [e, sone_val, val_of_isFin f1] at k2
    exact_mod_cast k2
  obtain ⟨i, hi⟩ := hC t0.toReal k0 (k1.trans k3)
  have := nest_margin hm h hc hf b k0 (k1.trans k3) i
  have a := _root_.abs_le.1 (le_refl |exactAt obj t0.toReal i - pathPoint ts (onSegment A B t0.toReal) i|)
  obtain ⟨j1, j2⟩ := hr t0.toReal le_rfl k1 i
  rcases hi with hi | hi
  · linarith [a.1, a.2]
  · linarith [a.1, a.2]

/-! ### spheres -/

/-- How far from the sphere, in the square of the distance, a point is clearly inside or outside. -/
noncomputable def ballMargin (s : Sphere (Flt mw ew)) (ts : List (Transform (Flt mw ew))) (A B : Point (Flt mw ew) 3) : ℝ :=
  ((1 + 58 * uRnd mw) * growth mw ts.length ^ 2 - 1) * ∑ i, nestSize A B ts i ^ 2 + 58 * uRnd mw * s.radius.toReal ^ 2
def NestOut (s : Sphere (Flt mw ew)) (ts : List (Transform (Flt mw ew))) (A B : Point (Flt mw ew) 3) (t : ℝ) : Prop :=
  s.radius.toReal ^ 2 + ballMargin s ts A B < ∑ i, pathPoint ts (onSegment A B t) i ^ 2
def NestIn (s : Sphere (Flt mw ew)) (ts : List (Transform (Flt mw ew))) (A B : Point (Flt mw ew) 3) (t : ℝ) : Prop :=
  ∑ i, pathPoint ts (onSegment A B t) i ^ 2 < s.radius.toReal ^ 2 - ballMargin s ts A B
/-- The exact image of the segment clearly crosses the surface. -/
def BallBlocks (s : Sphere (Flt mw ew)) (ts : List (Transform (Flt mw ew))) (A B : Point (Flt mw ew) 3) : Prop :=
  (∃ t : ℝ, 0 ≤ t ∧ t ≤ 1 ∧ NestOut s ts A B t) ∧ ∃ t : ℝ, 0 ≤ t ∧ t ≤ 1 ∧ NestIn s ts A B t
/-- The exact image of the segment is clearly outside, or clearly inside, all along. -/
def BallClear (s : Sphere (Flt mw ew)) (ts : List (Transform (Flt mw ew))) (A B : Point (Flt mw ew) 3) : Prop :=
  (∀ t : ℝ, 0 ≤ t → t ≤ 1 → NestOut s ts A B t) ∨ ∀ t : ℝ, 0 ≤ t → t ≤ 1 → NestIn s ts A B t

theorem NestOut.swap {s : Sphere (Flt mw ew)} {ts : List (Transform (Flt mw ew))} {A B : Point (Flt mw ew) 3} {t : ℝ} :
    NestOut s ts B A (1 - t) ↔ NestOut s ts A B t := by
  unfold NestOut ballMargin; rw [segment_swap, nestSize_swap]
theorem NestIn.swap {s : Sphere (Flt mw ew)} {ts : List (Transform (Flt mw ew))} {A B : Point (Flt mw ew) 3} {t : ℝ} :
    NestIn s ts B A (1 - t) ↔ NestIn s ts A B t := by
  unfold NestIn ballMargin; rw [segment_swap, nestSize_swap]
theorem BallBlocks.swap {s : Sphere (Flt mw ew)} {ts : List (Transform (Flt mw ew))} {A B : Point (Flt mw ew) 3} (h : BallBlocks s ts A B) :
    BallBlocks s ts B A := by
  obtain ⟨⟨t, h0, h1, h⟩, t', h0', h1', h'⟩ := h
  exact ⟨⟨1 - t, by linarith, by linarith, NestOut.swap.2 h⟩, 1 - t', by linarith, by linarith, NestIn.swap.2 h'⟩
theorem BallClear.swap {s : Sphere (Flt mw ew)} {ts : List (Transform (Flt mw ew))} {A B : Point (Flt mw ew) 3} (h : BallClear s ts A B) :
    BallClear s ts B A := by
  rcases h with h | h
  · refine Or.inl fun t h0 h1 => ?_
    have := h (1 - t) (by linarith) (by linarith)
    rw [← NestOut.swap] at this
    rwa [sub_sub_cancel] at this
  · refine Or.inr fun t h0 h1 => ?_
    have := h (1 - t) (by linarith) (by linarith)
    rw [← NestIn.swap] at this
    rwa [sub_sub_cancel] at this

theorem nest_defect (hm : 9 ≤ mw) {A B : Point (Flt mw ew) 3} (h : Ends A B) {ts : List (Transform (Flt mw ew))} {obj : Ray (Flt mw ew)}
    (hc : Chain ts (shadow A B) obj) (hf : ChainFin ts (shadow A B)) (s : Sphere (Flt mw ew)) {t : ℝ} (h0 : 0 ≤ t) (h1 : t ≤ 1) :
    |sphereDefect s obj t - (∑ i, pathPoint ts (onSegment A B t) i ^ 2 - s.radius.toReal ^ 2)| + 58 * uRnd mw * sphereScale s obj t ≤
      ballMargin s ts A B := by
  have hu := uRnd_pos (mw := mw)
  have ch := fun i => nest_err hm h hc hf h0 h1 i
  obtain ⟨k1, k2⟩ := nested_squares (fun i => pathPoint ts (onSegment A B t) i)
    (fun i => (obj.origin.vec i).toReal + (obj.direction.vec i).toReal * t) (fun i => nestSize A B ts i) (fun i => (obj.origin.vec i).toReal)
    (fun i => (obj.direction.vec i).toReal * t) (one_le_growth ts.length) (fun i => (ch i).1) (fun i => (ch i).2.1) (fun i => (ch i).2.2)
  have e : sphereDefect s obj t - (∑ i, pathPoint ts (onSegment A B t) i ^ 2 - s.radius.toReal ^ 2) =
      ∑ i, ((obj.origin.vec i).toReal + (obj.direction.vec i).toReal * t) ^ 2 - ∑ i, pathPoint ts (onSegment A B t) i ^ 2 := by
    unfold sphereDefect; ring
  rw [e]
  have k4 := mul_le_mul_of_nonneg_left k2 (by positivity : 0 ≤ 58 * uRnd mw)
  unfold sphereScale ballMargin
  linarith

variable [Libm mw ew]

theorem ball_blocked (hm : 9 ≤ mw) (hw : mw + 3 ≤ 2 ^ (ew - 1)) {A B : Point (Flt mw ew) 3} (h : Ends A B) {ts : List (Transform (Flt mw ew))}
    {obj : Ray (Flt mw ew)} (hc : Chain ts (shadow A B) obj) (hf : ChainFin ts (shadow A B)) (s : Sphere (Flt mw ew)) (hs : SphereFit s obj)
    (hB : BallBlocks s ts A B) : s.doIntersect obj = true := by
  by_contra hn
  obtain ⟨⟨t, t0, t1, ht⟩, t', t0', t1', ht'⟩ := hB
  have e := chain_tmax_one hc
  have e1 : obj.tmax.toReal = 1 := by rw [e]; exact (sone_spec (mw := mw) (ew := ew)).2
  rcases C120_miss hm hw s _ hs.reg hs.dir hs.roots hs.whole (by rw [e]; exact notNaN_of_isFin sone_spec.1) (by simpa using hn) with k | k
  · have k := k t' t0' (Or.inl (by rw [e1]; exact t1'))
    have d := nest_defect hm h hc hf s t0' t1'
    have a := (_root_.abs_le.1 (le_refl |sphereDefect s obj t' - (∑ i, pathPoint ts (onSegment A B t') i ^ 2 - s.radius.toReal ^ 2)|)).2
    unfold OutsideAt at k
    unfold NestIn at ht'
    linarith
  · have k := k t t0 (Or.inl (by rw [e1]; exact t1))
    have d := nest_defect hm h hc hf s t0 t1
    have a := (_root_.abs_le.1 (le_refl |sphereDefect s obj t - (∑ i, pathPoint ts (onSegment A B t) i ^ 2 - s.radius.toReal ^ 2)|)).1
    unfold InsideAt at k
    unfold NestOut at ht
    linarith

theorem ball_clear (hm : 9 ≤ mw) (hw : mw + 3 ≤ 2 ^ (ew - 1)) {A B : Point (Flt mw ew) 3} (h : Ends A B) {ts : List (Transform (Flt mw ew))}
    {obj : Ray (Flt mw ew)} (hc : Chain ts (shadow A B) obj) (hf : ChainFin ts (shadow A B)) (s : Sphere (Flt mw ew)) (hs : SphereFit s obj)
    (hC : BallClear s ts A B) : s.doIntersect obj = false := by
  by_contra hn
  have hn : (s.intersectRay obj).isSome = true := Bool.not_eq_false _ ▸ hn
  obtain ⟨r, hi⟩ := Option.isSome_iff_exists.1 hn
  unfold Sphere.intersectRay at hi
  dsimp only at hi
  split at hi
  · cases hi
  rename_i t0 t1 hq
  obtain ⟨f0, f1⟩ := hs.roots t0 t1 hq
  have h01 := (C101_backward_partial hm hw _ _ _ t0 t1 hq f0 f1 hs.reg.hb hs.reg.hc).1
  have L := fun t => C120_line hm hw s _ hs.reg hs.dir hq f0 f1 t
  have fin : ∀ t : Flt mw ew, t.isFin = true → Scalar.inRange t Scalar.zero obj.tmax = true →
      OutsideAt s obj t.toReal ∧ InsideAt s obj t.toReal → False := by
    intro t ft hr ⟨ho, hi⟩
    unfold Scalar.inRange at hr
    rw [Bool.and_eq_true, sge_iff, sle_iff, chain_tmax_one hc] at hr
    have r0 : 0 ≤ t.toReal := toReal_nonneg_iff.2 ((key_zero false).ge.trans hr.1.2.2)
    have r1 : t.toReal ≤ 1 := by
      rw [← (sone_spec (mw := mw) (ew := ew)).2]
      exact toReal_le_iff.2 hr.2.2.2
    have d := nest_defect hm h hc hf s r0 r1
    have a := _root_.abs_le.1 (le_refl |sphereDefect s obj t.toReal - (∑ i, pathPoint ts (onSegment A B t.toReal) i ^ 2 - s.radius.toReal ^ 2)|)
    unfold OutsideAt at ho
    unfold InsideAt at hi
    rcases hC with hC | hC
    · have := hC _ r0 r1
      unfold NestOut at this
      linarith [a.1]
    · have := hC _ r0 r1
      unfold NestIn at this
      linarith [a.2]
  split at hi
  · obtain ⟨k, -⟩ := getIntersection_some hi
    exact fin t1 f1 k ⟨(L _).2.2 le_rfl, (L _).2.1 h01 le_rfl⟩
  · rename_i i hi'
    obtain ⟨k, -⟩ := getIntersection_some hi'
    exact fin t0 f0 k ⟨(L _).1 le_rfl, (L _).2.1 le_rfl h01⟩

/-! ### scenes -/

/-- `obj` is what the inverses of `ts` make of the ray from `A` to `B` or of the one from `B` to `A`. -/
def Arrives (A B : Point (Flt mw ew) 3) (ts : List (Transform (Flt mw ew))) (obj : Ray (Flt mw ew)) : Prop :=
  Chain ts (shadow A B) obj ∨ Chain ts (shadow B A) obj

/-- Scenes of boxes, spheres, transformed objects and lists of any depth, under the transforms `ts`, met regularly in both directions by the
segment from `A` to `B`; with what it means that something is clearly in the way, and that the way is clearly free. -/
inductive ShadesIn (A B : Point (Flt mw ew) 3) : List (Transform (Flt mw ew)) → Primitive (Flt mw ew) → Prop → Prop → Prop
  | box (ts) (b : Bbox (Flt mw ew)) (hb : ∀ i, (b.pmin.vec i).toReal ≤ (b.pmax.vec i).toReal) (h : ∀ obj, Arrives A B ts obj → SlabFinite b obj)
      (h1 : ChainFin ts (shadow A B)) (h2 : ChainFin ts (shadow B A)) : ShadesIn A B ts b.prim (NestBlocks b ts A B) (NestClear b ts A B)
  | sphere (ts) (s : Sphere (Flt mw ew)) (h : ∀ obj, Arrives A B ts obj → SphereFit s obj)
      (h1 : ChainFin ts (shadow A B)) (h2 : ChainFin ts (shadow B A)) : ShadesIn A B ts s.prim (BallBlocks s ts A B) (BallClear s ts A B)
  | moved (ts p t bl cl) (h : ShadesIn A B (ts ++ [t]) p bl cl) (hp : ∀ obj, Arrives A B ts obj → ∃ o, t.mapRayInv obj = some o) :
      ShadesIn A B ts (p.transformed t) bl cl
  | list (ts) (l : List (Primitive (Flt mw ew) × Prop × Prop)) (h : ∀ e ∈ l, ShadesIn A B ts e.1 e.2.1 e.2.2) :
      ShadesIn A B ts (PrimitiveList.prim (l.map (·.1))) (∃ e ∈ l, e.2.1) (∀ e ∈ l, e.2.2)

theorem chain_append {ts : List (Transform (Flt mw ew))} {t : Transform (Flt mw ew)} {r s o : Ray (Flt mw ew)} (h : Chain ts r s)
    (ho : t.mapRayInv s = some o) : Chain (ts ++ [t]) r o := by
  induction ts generalizing r with
  | nil => cases h; exact ⟨o, ho, rfl⟩
  | cons x ts ih =>
    obtain ⟨q, hq, h⟩ := h
    exact ⟨q, hq, ih h⟩

theorem ShadesIn.swap {A B : Point (Flt mw ew) 3} {ts : List (Transform (Flt mw ew))} {p : Primitive (Flt mw ew)} {bl cl : Prop}
    (h : ShadesIn A B ts p bl cl) : ∃ bl' cl', ShadesIn B A ts p bl' cl' ∧ (bl → bl') ∧ (cl → cl') := by
  induction h with
  | box ts b hb h h1 h2 => exact ⟨_, _, .box ts b hb (fun o ho => h o ho.symm) h2 h1, NestBlocks.swap, NestClear.swap⟩
  | sphere ts s h h1 h2 => exact ⟨_, _, .sphere ts s (fun o ho => h o ho.symm) h2 h1, BallBlocks.swap, BallClear.swap⟩
  | moved ts p t bl cl _ hp ih =>
    obtain ⟨bl', cl', k, k1, k2⟩ := ih
    exact ⟨bl', cl', .moved ts p t bl' cl' k (fun o ho => hp o ho.symm), k1, k2⟩
  | list ts l _ ih =>
    have : ∃ l' : List (Primitive (Flt mw ew) × Prop × Prop), l'.map (·.1) = l.map (·.1) ∧ (∀ e ∈ l', ShadesIn B A ts e.1 e.2.1 e.2.2) ∧
        ((∃ e ∈ l, e.2.1) → ∃ e ∈ l', e.2.1) ∧ ((∀ e ∈ l, e.2.2) → ∀ e ∈ l', e.2.2) := by
      clear * - ih
      induction l with
      | nil => exact ⟨[], rfl, by simp, id, id⟩
      | cons e l IH =>
        obtain ⟨l', k1, k2, k3, k4⟩ := IH fun e he => ih e (List.mem_cons_of_mem _ he)
        obtain ⟨bl', cl', j1, j2, j3⟩ := ih e List.mem_cons_self
        refine ⟨(e.1, bl', cl') :: l', by simp [k1], ?_, ?_, ?_⟩
        · intro e' he'
          rcases List.mem_cons.1 he' with rfl | he'
          · exact j1
          · exact k2 e' he'
        · rintro ⟨e', he', hb⟩
          rcases List.mem_cons.1 he' with rfl | he'
          · exact ⟨_, List.mem_cons_self, j2 hb⟩
          · obtain ⟨e'', m, hb⟩ := k3 ⟨e', he', hb⟩
            exact ⟨e'', List.mem_cons_of_mem _ m, hb⟩
        · intro hcl e' he'
          rcases List.mem_cons.1 he' with rfl | he'
          · exact j3 (hcl e List.mem_cons_self)
          · exact k4 (fun e he => hcl e (List.mem_cons_of_mem _ he)) e' he'
    obtain ⟨l', k1, k2, k3, k4⟩ := this
    rw [← k1]
    exact ⟨_, _, .list ts l' k2, k3, k4⟩

theorem shadesIn_one (hm : 9 ≤ mw) (hw : mw + 3 ≤ 2 ^ (ew - 1)) {A B : Point (Flt mw ew) 3} (hE : Ends A B) {ts : List (Transform (Flt mw ew))}
    {p : Primitive (Flt mw ew)} {bl cl : Prop} (h : ShadesIn A B ts p bl cl) (obj : Ray (Flt mw ew)) (hc : Chain ts (shadow A B) obj) :
    ∃ v, p.doIntersect obj = some v ∧ (bl → v = true) ∧ (cl → v = false) := by
  induction h generalizing obj with
  | box ts b hb h h1 h2 =>
    exact ⟨_, rfl, nest_blocked hm hE hc h1 b hb (h obj (Or.inl hc)), nest_clear hm hE hc h1 b hb (h obj (Or.inl hc))⟩
  | sphere ts s h h1 h2 =>
    exact ⟨_, rfl, ball_blocked hm hw hE hc h1 s (h obj (Or.inl hc)), ball_clear hm hw hE hc h1 s (h obj (Or.inl hc))⟩
  | moved ts p t bl cl _ hp ih =>
    obtain ⟨o, ho⟩ := hp obj (Or.inl hc)
    obtain ⟨v, k⟩ := ih o (chain_append hc ho)
    refine ⟨v, ?_, k.2⟩
    change (t.mapRayInv obj).bind p.doIntersect = some v
    rw [ho]
    exact k.1
  | list ts l _ ih =>
    change ∃ v, PrimitiveList.doIntersectLoop obj (l.map (·.1)) = some v ∧ _
    have ih := fun e he => ih e he obj hc
    clear * - ih
    induction l with
    | nil => exact ⟨false, rfl, by simp, fun _ => rfl⟩
    | cons e l IH =>
      obtain ⟨v, k1, k2, k3⟩ := IH fun e he => ih e (List.mem_cons_of_mem _ he)
      obtain ⟨w, j1, j2, j3⟩ := ih e List.mem_cons_self
      rw [List.map_cons, PrimitiveList.doIntersectLoop, j1]
      cases w with
      | true =>
        refine ⟨true, rfl, fun _ => rfl, fun hc => ?_⟩
        exact j3 (hc e List.mem_cons_self)
      | false =>
        refine ⟨v, k1, ?_, fun hc => k3 fun e he => hc e (List.mem_cons_of_mem _ he)⟩
        rintro ⟨e', he', hb⟩
        rcases List.mem_cons.1 he' with rfl | he'
        · exact absurd (j2 hb) Bool.false_ne_true
        · exact k2 ⟨e', he', hb⟩

/-- C151, scenes with transforms: if something is clearly in the way from `A` to `B`, the shadow rays both ways report it. -/
theorem C151_nested_blocked (hm : 9 ≤ mw) (hw : mw + 3 ≤ 2 ^ (ew - 1)) (A B : Point (Flt mw ew) 3) (hE : Ends A B) (p : Primitive (Flt mw ew))
    (bl cl : Prop) (h : ShadesIn A B [] p bl cl) (hb : bl) :
    p.doIntersect (shadow A B) = some true ∧ p.doIntersect (shadow B A) = some true := by
  obtain ⟨v, k1, k2, -⟩ := shadesIn_one hm hw hE h _ rfl
  obtain ⟨bl', cl', s, i1, -⟩ := h.swap
  obtain ⟨w, j1, j2, -⟩ := shadesIn_one hm hw hE.swap s _ rfl
  rw [k1, j1, k2 hb, j2 (i1 hb)]
  exact ⟨rfl, rfl⟩

/-- C151, scenes with transforms: if the way is clearly free, neither does. -/
theorem C151_nested_free (hm : 9 ≤ mw) (hw : mw + 3 ≤ 2 ^ (ew - 1)) (A B : Point (Flt mw ew) 3) (hE : Ends A B) (p : Primitive (Flt mw ew))
    (bl cl : Prop) (h : ShadesIn A B [] p bl cl) (hc : cl) :
    p.doIntersect (shadow A B) = some false ∧ p.doIntersect (shadow B A) = some false := by
  obtain ⟨v, k1, -, k2⟩ := shadesIn_one hm hw hE h _ rfl
  obtain ⟨bl', cl', s, -, i1⟩ := h.swap
  obtain ⟨w, j1, -, j2⟩ := shadesIn_one hm hw hE.swap s _ rfl
  rw [k1, j1, k2 hc, j2 (i1 hc)]
  exact ⟨rfl, rfl⟩

/-! ### the hypotheses are met -/

/-- the translation by `(1,1,1)` -/
def shT : Transform F32 := Transform.translate (new3 (F32.lit 1) (F32.lit 1) (F32.lit 1))

theorem shT_dia (i j : _root_.Fin 3) : (shT.minv.data i.castSucc j.castSucc).toReal = if i = j then 1 else 0 := by
  have : shT.minv.data i.castSucc j.castSucc = if i = j then F32.lit 1 else F32.lit 0 := by revert i j; decide +kernel
  rw [this]
  split
  · rw [toReal_lit (by decide)]; norm_num
  · rw [toReal_lit (by decide)]; norm_num
theorem shT_col (i : _root_.Fin 3) : (shT.minv.data i.castSucc 3).toReal = -1 := by
  have : shT.minv.data i.castSucc 3 = -F32.lit 1 := by revert i; decide +kernel
  rw [this, toReal_negop, toReal_lit (by decide)]; norm_num

theorem shT_aff (x : _root_.Fin 3 → ℝ) (i : _root_.Fin 3) : affR shT.minv x 1 i.castSucc = x i - 1 := by
  have d0 := shT_dia i 0; have d1 := shT_dia i 1; have d2 := shT_dia i 2; have c := shT_col i
  change (shT.minv.data i.castSucc 0).toReal = _ at d0
  change (shT.minv.data i.castSucc 1).toReal = _ at d1
  change (shT.minv.data i.castSucc 2).toReal = _ at d2
  unfold affR
  rw [d0, d1, d2, c]
  fin_cases i <;> simp <;> ring
theorem shT_abs (x : _root_.Fin 3 → ℝ) (h : ∀ i, 0 ≤ x i) (i : _root_.Fin 3) : affAbs shT.minv x 1 i.castSucc = x i + 1 := by
  have d0 := shT_dia i 0; have d1 := shT_dia i 1; have d2 := shT_dia i 2; have c := shT_col i
  change (shT.minv.data i.castSucc 0).toReal = _ at d0
  change (shT.minv.data i.castSucc 1).toReal = _ at d1
  change (shT.minv.data i.castSucc 2).toReal = _ at d2
  have e0 := abs_of_nonneg (h 0); have e1 := abs_of_nonneg (h 1); have e2 := abs_of_nonneg (h 2)
  unfold affAbs
  rw [d0, d1, d2, c]
  fin_cases i <;> simp [e0, e1, e2]

theorem sh_point (t : ℝ) (i : _root_.Fin 3) : pathPoint [shT, shT] (onSegment exFrom exTo t) i = 6 * t - 5 := by
  change affR shT.minv (fun i => affR shT.minv (onSegment exFrom exTo t) 1 i.castSucc) 1 i.castSucc = _
  rw [shT_aff, shT_aff]
  unfold onSegment
  rw [exFrom_val, exTo_val]
  ring
theorem sh_pad : 0 ≤ padding 23 8 1 ∧ padding 23 8 1 ≤ 1 := by
  refine ⟨?_, ?_⟩
  · have := etaRnd_pos (mw := 23) (ew := 8)
    have := uRnd_pos (mw := 23)
    unfold padding; positivity
  · unfold padding etaRnd uRnd fK
    norm_num
theorem sh_size (i : _root_.Fin 3) : 0 ≤ nestSize exFrom exTo [shT, shT] i ∧ nestSize exFrom exTo [shT, shT] i ≤ 16 := by
  obtain ⟨p0, p1⟩ := sh_pad
  have e : nestSize exFrom exTo [shT, shT] i = 14 + 2 * padding 23 8 1 := by
    change affAbs shT.minv (fun i => affAbs shT.minv (endSize exFrom exTo) 1 i.castSucc + padding 23 8 1) 1 i.castSucc + padding 23 8 1 = _
    rw [shT_abs _ (fun i => add_nonneg (affAbs_nonneg _ _ _) p0), shT_abs _ (endSize_nonneg _ _)]
    unfold endSize
    rw [exFrom_val, exTo_val]
    norm_num
    ring
  rw [e]
  constructor <;> linarith
theorem sh_growth : growth 23 2 ≤ 1 + 1 / 2 ^ 16 := by
  unfold growth
  have hu : uRnd 23 = 1 / 2 ^ 24 := by unfold uRnd; norm_num
  rw [hu]; norm_num
theorem sh_margin {b : Bbox F32} {i : _root_.Fin 3} (h0 : 0 ≤ (b.pmin.vec i).toReal) (h1 : (b.pmin.vec i).toReal ≤ 11)
    (h2 : 0 ≤ (b.pmax.vec i).toReal) (h3 : (b.pmax.vec i).toReal ≤ 11) : nestMargin b [shT, shT] exFrom exTo i ≤ 1 / 4 := by
  obtain ⟨s0, s1⟩ := sh_size i
  have g1 : growth 23 [shT, shT].length ≤ 1 + 1 / 2 ^ 16 := sh_growth
  have g0 := one_le_growth (mw := 23) [shT, shT].length
  have m : Max.max |(b.pmin.vec i).toReal| |(b.pmax.vec i).toReal| ≤ 11 := by
    rw [abs_of_nonneg h0, abs_of_nonneg h2]; exact max_le h1 h3
  unfold nestMargin
  generalize nestSize exFrom exTo [shT, shT] i = w at *
  generalize growth 23 [shT, shT].length = g at *
  have hu : uRnd 23 = 1 / 2 ^ 24 := by unfold uRnd; norm_num
  have hη : etaRnd 23 8 ≤ 1 / 2 ^ 24 := by unfold etaRnd fK; norm_num
  have gw : g * w ≤ 32 := by nlinarith
  have k1 := mul_le_mul_of_nonneg_left (add_le_add m gw) (by rw [hu]; norm_num : 0 ≤ (1 + uRnd 23) ^ 2 - 1)
  have k2 := mul_le_mul_of_nonneg_right hη (by nlinarith : 0 ≤ g * w)
  have k3 : (g - 1) * w ≤ 1 / 2 ^ 16 * 16 := mul_le_mul (by linarith) s1 s0 (by norm_num)
  rw [hu] at k1 ⊢
  norm_num at k1 k2 k3 ⊢
  linarith

theorem sh_some : ∀ r ∈ [shadow exFrom exTo, shadow exTo exFrom], ((shT.mapRayInv r).bind shT.mapRayInv).isSome = true := by decide +kernel
theorem sh_chk (b : Bbox F32) (h : b = exShadeNear ∨ b = exShadeFar) : ∀ r ∈ [shadow exFrom exTo, shadow exTo exFrom],
    ((∀ i, (r.origin.vec i).isFin = true) ∧ ∀ i, (r.direction.vec i).isFin = true) ∧
    ∀ s, shT.mapRayInv r = some s → ((∀ i, (s.origin.vec i).isFin = true) ∧ ∀ i, (s.direction.vec i).isFin = true) ∧
    ∀ o, shT.mapRayInv s = some o → ((∀ i, (o.origin.vec i).isFin = true) ∧ ∀ i, (o.direction.vec i).isFin = true) ∧ SlabFinite b o := by
  have key : ∀ r ∈ [shadow exFrom exTo, shadow exTo exFrom],
      ((∀ i, (r.origin.vec i).isFin = true) ∧ ∀ i, (r.direction.vec i).isFin = true) ∧
      (shT.mapRayInv r).all (fun s => decide ((∀ i, (s.origin.vec i).isFin = true) ∧ ∀ i, (s.direction.vec i).isFin = true) &&
        (shT.mapRayInv s).all fun o => decide (((∀ i, (o.origin.vec i).isFin = true) ∧ ∀ i, (o.direction.vec i).isFin = true))) = true := by
    decide +kernel
  have slab : ∀ r ∈ [shadow exFrom exTo, shadow exTo exFrom], ∀ q, (shT.mapRayInv r).bind shT.mapRayInv = some q → SlabFinite b q := by
    intro r hr q hq
    rw [List.mem_cons, List.mem_singleton] at hr
    have e : q = ((shT.mapRayInv r).bind shT.mapRayInv).get (sh_some r (by rw [List.mem_cons, List.mem_singleton]; exact hr)) :=
      Option.some.inj (hq.symm.trans (Option.some_get _).symm)
    subst e
    clear hq
    unfold SlabFinite
    rcases hr with rfl | rfl <;> rcases h with rfl | rfl <;> decide +kernel
  intro r hr
  obtain ⟨k1, k2⟩ := key r hr
  refine ⟨k1, fun s hs => ?_⟩
  rw [hs] at k2
  simp only [Option.all_some, Bool.and_eq_true, decide_eq_true_eq] at k2
  refine ⟨k2.1, fun o ho => ?_⟩
  have k3 := k2.2
  rw [ho] at k3
  simp only [Option.all_some, decide_eq_true_eq] at k3
  exact ⟨k3, slab r hr o (by rw [hs]; exact ho)⟩

/-- A box in a moved list in a moved list, met from either end. -/
theorem sh_scene [Libm 23 8] (b : Bbox F32) (h : b = exShadeNear ∨ b = exShadeFar) :
    ShadesIn exFrom exTo [] ((PrimitiveList.prim [b.prim.transformed shT]).transformed shT)
      (∃ e ∈ [(b.prim.transformed shT, NestBlocks b [shT, shT] exFrom exTo, NestClear b [shT, shT] exFrom exTo)], e.2.1)
      (∀ e ∈ [(b.prim.transformed shT, NestBlocks b [shT, shT] exFrom exTo, NestClear b [shT, shT] exFrom exTo)], e.2.2) := by
  have F := sh_chk b h
  have m1 : shadow exFrom exTo ∈ [shadow exFrom exTo, shadow exTo exFrom] := List.mem_cons_self
  have m2 : shadow exTo exFrom ∈ [shadow exFrom exTo, shadow exTo exFrom] := List.mem_cons_of_mem _ List.mem_cons_self
  have fin : ∀ r ∈ [shadow exFrom exTo, shadow exTo exFrom], ChainFin [shT, shT] r := fun r hr =>
    ⟨(F r hr).1, affineF_of rfl rfl rfl rfl, fun s hs => ⟨((F r hr).2 s hs).1, affineF_of rfl rfl rfl rfl, fun o ho => (((F r hr).2 s hs).2 o ho).1⟩⟩
  have some2 : ∀ r ∈ [shadow exFrom exTo, shadow exTo exFrom], ∃ s o, shT.mapRayInv r = some s ∧ shT.mapRayInv s = some o := by
    intro r hr
    obtain ⟨o, ho⟩ := Option.isSome_iff_exists.1 (sh_some r hr)
    obtain ⟨s, hs, ho⟩ := Option.bind_eq_some_iff.1 ho
    exact ⟨s, o, hs, ho⟩
  refine .moved [] _ shT _ _ (.list [shT] [(_, _, _)] fun e he => ?_) ?_
  · obtain rfl := List.mem_singleton.1 he
    refine .moved [shT] _ shT _ _ (.box [shT, shT] b (exBoxes b h).1 ?_ (fin _ m1) (fin _ m2)) ?_
    · rintro o (⟨s, hs, o', ho, rfl⟩ | ⟨s, hs, o', ho, rfl⟩)
      · exact (((F _ m1).2 s hs).2 _ ho).2
      · exact (((F _ m2).2 s hs).2 _ ho).2
    · rintro o (⟨s, hs, rfl⟩ | ⟨s, hs, rfl⟩)
      · obtain ⟨s', o, k1, k2⟩ := some2 _ m1
        exact ⟨o, by rw [← Option.some.inj (k1.symm.trans hs)]; exact k2⟩
      · obtain ⟨s', o, k1, k2⟩ := some2 _ m2
        exact ⟨o, by rw [← Option.some.inj (k1.symm.trans hs)]; exact k2⟩
  · rintro o (rfl | rfl)
    · obtain ⟨s, o, k1, k2⟩ := some2 _ m1
      exact ⟨s, k1⟩
    · obtain ⟨s, o, k1, k2⟩ := some2 _ m2
      exact ⟨s, k1⟩

/-- The unit box moved twice by `(1,1,1)` is clearly in the way from `(-3,-3,-3)` to `(3,3,3)`. -/
example [Libm 23 8] : ∃ bl cl, bl ∧ ShadesIn exFrom exTo [] ((PrimitiveList.prim [exShadeNear.prim.transformed shT]).transformed shT) bl cl := by
  refine ⟨_, _, ⟨_, List.mem_cons_self, 11 / 12, by norm_num, by norm_num, fun i => ?_⟩, sh_scene _ (Or.inl rfl)⟩
  have e0 : (exShadeNear.pmin.vec i).toReal = 0 := by fin_cases i <;> exact (toReal_lit (by norm_num)).trans (by norm_num)
  have e1 : (exShadeNear.pmax.vec i).toReal = 1 := by fin_cases i <;> exact (toReal_lit (by norm_num)).trans (by norm_num)
  have m := sh_margin (b := exShadeNear) (i := i) (by rw [e0]) (by rw [e0]; norm_num) (by rw [e1]; norm_num) (by rw [e1]; norm_num)
  rw [sh_point, e0, e1]
  constructor <;> linarith

/-- The other box, moved likewise, is clearly not. -/
example [Libm 23 8] : ∃ bl cl, cl ∧ ShadesIn exFrom exTo [] ((PrimitiveList.prim [exShadeFar.prim.transformed shT]).transformed shT) bl cl := by
  refine ⟨_, _, ?_, sh_scene _ (Or.inr rfl)⟩
  intro e he
  obtain rfl := List.mem_singleton.1 he
  intro t h0 h1
  have e0 : (exShadeFar.pmin.vec 2).toReal = 10 := (toReal_lit (by norm_num)).trans (by norm_num)
  have e1 : (exShadeFar.pmax.vec 2).toReal = 11 := (toReal_lit (by norm_num)).trans (by norm_num)
  have m := sh_margin (b := exShadeFar) (i := 2) (by rw [e0]; norm_num) (by rw [e0]; norm_num) (by rw [e1]; norm_num) (by rw [e1])
  refine ⟨2, Or.inl ?_⟩
  rw [sh_point, e0]
  linarith

end Scarlet
