import Verif.Props.SphereLine
import Verif.Props.FloatBox
import Verif.Props.Primitive

/-!
C151: shadow rays on floats.  `Ray::new(A, B - A, 1)` asks whether something is in the way from `A` to `B`.  For scenes of boxes, spheres
and lists of any depth the answer is right, and the same both ways, unless the exact segment passes within an explicit margin of
a surface.  (Within the margin it can be different both ways: `C141_float_refuted`.)
-/

set_option linter.unusedSectionVars false

namespace Scarlet
open Flt GVec
variable {mw ew : Nat} [FltImpl mw ew] [LawfulFlt mw ew]

/-- The ray from `A` to `B`, the direction computed in floats. -/
def shadow (A B : Point (Flt mw ew) 3) : Ray (Flt mw ew) := ⟨A, B - A, Scalar.one⟩

/-- The exact point of the segment from `A` to `B`, coordinate `i`. -/
noncomputable def onSegment (A B : Point (Flt mw ew) 3) (t : ℝ) (i : _root_.Fin 3) : ℝ :=
  (A.vec i).toReal + ((B.vec i).toReal - (A.vec i).toReal) * t

theorem onSegment_swap (A B : Point (Flt mw ew) 3) (t : ℝ) (i : _root_.Fin 3) : onSegment B A (1 - t) i = onSegment A B t i := by
  unfold onSegment; ring

/-- the points and the direction between them are finite -/
def Ends (A B : Point (Flt mw ew) 3) : Prop := ∀ i, (A.vec i).isFin = true ∧ (B.vec i).isFin = true ∧ (B.vec i - A.vec i).isFin = true

theorem shadow_err {A B : Point (Flt mw ew) 3} (h : Ends A B) (i : _root_.Fin 3) :
    |((shadow A B).direction.vec i).toReal - ((B.vec i).toReal - (A.vec i).toReal)| ≤ uRnd mw * |(B.vec i).toReal - (A.vec i).toReal| :=
  sub_err (h i).2.1 (h i).1 (h i).2.2

theorem Ends.swap {A B : Point (Flt mw ew) 3} (h : Ends A B) : Ends B A := fun i => by
  obtain ⟨h1, h2, h3⟩ := h i
  refine ⟨h2, h1, ?_⟩
  rw [isFin_iff_key] at h3 ⊢
  have k1 : (B.vec i - A.vec i).key = rndK mw ew _ := (sub_fin h2 h1).2
  have k2 : (A.vec i - B.vec i).key = rndK mw ew _ := (sub_fin h1 h2).2
  have e : rndK mw ew ((A.vec i).toReal - (B.vec i).toReal) = -rndK mw ew ((B.vec i).toReal - (A.vec i).toReal) := by
    rw [← rndK_neg, neg_sub]
  rw [k1] at h3
  rw [k2, e]
  omega

/-! ### boxes -/

/-- How far a pair of planes is moved: rounding in the slab test, and of the direction. -/
noncomputable def boxMargin (b : Bbox (Flt mw ew)) (A B : Point (Flt mw ew) 3) (i : _root_.Fin 3) : ℝ :=
  ((1 + uRnd mw) ^ 2 - 1) * Max.max (Max.max |(b.pmin.vec i).toReal - (A.vec i).toReal| |(b.pmax.vec i).toReal - (A.vec i).toReal|)
      (Max.max |(b.pmin.vec i).toReal - (B.vec i).toReal| |(b.pmax.vec i).toReal - (B.vec i).toReal|) +
    (uRnd mw + etaRnd mw ew * (1 + uRnd mw)) * |(B.vec i).toReal - (A.vec i).toReal|

theorem boxMargin_swap (b : Bbox (Flt mw ew)) (A B : Point (Flt mw ew) 3) (i : _root_.Fin 3) : boxMargin b B A i = boxMargin b A B i := by
  unfold boxMargin
  rw [max_comm, abs_sub_comm (A.vec i).toReal]

/-- The segment passes through the box with its planes moved inwards. -/
def BoxBlocks (b : Bbox (Flt mw ew)) (A B : Point (Flt mw ew) 3) : Prop := ∃ t : ℝ, 0 ≤ t ∧ t ≤ 1 ∧ ∀ i,
  (b.pmin.vec i).toReal + boxMargin b A B i ≤ onSegment A B t i ∧ onSegment A B t i ≤ (b.pmax.vec i).toReal - boxMargin b A B i
/-- The segment misses the box with its planes moved outwards. -/
def BoxClear (b : Bbox (Flt mw ew)) (A B : Point (Flt mw ew) 3) : Prop := ∀ t : ℝ, 0 ≤ t → t ≤ 1 → ∃ i,
  onSegment A B t i < (b.pmin.vec i).toReal - boxMargin b A B i ∨ (b.pmax.vec i).toReal + boxMargin b A B i < onSegment A B t i

theorem BoxBlocks.swap {b : Bbox (Flt mw ew)} {A B : Point (Flt mw ew) 3} (h : BoxBlocks b A B) : BoxBlocks b B A := by
  obtain ⟨t, h0, h1, h⟩ := h
  refine ⟨1 - t, by linarith, by linarith, fun i => ?_⟩
  rw [onSegment_swap, boxMargin_swap]
  exact h i
theorem BoxClear.swap {b : Bbox (Flt mw ew)} {A B : Point (Flt mw ew) 3} (h : BoxClear b A B) : BoxClear b B A := by
  intro t h0 h1
  obtain ⟨i, hi⟩ := h (1 - t) (by linarith) (by linarith)
  refine ⟨i, ?_⟩
  rw [boxMargin_swap]
  rwa [onSegment_swap] at hi

theorem shadow_margin {A B : Point (Flt mw ew) 3} (h : Ends A B) (b : Bbox (Flt mw ew)) (t : ℝ) (h0 : 0 ≤ t) (h1 : t ≤ 1) (i : _root_.Fin 3) :
    slabMargin b (shadow A B) i + |exactAt (shadow A B) t i - onSegment A B t i| ≤ boxMargin b A B i := by
  have hu := uRnd_pos (mw := mw)
  have hη := etaRnd_pos (mw := mw) (ew := ew)
  have e := shadow_err h i
  set d := ((shadow A B).direction.vec i).toReal
  set D := (B.vec i).toReal - (A.vec i).toReal
  have ed : |d| ≤ (1 + uRnd mw) * |D| := by
    have := abs_sub_abs_le_abs_sub d D
    linarith
  have e1 : |exactAt (shadow A B) t i - onSegment A B t i| ≤ uRnd mw * |D| := by
    have : exactAt (shadow A B) t i - onSegment A B t i = (d - D) * t := by
      change (A.vec i).toReal + d * t - ((A.vec i).toReal + D * t) = _
      ring
    rw [this, abs_mul, abs_of_nonneg h0]
    exact (mul_le_of_le_one_right (abs_nonneg _) h1).trans e
  have e2 : slabMargin b (shadow A B) i ≤ ((1 + uRnd mw) ^ 2 - 1) * Max.max (Max.max |(b.pmin.vec i).toReal - (A.vec i).toReal| |(b.pmax.vec i).toReal - (A.vec i).toReal|)
      (Max.max |(b.pmin.vec i).toReal - (B.vec i).toReal| |(b.pmax.vec i).toReal - (B.vec i).toReal|) + etaRnd mw ew * ((1 + uRnd mw) * |D|) := by
    unfold slabMargin
    refine add_le_add (mul_le_mul_of_nonneg_left (le_max_left _ _) (by nlinarith)) (mul_le_mul_of_nonneg_left ed hη.le)
  unfold boxMargin
  nlinarith [e1, e2]

theorem sone_val : (Scalar.one : Flt mw ew).val = ((1 : ℝ) : EReal) := by rw [val_of_isFin sone_spec.1, sone_spec.2]

theorem box_blocked {A B : Point (Flt mw ew) 3} (h : Ends A B) (b : Bbox (Flt mw ew)) (hb : ∀ i, (b.pmin.vec i).toReal ≤ (b.pmax.vec i).toReal)
    (hf : SlabFinite b (shadow A B)) (hB : BoxBlocks b A B) : b.doIntersect (shadow A B) = true := by
  obtain ⟨t, h0, h1, hin⟩ := hB
  refine C92_hit b (shadow A B) hf hb (notNaN_of_isFin sone_spec.1) t h0 ?_ fun i => ?_
  · change (t : EReal) ≤ (Scalar.one : Flt mw ew).val
    rw [sone_val]; exact_mod_cast h1
  · have := shadow_margin h b t h0 h1 i
    have a := _root_.abs_le.1 (le_refl |exactAt (shadow A B) t i - onSegment A B t i|)
    obtain ⟨k1, k2⟩ := hin i
    exact ⟨by linarith [a.1], by linarith [a.2]⟩

theorem box_clear {A B : Point (Flt mw ew) 3} (h : Ends A B) (b : Bbox (Flt mw ew)) (hb : ∀ i, (b.pmin.vec i).toReal ≤ (b.pmax.vec i).toReal)
    (hf : SlabFinite b (shadow A B)) (hC : BoxClear b A B) : b.doIntersect (shadow A B) = false := by
  by_contra hc
  have hc : (b.intersectRay (shadow A B)).isSome = true := Bool.not_eq_false _ ▸ hc
  obtain ⟨⟨t0, t1⟩, he⟩ := Option.isSome_iff_exists.1 hc
  have z1 : (0 : EReal) ≤ (shadow A B).tmax.val := by
    change (0 : EReal) ≤ (Scalar.one : Flt mw ew).val
    rw [sone_val]; exact_mod_cast zero_le_one
  obtain ⟨⟨f0, f1, k0, k1, k2⟩, hr⟩ := C92_range b (shadow A B) hf hb (notNaN_of_isFin sone_spec.1) z1 t0 t1 he
  have k3 : t1.toReal ≤ 1 := by
    change t1.val ≤ (Scalar.one : Flt mw ew).val at k2
    rw [sone_val, val_of_isFin f1] at k2
    exact_mod_cast k2
  obtain ⟨i, hi⟩ := hC t0.toReal k0 (k1.trans k3)
  have := shadow_margin h b t0.toReal k0 (k1.trans k3) i
  have a := _root_.abs_le.1 (le_refl |exactAt (shadow A B) t0.toReal i - onSegment A B t0.toReal i|)
  obtain ⟨j1, j2⟩ := hr t0.toReal le_rfl k1 i
  rcases hi with hi | hi
  · linarith [a.1, a.2]
  · linarith [a.1, a.2]

/-! ### spheres -/

/-- The size against which rounding is measured. -/
noncomputable def ballScale (s : Sphere (Flt mw ew)) (A B : Point (Flt mw ew) 3) : ℝ :=
  ∑ i, (|(A.vec i).toReal| + |(B.vec i).toReal|) ^ 2 + s.radius.toReal ^ 2
/-- The exact point of the segment is clearly outside the sphere. -/
def ClearOut (s : Sphere (Flt mw ew)) (A B : Point (Flt mw ew) 3) (t : ℝ) : Prop :=
  s.radius.toReal ^ 2 + 120 * uRnd mw * ballScale s A B < ∑ i, onSegment A B t i ^ 2
/-- The exact point of the segment is clearly inside the sphere. -/
def ClearIn (s : Sphere (Flt mw ew)) (A B : Point (Flt mw ew) 3) (t : ℝ) : Prop :=
  ∑ i, onSegment A B t i ^ 2 < s.radius.toReal ^ 2 - 120 * uRnd mw * ballScale s A B

theorem ballScale_swap (s : Sphere (Flt mw ew)) (A B : Point (Flt mw ew) 3) : ballScale s B A = ballScale s A B := by
  unfold ballScale
  simp only [add_comm |(B.vec _).toReal|]
theorem ClearOut.swap {s : Sphere (Flt mw ew)} {A B : Point (Flt mw ew) 3} {t : ℝ} : ClearOut s B A (1 - t) ↔ ClearOut s A B t := by
  unfold ClearOut; rw [ballScale_swap]; simp only [onSegment_swap]
theorem ClearIn.swap {s : Sphere (Flt mw ew)} {A B : Point (Flt mw ew) 3} {t : ℝ} : ClearIn s B A (1 - t) ↔ ClearIn s A B t := by
  unfold ClearIn; rw [ballScale_swap]; simp only [onSegment_swap]

/-- The segment clearly crosses the surface. -/
def SphereBlocks (s : Sphere (Flt mw ew)) (A B : Point (Flt mw ew) 3) : Prop :=
  (∃ t : ℝ, 0 ≤ t ∧ t ≤ 1 ∧ ClearOut s A B t) ∧ ∃ t : ℝ, 0 ≤ t ∧ t ≤ 1 ∧ ClearIn s A B t
/-- The segment is clearly outside, or clearly inside, all along. -/
def SphereClear (s : Sphere (Flt mw ew)) (A B : Point (Flt mw ew) 3) : Prop :=
  (∀ t : ℝ, 0 ≤ t → t ≤ 1 → ClearOut s A B t) ∨ ∀ t : ℝ, 0 ≤ t → t ≤ 1 → ClearIn s A B t

theorem SphereBlocks.swap {s : Sphere (Flt mw ew)} {A B : Point (Flt mw ew) 3} (h : SphereBlocks s A B) : SphereBlocks s B A := by
  obtain ⟨⟨t, h0, h1, h⟩, t', h0', h1', h'⟩ := h
  exact ⟨⟨1 - t, by linarith, by linarith, ClearOut.swap.2 h⟩, 1 - t', by linarith, by linarith, ClearIn.swap.2 h'⟩
theorem SphereClear.swap {s : Sphere (Flt mw ew)} {A B : Point (Flt mw ew) 3} (h : SphereClear s A B) : SphereClear s B A := by
  rcases h with h | h
  · refine Or.inl fun t h0 h1 => ?_
    have := h (1 - t) (by linarith) (by linarith)
    rw [← ClearOut.swap] at this
    rwa [sub_sub_cancel] at this
  · refine Or.inr fun t h0 h1 => ?_
    have := h (1 - t) (by linarith) (by linarith)
    rw [← ClearIn.swap] at this
    rwa [sub_sub_cancel] at this

/-- one coordinate -/
theorem shadow_coord {a b d t u : ℝ} (hu : 0 ≤ u) (hu1 : u ≤ 1 / 1024) (h0 : 0 ≤ t) (h1 : t ≤ 1) (hd : |d - (b - a)| ≤ u * |b - a|) :
    |(a + d * t) ^ 2 - (a + (b - a) * t) ^ 2| ≤ 201 / 100 * u * (|a| + |b|) ^ 2 ∧ a ^ 2 + (d * t) ^ 2 ≤ 201 / 100 * (|a| + |b|) ^ 2 := by
  have hD : |b - a| ≤ |a| + |b| := by rw [add_comm]; exact abs_sub b a
  have m0 : 0 ≤ |a| + |b| := by positivity
  have e : |d * t - (b - a) * t| ≤ u * (|a| + |b|) := by
    rw [← sub_mul, abs_mul, abs_of_nonneg h0]
    exact (mul_le_of_le_one_right (abs_nonneg _) h1).trans (hd.trans (mul_le_mul_of_nonneg_left hD hu))
  have q : |a + (b - a) * t| ≤ |a| + |b| := by
    have : a + (b - a) * t = a * (1 - t) + b * t := by ring
    rw [this]
    refine (abs_add_le _ _).trans ?_
    rw [abs_mul, abs_mul, abs_of_nonneg h0, abs_of_nonneg (by linarith : 0 ≤ 1 - t)]
    nlinarith [abs_nonneg a, abs_nonneg b]
  constructor
  · have : (a + d * t) ^ 2 - (a + (b - a) * t) ^ 2 = (d * t - (b - a) * t) * ((d * t - (b - a) * t) + 2 * (a + (b - a) * t)) := by ring
    rw [this, abs_mul]
    have k : |(d * t - (b - a) * t) + 2 * (a + (b - a) * t)| ≤ u * (|a| + |b|) + 2 * (|a| + |b|) := by
      refine (abs_add_le _ _).trans (add_le_add e ?_)
      rw [abs_mul, abs_two]
      linarith
    refine (mul_le_mul e k (abs_nonneg _) (by positivity)).trans ?_
    have : u * (|a| + |b|) * (u * (|a| + |b|) + 2 * (|a| + |b|)) = u * (|a| + |b|) ^ 2 * (u + 2) := by ring
    rw [this]
    have p : 0 ≤ u * (|a| + |b|) ^ 2 := by positivity
    nlinarith
  · have k : |d * t| ≤ (1 + u) * (|a| + |b|) := by
      have h2 : |(b - a) * t| ≤ |a| + |b| := by
        rw [abs_mul, abs_of_nonneg h0]
        exact (mul_le_of_le_one_right (abs_nonneg _) h1).trans hD
      have := abs_sub_abs_le_abs_sub (d * t) ((b - a) * t)
      linarith
    have k2 : (d * t) ^ 2 ≤ ((1 + u) * (|a| + |b|)) ^ 2 := by
      rw [← sq_abs (d * t)]
      exact pow_le_pow_left₀ (abs_nonneg _) k 2
    have k3 : a ^ 2 ≤ (|a| + |b|) ^ 2 := by
      rw [← sq_abs a]
      exact pow_le_pow_left₀ (abs_nonneg _) (by linarith [abs_nonneg b]) 2
    have p : 0 ≤ (|a| + |b|) ^ 2 := by positivity
    have : ((1 + u) * (|a| + |b|)) ^ 2 = (1 + u) ^ 2 * (|a| + |b|) ^ 2 := by ring
    rw [this] at k2
    have : (1 + u) ^ 2 ≤ 101 / 100 := by nlinarith
    nlinarith

theorem shadow_defect (hm : 9 ≤ mw) {A B : Point (Flt mw ew) 3} (h : Ends A B) (s : Sphere (Flt mw ew)) (t : ℝ) (h0 : 0 ≤ t) (h1 : t ≤ 1) :
    |sphereDefect s (shadow A B) t - (∑ i, onSegment A B t i ^ 2 - s.radius.toReal ^ 2)| ≤ 201 / 100 * uRnd mw * ballScale s A B ∧
    sphereScale s (shadow A B) t ≤ 201 / 100 * ballScale s A B := by
  have hu := uRnd_pos (mw := mw)
  have k := fun i => shadow_coord (a := (A.vec i).toReal) (b := (B.vec i).toReal) hu.le (uRnd_small hm) h0 h1 (shadow_err h i)
  have R0 := sq_nonneg s.radius.toReal
  constructor
  · have e : sphereDefect s (shadow A B) t - (∑ i, onSegment A B t i ^ 2 - s.radius.toReal ^ 2) =
        ∑ i, (((A.vec i).toReal + ((shadow A B).direction.vec i).toReal * t) ^ 2 - onSegment A B t i ^ 2) := by
      unfold sphereDefect
      rw [Finset.sum_sub_distrib]
      change ∑ i, ((A.vec i).toReal + ((shadow A B).direction.vec i).toReal * t) ^ 2 - _ - _ = _
      ring
    rw [e]
    refine (Finset.abs_sum_le_sum_abs _ _).trans ((Finset.sum_le_sum fun i _ => (k i).1).trans ?_)
    rw [← Finset.mul_sum]
    unfold ballScale
    have : 0 ≤ 201 / 100 * uRnd mw * s.radius.toReal ^ 2 := by positivity
    linarith
  · unfold sphereScale ballScale
    rw [← Finset.sum_add_distrib]
    have : ∑ i, (((shadow A B).origin.vec i).toReal ^ 2 + (((shadow A B).direction.vec i).toReal * t) ^ 2) ≤
        ∑ i, 201 / 100 * (|(A.vec i).toReal| + |(B.vec i).toReal|) ^ 2 := Finset.sum_le_sum fun i _ => (k i).2
    rw [← Finset.mul_sum] at this
    linarith

theorem not_outside_of_in (hm : 9 ≤ mw) {A B : Point (Flt mw ew) 3} (h : Ends A B) (s : Sphere (Flt mw ew)) {t : ℝ} (h0 : 0 ≤ t) (h1 : t ≤ 1)
    (hc : ClearIn s A B t) : ¬ OutsideAt s (shadow A B) t := by
  intro ho
  obtain ⟨k1, k2⟩ := shadow_defect hm h s t h0 h1
  have hu := uRnd_pos (mw := mw)
  unfold OutsideAt at ho
  unfold ClearIn at hc
  have a := (_root_.abs_le.1 k1).2
  have b := mul_le_mul_of_nonneg_left k2 (by positivity : 0 ≤ 58 * uRnd mw)
  have p : 0 ≤ uRnd mw * ballScale s A B := mul_nonneg hu.le (by unfold ballScale; positivity)
  nlinarith

theorem not_inside_of_out (hm : 9 ≤ mw) {A B : Point (Flt mw ew) 3} (h : Ends A B) (s : Sphere (Flt mw ew)) {t : ℝ} (h0 : 0 ≤ t) (h1 : t ≤ 1)
    (hc : ClearOut s A B t) : ¬ InsideAt s (shadow A B) t := by
  intro ho
  obtain ⟨k1, k2⟩ := shadow_defect hm h s t h0 h1
  have hu := uRnd_pos (mw := mw)
  unfold InsideAt at ho
  unfold ClearOut at hc
  have a := (_root_.abs_le.1 k1).1
  have b := mul_le_mul_of_nonneg_left k2 (by positivity : 0 ≤ 58 * uRnd mw)
  have p : 0 ≤ uRnd mw * ballScale s A B := mul_nonneg hu.le (by unfold ballScale; positivity)
  nlinarith

variable [Libm mw ew]

/-- Nothing overflows or underflows, and the sphere is not clipped where the line meets it. -/
structure SphereFit (s : Sphere (Flt mw ew)) (ray : Ray (Flt mw ew)) : Prop where
  reg : SphereRegular s ray
  dir : etaRnd mw ew * ∑ i, (ray.direction.vec i).toReal ^ 2 ≤ uRnd mw
  roots : RootsFinite s ray
  whole : Unclipped s ray

theorem sphere_blocked (hm : 9 ≤ mw) (hw : mw + 3 ≤ 2 ^ (ew - 1)) {A B : Point (Flt mw ew) 3} (h : Ends A B) (s : Sphere (Flt mw ew))
    (hs : SphereFit s (shadow A B)) (hB : SphereBlocks s A B) : s.doIntersect (shadow A B) = true := by
  by_contra hc
  obtain ⟨⟨t, t0, t1, ht⟩, t', t0', t1', ht'⟩ := hB
  have e : (shadow A B).tmax.toReal = 1 := (sone_spec (mw := mw) (ew := ew)).2
  rcases C120_miss hm hw s _ hs.reg hs.dir hs.roots hs.whole (notNaN_of_isFin sone_spec.1) (by simpa using hc) with k | k
  · exact not_outside_of_in hm h s t0' t1' ht' (k t' t0' (Or.inl (by rw [e]; exact t1')))
  · exact not_inside_of_out hm h s t0 t1 ht (k t t0 (Or.inl (by rw [e]; exact t1)))

theorem sphere_clear (hm : 9 ≤ mw) (hw : mw + 3 ≤ 2 ^ (ew - 1)) {A B : Point (Flt mw ew) 3} (h : Ends A B) (s : Sphere (Flt mw ew))
    (hs : SphereFit s (shadow A B)) (hC : SphereClear s A B) : s.doIntersect (shadow A B) = false := by
  by_contra hc
  have hc : (s.intersectRay (shadow A B)).isSome = true := Bool.not_eq_false _ ▸ hc
  obtain ⟨r, hi⟩ := Option.isSome_iff_exists.1 hc
  unfold Sphere.intersectRay at hi
  dsimp only at hi
  split at hi
  · cases hi
  rename_i t0 t1 hq
  obtain ⟨f0, f1⟩ := hs.roots t0 t1 hq
  have h01 := (C101_backward_partial hm hw _ _ _ t0 t1 hq f0 f1 hs.reg.hb hs.reg.hc).1
  have L := fun t => C120_line hm hw s _ hs.reg hs.dir hq f0 f1 t
  have fin : ∀ t : Flt mw ew, t.isFin = true → Scalar.inRange t Scalar.zero (shadow A B).tmax = true →
      OutsideAt s (shadow A B) t.toReal ∧ InsideAt s (shadow A B) t.toReal → False := by
    intro t ft hr ⟨ho, hi⟩
    unfold Scalar.inRange at hr
    rw [Bool.and_eq_true, sge_iff, sle_iff] at hr
    have r0 : 0 ≤ t.toReal := toReal_nonneg_iff.2 ((key_zero false).ge.trans hr.1.2.2)
    have r1 : t.toReal ≤ 1 := by
      rw [← (sone_spec (mw := mw) (ew := ew)).2]
      exact toReal_le_iff.2 hr.2.2.2
    rcases hC with hC | hC
    · exact not_inside_of_out hm h s r0 r1 (hC _ r0 r1) hi
    · exact not_outside_of_in hm h s r0 r1 (hC _ r0 r1) ho
  split at hi
  · obtain ⟨k, -⟩ := getIntersection_some hi
    exact fin t1 f1 k ⟨(L _).2.2 le_rfl, (L _).2.1 h01 le_rfl⟩
  · rename_i i hi'
    obtain ⟨k, -⟩ := getIntersection_some hi'
    exact fin t0 f0 k ⟨(L _).1 le_rfl, (L _).2.1 le_rfl h01⟩

/-! ### scenes -/

/-- Scenes of boxes, spheres and lists of any depth, met regularly in both directions by the segment from `A` to `B`; with what it means
that something is clearly in the way, and that the way is clearly free. -/
inductive Shades (A B : Point (Flt mw ew) 3) : Primitive (Flt mw ew) → Prop → Prop → Prop
  | box (b : Bbox (Flt mw ew)) (hb : ∀ i, (b.pmin.vec i).toReal ≤ (b.pmax.vec i).toReal) (h1 : SlabFinite b (shadow A B))
      (h2 : SlabFinite b (shadow B A)) : Shades A B b.prim (BoxBlocks b A B) (BoxClear b A B)
  | sphere (s : Sphere (Flt mw ew)) (h1 : SphereFit s (shadow A B)) (h2 : SphereFit s (shadow B A)) :
      Shades A B s.prim (SphereBlocks s A B) (SphereClear s A B)
  | list (l : List (Primitive (Flt mw ew) × Prop × Prop)) (h : ∀ e ∈ l, Shades A B e.1 e.2.1 e.2.2) :
      Shades A B (PrimitiveList.prim (l.map (·.1))) (∃ e ∈ l, e.2.1) (∀ e ∈ l, e.2.2)

theorem Shades.swap {A B : Point (Flt mw ew) 3} {p : Primitive (Flt mw ew)} {bl cl : Prop} (h : Shades A B p bl cl) :
    ∃ bl' cl', Shades B A p bl' cl' ∧ (bl → bl') ∧ (cl → cl') := by
  induction h with
  | box b hb h1 h2 => exact ⟨_, _, .box b hb h2 h1, BoxBlocks.swap, BoxClear.swap⟩
  | sphere s h1 h2 => exact ⟨_, _, .sphere s h2 h1, SphereBlocks.swap, SphereClear.swap⟩
  | list l _ ih =>
    have : ∃ l' : List (Primitive (Flt mw ew) × Prop × Prop), l'.map (·.1) = l.map (·.1) ∧ (∀ e ∈ l', Shades B A e.1 e.2.1 e.2.2) ∧
        ((∃ e ∈ l, e.2.1) → ∃ e ∈ l', e.2.1) ∧ ((∀ e ∈ l, e.2.2) → ∀ e ∈ l', e.2.2) := by
      clear * - ih
      induction l with
      | nil => exact ⟨[], rfl, by simp, id, id⟩
      | cons e l IH =>
        obtain ⟨l', k1, k2, k3, k4⟩ := IH fun e he => ih e (List.mem_cons_of_mem _ he)
        obtain ⟨bl', cl', j1, j2, j3⟩ := ih e List.mem_cons_self
        refine ⟨(e.1, bl', cl') :: l', by simp [k1], ?_, ?_, ?_⟩
        · intro e' he'
          rcases List.mem_cons.1 he' with rfl | he'
          · exact j1
          · exact k2 e' he'
        · rintro ⟨e', he', hb⟩
          rcases List.mem_cons.1 he' with rfl | he'
          · exact ⟨_, List.mem_cons_self, j2 hb⟩
          · obtain ⟨e'', m, hb⟩ := k3 ⟨e', he', hb⟩
            exact ⟨e'', List.mem_cons_of_mem _ m, hb⟩
        · intro hcl e' he'
          rcases List.mem_cons.1 he' with rfl | he'
          · exact j3 (hcl e List.mem_cons_self)
          · exact k4 (fun e he => hcl e (List.mem_cons_of_mem _ he)) e' he'
    obtain ⟨l', k1, k2, k3, k4⟩ := this
    rw [← k1]
    exact ⟨_, _, .list l' k2, k3, k4⟩

theorem shades_one (hm : 9 ≤ mw) (hw : mw + 3 ≤ 2 ^ (ew - 1)) {A B : Point (Flt mw ew) 3} (hE : Ends A B) {p : Primitive (Flt mw ew)} {bl cl : Prop}
    (h : Shades A B p bl cl) : ∃ v, p.doIntersect (shadow A B) = some v ∧ (bl → v = true) ∧ (cl → v = false) := by
  induction h with
  | box b hb h1 h2 => exact ⟨_, rfl, box_blocked hE b hb h1, box_clear hE b hb h1⟩
  | sphere s h1 h2 => exact ⟨_, rfl, sphere_blocked hm hw hE s h1, sphere_clear hm hw hE s h1⟩
  | list l _ ih =>
    change ∃ v, PrimitiveList.doIntersectLoop (shadow A B) (l.map (·.1)) = some v ∧ _
    clear * - ih
    induction l with
    | nil => exact ⟨false, rfl, by simp, fun _ => rfl⟩
    | cons e l IH =>
      obtain ⟨v, k1, k2, k3⟩ := IH fun e he => ih e (List.mem_cons_of_mem _ he)
      obtain ⟨w, j1, j2, j3⟩ := ih e List.mem_cons_self
      rw [List.map_cons, PrimitiveList.doIntersectLoop, j1]
      cases w with
      | true =>
        refine ⟨true, rfl, fun _ => rfl, fun hc => ?_⟩
        exact j3 (hc e List.mem_cons_self)
      | false =>
        refine ⟨v, k1, ?_, fun hc => k3 fun e he => hc e (List.mem_cons_of_mem _ he)⟩
        rintro ⟨e', he', hb⟩
        rcases List.mem_cons.1 he' with rfl | he'
        · exact absurd (j2 hb) Bool.false_ne_true
        · exact k2 ⟨e', he', hb⟩

/-- C151: if something is clearly in the way from `A` to `B`, the shadow ray from `A` and the one from `B` both report it. -/
theorem C151_blocked (hm : 9 ≤ mw) (hw : mw + 3 ≤ 2 ^ (ew - 1)) (A B : Point (Flt mw ew) 3) (hE : Ends A B) (p : Primitive (Flt mw ew))
    (bl cl : Prop) (h : Shades A B p bl cl) (hb : bl) :
    p.doIntersect (shadow A B) = some true ∧ p.doIntersect (shadow B A) = some true := by
  obtain ⟨v, k1, k2, -⟩ := shades_one hm hw hE h
  obtain ⟨bl', cl', s, i1, -⟩ := h.swap
  obtain ⟨w, j1, j2, -⟩ := shades_one hm hw hE.swap s
  rw [k1, j1, k2 hb, j2 (i1 hb)]
  exact ⟨rfl, rfl⟩

/-- C151: if the way is clearly free, neither does. -/
theorem C151_free (hm : 9 ≤ mw) (hw : mw + 3 ≤ 2 ^ (ew - 1)) (A B : Point (Flt mw ew) 3) (hE : Ends A B) (p : Primitive (Flt mw ew))
    (bl cl : Prop) (h : Shades A B p bl cl) (hc : cl) :
    p.doIntersect (shadow A B) = some false ∧ p.doIntersect (shadow B A) = some false := by
  obtain ⟨v, k1, -, k2⟩ := shades_one hm hw hE h
  obtain ⟨bl', cl', s, -, i1⟩ := h.swap
  obtain ⟨w, j1, -, j2⟩ := shades_one hm hw hE.swap s
  rw [k1, j1, k2 hc, j2 (i1 hc)]
  exact ⟨rfl, rfl⟩

/-- C151: so the two answers can only differ if the segment is within the margin of a surface. -/
theorem C151_symmetric (hm : 9 ≤ mw) (hw : mw + 3 ≤ 2 ^ (ew - 1)) (A B : Point (Flt mw ew) 3) (hE : Ends A B) (p : Primitive (Flt mw ew))
    (bl cl : Prop) (h : Shades A B p bl cl) (hd : p.doIntersect (shadow A B) ≠ p.doIntersect (shadow B A)) : ¬ bl ∧ ¬ cl :=
  ⟨fun hb => hd (by rw [(C151_blocked hm hw A B hE p bl cl h hb).1, (C151_blocked hm hw A B hE p bl cl h hb).2]),
    fun hc => hd (by rw [(C151_free hm hw A B hE p bl cl h hc).1, (C151_free hm hw A B hE p bl cl h hc).2])⟩

/-! ### the hypotheses are met -/

/-- the segment from `(-3,-3,-3)` to `(3,3,3)` -/
def exFrom : Point F32 3 := new3 (-F32.lit 3) (-F32.lit 3) (-F32.lit 3)
def exTo : Point F32 3 := new3 (F32.lit 3) (F32.lit 3) (F32.lit 3)
/-- the unit box at the origin, which it crosses -/
def exShadeNear : Bbox F32 := ⟨new3 (F32.lit 0) (F32.lit 0) (F32.lit 0), new3 (F32.lit 1) (F32.lit 1) (F32.lit 1)⟩
/-- one it does not -/
def exShadeFar : Bbox F32 := ⟨new3 (F32.lit 0) (F32.lit 0) (F32.lit 10), new3 (F32.lit 1) (F32.lit 1) (F32.lit 11)⟩
/-- a sphere of radius 3, which it enters and leaves -/
def exBall : Sphere F32 := ⟨F32.lit 3, -F32.lit 4, F32.lit 4, F32.lit 0, F32.lit 0, Flt.inf 23 8 false⟩

theorem exEnds : Ends exFrom exTo := by unfold Ends; decide +kernel
theorem exFrom_val (i : _root_.Fin 3) : (exFrom.vec i).toReal = -3 := by
  have : (-F32.lit 3).toReal = -3 := by rw [toReal_negop, toReal_lit (by norm_num)]; norm_num
  fin_cases i <;> exact this
theorem exTo_val (i : _root_.Fin 3) : (exTo.vec i).toReal = 3 := by
  have : (F32.lit 3).toReal = 3 := by rw [toReal_lit (by norm_num)]; norm_num
  fin_cases i <;> exact this

theorem exMargin {b : Bbox F32} {i : _root_.Fin 3} (h0 : 0 ≤ (b.pmin.vec i).toReal) (h1 : (b.pmin.vec i).toReal ≤ 11)
    (h2 : 0 ≤ (b.pmax.vec i).toReal) (h3 : (b.pmax.vec i).toReal ≤ 11) : boxMargin b exFrom exTo i ≤ 1 / 4 := by
  have m : Max.max (Max.max |(b.pmin.vec i).toReal - (exFrom.vec i).toReal| |(b.pmax.vec i).toReal - (exFrom.vec i).toReal|)
      (Max.max |(b.pmin.vec i).toReal - (exTo.vec i).toReal| |(b.pmax.vec i).toReal - (exTo.vec i).toReal|) ≤ 14 := by
    rw [exFrom_val, exTo_val]
    refine max_le (max_le ?_ ?_) (max_le ?_ ?_) <;> rw [_root_.abs_le] <;> constructor <;> linarith
  unfold boxMargin
  have hu : uRnd 23 = 1 / 2 ^ 24 := by unfold uRnd; norm_num
  have hη : etaRnd 23 8 ≤ 1 / 2 ^ 24 := by unfold etaRnd fK; norm_num
  have hη0 := etaRnd_pos (mw := 23) (ew := 8)
  have a := mul_le_mul_of_nonneg_left m (by rw [hu]; norm_num : 0 ≤ (1 + uRnd 23) ^ 2 - 1)
  have d : |(exTo.vec i).toReal - (exFrom.vec i).toReal| = 6 := by rw [exFrom_val, exTo_val]; norm_num
  rw [d]
  rw [hu] at a ⊢
  nlinarith

theorem exBallFit [Libm 23 8] (ray : Ray F32) (h : ray = shadow exFrom exTo ∨ ray = shadow exTo exFrom) : SphereFit exBall ray := by
  have hη0 := etaRnd_pos (mw := 23) (ew := 8)
  have e6 : (F32.lit 6).toReal = 6 := by rw [toReal_lit (by norm_num)]; norm_num
  have hu : uRnd 23 = 1 / 2 ^ 24 := by unfold uRnd; norm_num
  have hη : etaRnd 23 8 ≤ 1 / 2 ^ 60 := by unfold etaRnd fK; norm_num
  have ed : ∑ i, (ray.direction.vec i).toReal ^ 2 = 108 := by
    rw [Fin.sum_univ_three]
    rcases h with rfl | rfl
    · have k : ∀ i, (shadow exFrom exTo).direction.vec i = F32.lit 6 := by decide +kernel
      rw [k, k, k, e6]; norm_num
    · have k : ∀ i, (shadow exTo exFrom).direction.vec i = -F32.lit 6 := by decide +kernel
      rw [k, k, k, toReal_negop, e6]; norm_num
  have eo : ∑ i, (ray.origin.vec i).toReal ^ 2 = 27 := by
    rw [Fin.sum_univ_three]
    rcases h with rfl | rfl
    · change (exFrom.vec 0).toReal ^ 2 + (exFrom.vec 1).toReal ^ 2 + (exFrom.vec 2).toReal ^ 2 = 27
      rw [exFrom_val, exFrom_val, exFrom_val]; norm_num
    · change (exTo.vec 0).toReal ^ 2 + (exTo.vec 1).toReal ^ 2 + (exTo.vec 2).toReal ^ 2 = 27
      rw [exTo_val, exTo_val, exTo_val]; norm_num
  have er : exBall.radius.toReal = 3 := (toReal_lit (by norm_num)).trans (by norm_num)
  have ka : ray.direction.squareNorm = F32.lit 108 := by rcases h with rfl | rfl <;> decide +kernel
  have kb : (GVec.conv .vector ray.origin).dot ray.direction * GFloat.fromI64 2 = -F32.lit 108 := by rcases h with rfl | rfl <;> decide +kernel
  have kc : (GVec.conv .vector ray.origin).squareNorm - Scalar.square exBall.radius = F32.lit 18 := by rcases h with rfl | rfl <;> decide +kernel
  have e108 : (F32.lit 108).toReal = 108 := by rw [toReal_lit (by norm_num)]; norm_num
  have e18 : (F32.lit 18).toReal = 18 := by rw [toReal_lit (by norm_num)]; norm_num
  have hg : ∀ x : F32, Scalar.gt x (Flt.inf 23 8 false) = false := by
    intro x
    rw [Bool.eq_false_iff]
    intro h
    obtain ⟨hn, -, hk⟩ := sgt_iff.1 h
    rw [key_inf] at hk
    have := key_bounds hn
    simp at hk
    omega
  refine ⟨⟨?_, ?_, ?_, ?_, ?_⟩, ?_, ?_, ?_⟩
  · rw [ed, hu]; linarith
  · rw [eo, er, hu]; linarith
  · rw [ka, kb, kc]; decide +kernel
  · rw [kb, toReal_negop, e108]; exact normal_f32 (by norm_num)
  · rw [ka, kc, e108, e18]; exact normal_f32 (by norm_num)
  · rw [ed, hu]; linarith
  · unfold RootsFinite
    rw [ka, kb, kc]
    have k : ∀ o, o = solveQuadratic (F32.lit 108) (-F32.lit 108) (F32.lit 18) → (o.all fun p => p.1.isFin && p.2.isFin) = true := by
      rintro o rfl; decide +kernel
    intro t0 t1 h
    have := k _ h.symm
    simpa using this
  · unfold Unclipped
    rw [ka, kb, kc]
    have k : ∀ o, o = solveQuadratic (F32.lit 108) (-F32.lit 108) (F32.lit 18) →
        (o.all fun p => Scalar.inRange (ray.eval p.1).z exBall.zMin exBall.zMax && Scalar.inRange (ray.eval p.2).z exBall.zMin exBall.zMax) = true := by
      rintro o rfl
      rcases h with rfl | rfl <;> decide +kernel
    intro t0 t1 h t ht
    have := k _ h.symm
    simp only [Option.all_some, Bool.and_eq_true] at this
    refine ⟨?_, hg _⟩
    rcases ht with rfl | rfl
    · exact this.1
    · exact this.2

theorem exNear_blocks : BoxBlocks exShadeNear exFrom exTo := by
  refine ⟨7 / 12, by norm_num, by norm_num, fun i => ?_⟩
  have e0 : (exShadeNear.pmin.vec i).toReal = 0 := by fin_cases i <;> exact (toReal_lit (by norm_num)).trans (by norm_num)
  have e1 : (exShadeNear.pmax.vec i).toReal = 1 := by fin_cases i <;> exact (toReal_lit (by norm_num)).trans (by norm_num)
  have m := exMargin (b := exShadeNear) (i := i) (by rw [e0]) (by rw [e0]; norm_num) (by rw [e1]; norm_num) (by rw [e1]; norm_num)
  unfold onSegment
  rw [e0, e1, exFrom_val, exTo_val]
  constructor <;> linarith

theorem exFar_clear : BoxClear exShadeFar exFrom exTo := by
  intro t h0 h1
  have e0 : (exShadeFar.pmin.vec 2).toReal = 10 := (toReal_lit (by norm_num)).trans (by norm_num)
  have e1 : (exShadeFar.pmax.vec 2).toReal = 11 := (toReal_lit (by norm_num)).trans (by norm_num)
  refine ⟨2, Or.inl ?_⟩
  have m := exMargin (b := exShadeFar) (i := 2) (by rw [e0]; norm_num) (by rw [e0]; norm_num) (by rw [e1]; norm_num) (by rw [e1])
  unfold onSegment
  rw [e0, exFrom_val, exTo_val]
  linarith

theorem exBall_blocks : SphereBlocks exBall exFrom exTo := by
  have er : exBall.radius.toReal = 3 := (toReal_lit (by norm_num)).trans (by norm_num)
  have hu : uRnd 23 = 1 / 2 ^ 24 := by unfold uRnd; norm_num
  refine ⟨⟨0, le_rfl, zero_le_one, ?_⟩, 1 / 2, by norm_num, by norm_num, ?_⟩
  · unfold ClearOut ballScale onSegment
    rw [Fin.sum_univ_three, Fin.sum_univ_three]
    simp only [exFrom_val, exTo_val]
    rw [er, hu]; norm_num
  · unfold ClearIn ballScale onSegment
    rw [Fin.sum_univ_three, Fin.sum_univ_three]
    simp only [exFrom_val, exTo_val]
    rw [er, hu]; norm_num

theorem exBoxes (b : Bbox F32) (h : b = exShadeNear ∨ b = exShadeFar) : (∀ i, (b.pmin.vec i).toReal ≤ (b.pmax.vec i).toReal) ∧
    SlabFinite b (shadow exFrom exTo) ∧ SlabFinite b (shadow exTo exFrom) := by
  have k : ∀ i, (b.pmin.vec i).key ≤ (b.pmax.vec i).key := by rcases h with rfl | rfl <;> decide +kernel
  refine ⟨fun i => toReal_le_iff.2 (k i), ?_, ?_⟩ <;> unfold SlabFinite <;> rcases h with rfl | rfl <;> decide +kernel

/-- A list of a box that is clearly missed and a list of a box and a sphere that are clearly hit: something is clearly in the way. -/
example [Libm 23 8] : ∃ bl cl, bl ∧ Shades exFrom exTo (PrimitiveList.prim [exShadeFar.prim, PrimitiveList.prim [exBall.prim, exShadeNear.prim]]) bl cl := by
  obtain ⟨n1, n2, n3⟩ := exBoxes exShadeNear (Or.inl rfl)
  obtain ⟨f1, f2, f3⟩ := exBoxes exShadeFar (Or.inr rfl)
  have inner := Shades.list (A := exFrom) (B := exTo) [(exBall.prim, SphereBlocks exBall exFrom exTo, SphereClear exBall exFrom exTo),
      (exShadeNear.prim, BoxBlocks exShadeNear exFrom exTo, BoxClear exShadeNear exFrom exTo)] (by
    intro e he
    rcases List.mem_cons.1 he with rfl | he
    · exact .sphere _ (exBallFit _ (Or.inl rfl)) (exBallFit _ (Or.inr rfl))
    · obtain rfl := List.mem_singleton.1 he
      exact .box _ n1 n2 n3)
  refine ⟨_, _, ?_, Shades.list [(exShadeFar.prim, BoxBlocks exShadeFar exFrom exTo, BoxClear exShadeFar exFrom exTo), (_, _, _)] (by
    intro e he
    rcases List.mem_cons.1 he with rfl | he
    · exact .box _ f1 f2 f3
    · obtain rfl := List.mem_singleton.1 he
      exact inner)⟩
  exact ⟨_, List.mem_cons_of_mem _ List.mem_cons_self, _, List.mem_cons_self, exBall_blocks⟩

/-- Of the first box alone: the way is clearly free. -/
example [Libm 23 8] : ∃ bl cl, cl ∧ Shades exFrom exTo exShadeFar.prim bl cl := by
  obtain ⟨f1, f2, f3⟩ := exBoxes exShadeFar (Or.inr rfl)
  exact ⟨_, _, exFar_clear, .box _ f1 f2 f3⟩

end Scarlet
