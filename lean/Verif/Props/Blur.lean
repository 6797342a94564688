import Verif.Props.Visible
import Verif.Props.Camera2
import Mathlib.MeasureTheory.Measure.Lebesgue.EqHaar

/-! C132 (depth of field: a point out of focus is spread evenly over a disc of the film, in focus it is a point). -/

set_option linter.unusedSectionVars false

namespace Scarlet
open GVec Real MeasureTheory Set
open scoped ENNReal

/-! ### Specification -/

/-- The distance from lens to film, by the lens equation. -/
noncomputable def imageDist (o f : ℝ) : ℝ := 1 / (1 / f - 1 / o)

/-- The depth of the plane of focus of this camera (C72: it is not `o`). -/
noncomputable def focusDepth (o f : ℝ) : ℝ := o - imageDist o f

/-- The position of a film point on the film, in camera units, relative to the film point `c`: the film is
`tan (fov / 2) / 2` image distances wide (C74), its height is the width divided by the aspect ratio. -/
noncomputable def filmOffset (o fov f ar : ℝ) (c p : Point ℝ 2) : ℝ × ℝ :=
  (tan (fov / 2) / 2 * imageDist o f * (p.x - c.x), tan (fov / 2) / 2 * imageDist o f / ar * (p.y - c.y))

/-- The radius of the blur of a point at depth `Z`: of the circle of confusion. -/
noncomputable def blurRadius (o f lr Z : ℝ) : ℝ := imageDist o f * lr * |1 / focusDepth o f - 1 / Z|

/-- The ray of film point `p` and lens sample `l` passes through the world point `W`. -/
def Sees (cam : ThinLensCamera ℝ) (p l : Point ℝ 2) (W : Point ℝ 3) : Prop :=
  ∃ r t, cam.generateRay ⟨p, l⟩ = some r ∧ 0 < t ∧ r.eval t = W

/-- The closed disc of radius `ρ` about the origin. -/
def discOf (ρ : ℝ) : Set (ℝ × ℝ) := {x | x.1 ^ 2 + x.2 ^ 2 ≤ ρ ^ 2}

/-! ### the distances -/

section
variable (view : Transform ℝ) (o fov f lr ar : ℝ)

theorem imageDist_eq (hf : 0 < f) (h2 : 2 * f < o) : imageDist o f = o * f / (o - f) := by
  have ho : 0 < o := by linarith
  have hof : o - f ≠ 0 := by linarith
  unfold imageDist
  rw [show 1 / f - 1 / o = (o - f) / (o * f) by field_simp, one_div_div]

theorem imageDist_pos (hf : 0 < f) (h2 : 2 * f < o) : 0 < imageDist o f := by
  rw [imageDist_eq o f hf h2]
  exact div_pos (mul_pos (by linarith) hf) (by linarith)

theorem focusDepth_pos (hf : 0 < f) (h2 : 2 * f < o) : 0 < focusDepth o f := by
  unfold focusDepth
  rw [imageDist_eq o f hf h2, sub_pos, div_lt_iff₀ (by linarith)]
  nlinarith

/-- a ray passes through a point in front of it -/
private theorem line_through (L M P : Point ℝ 3) (N q : ℝ) (hN : 0 < N) (hq : 0 < q) (hL : L.z = 0) (hM : M.z = -q) (r : Ray ℝ)
    (ho : r.origin = L) (hd : ∀ i, r.direction.vec i = (M.vec i - L.vec i) / N) :
    (∃ t, 0 < t ∧ r.eval t = P) ↔ P.z < 0 ∧ P.x - L.x = -P.z / q * (M.x - L.x) ∧ P.y - L.y = -P.z / q * (M.y - L.y) := by
  have ev : ∀ t i, (r.eval t).vec i = L.vec i + (M.vec i - L.vec i) / N * t := by
    intro t i
    rw [eval_vec, hd, ho]
  have hz : ∀ t, (r.eval t).z = -(q / N * t) := by
    intro t
    have : (r.eval t).z = L.z + (M.z - L.z) / N * t := ev t 2
    rw [this, hL, hM]; ring
  constructor
  · rintro ⟨t, ht, rfl⟩
    have k : 0 < q / N * t := by positivity
    have e : -(r.eval t).z / q = t / N := by rw [hz]; field_simp
    refine ⟨by rw [hz]; linarith, ?_, ?_⟩
    · rw [e]
      have : (r.eval t).x = L.x + (M.x - L.x) / N * t := ev t 0
      rw [this]; ring
    · rw [e]
      have : (r.eval t).y = L.y + (M.y - L.y) / N * t := ev t 1
      rw [this]; ring
  · rintro ⟨hP, hx, hy⟩
    have ht : 0 < -P.z / q * N := mul_pos (div_pos (by linarith) hq) hN
    refine ⟨_, ht, ext3 ?_ ?_ ?_⟩
    · have : (r.eval (-P.z / q * N)).x = L.x + (M.x - L.x) / N * (-P.z / q * N) := ev _ 0
      rw [this]
      have e : (M.x - L.x) / N * (-P.z / q * N) = -P.z / q * (M.x - L.x) := by field_simp
      rw [e]; linarith
    · have : (r.eval (-P.z / q * N)).y = L.y + (M.y - L.y) / N * (-P.z / q * N) := ev _ 1
      rw [this]
      have e : (M.y - L.y) / N * (-P.z / q * N) = -P.z / q * (M.y - L.y) := by field_simp
      rw [e]; linarith
    · rw [hz]; field_simp

/-- camera space: which film point sees `P` through which point of the lens -/
private theorem camera_sees (p l : Point ℝ 2) (P : Point ℝ 3) (hf : 0 < f) (h2 : 2 * f < o) (h0 : 0 < fov) (h1 : fov < π) (ha : 0 < ar) :
    (∃ t, 0 < t ∧ ((ThinLensCamera.new view o fov f lr ar).cameraRay ⟨p, l⟩).eval t = P) ↔ P.z < 0 ∧
      p.x - (filmOf fov ar P).x = 2 / tan (fov / 2) * (1 / focusDepth o f - 1 / -P.z) * ((concentricSampleDisk l).x * lr) ∧
      p.y - (filmOf fov ar P).y = 2 * ar / tan (fov / 2) * (1 / focusDepth o f - 1 / -P.z) * ((concentricSampleDisk l).y * lr) := by
  have hD := imageDist_pos o f hf h2
  have hq := focusDepth_pos o f hf h2
  have htan : 0 < tan (fov / 2) := tan_pos_of_pos_of_lt_pi_div_two (by linarith) (by linarith)
  have eD : (ThinLensCamera.new view o fov f lr ar).filmDistance = imageDist o f := (imageDist_eq o f hf h2).symm
  have eo : (ThinLensCamera.new view o fov f lr ar).focalDistance = o := rfl
  have h3 : (ThinLensCamera.new view o fov f lr ar).filmDistance ≠ 0 := by rw [eD]; exact hD.ne'
  have h4 : (ThinLensCamera.new view o fov f lr ar).filmDistance ≠ (ThinLensCamera.new view o fov f lr ar).focalDistance := by
    rw [eD, eo]
    unfold focusDepth at hq
    linarith
  have hN := norm_pos (cameraRay_ne (.new view o fov f lr ar) ⟨p, l⟩ h3 h4)
  have hz := meet_z (.new view o fov f lr ar) p h3
  rw [line_through _ ((ThinLensCamera.new view o fov f lr ar).meet p) P _ (focusDepth o f) hN hq (by rw [cameraRay_origin]; rfl)
    (by rw [hz, eD, eo]; unfold focusDepth; ring) _ rfl
    (fun i => by rw [cameraRay_direction, normalize_vec, vec_psub])]
  refine and_congr_right fun hP => ?_
  have ew : (ThinLensCamera.new view o fov f lr ar).filmWidth = 1 / 2 * tan (fov / 2) * imageDist o f := by
    rw [← eD]
    change GFloat.half * Real.tan (fov * GFloat.half) * _ = _
    rw [rhalf]
    rw [show fov * (1 / 2) = fov / 2 by ring]
    rfl
  have eh : (ThinLensCamera.new view o fov f lr ar).filmHeight = 1 / 2 * tan (fov / 2) * imageDist o f / ar := by rw [← ew]; rfl
  have mx : ((ThinLensCamera.new view o fov f lr ar).meet p).x = (p.x - 1 / 2) * (1 / 2 * tan (fov / 2)) * focusDepth o f := by
    unfold ThinLensCamera.meet ThinLensCamera.filmPoint
    rw [x_smul, x_new3, ew, eD, eo]
    unfold focusDepth
    field_simp
    ring
  have my : ((ThinLensCamera.new view o fov f lr ar).meet p).y = (p.y - 1 / 2) * (1 / 2 * tan (fov / 2)) / ar * focusDepth o f := by
    unfold ThinLensCamera.meet ThinLensCamera.filmPoint
    rw [y_smul, y_new3, eh, eD, eo]
    unfold focusDepth
    field_simp
    ring
  have lx : ((ThinLensCamera.new view o fov f lr ar).cameraRay ⟨p, l⟩).origin.x = (concentricSampleDisk l).x * lr := by
    rw [cameraRay_origin]; rfl
  have ly : ((ThinLensCamera.new view o fov f lr ar).cameraRay ⟨p, l⟩).origin.y = (concentricSampleDisk l).y * lr := by
    rw [cameraRay_origin]; rfl
  rw [mx, my, lx, ly]
  unfold filmOf
  rw [x_new2, y_new2]
  generalize (concentricSampleDisk l).x * lr = Lx
  generalize (concentricSampleDisk l).y * lr = Ly
  obtain ⟨Z, hZ, eZ⟩ : ∃ Z : ℝ, 0 < Z ∧ P.z = -Z := ⟨-P.z, by linarith, by ring⟩
  rw [eZ, neg_neg]
  generalize tan (fov / 2) = k at *
  generalize focusDepth o f = q at *
  have a1 : P.x - Lx = Z / q * ((p.x - 1 / 2) * (1 / 2 * k) * q - Lx) ↔
      p.x - (1 / 2 - 2 * (P.x / -Z) / k) = 2 / k * (1 / q - 1 / Z) * Lx := by
    have e : p.x - (1 / 2 - 2 * (P.x / -Z) / k) - 2 / k * (1 / q - 1 / Z) * Lx =
        -(2 / (k * Z)) * (P.x - Lx - Z / q * ((p.x - 1 / 2) * (1 / 2 * k) * q - Lx)) := by
      field_simp
      ring
    have ne : -(2 / (k * Z)) ≠ 0 := neg_ne_zero.2 (by positivity)
    rw [← sub_eq_zero, ← sub_eq_zero (b := 2 / k * (1 / q - 1 / Z) * Lx), e, mul_eq_zero, or_iff_right ne]
  have a2 : P.y - Ly = Z / q * ((p.y - 1 / 2) * (1 / 2 * k) / ar * q - Ly) ↔
      p.y - (1 / 2 - 2 * ar * (P.y / -Z) / k) = 2 * ar / k * (1 / q - 1 / Z) * Ly := by
    have e : p.y - (1 / 2 - 2 * ar * (P.y / -Z) / k) - 2 * ar / k * (1 / q - 1 / Z) * Ly =
        -(2 * ar / (k * Z)) * (P.y - Ly - Z / q * ((p.y - 1 / 2) * (1 / 2 * k) / ar * q - Ly)) := by
      field_simp
      ring
    have ne : -(2 * ar / (k * Z)) ≠ 0 := neg_ne_zero.2 (by positivity)
    rw [← sub_eq_zero, ← sub_eq_zero (b := 2 * ar / k * (1 / q - 1 / Z) * Ly), e, mul_eq_zero, or_iff_right ne]
  rw [← a1, ← a2]

/-- world space -/
private theorem sees_iff (hv : view.Reachable) (hva : view.m.Affine) (W P : Point ℝ 3) (hP : view.mapPoint W = some P) (p l : Point ℝ 2) :
    Sees (.new view o fov f lr ar) p l W ↔ ∃ t, 0 < t ∧ ((ThinLensCamera.new view o fov f lr ar).cameraRay ⟨p, l⟩).eval t = P := by
  obtain ⟨s, hs, -, hk⟩ := C42_map_inverse view (C42_affine_inverse view hv hva)
    ((ThinLensCamera.new view o fov f lr ar).cameraRay ⟨p, l⟩)
  have hg : (ThinLensCamera.new view o fov f lr ar).generateRay ⟨p, l⟩ = some s := hs
  have hback := C35_point view hv W P hP
  have key : ∀ t, s.eval t = W ↔ ((ThinLensCamera.new view o fov f lr ar).cameraRay ⟨p, l⟩).eval t = P := by
    intro t
    constructor
    · rintro rfl
      have := C35_point' view hv _ _ (hk t)
      rw [hP] at this
      exact (Option.some.inj this).symm
    · intro e
      have := hk t
      rw [e, hback] at this
      exact (Option.some.inj this).symm
  constructor
  · rintro ⟨r, t, hr, ht, e⟩
    rw [hg] at hr
    cases hr
    exact ⟨t, ht, (key t).1 e⟩
  · rintro ⟨t, ht, e⟩
    exact ⟨s, t, hg, ht, (key t).2 e⟩

/-! ### C132 -/

/-- C132: through each point of the lens a point in front of the camera is seen by exactly one film point: its pinhole projection,
moved in proportion to the position on the lens and to the difference of the inverse depths of focus and point.  Points beside or
behind the camera are seen by none. -/
theorem C132_lens (hv : view.Reachable) (hva : view.m.Affine) (hf : 0 < f) (h2 : 2 * f < o) (h0 : 0 < fov) (h1 : fov < π) (ha : 0 < ar)
    (W P : Point ℝ 3) (hP : view.mapPoint W = some P) (p l : Point ℝ 2) :
    Sees (.new view o fov f lr ar) p l W ↔ P.z < 0 ∧
      filmOffset o fov f ar (filmOf fov ar P) p =
        (imageDist o f * lr * (1 / focusDepth o f - 1 / -P.z) * (concentricSampleDisk l).x,
         imageDist o f * lr * (1 / focusDepth o f - 1 / -P.z) * (concentricSampleDisk l).y) := by
  rw [sees_iff view o fov f lr ar hv hva W P hP, camera_sees view o fov f lr ar p l P hf h2 h0 h1 ha]
  refine and_congr_right fun _ => ?_
  have hD := imageDist_pos o f hf h2
  have htan : 0 < tan (fov / 2) := tan_pos_of_pos_of_lt_pi_div_two (by linarith) (by linarith)
  unfold filmOffset
  rw [Prod.mk.injEq]
  generalize tan (fov / 2) = k at *
  generalize imageDist o f = D at *
  generalize 1 / focusDepth o f - 1 / -P.z = c
  generalize (concentricSampleDisk l).x = x
  generalize (concentricSampleDisk l).y = y
  refine and_congr ?_ ?_
  · constructor
    · intro h; rw [h]; field_simp
    · intro h
      have e : k / 2 * D * (p.x - (filmOf fov ar P).x - 2 / k * c * (x * lr)) = 0 := by
        rw [mul_sub, h]; field_simp; ring
      exact sub_eq_zero.1 ((mul_eq_zero.1 e).resolve_left (by positivity))
  · constructor
    · intro h; rw [h]; field_simp
    · intro h
      have e : k / 2 * D / ar * (p.y - (filmOf fov ar P).y - 2 * ar / k * c * (y * lr)) = 0 := by
        rw [mul_sub, h]; field_simp; ring
      exact sub_eq_zero.1 ((mul_eq_zero.1 e).resolve_left (by positivity))

/-- C132: the film points that see a point in front of the camera through some point of the lens are those of the disc of radius
`blurRadius` about its pinhole projection. -/
theorem C132_circle (hv : view.Reachable) (hva : view.m.Affine) (hf : 0 < f) (h2 : 2 * f < o) (h0 : 0 < fov) (h1 : fov < π) (ha : 0 < ar)
    (W P : Point ℝ 3) (hP : view.mapPoint W = some P) (hz : P.z < 0) (p : Point ℝ 2) :
    (∃ l, InSquare l ∧ Sees (.new view o fov f lr ar) p l W) ↔
      filmOffset o fov f ar (filmOf fov ar P) p ∈ discOf (blurRadius o f lr (-P.z)) := by
  simp only [C132_lens view o fov f lr ar hv hva hf h2 h0 h1 ha W P hP, hz, true_and]
  have hD := imageDist_pos o f hf h2
  unfold discOf blurRadius
  rw [mem_ofPred_eq]
  generalize filmOffset o fov f ar (filmOf fov ar P) p = w
  generalize 1 / focusDepth o f - 1 / -P.z = c
  generalize imageDist o f = D at *
  constructor
  · rintro ⟨l, hs, rfl⟩
    have := C69_into l hs
    unfold InDisk at this
    dsimp only
    rw [mul_pow (D * lr) |c|, sq_abs]
    have k := mul_le_mul_of_nonneg_left this (sq_nonneg (D * lr * c))
    nlinarith
  · intro h
    by_cases hc : D * lr * c = 0
    · have e : (D * lr * |c|) ^ 2 = 0 := by
        rw [mul_pow, sq_abs, ← mul_pow, hc]; norm_num
      rw [e] at h
      have w1 : w.1 = 0 := by nlinarith [sq_nonneg w.1, sq_nonneg w.2]
      have w2 : w.2 = 0 := by nlinarith [sq_nonneg w.1, sq_nonneg w.2]
      obtain ⟨l, hs, -⟩ := C69_onto (new2 0 0) (by unfold InDisk; rw [x_new2, y_new2]; norm_num)
      exact ⟨l, hs, Prod.ext (by rw [w1, hc, zero_mul]) (by rw [w2, hc]; exact (zero_mul _).symm)⟩
    · obtain ⟨l, hs, e⟩ := C69_onto (new2 (w.1 / (D * lr * c)) (w.2 / (D * lr * c))) (by
        unfold InDisk
        rw [x_new2, y_new2, div_pow, div_pow, ← add_div, div_le_one (by positivity)]
        rw [mul_pow (D * lr) |c|, sq_abs, ← mul_pow] at h
        exact h)
      refine ⟨l, hs, ?_⟩
      rw [e, x_new2, y_new2, mul_div_cancel₀ _ hc, mul_div_cancel₀ _ hc]

/-- C132: only what lies in the plane of focus is sharp. -/
theorem C132_sharp (hf : 0 < f) (h2 : 2 * f < o) (hl : 0 < lr) (Z : ℝ) (hZ : 0 < Z) : blurRadius o f lr Z = 0 ↔ Z = focusDepth o f := by
  have hD := imageDist_pos o f hf h2
  have hq := focusDepth_pos o f hf h2
  unfold blurRadius
  rw [mul_eq_zero, or_iff_right (by positivity), abs_eq_zero, sub_eq_zero]
  constructor
  · intro h
    rw [one_div, one_div] at h
    exact (inv_injective h).symm
  · rintro rfl; rfl

/-- C132: the blur grows with the distance from the plane of focus, on both sides; behind it it stays below a bound, before it it
exceeds every bound. -/
theorem C132_grows (hf : 0 < f) (h2 : 2 * f < o) (hl : 0 < lr) :
    (∀ Z Z', focusDepth o f ≤ Z → Z < Z' → blurRadius o f lr Z < blurRadius o f lr Z') ∧
    (∀ Z Z', 0 < Z → Z < Z' → Z' ≤ focusDepth o f → blurRadius o f lr Z' < blurRadius o f lr Z) ∧
    (∀ Z, focusDepth o f ≤ Z → blurRadius o f lr Z < imageDist o f * lr / focusDepth o f) ∧
    (∀ B : ℝ, ∃ Z, 0 < Z ∧ Z ≤ focusDepth o f ∧ B < blurRadius o f lr Z) := by
  have hD := imageDist_pos o f hf h2
  have hq := focusDepth_pos o f hf h2
  unfold blurRadius
  generalize imageDist o f = D at *
  generalize focusDepth o f = q at *
  have hDl : 0 < D * lr := mul_pos hD hl
  have far : ∀ Z, q ≤ Z → |1 / q - 1 / Z| = 1 / q - 1 / Z := fun Z hZ =>
    abs_of_nonneg (sub_nonneg.2 (one_div_le_one_div_of_le hq hZ))
  have near : ∀ Z, 0 < Z → Z ≤ q → |1 / q - 1 / Z| = 1 / Z - 1 / q := fun Z h0 hZ => by
    rw [abs_of_nonpos (sub_nonpos.2 (one_div_le_one_div_of_le h0 hZ))]; ring
  refine ⟨fun Z Z' h h' => ?_, fun Z Z' h h' h'' => ?_, fun Z h => ?_, fun B => ?_⟩
  · rw [far Z h, far Z' (h.trans h'.le)]
    refine mul_lt_mul_of_pos_left ?_ hDl
    linarith [one_div_lt_one_div_of_lt (hq.trans_le h) h']
  · rw [near Z h (h'.le.trans h''), near Z' (h.trans h') h'']
    refine mul_lt_mul_of_pos_left ?_ hDl
    linarith [one_div_lt_one_div_of_lt h h']
  · rw [far Z h, show D * lr * (1 / q - 1 / Z) = D * lr / q - D * lr * (1 / Z) by ring]
    have : 0 < 1 / Z := one_div_pos.2 (hq.trans_le h)
    linarith [mul_pos hDl this]
  · have hs : 0 < |B| / (D * lr) + 1 := by positivity
    have hi : 0 < 1 / q := one_div_pos.2 hq
    have hZ : 0 < 1 / (1 / q + (|B| / (D * lr) + 1)) := by positivity
    have hle : 1 / (1 / q + (|B| / (D * lr) + 1)) ≤ q := by
      rw [one_div_le (by positivity) hq]; linarith
    refine ⟨_, hZ, hle, ?_⟩
    rw [near _ hZ hle, one_div_one_div, show D * lr * (1 / q + (|B| / (D * lr) + 1) - 1 / q) = |B| + D * lr by field_simp; ring]
    linarith [le_abs_self B]

/-- C132: the blur is even: for lens samples uniformly distributed on the unit square, the probability that the film point that sees
the point lies in a set is the share of the disc covered by the set. -/
theorem C132_even (hv : view.Reachable) (hva : view.m.Affine) (hf : 0 < f) (h2 : 2 * f < o) (h0 : 0 < fov) (h1 : fov < π) (ha : 0 < ar)
    (hl : 0 < lr) (W P : Point ℝ 3) (hP : view.mapPoint W = some P) (hz : P.z < 0) (hq : -P.z ≠ focusDepth o f) (A : Set (ℝ × ℝ))
    (hA : MeasurableSet A) :
    volume {l | l ∈ square ∧ ∃ p, Sees (.new view o fov f lr ar) p (new2 l.1 l.2) W ∧ filmOffset o fov f ar (filmOf fov ar P) p ∈ A} =
      volume (discOf (blurRadius o f lr (-P.z)) ∩ A) / ENNReal.ofReal (π * blurRadius o f lr (-P.z) ^ 2) := by
  have hD := imageDist_pos o f hf h2
  have hq0 := focusDepth_pos o f hf h2
  have htan : 0 < tan (fov / 2) := tan_pos_of_pos_of_lt_pi_div_two (by linarith) (by linarith)
  have hc : 1 / focusDepth o f - 1 / -P.z ≠ 0 := by
    intro h
    rw [sub_eq_zero, one_div, one_div] at h
    exact hq (inv_injective h).symm
  have hr : imageDist o f * lr * (1 / focusDepth o f - 1 / -P.z) ≠ 0 := mul_ne_zero (mul_pos hD hl).ne' hc
  have er : blurRadius o f lr (-P.z) ^ 2 = (imageDist o f * lr * (1 / focusDepth o f - 1 / -P.z)) ^ 2 := by
    unfold blurRadius; rw [mul_pow _ |_|, sq_abs, ← mul_pow]
  have onto : ∀ v : ℝ × ℝ, ∃ p, filmOffset o fov f ar (filmOf fov ar P) p = v := by
    intro v
    refine ⟨new2 ((filmOf fov ar P).x + v.1 / (tan (fov / 2) / 2 * imageDist o f)) ((filmOf fov ar P).y + v.2 / (tan (fov / 2) / 2 * imageDist o f / ar)), ?_⟩
    unfold filmOffset
    rw [x_new2, y_new2, add_sub_cancel_left, add_sub_cancel_left, mul_div_cancel₀ _ (by positivity), mul_div_cancel₀ _ (by positivity)]
  have set1 : {l | l ∈ square ∧ ∃ p, Sees (.new view o fov f lr ar) p (new2 l.1 l.2) W ∧ filmOffset o fov f ar (filmOf fov ar P) p ∈ A} =
      square ∩ onPairs concentricSampleDisk ⁻¹' (((imageDist o f * lr * (1 / focusDepth o f - 1 / -P.z)) • ·) ⁻¹' A) := by
    ext l
    simp only [C132_lens view o fov f lr ar hv hva hf h2 h0 h1 ha W P hP, hz, true_and, mem_ofPred_eq, mem_inter_iff, mem_preimage]
    refine and_congr_right fun _ => ?_
    constructor
    · rintro ⟨p, e, hp⟩
      rw [e] at hp
      exact hp
    · intro h
      obtain ⟨p, e⟩ := onto _
      exact ⟨p, e, by rw [e]; exact h⟩
  have set2 : disk ∩ (((imageDist o f * lr * (1 / focusDepth o f - 1 / -P.z)) • ·) ⁻¹' A) =
      ((imageDist o f * lr * (1 / focusDepth o f - 1 / -P.z)) • ·) ⁻¹' (discOf (blurRadius o f lr (-P.z)) ∩ A) := by
    ext x
    simp only [mem_inter_iff, mem_preimage]
    refine and_congr_left fun _ => ?_
    unfold disk discOf InDisk
    rw [mem_ofPred_eq, mem_ofPred_eq, x_new2, y_new2, er]
    generalize imageDist o f * lr * (1 / focusDepth o f - 1 / -P.z) = ρ at *
    change _ ↔ (ρ * x.1) ^ 2 + (ρ * x.2) ^ 2 ≤ ρ ^ 2
    have h : 0 < ρ ^ 2 := by positivity
    constructor
    · intro k; nlinarith
    · intro k; nlinarith
  rw [set1, C77_uniform _ (hA.preimage (measurable_const_smul _)), set2, Measure.addHaar_preimage_smul _ hr, er]
  generalize imageDist o f * lr * (1 / focusDepth o f - 1 / -P.z) = ρ at *
  have fr : Module.finrank ℝ (ℝ × ℝ) = 2 := by simp
  have h : 0 < ρ ^ 2 := by positivity
  rw [fr, abs_of_pos (by positivity), ENNReal.ofReal_inv_of_pos h, ENNReal.ofReal_mul pi_pos.le, div_eq_mul_inv, div_eq_mul_inv,
    ENNReal.mul_inv (Or.inl (by simp [pi_pos])) (Or.inl ENNReal.ofReal_ne_top), mul_comm (_)⁻¹ (volume _), mul_assoc,
    mul_comm (ENNReal.ofReal (ρ ^ 2))⁻¹]
end

/-- Non-vacuity: a camera one unit above the origin that looks along `-z`, with focal distance 3 and focal length 1: the plane of
focus is at depth 3/2; the point `(0, 1, -3)` at depth 3 is blurred to a disc of radius 1/2, `(0, 1, -3/2)` is sharp. -/
example : let view : Transform ℝ := .translate (new3 0 (-1) 0)
    view.Reachable ∧ view.m.Affine ∧ view.mapPoint (new3 0 1 (-3)) = some (new3 0 0 (-3)) ∧ 2 * (1 : ℝ) < 3 ∧ (1 : ℝ) < π ∧
    -(-3 : ℝ) ≠ focusDepth 3 1 ∧ blurRadius 3 1 1 3 = 1 / 2 ∧ blurRadius 3 1 1 (3 / 2) = 0 := by
  intro view
  have e : view.mapPoint (new3 0 1 (-3)) = some (new3 0 0 (-3)) := by
    have e := (translate_point (new3 0 (-1) 0) (new3 0 1 (-3))).1
    simp only [x_new3, y_new3, z_new3, add_zero, add_neg_cancel] at e
    exact e
  refine ⟨.translate _, ⟨rfl, rfl, rfl, rfl⟩, e, by norm_num, by linarith [Real.pi_gt_three], ?_, ?_, ?_⟩
  all_goals
    simp only [blurRadius, focusDepth, imageDist]
    norm_num

end Scarlet
