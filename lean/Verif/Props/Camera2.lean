import Verif.Props.Camera1
import Mathlib.Analysis.SpecialFunctions.PolarCoord

/-! C70, C77: both disk samplings map uniformly distributed samples of the unit square to uniformly distributed points of
the unit disk: for every measurable set `A` of the plane, the probability of landing in `A` is the area of `A` within the
disk, divided by `π`. -/

set_option linter.unusedSectionVars false

namespace Scarlet
open GVec Real MeasureTheory Set
open scoped ENNReal

/-- A map of points of the plane as a map of pairs of reals (Lebesgue measure lives on the latter). -/
def onPairs (f : Point ℝ 2 → Point ℝ 2) (p : ℝ × ℝ) : ℝ × ℝ := ((f (new2 p.1 p.2)).x, (f (new2 p.1 p.2)).y)

/-- The unit square and the closed unit disk as sets of pairs. -/
def square : Set (ℝ × ℝ) := {p | InSquare (new2 p.1 p.2)}
def disk : Set (ℝ × ℝ) := {q | InDisk (new2 q.1 q.2)}

/-- `f` turns the uniform distribution on the unit square into the uniform distribution on the unit disk. -/
def UniformOnDisk (f : Point ℝ 2 → Point ℝ 2) : Prop :=
  ∀ A : Set (ℝ × ℝ), MeasurableSet A → volume (square ∩ onPairs f ⁻¹' A) = volume (disk ∩ A) / ENNReal.ofReal π

theorem null_snd (c : ℝ) : volume {q : ℝ × ℝ | q.2 = c} = 0 := by
  have : {q : ℝ × ℝ | q.2 = c} = univ ×ˢ {c} := by ext q; simp
  rw [this, Measure.volume_eq_prod, Measure.prod_prod]; simp

theorem null_fst (c : ℝ) : volume {q : ℝ × ℝ | q.1 = c} = 0 := by
  have : {q : ℝ × ℝ | q.1 = c} = {c} ×ˢ univ := by ext q; simp
  rw [this, Measure.volume_eq_prod, Measure.prod_prod]; simp

/-- Change of variables for a map with constant Jacobian. -/
theorem volume_image_const {f g : ℝ × ℝ → ℝ × ℝ} {S A : Set (ℝ × ℝ)} (hS : MeasurableSet S) (hA : MeasurableSet A)
    (hg : Measurable g) (hfg : ∀ p ∈ S, f p = g p) (a b c d : ℝ × ℝ → ℝ) (k : ℝ)
    (h1 : ∀ p ∈ S, HasFDerivAt (fun q => (g q).1) (a p • ContinuousLinearMap.fst ℝ ℝ ℝ + b p • ContinuousLinearMap.snd ℝ ℝ ℝ) p)
    (h2 : ∀ p ∈ S, HasFDerivAt (fun q => (g q).2) (c p • ContinuousLinearMap.fst ℝ ℝ ℝ + d p • ContinuousLinearMap.snd ℝ ℝ ℝ) p)
    (hdet : ∀ p ∈ S, |a p * d p - b p * c p| = k) (hinj : InjOn f S) :
    volume (f '' S ∩ A) = ENNReal.ofReal k * volume (S ∩ f ⁻¹' A) := by
  have hinj' : InjOn g S := hinj.congr hfg
  have e1 : f '' S = g '' S := image_congr hfg
  have e2 : S ∩ f ⁻¹' A = S ∩ g ⁻¹' A := by
    ext p; constructor <;> rintro ⟨hp, hq⟩ <;> refine ⟨hp, ?_⟩
    · rw [mem_preimage, ← hfg p hp]; exact hq
    · rw [mem_preimage, hfg p hp]; exact hq
  rw [e1, e2, ← image_inter_preimage]
  let f' : ℝ × ℝ → ℝ × ℝ →L[ℝ] ℝ × ℝ := fun p =>
    (Matrix.toLin (.finTwoProd ℝ) (.finTwoProd ℝ) !![a p, b p; c p, d p]).toContinuousLinearMap
  have hf' : ∀ p ∈ S ∩ g ⁻¹' A, HasFDerivWithinAt g (f' p) (S ∩ g ⁻¹' A) p := by
    intro p hp
    refine HasFDerivAt.hasFDerivWithinAt ?_
    change HasFDerivAt g (Matrix.toLin (.finTwoProd ℝ) (.finTwoProd ℝ) !![a p, b p; c p, d p]).toContinuousLinearMap p
    rw [Matrix.toLin_finTwoProd_toContinuousLinearMap]
    exact (h1 p hp.1).prodMk (h2 p hp.1)
  have hdet' : ∀ p ∈ S ∩ g ⁻¹' A, ENNReal.ofReal |(f' p).det| = ENNReal.ofReal k := by
    intro p hp
    rw [← hdet p hp.1]
    congr 2
    change ((Matrix.toLin (.finTwoProd ℝ) (.finTwoProd ℝ) !![a p, b p; c p, d p]).toContinuousLinearMap).det = _
    rw [LinearMap.det_toContinuousLinearMap, LinearMap.det_toLin, Matrix.det_fin_two_of]
  have hmeas : MeasurableSet (S ∩ g ⁻¹' A) := hS.inter (hg hA)
  rw [← lintegral_abs_det_fderiv_eq_addHaar_image volume hmeas hf' (hinj'.mono inter_subset_left),
    setLIntegral_congr_fun hmeas hdet', setLIntegral_const]

/-! ### C70 -/

/-- The square without the sides that the map glues together. -/
def openPart : Set (ℝ × ℝ) := Ioo 0 1 ×ˢ Ioc 0 1

theorem uniform_injOn : InjOn (onPairs uniformSampleDisk) openPart := by
  have hpi := pi_pos
  rintro ⟨x, y⟩ ⟨⟨hx0, hx1⟩, ⟨hy0, hy1⟩⟩ ⟨x', y'⟩ ⟨⟨hx0', hx1'⟩, ⟨hy0', hy1'⟩⟩ h
  dsimp only at *
  have h1 := congrArg Prod.fst h
  have h2 := congrArg Prod.snd h
  unfold onPairs at h1 h2
  dsimp only at h1 h2
  have p1 := C70_polar (new2 x y) hy0.le
  have p2 := C70_polar (new2 x' y') hy0'.le
  have hy : y = y' := by
    have e1 := p1.1
    have e2 := p2.1
    rw [h1, h2] at e1
    exact e1.symm.trans e2
  subst hy
  rw [p1.2.1, p2.2.1] at h1
  rw [p1.2.2, p2.2.2] at h2
  simp only [x_new2, y_new2] at h1 h2
  have hs : √y ≠ 0 := (Real.sqrt_pos.2 hy0).ne'
  have c := mul_left_cancel₀ hs h1
  have s := mul_left_cancel₀ hs h2
  have hc : cos (2 * π * x - 2 * π * x') = 1 := by
    rw [cos_sub, c, s]; linarith [sin_sq_add_cos_sq (2 * π * x')]
  have := (cos_eq_one_iff_of_lt_of_lt (by nlinarith) (by nlinarith)).1 hc
  have : x = x' := by
    have h3 : 2 * π * (x - x') = 0 := by linarith
    rcases mul_eq_zero.1 h3 with h4 | h4
    · linarith
    · linarith
  rw [this]

theorem uniform_pairs : onPairs uniformSampleDisk = fun p => (√p.2 * cos (2 * π * p.1), √p.2 * sin (2 * π * p.1)) := by
  funext p
  unfold onPairs
  rw [uniform_eq]; rfl

theorem uniform_jacobian {A : Set (ℝ × ℝ)} (hA : MeasurableSet A) :
    volume (onPairs uniformSampleDisk '' openPart ∩ A) = ENNReal.ofReal π * volume (openPart ∩ onPairs uniformSampleDisk ⁻¹' A) := by
  have hpi := pi_pos
  refine volume_image_const (g := onPairs uniformSampleDisk) (measurableSet_Ioo.prod measurableSet_Ioc) hA ?_ (fun _ _ => rfl)
    (fun p => -(2 * π * √p.2 * sin (2 * π * p.1))) (fun p => cos (2 * π * p.1) / (2 * √p.2))
    (fun p => 2 * π * √p.2 * cos (2 * π * p.1)) (fun p => sin (2 * π * p.1) / (2 * √p.2)) π ?_ ?_ ?_ uniform_injOn
  · rw [uniform_pairs]
    exact Measurable.prodMk (by fun_prop) (by fun_prop)
  · rintro p ⟨-, hp⟩
    rw [uniform_pairs]
    have := ((hasFDerivAt_snd (𝕜 := ℝ) (p := p)).sqrt hp.1.ne').mul (((hasFDerivAt_fst (𝕜 := ℝ) (p := p)).const_mul (2 * π)).cos)
    refine this.congr_fderiv ?_
    ext
    · simp; ring
    · simp; ring
  · rintro p ⟨-, hp⟩
    rw [uniform_pairs]
    have := ((hasFDerivAt_snd (𝕜 := ℝ) (p := p)).sqrt hp.1.ne').mul (((hasFDerivAt_fst (𝕜 := ℝ) (p := p)).const_mul (2 * π)).sin)
    refine this.congr_fderiv ?_
    ext
    · simp; ring
    · simp; ring
  · rintro p ⟨-, hp⟩
    have hs : √p.2 ≠ 0 := (Real.sqrt_pos.2 hp.1).ne'
    have e : -(2 * π * √p.2 * sin (2 * π * p.1)) * (sin (2 * π * p.1) / (2 * √p.2)) -
        cos (2 * π * p.1) / (2 * √p.2) * (2 * π * √p.2 * cos (2 * π * p.1)) = -π := by
      field_simp
      linarith [sin_sq_add_cos_sq (2 * π * p.1)]
    rw [e, abs_neg, abs_of_pos hpi]

theorem ofReal_pi_ne : ENNReal.ofReal π ≠ 0 ∧ ENNReal.ofReal π ≠ ⊤ :=
  ⟨(ENNReal.ofReal_pos.2 pi_pos).ne', ENNReal.ofReal_ne_top⟩

/-- C70: `uniform_sample_disk` is area preserving up to the factor `π`: uniform samples give uniform points. -/
theorem C70_uniform : UniformOnDisk uniformSampleDisk := by
  intro A hA
  have hJ := uniform_jacobian hA
  have hsub : openPart ⊆ square := by
    rintro ⟨x, y⟩ ⟨⟨a, b⟩, ⟨c, d⟩⟩
    exact ⟨⟨a.le, b.le⟩, ⟨c.le, d⟩⟩
  -- the part of the square left out is null
  have e1 : volume (square ∩ onPairs uniformSampleDisk ⁻¹' A) = volume (openPart ∩ onPairs uniformSampleDisk ⁻¹' A) := by
    refine le_antisymm ?_ (measure_mono (inter_subset_inter_left _ hsub))
    have hcov : square ∩ onPairs uniformSampleDisk ⁻¹' A ⊆
        (openPart ∩ onPairs uniformSampleDisk ⁻¹' A) ∪ ({q | q.1 = 0} ∪ {q | q.1 = 1} ∪ {q | q.2 = 0}) := by
      rintro ⟨x, y⟩ ⟨⟨⟨a, b⟩, ⟨c, d⟩⟩, h⟩
      simp only [x_new2, y_new2] at a b c d
      by_cases h0 : x = 0
      · exact Or.inr (Or.inl (Or.inl h0))
      by_cases h1 : x = 1
      · exact Or.inr (Or.inl (Or.inr h1))
      by_cases h2 : y = 0
      · exact Or.inr (Or.inr h2)
      · exact Or.inl ⟨⟨⟨lt_of_le_of_ne a (Ne.symm h0), lt_of_le_of_ne b h1⟩, ⟨lt_of_le_of_ne c (Ne.symm h2), d⟩⟩, h⟩
    refine (measure_mono hcov).trans ((measure_union_le _ _).trans ?_)
    have : volume (({q : ℝ × ℝ | q.1 = 0} ∪ {q | q.1 = 1}) ∪ {q | q.2 = 0}) = 0 :=
      measure_union_null (measure_union_null (null_fst 0) (null_fst 1)) (null_snd 0)
    rw [this, add_zero]
  -- so is the part of the disk left out
  have e2 : volume (disk ∩ A) = volume (onPairs uniformSampleDisk '' openPart ∩ A) := by
    refine le_antisymm ?_ (measure_mono (inter_subset_inter_left _ ?_))
    · have hcov : disk ∩ A ⊆ (onPairs uniformSampleDisk '' openPart ∩ A) ∪ {q | q.2 = 0} := by
        rintro ⟨u, v⟩ ⟨hq, hA'⟩
        obtain ⟨p, ⟨⟨a, b⟩, ⟨c, d⟩⟩, e⟩ := C70_onto (new2 u v) hq
        have ep : p = new2 p.x p.y := ext2 rfl rfl
        have eq' : onPairs uniformSampleDisk (p.x, p.y) = (u, v) := by
          unfold onPairs
          dsimp only
          rw [← ep, e]; rfl
        have hv : v = √p.y * sin (2 * π * p.x) := by
          have := congrArg Prod.snd eq'
          rw [uniform_pairs] at this
          exact this.symm
        by_cases h0 : p.x = 0
        · refine Or.inr ?_
          change v = 0
          rw [hv, h0]; simp
        by_cases h1 : p.x = 1
        · refine Or.inr ?_
          change v = 0
          rw [hv, h1]; simp
        by_cases h2 : p.y = 0
        · refine Or.inr ?_
          change v = 0
          rw [hv, h2]; simp
        · exact Or.inl ⟨⟨(p.x, p.y), ⟨⟨lt_of_le_of_ne a (Ne.symm h0), lt_of_le_of_ne b h1⟩, ⟨lt_of_le_of_ne c (Ne.symm h2), d⟩⟩, eq'⟩, hA'⟩
      refine (measure_mono hcov).trans ((measure_union_le _ _).trans ?_)
      rw [null_snd, add_zero]
    · rintro _ ⟨p, hp, rfl⟩
      exact C70_into (new2 p.1 p.2) (hsub hp)
  rw [e1, e2, hJ, mul_comm, ENNReal.mul_div_cancel_right ofReal_pi_ne.1 ofReal_pi_ne.2]

/-! ### C77 -/

/-- The square in coordinates centred at its middle, cut along the diagonals: left/right and upper/lower quarters. -/
def quarters1 : Set (ℝ × ℝ) := {p | |1 - 2 * p.2| < |1 - 2 * p.1|}
def quarters2 : Set (ℝ × ℝ) := {p | |1 - 2 * p.1| ≤ |1 - 2 * p.2| ∧ 1 - 2 * p.2 ≠ 0}

noncomputable def polar1 (p : ℝ × ℝ) : ℝ × ℝ :=
  ((1 - 2 * p.1) * cos (π / 4 * (1 - 2 * p.2) / (1 - 2 * p.1)), (1 - 2 * p.1) * sin (π / 4 * (1 - 2 * p.2) / (1 - 2 * p.1)))
noncomputable def polar2 (p : ℝ × ℝ) : ℝ × ℝ :=
  ((1 - 2 * p.2) * cos (π / 2 - (1 - 2 * p.1) / (1 - 2 * p.2) * (π / 4)), (1 - 2 * p.2) * sin (π / 2 - (1 - 2 * p.1) / (1 - 2 * p.2) * (π / 4)))

theorem concentric_pairs1 (p : ℝ × ℝ) (h : p ∈ quarters1) : onPairs concentricSampleDisk p = polar1 p := by
  have hx : 1 - 2 * p.1 ≠ 0 := fun h0 => by
    change |1 - 2 * p.2| < |1 - 2 * p.1| at h
    rw [h0, abs_zero] at h; exact absurd h (not_lt.2 (abs_nonneg _))
  unfold onPairs concentricSampleDisk polar1
  simp only [rone, lit2_f32, riabs, rfracPi4, rfracPi2, rcos, rsin, x_new2, y_new2]
  rw [if_neg (by simp only [Bool.and_eq_true, risZero]; exact fun h' => hx h'.1), if_pos (rgt_iff.2 h)]
  rfl

theorem concentric_pairs2 (p : ℝ × ℝ) (h : p ∈ quarters2) : onPairs concentricSampleDisk p = polar2 p := by
  unfold onPairs concentricSampleDisk polar2
  simp only [rone, lit2_f32, riabs, rfracPi4, rfracPi2, rcos, rsin, x_new2, y_new2]
  rw [if_neg (by simp only [Bool.and_eq_true, risZero]; exact fun h' => h.2 h'.2), if_neg (fun h' => absurd (rgt_iff.1 h') (not_lt.2 h.1))]
  rfl

theorem concentric_injective : Function.Injective (onPairs concentricSampleDisk) := by
  intro p p' h
  have : concentricSampleDisk (new2 p.1 p.2) = concentricSampleDisk (new2 p'.1 p'.2) :=
    ext2 (congrArg Prod.fst h) (congrArg Prod.snd h)
  have := C69_injective this
  exact Prod.ext (congrArg (fun q : Point ℝ 2 => q.x) this) (congrArg (fun q : Point ℝ 2 => q.y) this)

theorem measurable_square : MeasurableSet square := by
  have : square = Icc 0 1 ×ˢ Icc 0 1 := by
    ext p
    constructor
    · rintro ⟨h1, h2⟩; exact ⟨h1, h2⟩
    · rintro ⟨h1, h2⟩; exact ⟨h1, h2⟩
  rw [this]
  exact measurableSet_Icc.prod measurableSet_Icc

theorem measurable_quarters1 : MeasurableSet quarters1 :=
  measurableSet_lt (by fun_prop) (by fun_prop)

theorem measurable_quarters2 : MeasurableSet quarters2 :=
  (measurableSet_le (f := fun p : ℝ × ℝ => |1 - 2 * p.1|) (g := fun p : ℝ × ℝ => |1 - 2 * p.2|) (by fun_prop) (by fun_prop)).inter ((measurableSet_eq_fun (f := fun p : ℝ × ℝ => 1 - 2 * p.2) (g := fun _ => 0) (by fun_prop) (by fun_prop)).compl)

theorem measurable_polar1 : Measurable polar1 :=
  Measurable.prodMk (by fun_prop) (by fun_prop)
theorem measurable_polar2 : Measurable polar2 :=
  Measurable.prodMk (by fun_prop) (by fun_prop)

theorem affine_fst (p : ℝ × ℝ) : HasFDerivAt (fun q : ℝ × ℝ => 1 - 2 * q.1) (-(2 : ℝ) • ContinuousLinearMap.fst ℝ ℝ ℝ) p := by
  have := ((hasFDerivAt_fst (𝕜 := ℝ) (p := p)).const_mul 2).const_sub 1
  exact this.congr_fderiv (neg_smul _ _).symm
theorem affine_snd (p : ℝ × ℝ) : HasFDerivAt (fun q : ℝ × ℝ => 1 - 2 * q.2) (-(2 : ℝ) • ContinuousLinearMap.snd ℝ ℝ ℝ) p := by
  have := ((hasFDerivAt_snd (𝕜 := ℝ) (p := p)).const_mul 2).const_sub 1
  exact this.congr_fderiv (neg_smul _ _).symm

theorem jacobian1 {A : Set (ℝ × ℝ)} (hA : MeasurableSet A) :
    volume (onPairs concentricSampleDisk '' (square ∩ quarters1) ∩ A) =
    ENNReal.ofReal π * volume (square ∩ quarters1 ∩ onPairs concentricSampleDisk ⁻¹' A) := by
  have hpi := pi_pos
  let θ : ℝ × ℝ → ℝ := fun p => π / 4 * (1 - 2 * p.2) / (1 - 2 * p.1)
  have hx : ∀ p ∈ square ∩ quarters1, 1 - 2 * p.1 ≠ 0 := fun p hp h0 => by
    have h : |1 - 2 * p.2| < |1 - 2 * p.1| := hp.2
    rw [h0, abs_zero] at h; exact absurd h (not_lt.2 (abs_nonneg _))
  have hθ : ∀ p ∈ square ∩ quarters1, HasFDerivAt θ ((2 * θ p / (1 - 2 * p.1)) • ContinuousLinearMap.fst ℝ ℝ ℝ +
      (-(π / 2) / (1 - 2 * p.1)) • ContinuousLinearMap.snd ℝ ℝ ℝ) p := by
    intro p hp
    have h0 := hx p hp
    have := ((affine_snd p).const_mul (π / 4)).mul ((hasDerivAt_inv h0).comp_hasFDerivAt p (affine_fst p))
    refine this.congr_fderiv ?_
    ext
    · simp [θ]; field_simp
    · simp [θ]; field_simp; norm_num
  refine volume_image_const (g := polar1) (measurable_square.inter measurable_quarters1) hA measurable_polar1
    (fun p hp => concentric_pairs1 p hp.2)
    (fun p => -2 * (cos (θ p) + θ p * sin (θ p))) (fun p => π / 2 * sin (θ p))
    (fun p => -2 * (sin (θ p) - θ p * cos (θ p))) (fun p => -(π / 2) * cos (θ p)) π ?_ ?_ ?_ concentric_injective.injOn
  · intro p hp
    have h0 := hx p hp
    have := (affine_fst p).mul ((hθ p hp).cos)
    refine this.congr_fderiv ?_
    ext
    · simp; field_simp; ring
    · simp; field_simp
  · intro p hp
    have h0 := hx p hp
    have := (affine_fst p).mul ((hθ p hp).sin)
    refine this.congr_fderiv ?_
    ext
    · simp; field_simp; ring
    · simp; field_simp
  · intro p _
    have e : -2 * (cos (θ p) + θ p * sin (θ p)) * (-(π / 2) * cos (θ p)) - π / 2 * sin (θ p) * (-2 * (sin (θ p) - θ p * cos (θ p))) = π := by
      linear_combination π * sin_sq_add_cos_sq (θ p)
    rw [e, abs_of_pos hpi]

theorem jacobian2 {A : Set (ℝ × ℝ)} (hA : MeasurableSet A) :
    volume (onPairs concentricSampleDisk '' (square ∩ quarters2) ∩ A) =
    ENNReal.ofReal π * volume (square ∩ quarters2 ∩ onPairs concentricSampleDisk ⁻¹' A) := by
  have hpi := pi_pos
  let φ : ℝ × ℝ → ℝ := fun p => (1 - 2 * p.1) / (1 - 2 * p.2) * (π / 4)
  have hφ : ∀ p ∈ square ∩ quarters2, HasFDerivAt φ ((-(π / 2) / (1 - 2 * p.2)) • ContinuousLinearMap.fst ℝ ℝ ℝ +
      (2 * φ p / (1 - 2 * p.2)) • ContinuousLinearMap.snd ℝ ℝ ℝ) p := by
    intro p hp
    have h0 := hp.2.2
    have := ((affine_fst p).mul ((hasDerivAt_inv h0).comp_hasFDerivAt p (affine_snd p))).mul_const (π / 4)
    refine this.congr_fderiv ?_
    ext
    · simp [φ]; field_simp; norm_num
    · simp [φ]; field_simp
  refine volume_image_const (g := polar2) (measurable_square.inter measurable_quarters2) hA measurable_polar2
    (fun p hp => concentric_pairs2 p hp.2)
    (fun p => -(π / 2) * cos (φ p)) (fun p => -2 * (sin (φ p) - φ p * cos (φ p)))
    (fun p => π / 2 * sin (φ p)) (fun p => -2 * (cos (φ p) + φ p * sin (φ p))) π ?_ ?_ ?_ concentric_injective.injOn
  · intro p hp
    have h0 := hp.2.2
    have := (affine_snd p).mul ((hφ p hp).sin)
    have h' : HasFDerivAt (fun q => (polar2 q).1) _ p := this.congr_of_eventuallyEq (.of_forall fun q => by
      change (1 - 2 * q.2) * cos (π / 2 - φ q) = _
      rw [cos_pi_div_two_sub]; rfl)
    refine h'.congr_fderiv ?_
    ext
    · simp; field_simp
    · simp; field_simp; ring
  · intro p hp
    have h0 := hp.2.2
    have := (affine_snd p).mul ((hφ p hp).cos)
    have h' : HasFDerivAt (fun q => (polar2 q).2) _ p := this.congr_of_eventuallyEq (.of_forall fun q => by
      change (1 - 2 * q.2) * sin (π / 2 - φ q) = _
      rw [sin_pi_div_two_sub]; rfl)
    refine h'.congr_fderiv ?_
    ext
    · simp; field_simp
    · simp; field_simp; ring
  · intro p _
    have e : -(π / 2) * cos (φ p) * (-2 * (cos (φ p) + φ p * sin (φ p))) - -2 * (sin (φ p) - φ p * cos (φ p)) * (π / 2 * sin (φ p)) = π := by
      linear_combination π * sin_sq_add_cos_sq (φ p)
    rw [e, abs_of_pos hpi]

/-- C77: `concentric_sample_disk` turns uniform samples into uniform points of the disk. -/
theorem C77_uniform : UniformOnDisk concentricSampleDisk := by
  intro A hA
  have hdisj : Disjoint quarters1 quarters2 := by
    rw [Set.disjoint_left]
    intro p h1 h2
    exact absurd h1 (not_lt.2 h2.1)
  have hcover : ∀ p : ℝ × ℝ, p ∈ quarters1 ∨ p ∈ quarters2 ∨ p.2 = 1 / 2 := by
    intro p
    by_cases h : |1 - 2 * p.2| < |1 - 2 * p.1|
    · exact Or.inl h
    · by_cases h0 : 1 - 2 * p.2 = 0
      · exact Or.inr (Or.inr (by linarith))
      · exact Or.inr (Or.inl ⟨not_lt.1 h, h0⟩)
  let f := onPairs concentricSampleDisk
  have e1 : volume (square ∩ f ⁻¹' A) = volume (square ∩ quarters1 ∩ f ⁻¹' A) + volume (square ∩ quarters2 ∩ f ⁻¹' A) := by
    have hm1 : NullMeasurableSet (square ∩ quarters2 ∩ f ⁻¹' A) := by
      have : square ∩ quarters2 ∩ f ⁻¹' A = square ∩ quarters2 ∩ polar2 ⁻¹' A := by
        ext p; constructor <;> rintro ⟨hp, hq⟩ <;> refine ⟨hp, ?_⟩
        · rw [mem_preimage, ← concentric_pairs2 p hp.2]; exact hq
        · rw [mem_preimage]; change onPairs concentricSampleDisk p ∈ A; rw [concentric_pairs2 p hp.2]; exact hq
      rw [this]
      exact ((measurable_square.inter measurable_quarters2).inter (measurable_polar2 hA)).nullMeasurableSet
    rw [← measure_union₀ hm1 (Disjoint.aedisjoint (hdisj.mono (fun p hp => hp.1.2) (fun p hp => hp.1.2)))]
    refine le_antisymm ?_ (measure_mono ?_)
    · have hcov : square ∩ f ⁻¹' A ⊆ (square ∩ quarters1 ∩ f ⁻¹' A ∪ square ∩ quarters2 ∩ f ⁻¹' A) ∪ {q | q.2 = 1 / 2} := by
        rintro p ⟨hp, hq⟩
        rcases hcover p with h | h | h
        · exact Or.inl (Or.inl ⟨⟨hp, h⟩, hq⟩)
        · exact Or.inl (Or.inr ⟨⟨hp, h⟩, hq⟩)
        · exact Or.inr h
      refine (measure_mono hcov).trans ((measure_union_le _ _).trans ?_)
      rw [null_snd, add_zero]
    · rintro p (⟨⟨a, -⟩, b⟩ | ⟨⟨a, -⟩, b⟩) <;> exact ⟨a, b⟩
  have e2 : volume (disk ∩ A) = volume (f '' (square ∩ quarters1) ∩ A) + volume (f '' (square ∩ quarters2) ∩ A) := by
    have hm1 : NullMeasurableSet (f '' (square ∩ quarters2) ∩ A) := by
      have : f '' (square ∩ quarters2) = polar2 '' (square ∩ quarters2) := image_congr fun p hp => concentric_pairs2 p hp.2
      rw [this]
      refine (MeasurableSet.inter ?_ hA).nullMeasurableSet
      exact (measurable_square.inter measurable_quarters2).image_of_measurable_injOn measurable_polar2
        (concentric_injective.injOn.congr fun p hp => concentric_pairs2 p hp.2)
    rw [← measure_union₀ hm1 (Disjoint.aedisjoint (by
      rw [Set.disjoint_left]
      rintro _ ⟨⟨p, hp, rfl⟩, -⟩ ⟨⟨p', hp', e⟩, -⟩
      have := concentric_injective e
      subst this
      exact Set.disjoint_left.1 hdisj hp.2 hp'.2))]
    refine le_antisymm ?_ (measure_mono ?_)
    · have hcov : disk ∩ A ⊆ (f '' (square ∩ quarters1) ∩ A ∪ f '' (square ∩ quarters2) ∩ A) ∪ {q | q.2 = 0} := by
        rintro ⟨u, v⟩ ⟨hq, hA'⟩
        obtain ⟨p, hp, e⟩ := C69_onto (new2 u v) hq
        have ep : p = new2 p.x p.y := ext2 rfl rfl
        have eq' : f (p.x, p.y) = (u, v) := by
          change onPairs concentricSampleDisk (p.x, p.y) = (u, v)
          unfold onPairs
          dsimp only
          rw [← ep, e]; rfl
        have hsq : (p.x, p.y) ∈ square := by
          change InSquare (new2 p.x p.y); rw [← ep]; exact hp
        by_cases h1 : (p.x, p.y) ∈ quarters1
        · exact Or.inl (Or.inl ⟨⟨_, ⟨hsq, h1⟩, eq'⟩, hA'⟩)
        by_cases h2 : (p.x, p.y) ∈ quarters2
        · exact Or.inl (Or.inr ⟨⟨_, ⟨hsq, h2⟩, eq'⟩, hA'⟩)
        · refine Or.inr ?_
          have hle : |1 - 2 * p.x| ≤ |1 - 2 * p.y| := not_lt.1 h1
          have hy : 1 - 2 * p.y = 0 := not_not.1 fun h => h2 ⟨hle, h⟩
          rw [hy, abs_zero] at hle
          have hx := abs_nonpos_iff.1 hle
          have : p = new2 (1 / 2) (1 / 2) := ext2 (by rw [x_new2]; linarith) (by rw [y_new2]; linarith)
          rw [this, concentric_centre] at e
          exact (congrArg (fun q : Point ℝ 2 => q.y) e).symm
      refine (measure_mono hcov).trans ((measure_union_le _ _).trans ?_)
      rw [null_snd, add_zero]
    · rintro q (⟨⟨p, hp, rfl⟩, b⟩ | ⟨⟨p, hp, rfl⟩, b⟩) <;> exact ⟨C69_into (new2 p.1 p.2) hp.1, b⟩
  change volume (square ∩ f ⁻¹' A) = _
  rw [e1, e2, jacobian1 hA, jacobian2 hA, ← mul_add, mul_comm, ENNReal.mul_div_cancel_right ofReal_pi_ne.1 ofReal_pi_ne.2]

/-- The specification is not degenerate: the square has area 1 and the disk has area `π`. -/
theorem volume_square : volume square = 1 := by
  have : square = Icc 0 1 ×ˢ Icc 0 1 := by
    ext p
    constructor
    · rintro ⟨h1, h2⟩; exact ⟨h1, h2⟩
    · rintro ⟨h1, h2⟩; exact ⟨h1, h2⟩
  rw [this, Measure.volume_eq_prod, Measure.prod_prod]; simp

theorem volume_disk : volume disk = ENNReal.ofReal π := by
  have h := C77_uniform univ MeasurableSet.univ
  rw [preimage_univ, inter_univ, inter_univ, volume_square] at h
  have := (ENNReal.eq_div_iff ofReal_pi_ne.1 ofReal_pi_ne.2).1 h
  rw [← this, mul_one]

end Scarlet
