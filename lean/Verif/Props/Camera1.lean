import Verif.Model.Camera
import Verif.Props.Interval1
import Verif.Props.Transform1
import Verif.Model.Ideal

/-! C69 (concentric disk sampling), C70 (uniform disk sampling): the maps in exact arithmetic.  That both maps preserve
areas is in `Camera2.lean`. -/

set_option linter.unusedSectionVars false

namespace Scarlet
open GVec Real Flt

theorem lit2_f32 : (GFloat.fromF32 (F32.lit 2) : ℝ) = 2 := toReal_lit_small.2.1
theorem lit2_f64 : (GFloat.fromF64 (F64.lit 2) : ℝ) = 2 := by
  change (F64.lit 2).toReal = 2
  refine (exact_of_repr (mw := 52) (ew := 11) (r := 2) ?_ ?_).2
  · simpa using repr_int (mw := 52) (ew := 11) 2 (by norm_num) (by decide +kernel)
  · unfold F64.lit
    rw [(ofRat_key false _ 1 Nat.one_pos).2]; simp

/-- The unit square and the closed unit disk. -/
def InSquare (p : Point ℝ 2) : Prop := (0 ≤ p.x ∧ p.x ≤ 1) ∧ (0 ≤ p.y ∧ p.y ≤ 1)
def InDisk (q : Point ℝ 2) : Prop := q.x ^ 2 + q.y ^ 2 ≤ 1

/-! ### C69 -/

/-- Polar form of the result: signed radius `r`, angle `θ` in `(-π/4, 3π/4]`, and how the point of the square is
recovered from them. -/
noncomputable def polarSrc (r θ : ℝ) : ℝ × ℝ := if θ < π / 4 then (r, r * (4 * θ / π)) else (r * (2 - 4 * θ / π), r)

theorem concentric_polar (p : Point ℝ 2) (h : ¬ (p.x = 1 / 2 ∧ p.y = 1 / 2)) :
    ∃ r θ, concentricSampleDisk p = new2 (r * cos θ) (r * sin θ) ∧ r ≠ 0 ∧ |r| = Max.max |1 - 2 * p.x| |1 - 2 * p.y| ∧
      -(π / 4) < θ ∧ θ ≤ 3 * π / 4 ∧ (1 - 2 * p.x, 1 - 2 * p.y) = polarSrc r θ := by
  have hpi := pi_pos
  unfold concentricSampleDisk
  simp only [rone, lit2_f32, riabs, rfracPi4, rfracPi2, rcos, rsin]
  rw [if_neg (by
    simp only [Bool.and_eq_true, risZero]
    rintro ⟨h1, h2⟩
    exact h ⟨by linarith, by linarith⟩)]
  have hxy : ¬ (1 - 2 * p.x = 0 ∧ 1 - 2 * p.y = 0) := fun h' => h ⟨by linarith [h'.1], by linarith [h'.2]⟩
  generalize 1 - 2 * p.x = x at *
  generalize 1 - 2 * p.y = y at *
  by_cases hc : |y| < |x|
  · rw [if_pos (rgt_iff.2 hc)]
    have hx : x ≠ 0 := fun h0 => by rw [h0, abs_zero] at hc; exact absurd hc (not_lt.2 (abs_nonneg y))
    have hq : |y / x| < 1 := by rw [abs_div, div_lt_one (abs_pos.2 hx)]; exact hc
    obtain ⟨q1, q2⟩ := abs_lt.1 hq
    refine ⟨x, π / 4 * y / x, rfl, hx, (max_eq_left hc.le).symm, ?_, ?_, ?_⟩
    · rw [mul_div_assoc]; nlinarith
    · rw [mul_div_assoc]; nlinarith
    · unfold polarSrc
      rw [if_pos (by rw [mul_div_assoc]; nlinarith)]
      congr 1
      field_simp
  · rw [if_neg (fun h' => hc (rgt_iff.1 h'))]
    have hy : y ≠ 0 := fun h0 => hxy ⟨by
      rw [h0, abs_zero, not_lt] at hc
      exact abs_nonpos_iff.1 hc, h0⟩
    have hq : |x / y| ≤ 1 := by rw [abs_div, div_le_one (abs_pos.2 hy)]; exact not_lt.1 hc
    obtain ⟨q1, q2⟩ := abs_le.1 hq
    refine ⟨y, π / 2 - x / y * (π / 4), rfl, hy, (max_eq_right (not_lt.1 hc)).symm, ?_, ?_, ?_⟩
    · nlinarith
    · nlinarith
    · unfold polarSrc
      rw [if_neg (by rw [not_lt]; nlinarith)]
      congr 1
      field_simp
      ring

/-- Conversely every signed polar form in that range is taken. -/
theorem concentric_of_polar (r θ : ℝ) (hr : r ≠ 0) (h1 : -(π / 4) < θ) (h2 : θ ≤ 3 * π / 4) :
    concentricSampleDisk (new2 ((1 - (polarSrc r θ).1) / 2) ((1 - (polarSrc r θ).2) / 2)) = new2 (r * cos θ) (r * sin θ) ∧
    |(polarSrc r θ).1| ≤ |r| ∧ |(polarSrc r θ).2| ≤ |r| := by
  have hpi := pi_pos
  unfold concentricSampleDisk
  simp only [rone, lit2_f32, riabs, rfracPi4, rfracPi2, rcos, rsin, x_new2, y_new2]
  rw [show (1 : ℝ) - 2 * ((1 - (polarSrc r θ).1) / 2) = (polarSrc r θ).1 by ring,
    show (1 : ℝ) - 2 * ((1 - (polarSrc r θ).2) / 2) = (polarSrc r θ).2 by ring]
  unfold polarSrc
  have hr' := abs_pos.2 hr
  by_cases hc : θ < π / 4
  · rw [if_pos hc]
    have hq : |4 * θ / π| < 1 := by
      rw [abs_lt, div_lt_one hpi, lt_div_iff₀ hpi]; constructor <;> linarith
    dsimp only
    have hlt : |r * (4 * θ / π)| < |r| := by rw [abs_mul]; nlinarith
    rw [if_neg (by simp only [Bool.and_eq_true, risZero]; exact fun h => hr h.1), if_pos (rgt_iff.2 hlt)]
    refine ⟨?_, le_rfl, hlt.le⟩
    dsimp only
    rw [show π / 4 * (r * (4 * θ / π)) / r = θ by field_simp]
  · rw [if_neg hc]
    rw [not_lt] at hc
    have hq : |2 - 4 * θ / π| ≤ 1 := by
      have e1 : 1 ≤ 4 * θ / π := by rw [le_div_iff₀ hpi]; linarith
      have e2 : 4 * θ / π ≤ 3 := by rw [div_le_iff₀ hpi]; linarith
      rw [abs_le]; constructor <;> linarith
    dsimp only
    have hle : |r * (2 - 4 * θ / π)| ≤ |r| := by rw [abs_mul]; nlinarith
    rw [if_neg (by simp only [Bool.and_eq_true, risZero]; exact fun h => hr h.2), if_neg (fun h => absurd (rgt_iff.1 h) (not_lt.2 hle))]
    refine ⟨?_, hle, le_rfl⟩
    dsimp only
    rw [show π / 2 - r * (2 - 4 * θ / π) / r * (π / 4) = θ by field_simp; ring]

theorem concentric_centre : concentricSampleDisk (new2 (1 / 2) (1 / 2) : Point ℝ 2) = new2 0 0 := by
  unfold concentricSampleDisk
  simp only [rone, lit2_f32, x_new2, y_new2]
  rw [if_pos (by simp only [Bool.and_eq_true, risZero]; norm_num)]
  rfl

/-- C69: the squared distance from the centre is the square of `max(|1-2x|, |1-2y|)`. -/
theorem C69_radius (p : Point ℝ 2) :
    (concentricSampleDisk p).x ^ 2 + (concentricSampleDisk p).y ^ 2 = (Max.max |1 - 2 * p.x| |1 - 2 * p.y|) ^ 2 := by
  by_cases h : p.x = 1 / 2 ∧ p.y = 1 / 2
  · have : p = new2 (1 / 2) (1 / 2) := ext2 h.1 h.2
    rw [this, concentric_centre]; norm_num
  · obtain ⟨r, θ, e, -, hr, -⟩ := concentric_polar p h
    rw [e, ← hr, sq_abs, x_new2, y_new2]
    linear_combination r ^ 2 * sin_sq_add_cos_sq θ

/-- C69: the unit square is mapped into the closed unit disk. -/
theorem C69_into (p : Point ℝ 2) (h : InSquare p) : InDisk (concentricSampleDisk p) := by
  unfold InDisk
  rw [C69_radius]
  have : Max.max |1 - 2 * p.x| |1 - 2 * p.y| ≤ 1 := by
    rw [max_le_iff, abs_le, abs_le]
    obtain ⟨⟨a, b⟩, c, d⟩ := h
    refine ⟨⟨?_, ?_⟩, ?_, ?_⟩ <;> linarith
  have h0 : 0 ≤ Max.max |1 - 2 * p.x| |1 - 2 * p.y| := (abs_nonneg _).trans (le_max_left _ _)
  nlinarith

/-- C69: the map is onto the closed unit disk. -/
theorem C69_onto (q : Point ℝ 2) (h : InDisk q) : ∃ p, InSquare p ∧ concentricSampleDisk p = q := by
  have hpi := pi_pos
  by_cases h0 : q.x = 0 ∧ q.y = 0
  · exact ⟨new2 (1 / 2) (1 / 2), ⟨⟨by norm_num, by norm_num⟩, ⟨by norm_num, by norm_num⟩⟩,
      by rw [concentric_centre]; exact (ext2 h0.1 h0.2 : q = new2 0 0).symm⟩
  · -- signed polar form of `q`
    have hne : (⟨q.x, q.y⟩ : ℂ) ≠ 0 := fun e => h0 ⟨congrArg Complex.re e, congrArg Complex.im e⟩
    obtain ⟨r, θ, hr, h1, h2, hx, hy⟩ : ∃ r θ : ℝ, r ≠ 0 ∧ -(π / 4) < θ ∧ θ ≤ 3 * π / 4 ∧ r * cos θ = q.x ∧ r * sin θ = q.y := by
      have hn := norm_pos_iff.2 hne
      have ex : _ = q.x := Complex.norm_mul_cos_arg ⟨q.x, q.y⟩
      have ey : _ = q.y := Complex.norm_mul_sin_arg ⟨q.x, q.y⟩
      have a1 := Complex.neg_pi_lt_arg ⟨q.x, q.y⟩
      have a2 := Complex.arg_le_pi ⟨q.x, q.y⟩
      generalize ‖(⟨q.x, q.y⟩ : ℂ)‖ = ρ at *
      generalize Complex.arg ⟨q.x, q.y⟩ = φ at *
      by_cases c1 : 3 * π / 4 < φ
      · refine ⟨-ρ, φ - π, neg_ne_zero.2 hn.ne', by linarith, by linarith, ?_, ?_⟩
        · rw [cos_sub_pi]; linarith
        · rw [sin_sub_pi]; linarith
      · by_cases c2 : φ ≤ -(π / 4)
        · refine ⟨-ρ, φ + π, neg_ne_zero.2 hn.ne', by linarith, by linarith, ?_, ?_⟩
          · rw [cos_add_pi]; linarith
          · rw [sin_add_pi]; linarith
        · exact ⟨ρ, φ, hn.ne', not_le.1 c2, not_lt.1 c1, ex, ey⟩
    obtain ⟨e, b1, b2⟩ := concentric_of_polar r θ hr h1 h2
    have hr1 : |r| ≤ 1 := by
      have e2 : r ^ 2 ≤ 1 := by
        unfold InDisk at h
        rw [← hx, ← hy] at h
        have := sin_sq_add_cos_sq θ
        nlinarith
      exact abs_le_one_iff_mul_self_le_one.2 (by nlinarith)
    refine ⟨_, ?_, e.trans ?_⟩
    · obtain ⟨c1, c2⟩ := abs_le.1 (b1.trans hr1)
      obtain ⟨c3, c4⟩ := abs_le.1 (b2.trans hr1)
      refine ⟨⟨?_, ?_⟩, ⟨?_, ?_⟩⟩ <;> simp only [x_new2, y_new2] <;> linarith
    · rw [hx, hy]; exact ext2 rfl rfl

/-- C69: the map is one-to-one on the whole plane (in particular on the square); only the centre goes to the centre. -/
theorem C69_injective : Function.Injective (concentricSampleDisk : Point ℝ 2 → Point ℝ 2) := by
  have hpi := pi_pos
  have centre : ∀ p : Point ℝ 2, p.x = 1 / 2 ∧ p.y = 1 / 2 ↔ Max.max |1 - 2 * p.x| |1 - 2 * p.y| = 0 := by
    intro p
    constructor
    · rintro ⟨h1, h2⟩; rw [h1, h2]; norm_num
    · intro h
      have h1 : |1 - 2 * p.x| ≤ 0 := h ▸ le_max_left _ _
      have h2 : |1 - 2 * p.y| ≤ 0 := h ▸ le_max_right _ _
      have := abs_nonpos_iff.1 h1
      have := abs_nonpos_iff.1 h2
      constructor <;> linarith
  intro p p' heq
  have hrad : (Max.max |1 - 2 * p.x| |1 - 2 * p.y|) ^ 2 = (Max.max |1 - 2 * p'.x| |1 - 2 * p'.y|) ^ 2 := by
    rw [← C69_radius, ← C69_radius, heq]
  have hrad' := (pow_left_inj₀ ((abs_nonneg (1 - 2 * p.x)).trans (le_max_left _ |1 - 2 * p.y|))
    ((abs_nonneg (1 - 2 * p'.x)).trans (le_max_left _ |1 - 2 * p'.y|)) two_ne_zero).1 hrad
  by_cases h : p.x = 1 / 2 ∧ p.y = 1 / 2
  · have h' : p'.x = 1 / 2 ∧ p'.y = 1 / 2 := (centre p').2 (hrad' ▸ (centre p).1 h)
    exact ext2 (h.1.trans h'.1.symm) (h.2.trans h'.2.symm)
  · have h' : ¬ (p'.x = 1 / 2 ∧ p'.y = 1 / 2) := fun c => h ((centre p).2 (hrad' ▸ (centre p').1 c))
    obtain ⟨r, θ, e, hr, hrm, a1, a2, hs⟩ := concentric_polar p h
    obtain ⟨r', θ', e', hr', hrm', a1', a2', hs'⟩ := concentric_polar p' h'
    have habs : |r| = |r'| := by rw [hrm, hrm', hrad']
    rw [e, e'] at heq
    have hx : r * cos θ = r' * cos θ' := congrArg (fun q : Point ℝ 2 => q.x) heq
    have hy : r * sin θ = r' * sin θ' := congrArg (fun q : Point ℝ 2 => q.y) heq
    have hsrc : r = r' ∧ θ = θ' := by
      rcases abs_eq_abs.1 habs with hrr | hrr
      · subst hrr
        refine ⟨rfl, ?_⟩
        have hc := mul_left_cancel₀ hr hx
        have hsn := mul_left_cancel₀ hr hy
        have h1 : sin (θ - θ') = 0 := by rw [sin_sub, hc, hsn]; ring
        have := (sin_eq_zero_iff_of_lt_of_lt (by linarith) (by linarith)).1 h1
        linarith
      · exfalso
        subst hrr
        have hc : cos θ = -cos θ' := mul_left_cancel₀ hr' (by linarith)
        have hsn : sin θ = -sin θ' := mul_left_cancel₀ hr' (by linarith)
        have h1 : sin (θ - θ') = 0 := by rw [sin_sub, hc, hsn]; ring
        have h2 := (sin_eq_zero_iff_of_lt_of_lt (by linarith) (by linarith)).1 h1
        have h3 : θ = θ' := by linarith
        rw [h3] at hc hsn
        have := sin_sq_add_cos_sq θ'
        have e1 : cos θ' = 0 := by linarith
        have e2 : sin θ' = 0 := by linarith
        rw [e1, e2] at this; norm_num at this
    rw [hsrc.1, hsrc.2, ← hs'] at hs
    have h1 := congrArg Prod.fst hs
    have h2 := congrArg Prod.snd hs
    dsimp only at h1 h2
    exact ext2 (by linarith) (by linarith)

/-- Non-vacuity. -/
example : InSquare (new2 (1 / 4) 1) ∧ InDisk (new2 (1 / 2) (-(1 / 2))) := by
  refine ⟨⟨⟨by norm_num, by norm_num⟩, ⟨by norm_num, by norm_num⟩⟩, ?_⟩
  unfold InDisk; norm_num

/-! ### C70 -/

theorem uniform_eq (p : Point ℝ 2) :
    uniformSampleDisk p = new2 (Real.sqrt p.y * cos (2 * π * p.x)) (Real.sqrt p.y * sin (2 * π * p.x)) := by
  unfold uniformSampleDisk
  simp only [lit2_f64, rpi, rsinCos, rsqrt]

/-- C70: the squared radius is `p.y`, and the result lies at angle `2π p.x`. -/
theorem C70_polar (p : Point ℝ 2) (h : 0 ≤ p.y) :
    (uniformSampleDisk p).x ^ 2 + (uniformSampleDisk p).y ^ 2 = p.y ∧
    (uniformSampleDisk p).x = Real.sqrt p.y * cos (2 * π * p.x) ∧ (uniformSampleDisk p).y = Real.sqrt p.y * sin (2 * π * p.x) := by
  rw [uniform_eq]
  refine ⟨?_, rfl, rfl⟩
  have := Real.sq_sqrt h
  rw [x_new2, y_new2]
  linear_combination (Real.sqrt p.y) ^ 2 * sin_sq_add_cos_sq (2 * π * p.x) + this

/-- C70: the unit square is mapped into the closed unit disk. -/
theorem C70_into (p : Point ℝ 2) (h : InSquare p) : InDisk (uniformSampleDisk p) := by
  unfold InDisk
  rw [(C70_polar p h.2.1).1]; exact h.2.2

/-- C70: the map is onto the closed unit disk. -/
theorem C70_onto (q : Point ℝ 2) (h : InDisk q) : ∃ p, InSquare p ∧ uniformSampleDisk p = q := by
  have hpi := pi_pos
  have hn : ‖(⟨q.x, q.y⟩ : ℂ)‖ = Real.sqrt (q.x ^ 2 + q.y ^ 2) := by
    rw [Complex.norm_def, Complex.normSq_mk, sq, sq]
  have ex : _ = q.x := Complex.norm_mul_cos_arg ⟨q.x, q.y⟩
  have ey : _ = q.y := Complex.norm_mul_sin_arg ⟨q.x, q.y⟩
  have a1 := Complex.neg_pi_lt_arg ⟨q.x, q.y⟩
  have a2 := Complex.arg_le_pi ⟨q.x, q.y⟩
  rw [hn] at ex ey
  generalize Complex.arg ⟨q.x, q.y⟩ = φ at *
  have hy0 : 0 ≤ q.x ^ 2 + q.y ^ 2 := by positivity
  by_cases hφ : 0 ≤ φ
  · refine ⟨new2 (φ / (2 * π)) (q.x ^ 2 + q.y ^ 2), ⟨⟨?_, ?_⟩, hy0, h⟩, ?_⟩
    · simp only [x_new2]; positivity
    · simp only [x_new2]; rw [div_le_one (by positivity)]; linarith
    · rw [uniform_eq, x_new2, y_new2, show 2 * π * (φ / (2 * π)) = φ by field_simp, ex, ey]
      exact ext2 rfl rfl
  · refine ⟨new2 (φ / (2 * π) + 1) (q.x ^ 2 + q.y ^ 2), ⟨⟨?_, ?_⟩, hy0, h⟩, ?_⟩
    · simp only [x_new2]
      have : -1 ≤ φ / (2 * π) := by rw [le_div_iff₀ (by positivity)]; linarith
      linarith
    · simp only [x_new2]
      have : φ / (2 * π) ≤ 0 := div_nonpos_of_nonpos_of_nonneg (not_le.1 hφ).le (by positivity)
      linarith
    · rw [uniform_eq, x_new2, y_new2, show 2 * π * (φ / (2 * π) + 1) = φ + 2 * π by field_simp, cos_add_two_pi, sin_add_two_pi, ex, ey]
      exact ext2 rfl rfl

end Scarlet
