import Verif.Props.Persp
import Verif.Props.Visible

/-! C143: ray tracing against projection: what `ThinLensCamera` shows where, compared with `perspective * view`. -/

set_option linter.unusedSectionVars false

namespace Scarlet
open GVec Real

/-! ### Specification -/

/-- The two ways to a picture agree: whenever a film point shows a world point through the lens centre, the projection
`perspective * view` takes the world point to the same place, with the film, `[0,1]²`, scaled to `[-1,1]²` (in the vertical
direction, to `[-1/ar, 1/ar]`). -/
def PicturesAgree (view : Transform ℝ) (cam : ThinLensCamera ℝ) (ar fov near far : ℝ) : Prop :=
  ∀ p W t, Shows cam p W t → ∃ Q, (Transform.perspective fov near far * view).mapPoint W = some Q ∧
    Q.x = 2 * p.x - 1 ∧ Q.y * ar = 2 * p.y - 1

section
variable (view : Transform ℝ) (o fov f lr ar : ℝ)

/-! ### C143 -/

/-- C143: a film point shows a world point exactly if the projection of the world point is the film point, scaled about the middle
of the picture by the ratio of the slopes, `tan(fov/2)/4` of the camera and `tan(fov'/2)` of the projection. -/
theorem C143_position (hv : view.Reachable) (hva : view.m.Affine) (hf : 0 < f) (h2 : 2 * f < o) (h0 : 0 < fov) (h1 : fov < π)
    (ha : 0 < ar) (fov' near far : ℝ) (g0 : 0 < fov') (g1 : fov' < π) (hnf : near < far) (W P : Point ℝ 3)
    (hP : view.mapPoint W = some P) (hz : P.z < 0) (p : Point ℝ 2) :
    ∃ Q, (Transform.perspective fov' near far * view).mapPoint W = some Q ∧
      ((∃ t, Shows (.new view o fov f lr ar) p W t) ↔
        Q.x = (2 * p.x - 1) * (tan (fov / 2) / 4 / tan (fov' / 2)) ∧
        Q.y = (2 * p.y - 1) * (tan (fov / 2) / 4 / tan (fov' / 2)) / ar) := by
  refine ⟨_, C36_point _ _ W P _ hP (C39_formula fov' near far g0 g1 hnf P hz), ?_⟩
  have hk : 0 < tan (fov / 2) := tan_pos_of_pos_of_lt_pi_div_two (by linarith) (by linarith)
  have hl : 0 < tan (fov' / 2) := tan_pos_of_pos_of_lt_pi_div_two (by linarith) (by linarith)
  have hpz : P.z ≠ 0 := hz.ne
  have key : (∃ t, Shows (.new view o fov f lr ar) p W t) ↔ p = filmOf fov ar P := by
    simp only [C130_pixel view o fov f lr ar hv hva hf h2 h0 h1 ha W P hP p]
    exact ⟨fun ⟨_, _, e, _⟩ => e, fun e => ⟨_, hz, e, rfl⟩⟩
  rw [key, x_new3, y_new3]
  unfold filmOf
  generalize tan (fov / 2) = k at *
  generalize tan (fov' / 2) = l at *
  have hk' := hk.ne'
  have hl' := hl.ne'
  have ha' := ha.ne'
  constructor
  · rintro rfl
    simp only [x_new2, y_new2]
    constructor <;> field_simp <;> ring
  · rintro ⟨ex, ey⟩
    apply GVec.ext; funext i
    have e1 : p.x = 1 / 2 - 2 * (P.x / P.z) / k := by field_simp at ex ⊢; linarith
    have e2 : p.y = 1 / 2 - 2 * ar * (P.y / P.z) / k := by field_simp at ey ⊢; linarith
    fin_cases i
    · exact e1
    · exact e2

/-- C143: so the two pictures agree if and only if the slopes do: the field of view of the projection has to be the angle whose half
has a quarter of the tangent. -/
theorem C143_exact (hv : view.Reachable) (hva : view.m.Affine) (hf : 0 < f) (h2 : 2 * f < o) (h0 : 0 < fov) (h1 : fov < π)
    (ha : 0 < ar) (fov' near far : ℝ) (g0 : 0 < fov') (g1 : fov' < π) (hnf : near < far) :
    PicturesAgree view (.new view o fov f lr ar) ar fov' near far ↔ tan (fov' / 2) = tan (fov / 2) / 4 := by
  have hk : 0 < tan (fov / 2) := tan_pos_of_pos_of_lt_pi_div_two (by linarith) (by linarith)
  have hl : 0 < tan (fov' / 2) := tan_pos_of_pos_of_lt_pi_div_two (by linarith) (by linarith)
  have ha' := ha.ne'
  constructor
  · intro h
    -- the camera space point (1, 0, -1)
    obtain ⟨W, hW⟩ : ∃ W, view.mapPointInv (new3 1 0 (-1)) = some W :=
      ⟨_, by unfold Transform.mapPointInv; exact mapPt_affine (C42_affine_inverse view hv hva) _⟩
    have hP := C35_point' view hv _ _ hW
    have hz : (new3 1 0 (-1) : Point ℝ 3).z < 0 := by rw [z_new3]; norm_num
    have hs := (C130_pixel view o fov f lr ar hv hva hf h2 h0 h1 ha W _ hP _ _).2 ⟨hz, rfl, rfl⟩
    obtain ⟨Q, hQ, hx, -⟩ := h _ _ _ hs
    obtain ⟨Q', hQ', hiff⟩ := C143_position view o fov f lr ar hv hva hf h2 h0 h1 ha fov' near far g0 g1 hnf W _ hP hz
      (filmOf fov ar (new3 1 0 (-1)))
    obtain ⟨ex, -⟩ := hiff.1 ⟨_, hs⟩
    rw [hQ, Option.some.injEq] at hQ'
    rw [← hQ', hx] at ex
    have hne : 2 * (filmOf fov ar (new3 1 0 (-1))).x - 1 ≠ 0 := by
      unfold filmOf
      rw [x_new2, x_new3, z_new3]
      intro e
      field_simp at e
      norm_num at e
    have := mul_left_cancel₀ hne ((mul_one _).trans ex)
    rw [eq_div_iff hl.ne'] at this
    linarith
  · rintro e p W t ⟨r, hr, ht, hW⟩
    obtain ⟨P, hP⟩ : ∃ P, view.mapPoint W = some P := ⟨_, mapPt_affine hva _⟩
    have hs : Shows (.new view o fov f lr ar) p W t := ⟨r, hr, ht, hW⟩
    have hz := ((C130_pixel view o fov f lr ar hv hva hf h2 h0 h1 ha W P hP p t).1 hs).1
    obtain ⟨Q, hQ, hiff⟩ := C143_position view o fov f lr ar hv hva hf h2 h0 h1 ha fov' near far g0 g1 hnf W P hP hz p
    obtain ⟨ex, ey⟩ := hiff.1 ⟨t, hs⟩
    rw [e, div_self (by positivity), mul_one] at ex ey
    exact ⟨Q, hQ, ex, by rw [ey]; field_simp⟩

/-- C143 as one would have it, with the same field of view on both sides, is false of the code for every camera: the picture traced is
four times as large (C74). -/
theorem C143_refuted (hv : view.Reachable) (hva : view.m.Affine) (hf : 0 < f) (h2 : 2 * f < o) (h0 : 0 < fov) (h1 : fov < π)
    (ha : 0 < ar) (near far : ℝ) (hnf : near < far) : ¬ PicturesAgree view (.new view o fov f lr ar) ar fov near far := by
  rw [C143_exact view o fov f lr ar hv hva hf h2 h0 h1 ha fov near far h0 h1 hnf]
  have hk : 0 < tan (fov / 2) := tan_pos_of_pos_of_lt_pi_div_two (by linarith) (by linarith)
  intro e; linarith

/-- C143: there is such a field of view for every camera. -/
theorem C143_exists (hv : view.Reachable) (hva : view.m.Affine) (hf : 0 < f) (h2 : 2 * f < o) (h0 : 0 < fov) (h1 : fov < π)
    (ha : 0 < ar) : ∃ fov', 0 < fov' ∧ fov' < π ∧ ∀ near far, near < far →
      PicturesAgree view (.new view o fov f lr ar) ar fov' near far := by
  have hk : 0 < tan (fov / 2) := tan_pos_of_pos_of_lt_pi_div_two (by linarith) (by linarith)
  have g0 : 0 < 2 * arctan (tan (fov / 2) / 4) := by have := arctan_pos.2 (by positivity : 0 < tan (fov / 2) / 4); linarith
  have g1 : 2 * arctan (tan (fov / 2) / 4) < π := by have := arctan_lt_pi_div_two (tan (fov / 2) / 4); linarith
  refine ⟨2 * arctan (tan (fov / 2) / 4), g0, g1, fun near far hnf => ?_⟩
  rw [C143_exact view o fov f lr ar hv hva hf h2 h0 h1 ha _ near far g0 g1 hnf, mul_div_cancel_left₀ _ (two_ne_zero' ℝ), tan_arctan]

/-- C143: of two points seen by one film point the one hit first by the ray is the one with the smaller depth in the projection, so
ray tracing and a depth buffer show the same one. -/
theorem C143_depth (hv : view.Reachable) (hva : view.m.Affine) (hf : 0 < f) (h2 : 2 * f < o) (h0 : 0 < fov) (h1 : fov < π)
    (ha : 0 < ar) (fov' near far : ℝ) (g0 : 0 < fov') (g1 : fov' < π) (hn : 0 < near) (hnf : near < far) (p : Point ℝ 2)
    (W W' : Point ℝ 3) (t t' : ℝ) (hs : Shows (.new view o fov f lr ar) p W t) (hs' : Shows (.new view o fov f lr ar) p W' t') :
    ∃ Q Q', (Transform.perspective fov' near far * view).mapPoint W = some Q ∧
      (Transform.perspective fov' near far * view).mapPoint W' = some Q' ∧ (Q.z < Q'.z ↔ t < t') := by
  obtain ⟨P, hP⟩ : ∃ P, view.mapPoint W = some P := ⟨_, mapPt_affine hva _⟩
  obtain ⟨P', hP'⟩ : ∃ P, view.mapPoint W' = some P := ⟨_, mapPt_affine hva _⟩
  obtain ⟨hz, hp, ht⟩ := (C130_pixel view o fov f lr ar hv hva hf h2 h0 h1 ha W P hP p t).1 hs
  obtain ⟨hz', hp', ht'⟩ := (C130_pixel view o fov f lr ar hv hva hf h2 h0 h1 ha W' P' hP' p t').1 hs'
  obtain ⟨Q, Q', hQ, hQ', hd, -⟩ := C139_depth fov' near far g0 g1 hn hnf P P' hz hz'
  refine ⟨Q, Q', C36_point _ _ W P _ hP hQ, C36_point _ _ W' P' _ hP' hQ', hd.trans ?_⟩
  have hk : 0 < tan (fov / 2) := tan_pos_of_pos_of_lt_pi_div_two (by linarith) (by linarith)
  -- both are on one line of sight: P' = m P
  have e := hp.symm.trans hp'
  unfold filmOf at e
  have ex := congrArg GVec.x e
  have ey := congrArg GVec.y e
  simp only [x_new2, y_new2] at ex ey
  have hx : P'.x / P'.z = P.x / P.z := by
    have := hk.ne'
    generalize P'.x / P'.z = a at *
    generalize P.x / P.z = b at *
    field_simp at ex
    linarith
  have hy : P'.y / P'.z = P.y / P.z := by
    have := hk.ne'
    have h4 := ha.ne'
    generalize P'.y / P'.z = a at *
    generalize P.y / P.z = b at *
    field_simp at ey
    exact mul_left_cancel₀ h4 (by linarith)
  have e3 : ∀ A : Point ℝ 3, A.z < 0 → dist0 A = -A.z * √((A.x / A.z) ^ 2 + (A.y / A.z) ^ 2 + 1) := by
    intro A hA
    unfold dist0
    rw [← Real.sqrt_sq (by linarith : 0 ≤ -A.z), ← Real.sqrt_mul (sq_nonneg _)]
    congr 1
    have := hA.ne
    field_simp
    try ring
  rw [ht, ht', e3 P hz, e3 P' hz', hx, hy]
  have hpos : 0 < √((P.x / P.z) ^ 2 + (P.y / P.z) ^ 2 + 1) := Real.sqrt_pos.2 (by positivity)
  rw [mul_lt_mul_iff_left₀ hpos, neg_lt_neg_iff]

end

/-- The hypotheses are met: a camera at the origin sees `(1, 0, -4)` and, on the same ray, `(2, 0, -8)`. -/
example : (Transform.identity : Transform ℝ).Reachable ∧ (Transform.identity : Transform ℝ).m.Affine ∧
    (∃ t, Shows (.new .identity 10 (π / 2) 1 (1 / 10) 1) (new2 1 (1 / 2)) (new3 1 0 (-4)) t) ∧
    ∃ t, Shows (.new .identity 10 (π / 2) 1 (1 / 10) 1) (new2 1 (1 / 2)) (new3 2 0 (-8)) t := by
  have hid : ∀ P : Point ℝ 3, (Transform.identity : Transform ℝ).mapPoint P = some P := by
    intro P
    unfold Transform.mapPoint
    rw [mapPt_affine (m := (Transform.identity : Transform ℝ).m) ⟨rfl, rfl, rfl, rfl⟩]
    have h1 : (Transform.identity : Transform ℝ).m.lin = 1 := by
      ext i j
      fin_cases i <;> fin_cases j <;> simp [Transform.identity, Mat4.lin, Mat4.mk4, Mat4.identity]
    congr 1
    apply GVec.ext; funext i
    rw [h1, Matrix.one_mulVec]
    fin_cases i <;> simp [Transform.identity, Mat4.trans, Mat4.mk4, Mat4.identity]
  have h : ∀ P : Point ℝ 3, P.z < 0 → filmOf (π / 2) 1 P = new2 1 (1 / 2) →
      ∃ t, Shows (.new .identity 10 (π / 2) 1 (1 / 10) 1) (new2 1 (1 / 2)) P t := fun P hz hp =>
    ⟨_, (C130_pixel .identity 10 (π / 2) 1 (1 / 10) 1 .identity ⟨rfl, rfl, rfl, rfl⟩ (by norm_num) (by norm_num)
      (by positivity) (by linarith [pi_pos]) one_pos P P (hid P) _ _).2 ⟨hz, hp.symm, rfl⟩⟩
  have ht : tan (π / 2 / 2) = 1 := by rw [show π / 2 / 2 = π / 4 by ring, tan_pi_div_four]
  refine ⟨.identity, ⟨rfl, rfl, rfl, rfl⟩, h _ (by rw [z_new3]; norm_num) ?_, h _ (by rw [z_new3]; norm_num) ?_⟩ <;>
  · unfold filmOf
    rw [ht, x_new3, y_new3, z_new3]
    norm_num
end Scarlet
