import Verif.Model.Bbox
import Verif.Props.Transform2
import Verif.Props.Vector

/-! C40 (normals), C41 (boxes), C43 (panics: floats and intervals), C75 (interval points). -/

set_option linter.unusedSectionVars false

namespace Scarlet
open Matrix Flt Scarlet.Interval GVec

/-! ### C40 -/

theorem lin_inv {t : Transform ℝ} (hc : t.Carries) (ha : t.m.Affine) : t.minv.lin = t.m.lin⁻¹ := by
  have e : t.minv * t.m = Mat4.identity := by
    rw [← Mat4.toMatrix_inj, Mat4.mul_real, Mat4.identity_real]; exact hc.2
  have : t.minv.lin * t.m.lin = 1 := by rw [← Mat4.lin_mul ha, e, Mat4.lin_identity]
  exact (Matrix.inv_eq_left_inv this).symm

/-- What the code computes: the inverse transpose applied to `(n.x, n.y, n.z²)`. -/
theorem mapNrm_real (m : Mat4 ℝ) (n : Normal ℝ 3) (i : Fin 3) :
    (mapNrm m n).vec i = (m.linᵀ *ᵥ ![n.x, n.y, n.z * n.z]) i := by
  rw [mulVec_three]
  fin_cases i
  · change n.x * m.data 0 0 + n.y * m.data 1 0 + n.z * m.data 2 0 * n.z = m.data 0 0 * n.x + m.data 1 0 * n.y + m.data 2 0 * (n.z * n.z)
    ring
  · change n.x * m.data 0 1 + n.y * m.data 1 1 + n.z * m.data 2 1 * n.z = m.data 0 1 * n.x + m.data 1 1 * n.y + m.data 2 1 * (n.z * n.z)
    ring
  · change n.x * m.data 0 2 + n.y * m.data 1 2 + n.z * m.data 2 2 * n.z = m.data 0 2 * n.x + m.data 1 2 * n.y + m.data 2 2 * (n.z * n.z)
    ring

/-- C40, partial: for `n.z = 0` or `n.z = 1` the mapped normal is the inverse transpose of the linear part applied to
`n`, in both directions.  Missing: all other `n`, where the code multiplies the last term by an extra `n.z`
(see `C40_refuted`). -/
theorem C40_normal_partial (t : Transform ℝ) (h : t.Reachable) (ha : t.m.Affine) (n : Normal ℝ 3) (hz : n.z = 0 ∨ n.z = 1) :
    (t.mapNormal n).vec = (t.m.lin⁻¹)ᵀ *ᵥ n.vec ∧ (t.mapNormalInv n).vec = t.m.linᵀ *ᵥ n.vec := by
  have e : ![n.x, n.y, n.z * n.z] = n.vec := by
    funext i
    fin_cases i
    · rfl
    · rfl
    · change n.z * n.z = n.z
      rcases hz with hz | hz <;> rw [hz] <;> norm_num
  constructor
  · funext i
    change (mapNrm t.minv n).vec i = _
    rw [mapNrm_real, e, lin_inv (reachable_carries h) ha]
  · funext i
    change (mapNrm t.m n).vec i = _
    rw [mapNrm_real, e]

/-- C40, partial: then the mapped normal stays orthogonal to every mapped tangent vector. -/
theorem C40_tangent_partial (t : Transform ℝ) (h : t.Reachable) (ha : t.m.Affine) (n : Normal ℝ 3) (hz : n.z = 0 ∨ n.z = 1)
    (v u : Vec ℝ 3) (hv : n.vec ⬝ᵥ v.vec = 0) (hu : t.mapVec v = some u) : (t.mapNormal n).vec ⬝ᵥ u.vec = 0 := by
  rw [(C40_normal_partial t h ha n hz).1]
  unfold Transform.mapVec at hu
  rw [mapVector_affine ha, Option.some.injEq] at hu
  rw [← hu]
  change (t.m.lin⁻¹ᵀ *ᵥ n.vec) ⬝ᵥ (t.m.lin *ᵥ v.vec) = 0
  have e : t.m.lin⁻¹ * t.m.lin = 1 := by
    rw [← lin_inv (reachable_carries h) ha, ← Mat4.lin_mul ha]
    rw [show t.minv * t.m = Mat4.identity from (C34_reachable t h).2, Mat4.lin_identity]
  rw [Matrix.mulVec_transpose, ← Matrix.dotProduct_mulVec, Matrix.mulVec_mulVec, e, Matrix.one_mulVec, hv]

/-- C40 is false of the code: the identity does not fix the normal (0,0,2), and a mapped normal need not be orthogonal
to the mapped tangents. -/
theorem C40_refuted :
    (¬ ∀ n : Normal ℝ 3, (Transform.identity : Transform ℝ).mapNormal n = n) ∧
    (¬ ∀ (t : Transform ℝ) (n : Normal ℝ 3) (v u : Vec ℝ 3), t.Reachable → t.m.Affine → n.vec ⬝ᵥ v.vec = 0 →
      t.mapVec v = some u → (t.mapNormal n).vec ⬝ᵥ u.vec = 0) := by
  have e : ∀ n : Normal ℝ 3, (Transform.identity : Transform ℝ).mapNormal n = new3 n.x n.y (n.z * n.z) := by
    intro n
    refine ext3 ?_ ?_ ?_
    · change n.x * 1 + n.y * 0 + n.z * 0 * n.z = n.x; ring
    · change n.x * 0 + n.y * 1 + n.z * 0 * n.z = n.y; ring
    · change n.x * 0 + n.y * 0 + n.z * 1 * n.z = n.z * n.z; ring
  constructor
  · intro h
    have := congrArg GVec.z ((e (new3 0 0 2)).symm.trans (h (new3 0 0 2)))
    simp only [z_new3] at this
    norm_num at this
  · intro h
    have haff : (Transform.identity : Transform ℝ).m.Affine := ⟨rfl, rfl, rfl, rfl⟩
    have hv : (Transform.identity : Transform ℝ).mapVec (new3 (-2) 0 1) = some (new3 (-2) 0 1) := by
      rw [Transform.mapVec, mapVector_affine haff]
      change some (⟨(Mat4.identity : Mat4 ℝ).lin *ᵥ _⟩ : Vec ℝ 3) = _
      rw [Mat4.lin_identity, Matrix.one_mulVec]
    have := h Transform.identity (new3 1 0 2) (new3 (-2) 0 1) _ .identity haff
      (by rw [dotProduct, Fin.sum_univ_three]; simp) hv
    rw [e, dotProduct, Fin.sum_univ_three] at this
    simp at this
    norm_num at this

/-- The hypotheses of the partial theorems are met by an oblique affine transform and the normal (1,2,0). -/
example : (Transform.rotate (new3 1 1 1) 1 : Transform ℝ).Reachable ∧ (Transform.rotate (new3 1 1 1) 1 : Transform ℝ).m.Affine ∧
    (new3 1 2 0 : Normal ℝ 3).z = 0 := ⟨.rotate _ _ ⟨0, by simp⟩, rotate_affine _ _, rfl⟩

/-! ### C41 -/

theorem mapBboxStep_real (m : Mat4 ℝ) (bmin bmax : Fin 3 → ℝ) (acc : (Fin 4 → ℝ) × (Fin 4 → ℝ)) (ij : Fin 3 × Fin 3) :
    Bbox.mapBboxStep m bmin bmax acc ij =
      (Function.update acc.1 ij.2.castSucc (acc.1 ij.2.castSucc +
          min (m.data ij.1.castSucc ij.2.castSucc * bmin ij.2) (m.data ij.1.castSucc ij.2.castSucc * bmax ij.2)),
       Function.update acc.2 ij.2.castSucc (acc.2 ij.2.castSucc +
          max (m.data ij.1.castSucc ij.2.castSucc * bmin ij.2) (m.data ij.1.castSucc ij.2.castSucc * bmax ij.2))) := by
  unfold Bbox.mapBboxStep
  dsimp only
  by_cases h : m.data ij.1.castSucc ij.2.castSucc * bmin ij.2 < m.data ij.1.castSucc ij.2.castSucc * bmax ij.2
  · rw [if_pos (rlt_iff.2 h), min_eq_left h.le, max_eq_right h.le]
  · rw [if_neg (fun h' => h (rlt_iff.1 h')), min_eq_right (not_lt.1 h), max_eq_left (not_lt.1 h)]

/-- Point `p` lies in box `b` (component-wise, exact). -/
def Bbox.Contains (b : Bbox ℝ) (p : Point ℝ 3) : Prop := ∀ i, b.pmin.vec i ≤ p.vec i ∧ p.vec i ≤ b.pmax.vec i

theorem inside_iff {b : Bbox ℝ} {p : Point ℝ 3} : b.inside p = true ↔ b.Contains p := by
  unfold Bbox.inside Bbox.Contains
  simp only [Bool.and_eq_true, rge_iff, rle_iff, Fin.forall_fin_succ, IsEmpty.forall_iff, and_true]
  change (((((b.pmin.vec 0 ≤ p.vec 0 ∧ p.vec 0 ≤ b.pmax.vec 0) ∧ b.pmin.vec 1 ≤ p.vec 1) ∧ p.vec 1 ≤ b.pmax.vec 1) ∧
    b.pmin.vec 2 ≤ p.vec 2) ∧ p.vec 2 ≤ b.pmax.vec 2) ↔ (b.pmin.vec 0 ≤ p.vec 0 ∧ p.vec 0 ≤ b.pmax.vec 0) ∧
    (b.pmin.vec 1 ≤ p.vec 1 ∧ p.vec 1 ≤ b.pmax.vec 1) ∧ (b.pmin.vec 2 ≤ p.vec 2 ∧ p.vec 2 ≤ b.pmax.vec 2)
  tauto

/-- The smaller/larger of the two products of one matrix entry with the bounds of axis `j`. -/
noncomputable def pLo (m : Mat4 ℝ) (b : Bbox ℝ) (i j : Fin 3) : ℝ :=
  min (m.data i.castSucc j.castSucc * b.pmin.vec j) (m.data i.castSucc j.castSucc * b.pmax.vec j)
noncomputable def pHi (m : Mat4 ℝ) (b : Bbox ℝ) (i j : Fin 3) : ℝ :=
  max (m.data i.castSucc j.castSucc * b.pmin.vec j) (m.data i.castSucc j.castSucc * b.pmax.vec j)

/-- What `map_bbox` computes: column sums instead of row sums. -/
theorem mapBbox_real (m : Mat4 ℝ) (b : Bbox ℝ) :
    Bbox.mapBbox m b = Bbox.new
      ⟨fun j => m.data j.castSucc 3 + pLo m b 0 j + pLo m b 1 j + pLo m b 2 j⟩
      ⟨fun j => m.data j.castSucc 3 + pHi m b 0 j + pHi m b 1 j + pHi m b 2 j⟩ := by
  unfold Bbox.mapBbox
  simp only [List.foldl_cons, List.foldl_nil, mapBboxStep_real]
  congr 1
  · refine ext3 ?_ ?_ ?_ <;> simp [Function.update, Mat4.col] <;> rfl
  · refine ext3 ?_ ?_ ?_ <;> simp [Function.update, Mat4.col] <;> rfl

theorem new_real (p q : Point ℝ 3) (i : Fin 3) :
    (Bbox.new p q).pmin.vec i = min (p.vec i) (q.vec i) ∧ (Bbox.new p q).pmax.vec i = max (p.vec i) (q.vec i) := by
  fin_cases i <;> exact ⟨rfl, rfl⟩

theorem prod_between (a x l u : ℝ) (h1 : l ≤ x) (h2 : x ≤ u) : min (a * l) (a * u) ≤ a * x ∧ a * x ≤ max (a * l) (a * u) := by
  rcases le_total 0 a with h | h
  · exact ⟨(min_le_left _ _).trans (mul_le_mul_of_nonneg_left h1 h), (mul_le_mul_of_nonneg_left h2 h).trans (le_max_right _ _)⟩
  · exact ⟨(min_le_right _ _).trans (mul_le_mul_of_nonpos_left h2 h), (mul_le_mul_of_nonpos_left h1 h).trans (le_max_left _ _)⟩

/-- C41, partial: the mapped box of an affine transform whose linear part is diagonal (all compositions of `translate`
and `scale`) contains the image of every point of the box.  Missing: all transforms with off-diagonal entries, for
which the claim fails (`C41_refuted`). -/
theorem C41_bbox_partial (t : Transform ℝ) (ha : t.m.Affine) (hd : ∀ i j : Fin 3, i ≠ j → t.m.data i.castSucc j.castSucc = 0)
    (b : Bbox ℝ) (p : Point ℝ 3) (hp : b.inside p = true) :
    ∃ q, t.mapPoint p = some q ∧ (t.mapBox b).inside q = true := by
  refine ⟨_, mapPt_affine ha p, ?_⟩
  rw [inside_iff] at hp ⊢
  unfold Transform.mapBox Transform.matrix
  rw [mapBbox_real]
  intro i
  obtain ⟨h1, h2⟩ := prod_between (t.m.data i.castSucc i.castSucc) _ _ _ (hp i).1 (hp i).2
  rw [(new_real _ _ i).1, (new_real _ _ i).2]
  change Min.min (_ + pLo t.m b 0 i + pLo t.m b 1 i + pLo t.m b 2 i) _ ≤ (t.m.lin *ᵥ p.vec) i + t.m.data i.castSucc 3 ∧ _
  have e0 : ∀ k, k ≠ i → pLo t.m b k i = 0 ∧ pHi t.m b k i = 0 := by
    intro k hk; unfold pLo pHi; rw [hd k i hk]; simp
  have hs : (t.m.lin *ᵥ p.vec) i = t.m.data i.castSucc i.castSucc * p.vec i := by
    rw [mulVec, dotProduct, Finset.sum_eq_single i]
    · rfl
    · intro k _ hk; change t.m.data i.castSucc k.castSucc * _ = 0; rw [hd i k hk.symm, zero_mul]
    · simp
  have hlo : pLo t.m b 0 i + pLo t.m b 1 i + pLo t.m b 2 i = pLo t.m b i i := by
    rw [← Fin.sum_univ_three (fun k => pLo t.m b k i)]
    exact Finset.sum_eq_single i (fun k _ hk => (e0 k hk).1) (by simp)
  have hhi : pHi t.m b 0 i + pHi t.m b 1 i + pHi t.m b 2 i = pHi t.m b i i := by
    rw [← Fin.sum_univ_three (fun k => pHi t.m b k i)]
    exact Finset.sum_eq_single i (fun k _ hk => (e0 k hk).2) (by simp)
  rw [hs]
  change pLo t.m b i i ≤ _ at h1
  change _ ≤ pHi t.m b i i at h2
  constructor
  · refine (min_le_left _ _).trans ?_
    linarith
  · refine le_trans ?_ (le_max_right _ _)
    dsimp only
    change _ + t.m.data i.castSucc 3 ≤ _
    linarith

/-- C41 is false of the code: a quarter turn about the z axis takes the corner (1,0,0) of the segment from (1,0,0) to
(2,0,0) to (0,1,0), but the mapped box is `[1,2] × [0,0] × [0,0]`. -/
theorem C41_refuted : ¬ ∀ (t : Transform ℝ) (b : Bbox ℝ) (p q : Point ℝ 3), t.Reachable → t.m.Affine →
    b.inside p = true → t.mapPoint p = some q → (t.mapBox b).inside q = true := by
  intro h
  have haff := (rotateZ_rigid (Real.pi / 2)).affine
  have := h (.rotateZ (Real.pi / 2)) ⟨new3 1 0 0, new3 2 0 0⟩ (new3 1 0 0) _ (.rotateZ _) haff
    (by rw [inside_iff]; intro i; fin_cases i <;> simp) (mapPt_affine haff _)
  rw [inside_iff] at this
  have h0 := (this 0).1
  unfold Transform.mapBox Transform.matrix at h0
  rw [mapBbox_real, (new_real _ _ 0).1] at h0
  unfold pLo pHi Transform.rotateZ at h0
  simp [lin_apply, Mat4.trans] at h0
  norm_num at h0

/-- The hypotheses of the partial theorem are met by a mirroring scale followed by a translation. -/
example : (Transform.translate (new3 1 2 3) * Transform.scale (new3 (-1) 2 3) : Transform ℝ).m.Affine ∧
    ∀ i j : Fin 3, i ≠ j → (Transform.translate (new3 1 2 3) * Transform.scale (new3 (-1) 2 3) : Transform ℝ).m.data
      i.castSucc j.castSucc = 0 := by
  have e : ∀ i j, (Transform.translate (new3 1 2 3) * Transform.scale (new3 (-1) 2 3) : Transform ℝ).m.data i j =
      sumLoop 4 fun k => (Transform.translate (new3 1 2 3) : Transform ℝ).m.data i k *
        (Transform.scale (new3 (-1) 2 3) : Transform ℝ).m.data k j := fun i j => rfl
  unfold Mat4.Affine
  simp only [e, sumLoop_four]
  unfold Transform.translate Transform.scale
  constructor
  · simp
  · intro i j hij
    fin_cases i <;> fin_cases j <;> simp at hij ⊢

end Scarlet
