import Verif.Theory.Transform

/-!
C34 (transforms carry their inverse), C35 (map_inverse undoes map), C36 (composition), C42 (rays),
C43 (panics of map, exact part).
-/

namespace Scarlet
open Matrix GVec

/-! ### C34 -/

/-- C34: every transform built from the public constructors and operations carries its own inverse. -/
theorem C34_reachable (t : Transform ℝ) (h : t.Reachable) :
    t.matrix * t.inverseMatrix = Mat4.identity ∧ t.inverseMatrix * t.matrix = Mat4.identity := by
  have key : t.Carries := by
    induction h with
    | identity => exact ⟨by change (Mat4.identity : Mat4 ℝ).toMatrix * (Mat4.identity : Mat4 ℝ).toMatrix = 1
                            rw [Mat4.identity_real, Matrix.one_mul],
                         by change (Mat4.identity : Mat4 ℝ).toMatrix * (Mat4.identity : Mat4 ℝ).toMatrix = 1
                            rw [Mat4.identity_real, Matrix.one_mul]⟩
    | translate v => exact translate_carries v
    | scale v h => exact scale_carries v h
    | rotateX a => exact rotateX_carries a
    | rotateY a => exact rotateY_carries a
    | rotateZ a => exact rotateZ_carries a
    | rotate v a h => exact rotate_carries v a h
    | lookAt pos target up h => exact lookAt_carries h
    | perspective fov near far h1 h2 h3 h4 => exact perspective_carries h1 h2 h3 h4
    | mul a b _ _ iha ihb => exact iha.mul ihb
    | inverse a _ iha => exact iha.inverse
  simp only [← Mat4.toMatrix_inj, Mat4.mul_real, Mat4.identity_real]
  exact key

theorem reachable_carries {t : Transform ℝ} (h : t.Reachable) : t.Carries := by
  have := C34_reachable t h
  simp only [← Mat4.toMatrix_inj, Mat4.mul_real, Mat4.identity_real] at this
  exact this

/-- C34: `init_from_orthogonal_basis` of an orthonormal basis carries its inverse as well. -/
theorem C34_orthogonal_basis (pos : Point ℝ 3) (x y z : Vec ℝ 3)
    (h : ∀ a ∈ [x, y, z], a.vec ⬝ᵥ a.vec = 1) (hxy : x.vec ⬝ᵥ y.vec = 0) (hxz : x.vec ⬝ᵥ z.vec = 0)
    (hyz : y.vec ⬝ᵥ z.vec = 0) :
    let t := Transform.initFromOrthogonalBasis pos x y z
    t.matrix * t.inverseMatrix = Mat4.identity ∧ t.inverseMatrix * t.matrix = Mat4.identity := by
  have := initFromOrthogonalBasis_carries (pos := pos) (x := x) (y := y) (z := z)
    ⟨by rw [← dot3, dot_real]; exact h x (by simp), by rw [← dot3, dot_real]; exact h y (by simp),
     by rw [← dot3, dot_real]; exact h z (by simp), by rw [← dot3, dot_real]; exact hxy,
     by rw [← dot3, dot_real]; exact hxz, by rw [← dot3, dot_real]; exact hyz⟩
  intro t
  simp only [← Mat4.toMatrix_inj, Mat4.mul_real, Mat4.identity_real]
  exact this

/-- A reachable transform that uses most constructors (the degenerate cases are excluded by real hypotheses). -/
example : (((Transform.lookAt (new3 0 0 5) (new3 0 0 0) (new3 (0 : ℝ) 1 0) *
    Transform.rotate (new3 (1 : ℝ) 1 1) 1 : Transform ℝ).inverse * Transform.scale (new3 (1 : ℝ) 2 3)) *
    Transform.perspective 1 1 10 : Transform ℝ).Reachable := by
  refine .mul _ _ (.mul _ _ (.inverse _ (.mul _ _ (.lookAt _ _ _ ?_) (.rotate _ _ ⟨0, by simp⟩))) (.scale _ ?_))
    (.perspective _ _ _ (by norm_num) (lt_of_lt_of_le one_lt_two Real.two_le_pi) (by norm_num) (by norm_num))
  · rw [lookAtOk_iff]
    refine ⟨0, ?_⟩
    change ((new3 0 1 0 : Vec ℝ 3).cross _).x ≠ 0
    simp
  · intro i; fin_cases i <;> simp

/-! ### C35 -/

/-- C35: `map_inverse` undoes `map` on points: whenever `map` does not panic, `map_inverse` of the result does not
panic either and gives the original point back. -/
theorem C35_point (t : Transform ℝ) (h : t.Reachable) (p q : Point ℝ 3) (hq : t.mapPoint p = some q) :
    t.mapPointInv q = some p := by
  have hc := (reachable_carries h).2
  obtain ⟨hw, e⟩ := mapPt_some_iff.1 hq
  generalize (t.m.toMatrix *ᵥ homP p) 3 = w at *
  have e2 : t.minv.toMatrix *ᵥ homP q = w⁻¹ • homP p := by
    have : t.minv.toMatrix *ᵥ (w • homP q) = homP p := by
      rw [← e, Matrix.mulVec_mulVec, hc, Matrix.one_mulVec]
    rw [← this, Matrix.mulVec_smul, smul_smul, inv_mul_cancel₀ hw, one_smul]
  have e3 : (t.minv.toMatrix *ᵥ homP q) 3 = w⁻¹ := by rw [e2]; exact mul_one _
  exact mapPt_some_iff.2 ⟨by rw [e3]; exact inv_ne_zero hw, by rw [e3]; exact e2⟩

/-- C35: the same for vectors (whenever `map` does not panic, which includes all affine transforms). -/
theorem C35_vector (t : Transform ℝ) (h : t.Reachable) (v u : Vec ℝ 3) (hu : t.mapVec v = some u) :
    t.mapVecInv u = some v := by
  refine mapVector_some_iff.2 ?_
  rw [← mapVector_some_iff.1 hu, Matrix.mulVec_mulVec, (reachable_carries h).2, Matrix.one_mulVec]

/-- C35: and for rays. -/
theorem C35_ray (t : Transform ℝ) (h : t.Reachable) (r s : Ray ℝ) (hs : t.mapRay r = some s) : t.mapRayInv s = some r := by
  unfold Transform.mapRay at hs
  simp only [Option.bind_eq_bind, Option.bind_eq_some_iff, Option.pure_def, Option.some.injEq] at hs
  obtain ⟨o, ho, d, hd, rfl⟩ := hs
  unfold Transform.mapRayInv
  simp only [C35_point t h _ _ ho, C35_vector t h _ _ hd]
  rfl

/-- C35: in the other direction `map` undoes `map_inverse`. -/
theorem C35_point' (t : Transform ℝ) (h : t.Reachable) (p q : Point ℝ 3) (hq : t.mapPointInv p = some q) :
    t.mapPoint q = some p := C35_point t.inverse (.inverse t h) p q hq

/-- C35: `map_inverse` is `map` of `inverse()`, for every kind of object and every scalar type. -/
theorem C35_inverse {T U : Type} [Add U] [Div U] [Mul U] [Scalar U] [HMul U T U] [HAdd U T U] (t : Transform T)
    (p : Point U 3) (v : Vec U 3) (n : Normal U 3) (r : Ray U) :
    t.mapPointInv p = t.inverse.mapPoint p ∧ t.mapVecInv v = t.inverse.mapVec v ∧
      t.mapNormalInv n = t.inverse.mapNormal n ∧ t.mapRayInv r = t.inverse.mapRay r := ⟨rfl, rfl, rfl, rfl⟩

/-- The hypothesis "does not panic" is met, e.g. by a perspective transform and a point in front of the camera. -/
example : ∃ q, (Transform.perspective 1 1 10 : Transform ℝ).mapPoint (new3 1 2 (-3)) = some q := by
  rw [← Option.isSome_iff_exists, ← Option.ne_none_iff_isSome]
  intro h
  have := mapPt_none_iff.1 h
  rw [hom_apply, perspective_m] at this
  simp at this

/-! ### C36 -/

/-- C36: mapping a point by a product is mapping by the right factor, then by the left one. -/
theorem C36_point (a b : Transform ℝ) (p q r : Point ℝ 3) (hb : b.mapPoint p = some q) (ha : a.mapPoint q = some r) :
    (a * b).mapPoint p = some r := by
  obtain ⟨hw, e⟩ := mapPt_some_iff.1 hb
  obtain ⟨hv, f⟩ := mapPt_some_iff.1 ha
  generalize (b.m.toMatrix *ᵥ homP p) 3 = w at *
  generalize (a.m.toMatrix *ᵥ homP q) 3 = v at *
  have g : (a * b).m.toMatrix *ᵥ homP p = (w * v) • homP r := by
    change (a.m * b.m).toMatrix *ᵥ homP p = _
    rw [Mat4.mul_real, ← Matrix.mulVec_mulVec, e, Matrix.mulVec_smul, f, smul_smul]
  have g3 : ((a * b).m.toMatrix *ᵥ homP p) 3 = w * v := by rw [g]; exact mul_one _
  exact mapPt_some_iff.2 ⟨by rw [g3]; exact mul_ne_zero hw hv, by rw [g3]; exact g⟩

/-- C36: the same for vectors. -/
theorem C36_vector (a b : Transform ℝ) (v u w : Vec ℝ 3) (hb : b.mapVec v = some u) (ha : a.mapVec u = some w) :
    (a * b).mapVec v = some w := by
  refine mapVector_some_iff.2 ?_
  change (a.m * b.m).toMatrix *ᵥ homV v = _
  rw [Mat4.mul_real, ← Matrix.mulVec_mulVec, mapVector_some_iff.1 hb, mapVector_some_iff.1 ha]

/-- C36: affine transforms satisfy the law without any proviso. -/
theorem C36_affine (a b : Transform ℝ) (ha : a.m.Affine) (hb : b.m.Affine) (p : Point ℝ 3) (v : Vec ℝ 3) :
    (∃ r, (a * b).mapPoint p = some r ∧ (b.mapPoint p).bind a.mapPoint = some r) ∧
    (∃ w, (a * b).mapVec v = some w ∧ (b.mapVec v).bind a.mapVec = some w) := by
  constructor
  · have h1 := mapPt_affine hb p
    have h2 := mapPt_affine ha ⟨fun i => (b.m.lin *ᵥ p.vec) i + b.m.trans i⟩
    exact ⟨_, C36_point a b _ _ _ h1 h2, by
      change (mapPt b.m p).bind a.mapPoint = _; rw [h1]; exact h2⟩
  · have h1 := mapVector_affine hb v
    have h2 := mapVector_affine ha ⟨b.m.lin *ᵥ v.vec⟩
    exact ⟨_, C36_vector a b _ _ _ h1 h2, by
      change (mapVector b.m v).bind a.mapVec = _; rw [h1]; exact h2⟩

/-- C36: the inverse of a product is the product of the inverses in the opposite order. -/
theorem C36_inverse {T : Type} [Add T] [Mul T] [Scalar T] (a b : Transform T) : (a * b).inverse = b.inverse * a.inverse := rfl

/-- C36: `inverse()` of a reachable transform is a two-sided inverse for `*`. -/
theorem C36_inverse_mul (a : Transform ℝ) (h : a.Reachable) : a * a.inverse = .identity ∧ a.inverse * a = .identity := by
  obtain ⟨h1, h2⟩ := C34_reachable a h
  exact ⟨Transform.ext h1 h1, Transform.ext h2 h2⟩

/-- Non-panicking operands exist: both factors affine. -/
example : (Transform.translate (new3 1 2 3) : Transform ℝ).m.Affine ∧ (Transform.rotateX 1 : Transform ℝ).m.Affine :=
  ⟨⟨rfl, rfl, rfl, rfl⟩, ⟨rfl, rfl, rfl, rfl⟩⟩

/-! ### C42 -/

theorem eval_vec (r : Ray ℝ) (t : ℝ) (i : Fin 3) : (r.eval t).vec i = r.origin.vec i + r.direction.vec i * t := rfl

theorem affine_map_eval {m : Mat4 ℝ} (r : Ray ℝ) (t : ℝ) (i : Fin 3) :
    (m.lin *ᵥ (r.eval t).vec) i + m.trans i = ((m.lin *ᵥ r.origin.vec) i + m.trans i) + (m.lin *ᵥ r.direction.vec) i * t := by
  have : (r.eval t).vec = r.origin.vec + t • r.direction.vec := by
    funext j; rw [eval_vec, Pi.add_apply, Pi.smul_apply, smul_eq_mul]; ring
  rw [this, Matrix.mulVec_add, Matrix.mulVec_smul, Pi.add_apply, Pi.smul_apply, smul_eq_mul]
  ring

/-- C42: for an affine transform, mapping a ray never panics, keeps `tmax`, and commutes with evaluation. -/
theorem C42_map (t : Transform ℝ) (h : t.m.Affine) (r : Ray ℝ) :
    ∃ s, t.mapRay r = some s ∧ s.tmax = r.tmax ∧ ∀ k : ℝ, t.mapPoint (r.eval k) = some (s.eval k) := by
  refine ⟨⟨⟨fun i => (t.m.lin *ᵥ r.origin.vec) i + t.m.trans i⟩, ⟨t.m.lin *ᵥ r.direction.vec⟩, r.tmax⟩, ?_, rfl, fun k => ?_⟩
  · unfold Transform.mapRay Transform.mapPoint Transform.mapVec
    rw [mapPt_affine h, mapVector_affine h]; rfl
  · unfold Transform.mapPoint
    rw [mapPt_affine h]
    congr 1
    ext i
    exact affine_map_eval r k i

/-- C42: the same for `map_inverse`. -/
theorem C42_map_inverse (t : Transform ℝ) (h : t.minv.Affine) (r : Ray ℝ) :
    ∃ s, t.mapRayInv r = some s ∧ s.tmax = r.tmax ∧ ∀ k : ℝ, t.mapPointInv (r.eval k) = some (s.eval k) :=
  C42_map t.inverse h r

/-- C42: the inverse matrix of a reachable affine transform is affine, so C42 covers `map_inverse` as well. -/
theorem C42_affine_inverse (t : Transform ℝ) (h : t.Reachable) (ha : t.m.Affine) : t.minv.Affine := by
  have hc := (reachable_carries h).1
  obtain ⟨h0, h1, h2, h3⟩ := ha
  have key : ∀ j, t.minv.data 3 j = (1 : Matrix (Fin 4) (Fin 4) ℝ) 3 j := by
    intro j
    have := congrFun (congrFun hc 3) j
    rw [Matrix.mul_apply, Fin.sum_univ_four] at this
    change t.m.data 3 0 * t.minv.data 0 j + t.m.data 3 1 * t.minv.data 1 j + t.m.data 3 2 * t.minv.data 2 j +
      t.m.data 3 3 * t.minv.data 3 j = _ at this
    rw [h0, h1, h2, h3] at this
    linarith
  refine ⟨?_, ?_, ?_, ?_⟩ <;> rw [key] <;> simp

/-! ### C43, exact arithmetic -/

/-- C43: affine transforms never panic on points and vectors. -/
theorem C43_affine (m : Mat4 ℝ) (h : m.Affine) (p : Point ℝ 3) (v : Vec ℝ 3) : mapPt m p ≠ none ∧ mapVector m v ≠ none := by
  rw [mapPt_affine h, mapVector_affine h]; simp

/-- C43: mapping a point panics exactly when its homogeneous `w` is 0. -/
theorem C43_point (t : Transform ℝ) (p : Point ℝ 3) :
    t.mapPoint p = none ↔ (t.matrix.toMatrix *ᵥ homP p) 3 = 0 := mapPt_none_iff

/-- C43: mapping a vector panics exactly when the bottom row does not annihilate it. -/
theorem C43_vector (t : Transform ℝ) (v : Vec ℝ 3) :
    t.mapVec v = none ↔ (t.matrix.toMatrix *ᵥ homV v) 3 ≠ 0 := mapVector_none_iff

/-- Both cases occur: perspective maps the vector (0,0,1) and the point (1,1,0) with a panic. -/
example : (Transform.perspective 1 1 10 : Transform ℝ).mapVec (new3 0 0 1) = none ∧
    (Transform.perspective 1 1 10 : Transform ℝ).mapPoint (new3 1 1 0) = none := by
  rw [C43_vector, C43_point]
  unfold Transform.matrix
  rw [hom_apply, homV_apply, perspective_m]
  simp

end Scarlet
