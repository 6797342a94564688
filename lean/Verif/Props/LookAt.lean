import Verif.Theory.Rigid

/-!
C136: `look_at` is determined by what it is documented to do.  The specification `LooksAt` only speaks about what the
transform does to points and vectors; `C136_exact` says that `look_at` is the one and only such transform, and the other
theorems follow from that.
-/

namespace Scarlet
open Matrix GVec

/-- What a user expects of the world-to-camera transform of a camera at `pos` looking at `target`, with `up` upwards:
a rigid motion that is not a mirror image, takes `pos` to the origin, `target` to the negative z axis, and `up` into the
upper half of the yz plane. -/
structure LooksAt (t : Transform ℝ) (pos target : Point ℝ 3) (up : Vec ℝ 3) : Prop where
  rigid : RigidMotion t
  pos : t.mapPoint pos = some (new3 0 0 0)
  target : ∃ d, 0 < d ∧ t.mapPoint target = some (new3 0 0 (-d))
  up : ∃ u w, 0 < u ∧ t.mapVec up = some (new3 0 u w)

theorem mulVec_orth {A : Matrix (Fin 3) (Fin 3) ℝ} (ho : Aᵀ * A = 1) {v w : Fin 3 → ℝ} (h : A *ᵥ v = w) : v = Aᵀ *ᵥ w := by
  rw [← h, Matrix.mulVec_mulVec, ho, Matrix.one_mulVec]

theorem lookAt_of_rows {A : Matrix (Fin 3) (Fin 3) ℝ} (ho : Aᵀ * A = 1) (hd : A.det = 1) {pos target : Point ℝ 3}
    {up : Vec ℝ 3} {d u w : ℝ} (pd : 0 < d) (pu : 0 < u) (hD : ∀ i, pos.vec i - target.vec i = d * A 2 i)
    (hU : ∀ i, up.vec i = u * A 1 i + w * A 2 i) :
    LookAtOk pos target up ∧ Transform.lookAt pos target up =
      Transform.initFromOrthogonalBasis pos (new3 (A 0 0) (A 0 1) (A 0 2)) (new3 (A 1 0) (A 1 1) (A 1 2))
        (new3 (A 2 0) (A 2 1) (A 2 2)) := by
  have ho' := mul_eq_one_comm.1 ho
  have rr : ∀ i, A i 0 * A i 0 + A i 1 * A i 1 + A i 2 * A i 2 = 1 := by
    intro i
    have := congrFun (congrFun ho' i) i
    rw [Matrix.mul_apply, Fin.sum_univ_three, Matrix.one_apply_eq] at this
    exact this
  obtain ⟨c0, c1, -⟩ := rotation_rows ho hd
  rw [cross_apply] at c0 c1
  have x0 : A 1 1 * A 2 2 - A 1 2 * A 2 1 = A 0 0 := congrFun c0 0
  have x1 : A 1 2 * A 2 0 - A 1 0 * A 2 2 = A 0 1 := congrFun c0 1
  have x2 : A 1 0 * A 2 1 - A 1 1 * A 2 0 = A 0 2 := congrFun c0 2
  have y0 : A 2 1 * A 0 2 - A 2 2 * A 0 1 = A 1 0 := congrFun c1 0
  have y1 : A 2 2 * A 0 0 - A 2 0 * A 0 2 = A 1 1 := congrFun c1 1
  have y2 : A 2 0 * A 0 1 - A 2 1 * A 0 0 = A 1 2 := congrFun c1 2
  have eD : (pos - target : Vec ℝ 3) = new3 (d * A 2 0) (d * A 2 1) (d * A 2 2) := ext3 (hD 0) (hD 1) (hD 2)
  have eU : up = new3 (u * A 1 0 + w * A 2 0) (u * A 1 1 + w * A 2 1) (u * A 1 2 + w * A 2 2) := ext3 (hU 0) (hU 1) (hU 2)
  have hok : LookAtOk pos target up := by
    rw [lookAtOk_iff]
    by_contra hn
    push Not at hn
    have n0 : (up.cross (pos - target : Vec ℝ 3)).x = 0 := hn 0
    have n1 : (up.cross (pos - target : Vec ℝ 3)).y = 0 := hn 1
    have n2 : (up.cross (pos - target : Vec ℝ 3)).z = 0 := hn 2
    rw [eD, eU] at n0 n1 n2
    simp only [x_cross, y_cross, z_cross, x_new3, y_new3, z_new3] at n0 n1 n2
    have hk : u * d ≠ 0 := (mul_pos pu pd).ne'
    have z0 : A 0 0 = 0 := by
      have : u * d * A 0 0 = 0 := by linear_combination n0 - u * d * x0
      exact (mul_eq_zero.1 this).resolve_left hk
    have z1 : A 0 1 = 0 := by
      have : u * d * A 0 1 = 0 := by linear_combination n1 - u * d * x1
      exact (mul_eq_zero.1 this).resolve_left hk
    have z2 : A 0 2 = 0 := by
      have : u * d * A 0 2 = 0 := by linear_combination n2 - u * d * x2
      exact (mul_eq_zero.1 this).resolve_left hk
    have := rr 0
    rw [z0, z1, z2] at this
    norm_num at this
  refine ⟨hok, ?_⟩
  have hN := norm_pos (ne_zero_of_cross (lookAtOk_iff.1 hok)).1
  have ez : (pos - target : Vec ℝ 3).normalize = new3 (A 2 0) (A 2 1) (A 2 2) := by rw [eD]; exact norm_axis pd (rr 2)
  obtain ⟨u0, u1, u2⟩ := normalize_comp up
  have ec : up.normalize.cross (new3 (A 2 0) (A 2 1) (A 2 2) : Vec ℝ 3) =
      new3 (u / up.norm * A 0 0) (u / up.norm * A 0 1) (u / up.norm * A 0 2) := by
    have e0 : up.x = u * A 1 0 + w * A 2 0 := hU 0
    have e1 : up.y = u * A 1 1 + w * A 2 1 := hU 1
    have e2 : up.z = u * A 1 2 + w * A 2 2 := hU 2
    refine ext3 ?_ ?_ ?_
    · rw [x_cross, u1, u2, e1, e2]; simp only [x_new3, y_new3, z_new3]; rw [← x0]; field_simp; ring
    · rw [y_cross, u0, u2, e0, e2]; simp only [x_new3, y_new3, z_new3]; rw [← x1]; field_simp; ring
    · rw [z_cross, u0, u1, e0, e1]; simp only [x_new3, y_new3, z_new3]; rw [← x2]; field_simp; ring
  have ex : (up.normalize.cross (pos - target : Vec ℝ 3).normalize).normalize = new3 (A 0 0) (A 0 1) (A 0 2) := by
    rw [ez, ec]; exact norm_axis (div_pos pu hN) (rr 0)
  have ey : (new3 (A 2 0) (A 2 1) (A 2 2) : Vec ℝ 3).cross (new3 (A 0 0) (A 0 1) (A 0 2) : Vec ℝ 3) = new3 (A 1 0) (A 1 1) (A 1 2) := by
    refine ext3 ?_ ?_ ?_
    · rw [x_cross]; simpa using y0
    · rw [y_cross]; simpa using y1
    · rw [z_cross]; simpa using y2
  unfold Transform.lookAt
  dsimp only
  rw [ex, ez, ey]

/-- C136: whatever does what `look_at` is expected to do is `look_at`, and its arguments are then non-degenerate. -/
theorem C136_unique (t : Transform ℝ) (pos target : Point ℝ 3) (up : Vec ℝ 3) (h : LooksAt t pos target up) :
    LookAtOk pos target up ∧ t = .lookAt pos target up := by
  obtain ⟨hr, hp, ⟨d, pd, ht⟩, ⟨u, w, pu, hu⟩⟩ := h
  have ho := hr.orth
  unfold Transform.mapPoint at hp ht
  unfold Transform.mapVec at hu
  rw [mapPt_affine hr.affine, Option.some.injEq] at hp ht
  rw [mapVector_affine hr.affine, Option.some.injEq] at hu
  have hp' : ∀ i, (t.m.lin *ᵥ pos.vec) i + t.m.trans i = (new3 0 0 0 : Point ℝ 3).vec i := fun i => congrFun (congrArg GVec.vec hp) i
  have ht' : ∀ i, (t.m.lin *ᵥ target.vec) i + t.m.trans i = (new3 0 0 (-d) : Point ℝ 3).vec i := fun i => congrFun (congrArg GVec.vec ht) i
  have hu' : t.m.lin *ᵥ up.vec = (new3 0 u w : Vec ℝ 3).vec := congrArg GVec.vec hu
  have tr : ∀ i, t.m.trans i = -(t.m.lin *ᵥ pos.vec) i := by
    intro i
    have := hp' i
    have z : (new3 0 0 0 : Point ℝ 3).vec i = 0 := by fin_cases i <;> rfl
    rw [z] at this; linarith
  have hD : t.m.lin *ᵥ (pos.vec - target.vec) = ![0, 0, d] := by
    rw [Matrix.mulVec_sub]
    funext i
    have a := hp' i
    have b := ht' i
    rw [Pi.sub_apply]
    fin_cases i
    · change _ = (0 : ℝ) at a; change _ = (0 : ℝ) at b; change _ = (0 : ℝ); linarith
    · change _ = (0 : ℝ) at a; change _ = (0 : ℝ) at b; change _ = (0 : ℝ); linarith
    · change _ = (0 : ℝ) at a; change _ = -d at b; change _ = d; linarith
  have eD := mulVec_orth ho hD
  have eU := mulVec_orth ho hu'
  obtain ⟨ok, e⟩ := lookAt_of_rows (pos := pos) (target := target) (up := up) ho hr.det pd pu (w := w)
    (fun i => by
      have := congrFun eD i
      rw [mulVec_three] at this
      refine Eq.trans this ?_
      change t.m.lin 0 i * 0 + t.m.lin 1 i * 0 + t.m.lin 2 i * d = d * t.m.lin 2 i
      ring)
    (fun i => by
      have := congrFun eU i
      rw [mulVec_three] at this
      refine Eq.trans this ?_
      change t.m.lin 0 i * 0 + t.m.lin 1 i * u + t.m.lin 2 i * w = u * t.m.lin 1 i + w * t.m.lin 2 i
      ring)
  refine ⟨ok, Carries.ext hr.carries (lookAt_carries ok) ?_⟩
  have haff : (Transform.lookAt pos target up).m.Affine := ⟨rfl, rfl, rfl, rfl⟩
  refine Mat4.affine_ext hr.affine haff ?_ ?_
  · rw [e]
    ext i j; fin_cases i <;> fin_cases j <;> rfl
  · rw [e]
    funext i
    rw [tr, mulVec_three]
    unfold Transform.initFromOrthogonalBasis
    simp only [dot3]
    fin_cases i <;> rfl

/-- C136: `look_at` does it. -/
theorem C136_does (pos target : Point ℝ 3) (up : Vec ℝ 3) (h : LookAtOk pos target up) :
    LooksAt (.lookAt pos target up) pos target up := by
  have hR := lookAt_rigid h
  have ho := lookAt_basis (lookAtOk_iff.1 h)
  have hd : (Transform.lookAt pos target up).m.lin.det = 1 := by
    obtain ⟨xx, yy, zz, xy, xz, yz⟩ := ho
    unfold Transform.lookAt
    dsimp only
    generalize ((up.normalize).cross (pos - target : Vec ℝ 3).normalize).normalize = x at *
    generalize (pos - target : Vec ℝ 3).normalize = z at *
    rw [Matrix.det_fin_three]
    simp only [x_cross, y_cross, z_cross] at yy xy yz
    change x.x * (z.cross x).y * z.z - x.x * (z.cross x).z * z.y - x.y * (z.cross x).x * z.z + x.y * (z.cross x).z * z.x +
      x.z * (z.cross x).x * z.y - x.z * (z.cross x).y * z.x = 1
    simp only [x_cross, y_cross, z_cross]
    linear_combination yy
  have hr : RigidMotion (.lookAt pos target up) := .of hR.carries hR.affine hR.orth hd
  obtain ⟨r, k, l, hr1, hr2, hr3, hk, hr4⟩ := C38_up pos target up h
  refine ⟨hr, C38_pos pos target up, ⟨_, ?_, C38_target pos target up h⟩, ?_⟩
  · refine Real.sqrt_pos.2 ?_
    obtain ⟨i, hi⟩ := (ne_zero_of_cross (lookAtOk_iff.1 h)).2
    have hi' : pos.vec i - target.vec i ≠ 0 := hi
    refine Finset.sum_pos' (fun j _ => sq_nonneg _) ⟨i, Finset.mem_univ i, ?_⟩
    have : target.vec i - pos.vec i ≠ 0 := fun h0 => hi' (by linarith)
    positivity
  · -- `r` is the preimage of the y axis, and `up = r / k + l (target - pos)`
    have hu := mapVector_affine hr.affine up
    refine ⟨1 / k, (((Transform.lookAt pos target up).m.lin *ᵥ up.vec) 2), one_div_pos.2 hk, hu.trans ?_⟩
    have er : (Transform.lookAt pos target up).m.lin *ᵥ r.vec = ![0, 1, 0] := by
      have h1 := mapVector_affine (hr.carries.affine_inv hr.affine) (new3 0 1 0 : Vec ℝ 3)
      have h2 : r.vec = (Transform.lookAt pos target up).minv.lin *ᵥ (new3 0 1 0 : Vec ℝ 3).vec :=
        congrArg GVec.vec (Option.some.inj (hr1.symm.trans h1))
      rw [h2, Matrix.mulVec_mulVec, (hr.carries.lin_inv hr.affine).1, Matrix.one_mulVec]
      funext i; fin_cases i <;> rfl
    have et : (Transform.lookAt pos target up).m.lin *ᵥ (target.vec - pos.vec) =
        ![0, 0, -Real.sqrt (∑ i, (target.vec i - pos.vec i) ^ 2)] := by
      have a := C38_pos pos target up
      have b := C38_target pos target up h
      unfold Transform.mapPoint at a b
      rw [mapPt_affine hr.affine, Option.some.injEq] at a b
      rw [Matrix.mulVec_sub]
      funext i
      have a' := congrFun (congrArg GVec.vec a) i
      have b' := congrFun (congrArg GVec.vec b) i
      rw [Pi.sub_apply]
      fin_cases i
      · change _ = (0 : ℝ) at a'; change _ = (0 : ℝ) at b'; change _ = (0 : ℝ); dsimp only at a' b'; linarith
      · change _ = (0 : ℝ) at a'; change _ = (0 : ℝ) at b'; change _ = (0 : ℝ); dsimp only at a' b'; linarith
      · change _ = (0 : ℝ) at a'; change _ = -Real.sqrt _ at b'; change _ = -Real.sqrt _; dsimp only at a' b'; linarith
    have eu : up.vec = (1 / k) • r.vec + l • (target.vec - pos.vec) := by
      funext i
      rw [Pi.add_apply, Pi.smul_apply, Pi.smul_apply, hr4 i, Pi.sub_apply, smul_eq_mul, smul_eq_mul]
      field_simp
      ring
    have em : (Transform.lookAt pos target up).m.lin *ᵥ up.vec = (1 / k) • ![0, 1, 0] +
        l • ![0, 0, -Real.sqrt (∑ i, (target.vec i - pos.vec i) ^ 2)] := by
      rw [eu, Matrix.mulVec_add, Matrix.mulVec_smul, Matrix.mulVec_smul, er, et]
    refine congrArg some (ext3 ?_ ?_ ?_)
    · refine (congrFun em 0).trans ?_
      change 1 / k * 0 + l * 0 = (0 : ℝ); ring
    · refine (congrFun em 1).trans ?_
      change 1 / k * 1 + l * 0 = 1 / k; ring
    · rfl

/-- C136: `look_at` is exactly the transform that looks from `pos` at `target` with `up` upwards. -/
theorem C136_exact (t : Transform ℝ) (pos target : Point ℝ 3) (up : Vec ℝ 3) :
    LooksAt t pos target up ↔ LookAtOk pos target up ∧ t = .lookAt pos target up :=
  ⟨C136_unique t pos target up, fun ⟨h, e⟩ => e ▸ C136_does pos target up h⟩

/-- C136: the doc comment (transform.rs:358-361) says that the origin is mapped to `pos`; that is what `map_inverse` does. -/
theorem C136_origin (pos target : Point ℝ 3) (up : Vec ℝ 3) (h : LookAtOk pos target up) :
    (Transform.lookAt pos target up).mapPointInv (new3 0 0 0) = some pos :=
  (lookAt_carries h).back (C38_pos pos target up)

/-- C136: `map` does not: a camera at (0,0,5) looking at the origin takes the origin to (0,0,-5). -/
theorem C136_refuted_doc : ∃ (pos target : Point ℝ 3) (up : Vec ℝ 3), LookAtOk pos target up ∧
    (Transform.lookAt pos target up).mapPoint (new3 0 0 0) = some (new3 0 0 (-5)) ∧
    (Transform.lookAt pos target up).mapPoint (new3 0 0 0) ≠ some pos := by
  have hok : LookAtOk (new3 0 0 5) (new3 0 0 0) (new3 0 1 0) := by
    rw [lookAtOk_iff]
    refine ⟨0, ?_⟩
    change ((new3 0 1 0 : Vec ℝ 3).cross _).x ≠ 0
    simp
  have e := C38_target _ _ _ hok
  have d : Real.sqrt (∑ i, ((new3 0 0 0 : Point ℝ 3).vec i - (new3 0 0 5 : Point ℝ 3).vec i) ^ 2) = 5 := by
    rw [Fin.sum_univ_three]
    change Real.sqrt (((0 : ℝ) - 0) ^ 2 + (0 - 0) ^ 2 + (0 - 5) ^ 2) = 5
    rw [show ((0 : ℝ) - 0) ^ 2 + (0 - 0) ^ 2 + (0 - 5) ^ 2 = 5 ^ 2 by norm_num]
    exact Real.sqrt_sq (by norm_num)
  rw [d] at e
  refine ⟨_, _, _, hok, e, ?_⟩
  rw [e]
  intro h
  have := congrArg GVec.z (Option.some.inj h)
  simp only [z_new3] at this
  norm_num at this

/-- C136: only the direction to the target matters, and of `up` only its direction modulo the viewing direction: the
target may be moved along the line of sight, `up` may be scaled and tilted towards or away from the target. -/
theorem C136_direction (pos target target' : Point ℝ 3) (up up' : Vec ℝ 3) (h : LookAtOk pos target up) (k a b : ℝ) (hk : 0 < k)
    (ha : 0 < a) (ht : ∀ i, target'.vec i = pos.vec i + k * (target.vec i - pos.vec i))
    (hu : ∀ i, up'.vec i = a * up.vec i + b * (target.vec i - pos.vec i)) :
    (Transform.lookAt pos target' up' : Transform ℝ) = .lookAt pos target up := by
  obtain ⟨hr, hp, ⟨d, pd, hd⟩, ⟨u, w, pu, hw⟩⟩ := C136_does pos target up h
  refine (C136_unique _ pos target' up' ⟨hr, hp, ⟨k * d, mul_pos hk pd, ?_⟩, ⟨a * u, a * w - b * d, mul_pos ha pu, ?_⟩⟩).2.symm
  all_goals
    unfold Transform.mapPoint at hp hd
    unfold Transform.mapVec at hw
    rw [mapPt_affine hr.affine, Option.some.injEq] at hp hd
    rw [mapVector_affine hr.affine, Option.some.injEq] at hw
    have hp' := fun i => congrFun (congrArg GVec.vec hp) i
    have hd' := fun i => congrFun (congrArg GVec.vec hd) i
    have hw' := fun i => congrFun (congrArg GVec.vec hw) i
    dsimp only at hp' hd' hw'
  · rw [Transform.mapPoint, mapPt_affine hr.affine]
    have e : target'.vec = (1 - k) • pos.vec + k • target.vec := by
      funext i; rw [ht]; simp only [Pi.add_apply, Pi.smul_apply, smul_eq_mul]; ring
    have key : ∀ i, ((Transform.lookAt pos target up).m.lin *ᵥ target'.vec) i + (Transform.lookAt pos target up).m.trans i =
        (1 - k) * (new3 0 0 0 : Point ℝ 3).vec i + k * (new3 0 0 (-d) : Point ℝ 3).vec i := by
      intro i
      rw [e, Matrix.mulVec_add, Matrix.mulVec_smul, Matrix.mulVec_smul, ← hp' i, ← hd' i]
      simp only [Pi.add_apply, Pi.smul_apply, smul_eq_mul]; ring
    refine congrArg some (ext3 ?_ ?_ ?_)
    · refine (key 0).trans ?_; change (1 - k) * 0 + k * 0 = (0 : ℝ); ring
    · refine (key 1).trans ?_; change (1 - k) * 0 + k * 0 = (0 : ℝ); ring
    · refine (key 2).trans ?_; change (1 - k) * 0 + k * -d = -(k * d); ring
  · rw [Transform.mapVec, mapVector_affine hr.affine]
    have e : up'.vec = a • up.vec + b • (target.vec - pos.vec) := by
      funext i; rw [hu]; simp only [Pi.add_apply, Pi.smul_apply, Pi.sub_apply, smul_eq_mul]
    have key : ∀ i, ((Transform.lookAt pos target up).m.lin *ᵥ up'.vec) i =
        a * (new3 0 u w : Vec ℝ 3).vec i + b * ((new3 0 0 (-d) : Point ℝ 3).vec i - (new3 0 0 0 : Point ℝ 3).vec i) := by
      intro i
      rw [e, Matrix.mulVec_add, Matrix.mulVec_smul, Matrix.mulVec_smul, Matrix.mulVec_sub, ← hp' i, ← hd' i, ← hw' i]
      simp only [Pi.add_apply, Pi.smul_apply, Pi.sub_apply, smul_eq_mul]; ring
    refine congrArg some (ext3 ?_ ?_ ?_)
    · refine (key 0).trans ?_; change a * 0 + b * (0 - 0) = (0 : ℝ); ring
    · refine (key 1).trans ?_; change a * u + b * (0 - 0) = a * u; ring
    · refine (key 2).trans ?_; change a * w + b * (-d - 0) = a * w - b * d; ring

/-- C136: moving the camera and what it looks at by the same rigid motion `g` changes nothing in what the camera sees:
world coordinates before the motion and after it are taken to the same camera coordinates. -/
theorem C136_move (g : Transform ℝ) (hg : RigidMotion g) (pos target pos' target' : Point ℝ 3) (up up' : Vec ℝ 3)
    (h : LookAtOk pos target up) (hp : g.mapPoint pos = some pos') (ht : g.mapPoint target = some target')
    (hu : g.mapVec up = some up') :
    LookAtOk pos' target' up' ∧ (Transform.lookAt pos' target' up' * g : Transform ℝ) = .lookAt pos target up := by
  obtain ⟨hr, hp0, ⟨d, pd, hd⟩, ⟨u, w, pu, hw⟩⟩ := C136_does pos target up h
  obtain ⟨ok, e⟩ := C136_unique (Transform.lookAt pos target up * g.inverse) pos' target' up'
    ⟨hr.mul hg.inverse, C36_point _ _ _ _ _ (hg.carries.back hp) hp0, ⟨d, pd, C36_point _ _ _ _ _ (hg.carries.back ht) hd⟩,
      ⟨u, w, pu, C36_vector _ _ _ _ _ (hg.carries.back_vec hu) hw⟩⟩
  refine ⟨ok, ?_⟩
  rw [← e]
  exact hg.carries.cancel _

/-- C136: every orientation-preserving rigid motion is the `look_at` of some camera, so every camera pose can be had. -/
theorem C136_any (t : Transform ℝ) (h : RigidMotion t) :
    ∃ (pos target : Point ℝ 3) (up : Vec ℝ 3), LookAtOk pos target up ∧ t = .lookAt pos target up := by
  have hi := h.inverse
  have hc : t.inverse.Carries := hi.carries
  have p0 := mapPt_affine hi.affine (new3 0 0 0 : Point ℝ 3)
  have p1 := mapPt_affine hi.affine (new3 0 0 (-1) : Point ℝ 3)
  have v := mapVector_affine hi.affine (new3 0 1 0 : Vec ℝ 3)
  exact ⟨_, _, _, C136_unique t _ _ _ ⟨h, hc.back p0, ⟨1, one_pos, hc.back p1⟩, ⟨1, 0, one_pos, hc.back_vec v⟩⟩⟩

/-- C136: the motions built from `translate`, the rotations, `look_at`, `*` and `inverse` are such rigid motions. -/
theorem C136_motions :
    (∀ v : Vec ℝ 3, RigidMotion (.translate v)) ∧
    (∀ (t : Transform ℝ) (axis : Vec ℝ 3) (a : ℝ), IsRotation t axis a → RigidMotion t) ∧
    (∀ (pos target : Point ℝ 3) (up : Vec ℝ 3), LookAtOk pos target up → RigidMotion (.lookAt pos target up)) ∧
    (∀ a b : Transform ℝ, RigidMotion a → RigidMotion b → RigidMotion (a * b)) ∧
    (∀ a : Transform ℝ, RigidMotion a → RigidMotion a.inverse) := by
  refine ⟨?_, ?_, fun pos target up h => (C136_does pos target up h).rigid, fun _ _ ha hb => ha.mul hb, fun _ h => h.inverse⟩
  · intro v
    have e : (Transform.translate v).m.lin = 1 := by
      ext i j; fin_cases i <;> fin_cases j <;> rfl
    exact .of (translate_carries v) ⟨rfl, rfl, rfl, rfl⟩ (by rw [e, Matrix.transpose_one, Matrix.one_mul]) (by rw [e, Matrix.det_one])
  · intro t axis a h
    have hR := h.rigid
    exact .of hR.carries hR.affine hR.orth (by rw [← Mat4.det_affine hR.affine]; exact C37_det t axis a h)

/-- A non-degenerate camera; a farther target and a longer, tilted `up` meet the hypotheses of `C136_direction`; a
quarter turn followed by a shift is a motion for `C136_move`. -/
example : LookAtOk (new3 1 2 3) (new3 0 0 0) (new3 0 1 0) ∧
    (∀ i, (new3 (-1) (-2) (-3) : Point ℝ 3).vec i = (new3 1 2 3 : Point ℝ 3).vec i +
      2 * ((new3 0 0 0 : Point ℝ 3).vec i - (new3 1 2 3 : Point ℝ 3).vec i)) ∧
    (∀ i, (new3 1 5 3 : Vec ℝ 3).vec i = 3 * (new3 0 1 0 : Vec ℝ 3).vec i +
      (-1) * ((new3 0 0 0 : Point ℝ 3).vec i - (new3 1 2 3 : Point ℝ 3).vec i)) ∧
    RigidMotion (.translate (new3 1 2 3) * .rotateZ (Real.pi / 2)) := by
  refine ⟨?_, ?_, ?_, (C136_motions.1 _).mul (C136_motions.2.1 _ _ _ (.z _))⟩
  · rw [lookAtOk_iff]
    refine ⟨0, ?_⟩
    change ((new3 0 1 0 : Vec ℝ 3).cross _).x ≠ 0
    simp
  · intro i; fin_cases i
    · change (-1 : ℝ) = 1 + 2 * (0 - 1); norm_num
    · change (-2 : ℝ) = 2 + 2 * (0 - 2); norm_num
    · change (-3 : ℝ) = 3 + 2 * (0 - 3); norm_num
  · intro i; fin_cases i
    · change (1 : ℝ) = 3 * 0 + (-1) * (0 - 1); norm_num
    · change (5 : ℝ) = 3 * 1 + (-1) * (0 - 2); norm_num
    · change (3 : ℝ) = 3 * 0 + (-1) * (0 - 3); norm_num

/-- A mirror image is not a rigid motion in this sense, so does not look at anything. -/
example (pos target : Point ℝ 3) (up : Vec ℝ 3) : ¬ LooksAt (.scale (new3 (-1) 1 1)) pos target up := by
  intro h
  have hd := h.rigid.det
  have e : (Transform.scale (new3 (-1) 1 1) : Transform ℝ).m.lin = Matrix.diagonal ![-1, 1, 1] := by
    ext i j; fin_cases i <;> fin_cases j <;> rfl
  rw [e, Matrix.det_diagonal, Fin.prod_univ_three] at hd
  change (-1 : ℝ) * 1 * 1 = 1 at hd
  norm_num at hd

end Scarlet
