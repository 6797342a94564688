import Verif.Props.Complete
import Mathlib.Analysis.SpecialFunctions.Trigonometric.Angle

/-!
C138: the laws of the transform constructors.  Translations add, scalings multiply, a translation can be moved past any
affine transform, a rigid motion carries rotations to rotations; exactly when two rotations are the same transform and
exactly when they commute.
-/

namespace Scarlet
open Matrix GVec

/-- `a` is a whole number of turns. -/
def Turns (a : ℝ) : Prop := ∃ k : ℤ, a = k * (2 * Real.pi)

/-- `v` and `w` point in the same direction. -/
def SameDir (v w : Vec ℝ 3) : Prop := ∃ c : ℝ, 0 < c ∧ ∀ i, v.vec i = c * w.vec i

/-! ### translations and scalings -/

theorem Mat4.identity_affine : (Mat4.identity : Mat4 ℝ).Affine := ⟨rfl, rfl, rfl, rfl⟩

theorem Carries.identity : (Transform.identity : Transform ℝ).Carries := reachable_carries .identity

theorem Vec.ext_vec {v w : Vec ℝ 3} (h : ∀ i, v.vec i = w.vec i) : v = w := by
  cases v; cases w; congr; exact funext h

/-- C138: translations add, and only the zero translation is the identity. -/
theorem C138_translate (u v : Vec ℝ 3) :
    (Transform.translate u * Transform.translate v : Transform ℝ) = .translate (u + v) ∧
    (Transform.translate u).inverse = .translate (-u) ∧
    (Transform.translate u = .translate v ↔ u = v) ∧
    (Transform.translate u = (.identity : Transform ℝ) ↔ ∀ i, u.vec i = 0) := by
  refine ⟨?_, ?_, ?_, ?_⟩
  · refine Carries.ext ((translate_carries u).mul (translate_carries v)) (translate_carries _)
      (Mat4.affine_ext ((translate_affine u).mul (translate_affine v)) (translate_affine _) ?_ ?_)
    · change ((Transform.translate u).m * (Transform.translate v).m).lin = _
      rw [Mat4.lin_mul (translate_affine v), translate_lin, translate_lin, translate_lin, Matrix.mul_one]
    · change ((Transform.translate u).m * (Transform.translate v).m).trans = _
      rw [Mat4.trans_mul (translate_affine v), translate_lin, translate_trans, translate_trans, translate_trans,
        Matrix.one_mulVec, add_comm]
      rfl
  · refine Carries.ext (translate_carries u).inverse (translate_carries _) ?_
    change Mat4.mk4 (1 : ℝ) 0 0 (-u.x) 0 1 0 (-u.y) 0 0 1 (-u.z) 0 0 0 1 = Mat4.mk4 1 0 0 (-u).x 0 1 0 (-u).y 0 0 1 (-u).z 0 0 0 1
    rfl
  · refine ⟨fun h => Vec.ext_vec fun i => ?_, fun h => by rw [h]⟩
    rw [← translate_trans u, h, translate_trans]
  · refine ⟨fun h i => ?_, fun h => ?_⟩
    · rw [← translate_trans u, h]; fin_cases i <;> rfl
    · refine Carries.ext (translate_carries u) (Carries.identity) (Mat4.affine_ext (translate_affine u) Mat4.identity_affine ?_ ?_)
      · rw [translate_lin]; ext i j; fin_cases i <;> fin_cases j <;> rfl
      · rw [translate_trans]; funext i; rw [h i]; fin_cases i <;> rfl

/-- C138: scalings multiply, and only the scaling by 1, 1, 1 is the identity. -/
theorem C138_scale (u v : Vec ℝ 3) (hu : ∀ i, u.vec i ≠ 0) (hv : ∀ i, v.vec i ≠ 0) :
    (Transform.scale u * Transform.scale v : Transform ℝ) = .scale (u * v) ∧
    (Transform.scale u).inverse = .scale ⟨fun i => 1 / u.vec i⟩ ∧
    (Transform.scale u = .scale v ↔ u = v) ∧
    (Transform.scale u = (.identity : Transform ℝ) ↔ ∀ i, u.vec i = 1) := by
  have huv : ∀ i, (u * v).vec i ≠ 0 := fun i => mul_ne_zero (hu i) (hv i)
  have hi : ∀ i, (⟨fun i => 1 / u.vec i⟩ : Vec ℝ 3).vec i ≠ 0 := fun i => one_div_ne_zero (hu i)
  have diag : ∀ a b : Vec ℝ 3, Transform.scale a = .scale b → ∀ i, a.vec i = b.vec i := by
    intro a b h i
    have := congrArg (fun t : Transform ℝ => t.m.lin i i) h
    simp only [scale_lin, Matrix.diagonal_apply_eq] at this
    exact this
  have one : (Transform.scale ⟨fun _ => 1⟩ : Transform ℝ) = .identity := by
    refine Carries.ext (scale_carries _ fun _ => one_ne_zero) Carries.identity (Mat4.affine_ext (scale_affine _) Mat4.identity_affine ?_ ?_)
    · rw [scale_lin]; ext i j; fin_cases i <;> fin_cases j <;> rfl
    · rw [scale_trans]; funext i; fin_cases i <;> rfl
  refine ⟨?_, ?_, ?_, ?_⟩
  · refine Carries.ext ((scale_carries u hu).mul (scale_carries v hv)) (scale_carries _ huv)
      (Mat4.affine_ext ((scale_affine u).mul (scale_affine v)) (scale_affine _) ?_ ?_)
    · change ((Transform.scale u).m * (Transform.scale v).m).lin = _
      rw [Mat4.lin_mul (scale_affine v), scale_lin, scale_lin, scale_lin, Matrix.diagonal_mul_diagonal]
      rfl
    · change ((Transform.scale u).m * (Transform.scale v).m).trans = _
      rw [Mat4.trans_mul (scale_affine v), scale_trans, scale_trans, scale_trans, Matrix.mulVec_zero, zero_add]
  · refine Carries.ext (scale_carries u hu).inverse (scale_carries _ hi) ?_
    rfl
  · exact ⟨fun h => Vec.ext_vec (diag u v h), fun h => by rw [h]⟩
  · refine ⟨fun h => diag u ⟨fun _ => 1⟩ (h.trans one.symm), fun h => ?_⟩
    rw [show u = ⟨fun _ => 1⟩ from Vec.ext_vec h, one]

/-- C138: a translation can be moved past an affine transform: translating by `v` and then applying `t` is applying `t`
and then translating by the image of `v`. -/
theorem C138_past (t : Transform ℝ) (hc : t.Carries) (ha : t.m.Affine) (v w : Vec ℝ 3) (h : t.mapVec v = some w) :
    (t * .translate v : Transform ℝ) = .translate w * t := by
  unfold Transform.mapVec at h
  rw [mapVector_affine ha, Option.some.injEq] at h
  refine Carries.ext (hc.mul (translate_carries v)) ((translate_carries w).mul hc)
    (Mat4.affine_ext (ha.mul (translate_affine v)) ((translate_affine w).mul ha) ?_ ?_)
  · change (t.m * (Transform.translate v).m).lin = ((Transform.translate w).m * t.m).lin
    rw [Mat4.lin_mul (translate_affine v), Mat4.lin_mul ha, translate_lin, translate_lin, Matrix.mul_one, Matrix.one_mul]
  · change (t.m * (Transform.translate v).m).trans = ((Transform.translate w).m * t.m).trans
    rw [Mat4.trans_mul (translate_affine v), Mat4.trans_mul ha, translate_lin, translate_trans, translate_trans, Matrix.one_mulVec,
      ← h]
    exact add_comm _ _

/-! ### rotations -/

theorem Turns.sin_cos {a b : ℝ} : Turns (a - b) ↔ Real.cos a = Real.cos b ∧ Real.sin a = Real.sin b := by
  constructor
  · rintro ⟨k, hk⟩
    have : a = b + k * (2 * Real.pi) := by linarith
    rw [this, Real.cos_add_int_mul_two_pi, Real.sin_add_int_mul_two_pi]
    exact ⟨rfl, rfl⟩
  · rintro ⟨h1, h2⟩
    obtain ⟨k, hk⟩ := Real.Angle.angle_eq_iff_two_pi_dvd_sub.1 (Real.Angle.cos_sin_inj h1 h2)
    exact ⟨k, by rw [hk]; ring⟩

theorem Turns.cos_one {a : ℝ} : Turns a ↔ Real.cos a = 1 := by
  have h := @Turns.sin_cos a 0
  rw [sub_zero, Real.cos_zero, Real.sin_zero] at h
  rw [h]
  refine ⟨fun h => h.1, fun h => ⟨h, ?_⟩⟩
  have := Real.sin_sq_add_cos_sq a
  rw [h] at this
  nlinarith [sq_nonneg (Real.sin a)]

theorem rotate_congr {v w : Vec ℝ 3} {a b : ℝ} (hn : v.normalize = w.normalize) (hc : Real.cos a = Real.cos b)
    (hs : Real.sin a = Real.sin b) : (Transform.rotate v a : Transform ℝ) = .rotate w b := by
  have : (Transform.rotate v a).m = (Transform.rotate w b).m := by rw [rotate_m, rotate_m, hn, hc, hs]
  exact Transform.ext this (by rw [rotate_minv, rotate_minv, this])

theorem rotate_flip {v w : Vec ℝ 3} {a b : ℝ} (hn : ∀ i, v.normalize.vec i = -w.normalize.vec i) (hc : Real.cos a = Real.cos b)
    (hs : Real.sin a = -Real.sin b) : (Transform.rotate v a : Transform ℝ) = .rotate w b := by
  have hx : v.normalize.x = -w.normalize.x := hn 0
  have hy : v.normalize.y = -w.normalize.y := hn 1
  have hz : v.normalize.z = -w.normalize.z := hn 2
  have : (Transform.rotate v a).m = (Transform.rotate w b).m := by
    rw [rotate_m, rotate_m]
    simp only [hx, hy, hz, hc, hs]
    apply Mat4.mk4_congr <;> ring
  exact Transform.ext this (by rw [rotate_minv, rotate_minv, this])

theorem norm_scaled {v w : Vec ℝ 3} {c : ℝ} (h : ∀ i, v.vec i = c * w.vec i) : v.norm = |c| * w.norm := by
  rw [norm_real, norm_real, squareNorm_real, squareNorm_real, ← Real.sqrt_sq_eq_abs, ← Real.sqrt_mul (sq_nonneg c), Finset.mul_sum]
  congr 1
  refine Finset.sum_congr rfl fun i _ => ?_
  rw [h i]; ring

theorem SameDir.normalize {v w : Vec ℝ 3} (h : SameDir v w) : v.normalize = w.normalize := by
  obtain ⟨c, hc, e⟩ := h
  refine Vec.ext_vec fun i => ?_
  rw [normalize_vec, normalize_vec, norm_scaled e, abs_of_pos hc, e i, mul_div_mul_left _ _ hc.ne']

theorem SameDir.of_normalize {v w : Vec ℝ 3} (hv : ∃ i, v.vec i ≠ 0) (hw : ∃ i, w.vec i ≠ 0) (h : v.normalize = w.normalize) :
    SameDir v w := by
  have pv := norm_pos hv
  have pw := norm_pos hw
  refine ⟨v.norm / w.norm, div_pos pv pw, fun i => ?_⟩
  have := congrArg (fun u : Vec ℝ 3 => u.vec i) h
  simp only [normalize_vec] at this
  rw [div_mul_eq_mul_div, mul_div_assoc, ← this, mul_div_cancel₀ _ pv.ne']

theorem normalize_neg (v : Vec ℝ 3) (i : Fin 3) : (-v).normalize.vec i = -v.normalize.vec i := by
  have e : ∀ i, (-v).vec i = (-1) * v.vec i := fun i => by rw [neg_one_mul]; rfl
  rw [normalize_vec, normalize_vec, norm_scaled e, abs_neg, abs_one, one_mul, e i]; ring

theorem ne_zero_neg {v : Vec ℝ 3} (h : ∃ i, v.vec i ≠ 0) : ∃ i, (-v).vec i ≠ 0 := by
  obtain ⟨i, hi⟩ := h
  exact ⟨i, neg_ne_zero.2 hi⟩

/-- Rodrigues' matrix determines the axis and the angle up to sign. -/
theorem rodrigues_inj {x y z p q r c s d t : ℝ} (hu : x * x + y * y + z * z = 1) (hw : p * p + q * q + r * r = 1)
    (q00 : c + (1 - c) * x * x = d + (1 - d) * p * p) (q01 : (1 - c) * x * y - s * z = (1 - d) * p * q - t * r)
    (q02 : (1 - c) * x * z + s * y = (1 - d) * p * r + t * q) (q10 : (1 - c) * x * y + s * z = (1 - d) * p * q + t * r)
    (q11 : c + (1 - c) * y * y = d + (1 - d) * q * q) (q12 : (1 - c) * y * z - s * x = (1 - d) * q * r - t * p)
    (q20 : (1 - c) * x * z - s * y = (1 - d) * p * r - t * q) (q21 : (1 - c) * y * z + s * x = (1 - d) * q * r + t * p)
    (q22 : c + (1 - c) * z * z = d + (1 - d) * r * r) :
    c = d ∧ (c = 1 ∨ (x = p ∧ y = q ∧ z = r ∧ s = t) ∨ (x = -p ∧ y = -q ∧ z = -r ∧ s = -t)) := by
  have hc : c = d := by linear_combination (q00 + q11 + q22 - (1 - c) * hu + (1 - d) * hw) / 2
  subst hc
  refine ⟨rfl, or_iff_not_imp_left.2 fun h1 => ?_⟩
  have hk : 1 - c ≠ 0 := fun h => h1 (by linarith)
  have xx : x * x = p * p := mul_left_cancel₀ hk (by linear_combination q00)
  have yy : y * y = q * q := mul_left_cancel₀ hk (by linear_combination q11)
  have zz : z * z = r * r := mul_left_cancel₀ hk (by linear_combination q22)
  have xy : x * y = p * q := mul_left_cancel₀ hk (by linear_combination (q01 + q10) / 2)
  have xz : x * z = p * r := mul_left_cancel₀ hk (by linear_combination (q02 + q20) / 2)
  have yz : y * z = q * r := mul_left_cancel₀ hk (by linear_combination (q12 + q21) / 2)
  have sx : s * x = t * p := by linear_combination (q21 - q12) / 2
  have sy : s * y = t * q := by linear_combination (q02 - q20) / 2
  have sz : s * z = t * r := by linear_combination (q10 - q01) / 2
  obtain ⟨e, he⟩ : ∃ e, e = x * p + y * q + z * r := ⟨_, rfl⟩
  have ex : x = e * p := by rw [he]; linear_combination -x * hu + x * xx + y * xy + z * xz
  have ey : y = e * q := by rw [he]; linear_combination -y * hu + x * xy + y * yy + z * yz
  have ez : z = e * r := by rw [he]; linear_combination -z * hu + x * xz + y * yz + z * zz
  have es : s = e * t := by rw [he]; linear_combination -s * hu + x * sx + y * sy + z * sz
  have e2 : e * e = 1 := by
    have h3 : (e * e) * (p * p + q * q + r * r) = 1 := by
      linear_combination -(e * p + x) * ex - (e * q + y) * ey - (e * r + z) * ez + hu
    rw [hw, mul_one] at h3; exact h3
  rcases mul_self_eq_one_iff.1 e2 with h | h <;> rw [h] at ex ey ez es
  · left; rw [one_mul] at ex ey ez es; exact ⟨ex, ey, ez, es⟩
  · right; rw [neg_one_mul] at ex ey ez es; exact ⟨ex, ey, ez, es⟩

/-- A rotation by whole turns is the identity. -/
theorem rotate_turns {v : Vec ℝ 3} (hv : ∃ i, v.vec i ≠ 0) {a : ℝ} (h : Turns a) : (Transform.rotate v a : Transform ℝ) = .identity := by
  refine Carries.ext (rotate_carries v a hv) Carries.identity ?_
  have hc := Turns.cos_one.1 h
  have hs : Real.sin a = 0 := by
    have := Real.sin_sq_add_cos_sq a
    rw [hc] at this
    nlinarith [sq_nonneg (Real.sin a)]
  rw [rotate_m]
  simp only [hc, hs]
  change _ = Mat4.mk4 (1 : ℝ) 0 0 0 0 1 0 0 0 0 1 0 0 0 0 1
  apply Mat4.mk4_congr <;> ring

/-- C138: exactly when two rotations are the same transform: both are whole turns, or the axes point the same way and the
angles differ by whole turns, or the axes are opposite and so are the angles, up to whole turns. -/
theorem C138_rotate_eq (v w : Vec ℝ 3) (a b : ℝ) (hv : ∃ i, v.vec i ≠ 0) (hw : ∃ i, w.vec i ≠ 0) :
    (Transform.rotate v a : Transform ℝ) = .rotate w b ↔
      (Turns a ∧ Turns b) ∨ (SameDir v w ∧ Turns (a - b)) ∨ (SameDir v (-w) ∧ Turns (a + b)) := by
  have uv := unit_normalize hv
  have uw := unit_normalize hw
  constructor
  · intro h
    have hm := congrArg Transform.m h
    rw [rotate_m, rotate_m] at hm
    have q : ∀ i j, _ = _ := fun i j => congrArg (fun m : Mat4 ℝ => m.data i j) hm
    obtain ⟨hcos, h1⟩ := rodrigues_inj uv uw (q 0 0) (q 0 1) (q 0 2) (q 1 0) (q 1 1) (q 1 2) (q 2 0) (q 2 1) (q 2 2)
    rcases h1 with h1 | ⟨hx, hy, hz, hs⟩ | ⟨hx, hy, hz, hs⟩
    · exact Or.inl ⟨Turns.cos_one.2 h1, Turns.cos_one.2 (hcos ▸ h1)⟩
    · refine Or.inr (Or.inl ⟨SameDir.of_normalize hv hw (Vec.ext_vec fun i => ?_), Turns.sin_cos.2 ⟨hcos, hs⟩⟩)
      fin_cases i <;> assumption
    · refine Or.inr (Or.inr ⟨SameDir.of_normalize hv (ne_zero_neg hw) (Vec.ext_vec fun i => ?_), ?_⟩)
      · rw [normalize_neg]; fin_cases i <;> assumption
      · rw [← sub_neg_eq_add, Turns.sin_cos, Real.cos_neg, Real.sin_neg]; exact ⟨hcos, hs⟩
  · rintro (⟨ha, hb⟩ | ⟨hd, ht⟩ | ⟨hd, ht⟩)
    · rw [rotate_turns hv ha, rotate_turns hw hb]
    · obtain ⟨h1, h2⟩ := Turns.sin_cos.1 ht
      exact rotate_congr hd.normalize h1 h2
    · rw [← sub_neg_eq_add] at ht
      obtain ⟨h1, h2⟩ := Turns.sin_cos.1 ht
      rw [Real.cos_neg] at h1
      rw [Real.sin_neg] at h2
      refine rotate_flip (fun i => ?_) h1 h2
      rw [hd.normalize, normalize_neg]

theorem mk4_transpose (a b c d e f g h i j k l m n o p : ℝ) :
    (Mat4.mk4 a b c d e f g h i j k l m n o p).transpose = Mat4.mk4 a e i m b f j n c g k o d h l p := rfl

/-- C138: a rotation by whole turns, and only by whole turns, is the identity; the inverse turns the other way, which is
the same as turning about the opposite axis; the length of the axis does not matter. -/
theorem C138_rotate (v w : Vec ℝ 3) (a : ℝ) (hv : ∃ i, v.vec i ≠ 0) (hw : SameDir v w) :
    (Transform.rotate v a = (.identity : Transform ℝ) ↔ Turns a) ∧
    (Transform.rotate v a).inverse = .rotate v (-a) ∧
    (Transform.rotate v a).inverse = .rotate (-v) a ∧
    (Transform.rotate v a : Transform ℝ) = .rotate w a := by
  have z : Turns 0 := ⟨0, by simp⟩
  have inv : (Transform.rotate v a).inverse = .rotate v (-a) := by
    refine Carries.ext (rotate_carries v a hv).inverse (rotate_carries v _ hv) ?_
    change (Transform.rotate v a).minv = _
    rw [rotate_minv, rotate_m, rotate_m, Real.sin_neg, Real.cos_neg]
    dsimp only
    rw [mk4_transpose]
    apply Mat4.mk4_congr <;> ring
  refine ⟨⟨fun h => ?_, rotate_turns hv⟩, inv, ?_, rotate_congr hw.normalize rfl rfl⟩
  · rw [← rotate_turns hv z, C138_rotate_eq v v a 0 hv hv] at h
    rcases h with h | h | h
    · exact h.1
    · simpa using h.2
    · simpa using h.2
  · rw [inv]
    refine rotate_flip (fun i => ?_) (by rw [Real.cos_neg]) (by rw [Real.sin_neg])
    rw [normalize_neg, neg_neg]

theorem dot_self_norm (v : Vec ℝ 3) : v.norm = Real.sqrt (v.vec ⬝ᵥ v.vec) := by
  rw [norm_real, squareNorm_real]; rfl

theorem IsRot.dot {A : Matrix (Fin 3) (Fin 3) ℝ} (h : IsRot A) (v w : Fin 3 → ℝ) : (A *ᵥ v) ⬝ᵥ (A *ᵥ w) = v ⬝ᵥ w := by
  rw [Matrix.dotProduct_mulVec, Matrix.vecMul_mulVec, h.orth, Matrix.vecMul_one]

theorem IsRot.normalize {A : Matrix (Fin 3) (Fin 3) ℝ} (h : IsRot A) (v : Vec ℝ 3) :
    (⟨A *ᵥ v.vec⟩ : Vec ℝ 3).normalize.vec = A *ᵥ v.normalize.vec := by
  have hn : (⟨A *ᵥ v.vec⟩ : Vec ℝ 3).norm = v.norm := by rw [dot_self_norm, dot_self_norm, h.dot]
  have e : v.normalize.vec = (1 / v.norm) • v.vec := by
    funext i; rw [normalize_vec]; change v.vec i / v.norm = 1 / v.norm * v.vec i; ring
  rw [e, Matrix.mulVec_smul]
  funext i
  rw [normalize_vec, hn]
  change (A *ᵥ v.vec) i / v.norm = 1 / v.norm * (A *ᵥ v.vec) i
  ring

/-- A rotation matrix carries the rotation about `v` to the rotation about the image of `v`. -/
theorem IsRot.conj {A : Matrix (Fin 3) (Fin 3) ℝ} (h : IsRot A) (v : Vec ℝ 3) (a : ℝ) :
    A * (Transform.rotate v a).m.lin = (Transform.rotate ⟨A *ᵥ v.vec⟩ a).m.lin * A := by
  have key : ∀ x, (A * (Transform.rotate v a).m.lin) *ᵥ x = ((Transform.rotate ⟨A *ᵥ v.vec⟩ a).m.lin * A) *ᵥ x := by
    intro x
    rw [← Matrix.mulVec_mulVec, ← Matrix.mulVec_mulVec, rodrigues_lin, rodrigues_lin, h.normalize, h.dot, h.cross,
      Matrix.mulVec_add, Matrix.mulVec_add, Matrix.mulVec_smul, Matrix.mulVec_smul, Matrix.mulVec_smul]
  ext i j
  have := congrFun (key (Pi.single j 1)) i
  rw [Matrix.mulVec_single_one, Matrix.mulVec_single_one] at this
  exact this

/-- The rotation about the line through the point `p` in direction `v`, as a user writes it. -/
noncomputable def turnAbout (p : Point ℝ 3) (v : Vec ℝ 3) (a : ℝ) : Transform ℝ :=
  .translate ⟨p.vec⟩ * .rotate v a * .translate ⟨-p.vec⟩

theorem turnAbout_affine (p : Point ℝ 3) (v : Vec ℝ 3) (a : ℝ) : (turnAbout p v a).m.Affine :=
  ((translate_affine _).mul (rotate_affine v a)).mul (translate_affine _)

theorem turnAbout_lin (p : Point ℝ 3) (v : Vec ℝ 3) (a : ℝ) : (turnAbout p v a).m.lin = (Transform.rotate v a).m.lin := by
  change ((Transform.translate ⟨p.vec⟩).m * (Transform.rotate v a).m * (Transform.translate ⟨-p.vec⟩).m).lin = _
  rw [Mat4.lin_mul (translate_affine _), Mat4.lin_mul (rotate_affine v a), translate_lin, translate_lin, Matrix.mul_one, Matrix.one_mul]

theorem turnAbout_trans (p : Point ℝ 3) (v : Vec ℝ 3) (a : ℝ) :
    (turnAbout p v a).m.trans = p.vec - (Transform.rotate v a).m.lin *ᵥ p.vec := by
  change ((Transform.translate ⟨p.vec⟩).m * (Transform.rotate v a).m * (Transform.translate ⟨-p.vec⟩).m).trans = _
  rw [Mat4.trans_mul (translate_affine _), Mat4.trans_mul (rotate_affine v a), Mat4.lin_mul (rotate_affine v a), translate_lin,
    translate_trans, translate_trans, rotate_trans, Matrix.mulVec_zero, zero_add, Matrix.one_mul]
  change (Transform.rotate v a).m.lin *ᵥ (-p.vec) + p.vec = _
  rw [Matrix.mulVec_neg, neg_add_eq_sub]

/-- C138: a rigid motion carries a rotation about a line to the rotation by the same angle about the image of the line. -/
theorem C138_conjugate (g : Transform ℝ) (hg : RigidMotion g) (p q : Point ℝ 3) (v w : Vec ℝ 3) (a : ℝ) (hv : ∃ i, v.vec i ≠ 0)
    (hp : g.mapPoint p = some q) (hw : g.mapVec v = some w) :
    g * turnAbout p v a * g.inverse = turnAbout q w a := by
  unfold Transform.mapVec at hw
  rw [mapVector_affine hg.affine, Option.some.injEq] at hw
  unfold Transform.mapPoint at hp
  rw [mapPt_affine hg.affine, Option.some.injEq] at hp
  have eq : q.vec = g.m.lin *ᵥ p.vec + g.m.trans := by rw [← hp]; rfl
  have hw0 : ∃ i, w.vec i ≠ 0 := by
    by_contra hn
    push Not at hn
    obtain ⟨i, hi⟩ := hv
    apply hi
    have h0 : v.vec = g.m.linᵀ *ᵥ w.vec := by
      rw [← hw]; change _ = g.m.linᵀ *ᵥ (g.m.lin *ᵥ v.vec); rw [Matrix.mulVec_mulVec, hg.orth, Matrix.one_mulVec]
    rw [h0, show w.vec = 0 from funext hn, Matrix.mulVec_zero]; rfl
  have key : g * turnAbout p v a = turnAbout q w a * g := by
    have c1 : (turnAbout p v a).Carries := ((translate_carries _).mul (rotate_carries v a hv)).mul (translate_carries _)
    have c2 : (turnAbout q w a).Carries := ((translate_carries _).mul (rotate_carries w a hw0)).mul (translate_carries _)
    have hcj := hg.isRot.conj v a
    rw [show (⟨g.m.lin *ᵥ v.vec⟩ : Vec ℝ 3) = w from hw] at hcj
    refine Carries.ext (hg.carries.mul c1) (c2.mul hg.carries)
      (Mat4.affine_ext (hg.affine.mul (turnAbout_affine _ _ _)) ((turnAbout_affine _ _ _).mul hg.affine) ?_ ?_)
    · change (g.m * (turnAbout p v a).m).lin = ((turnAbout q w a).m * g.m).lin
      rw [Mat4.lin_mul (turnAbout_affine _ _ _), Mat4.lin_mul hg.affine, turnAbout_lin, turnAbout_lin, hcj]
    · change (g.m * (turnAbout p v a).m).trans = ((turnAbout q w a).m * g.m).trans
      rw [Mat4.trans_mul (turnAbout_affine _ _ _), Mat4.trans_mul hg.affine, turnAbout_lin, turnAbout_trans, turnAbout_trans, eq,
        Matrix.mulVec_sub, Matrix.mulVec_mulVec, hcj, Matrix.mulVec_add, Matrix.mulVec_mulVec]
      abel
  rw [key]
  exact hg.carries.inverse.cancel (turnAbout q w a)

/-- Two vectors on one line. -/
def Parallel (v w : Vec ℝ 3) : Prop := ∃ k : ℝ, ∀ i, w.vec i = k * v.vec i

theorem Turns.double {b : ℝ} (h : Turns (b + b)) : Turns b ∨ Turns (b - Real.pi) := by
  obtain ⟨k, hk⟩ := h
  rcases Int.even_or_odd' k with ⟨m, rfl | rfl⟩
  · exact Or.inl ⟨m, by push_cast at hk; linarith⟩
  · exact Or.inr ⟨m, by push_cast at hk; linarith⟩

theorem Turns.half {b : ℝ} (h : Turns (b - Real.pi)) : Turns (b + b) ∧ Real.cos b = -1 ∧ Real.sin b = 0 := by
  have h1 := Turns.sin_cos.1 h
  rw [Real.cos_pi, Real.sin_pi] at h1
  obtain ⟨k, hk⟩ := h
  exact ⟨⟨2 * k + 1, by push_cast; linarith⟩, h1⟩

/-- What a rotation leaves alone: everything if it is a whole turn, else its axis. -/
theorem rotate_fixed {v : Vec ℝ 3} (hv : ∃ i, v.vec i ≠ 0) {a : ℝ} (w : Vec ℝ 3) :
    (Transform.rotate v a).m.lin *ᵥ w.vec = w.vec ↔ Turns a ∨ Parallel v w := by
  have un : v.normalize.vec ⬝ᵥ v.normalize.vec = 1 := by
    have := unit_normalize hv
    rw [dotProduct, Fin.sum_univ_three]; exact this
  have pv := norm_pos hv
  constructor
  · intro h
    rw [Turns.cos_one]
    refine or_iff_not_imp_left.2 fun h1 => ?_
    rw [rodrigues_lin] at h
    set n := v.normalize.vec with hn
    set e := n ⬝ᵥ w.vec with he
    -- the part of `w` orthogonal to the axis
    set u : Fin 3 → ℝ := w.vec - e • n with hu
    have h2 : (1 - Real.cos a) • u = Real.sin a • crossProduct n w.vec := by
      rw [hu]; rw [← sub_eq_zero] at h ⊢
      rw [← neg_eq_zero, ← h]; module
    have h3 : u ⬝ᵥ crossProduct n w.vec = 0 := by
      rw [hu, sub_dotProduct, smul_dotProduct, dot_self_cross, dot_cross_self, smul_zero, sub_zero]
    have h4 : (1 - Real.cos a) * (u ⬝ᵥ u) = 0 := by
      have := congrArg (fun x => u ⬝ᵥ x) h2
      simp only [dotProduct_smul, h3, smul_eq_mul, mul_zero] at this
      exact this
    have h5 : u ⬝ᵥ u = 0 := (mul_eq_zero.1 h4).resolve_left fun h => h1 (by linarith)
    have h6 : u = 0 := dotProduct_self_eq_zero.1 h5
    refine ⟨e / v.norm, fun i => ?_⟩
    have h7 : w.vec i - e * n i = 0 := congrFun h6 i
    rw [hn, normalize_vec] at h7
    rw [div_mul_eq_mul_div, mul_div_assoc]; linarith
  · rintro (h | ⟨k, hk⟩)
    · rw [rotate_turns hv h]
      have : (Transform.identity : Transform ℝ).m.lin = 1 := by ext i j; fin_cases i <;> fin_cases j <;> rfl
      rw [this, Matrix.one_mulVec]
    · have hw : w.vec = (k * v.norm) • v.normalize.vec := by
        funext i
        change _ = k * v.norm * v.normalize.vec i
        rw [normalize_vec, hk i, mul_assoc, mul_div_cancel₀ _ pv.ne']
      rw [hw, Matrix.mulVec_smul]
      congr 1
      rw [rodrigues_lin, un, cross_self, smul_zero]
      module

/-- What a rotation turns round: vectors orthogonal to the axis, when it is a half turn. -/
theorem rotate_reversed {v : Vec ℝ 3} (hv : ∃ i, v.vec i ≠ 0) {a : ℝ} {w : Vec ℝ 3} (hw : ∃ i, w.vec i ≠ 0) :
    (Transform.rotate v a).m.lin *ᵥ w.vec = -w.vec ↔ Turns (a - Real.pi) ∧ v.vec ⬝ᵥ w.vec = 0 := by
  have un : v.normalize.vec ⬝ᵥ v.normalize.vec = 1 := by
    have := unit_normalize hv
    rw [dotProduct, Fin.sum_univ_three]; exact this
  have pv := norm_pos hv
  have hvn : v.vec = v.norm • v.normalize.vec := by
    funext i
    change _ = v.norm * v.normalize.vec i
    rw [normalize_vec, mul_div_cancel₀ _ pv.ne']
  have hd : v.vec ⬝ᵥ w.vec = 0 ↔ v.normalize.vec ⬝ᵥ w.vec = 0 := by
    conv_lhs => rw [hvn, smul_dotProduct, smul_eq_mul, mul_eq_zero]
    exact ⟨fun h => h.resolve_left pv.ne', Or.inr⟩
  rw [hd]
  constructor
  · intro h
    rw [rodrigues_lin] at h
    set n := v.normalize.vec with hn
    have h0 : n ⬝ᵥ w.vec = 0 := by
      have := congrArg (fun x => n ⬝ᵥ x) h
      simp only [dotProduct_add, dotProduct_smul, dot_self_cross, smul_zero, smul_eq_mul, dotProduct_neg, un] at this
      linarith
    refine ⟨?_, h0⟩
    have hww : w.vec ⬝ᵥ w.vec ≠ 0 := by
      intro h; obtain ⟨i, hi⟩ := hw; exact hi (congrFun (dotProduct_self_eq_zero.1 h) i)
    have hc : Real.cos a = -1 := by
      have := congrArg (fun x => w.vec ⬝ᵥ x) h
      simp only [dotProduct_add, dotProduct_smul, dot_cross_self, smul_zero, smul_eq_mul, dotProduct_neg, h0, mul_zero,
        zero_smul, dotProduct_zero, zero_mul, add_zero] at this
      refine mul_right_cancel₀ hww ?_
      linarith
    rw [Turns.sin_cos, Real.cos_pi, Real.sin_pi]
    refine ⟨hc, ?_⟩
    have := Real.sin_sq_add_cos_sq a
    rw [hc] at this
    nlinarith [sq_nonneg (Real.sin a)]
  · rintro ⟨h1, h2⟩
    obtain ⟨-, hc, hs⟩ := h1.half
    rw [rodrigues_lin, h2, hc, hs]
    module

/-- C138: exactly when the order of two rotations does not matter: one of them is a whole turn, or they have the same
axis, or both are half turns about orthogonal axes. -/
theorem C138_commute (v w : Vec ℝ 3) (a b : ℝ) (hv : ∃ i, v.vec i ≠ 0) (hw : ∃ i, w.vec i ≠ 0) :
    (Transform.rotate v a * Transform.rotate w b : Transform ℝ) = .rotate w b * .rotate v a ↔
      Turns a ∨ Turns b ∨ Parallel v w ∨ (v.vec ⬝ᵥ w.vec = 0 ∧ Turns (a - Real.pi) ∧ Turns (b - Real.pi)) := by
  have hA := (IsRotation.axis v a hv).isRot
  have cv := rotate_carries v a hv
  have cw := rotate_carries w b hw
  have av := rotate_affine v a
  have aw := rotate_affine w b
  set A := (Transform.rotate v a).m.lin with hAdef
  set w' : Vec ℝ 3 := ⟨A *ᵥ w.vec⟩ with hw'
  have hw'0 : ∃ i, w'.vec i ≠ 0 := by
    by_contra hn
    push Not at hn
    obtain ⟨i, hi⟩ := hw
    apply hi
    have h0 : w.vec = Aᵀ *ᵥ w'.vec := by
      rw [hw']; change _ = Aᵀ *ᵥ (A *ᵥ w.vec); rw [Matrix.mulVec_mulVec, hA.orth, Matrix.one_mulVec]
    rw [h0, show w'.vec = 0 from funext hn, Matrix.mulVec_zero]; rfl
  have hcj : A * (Transform.rotate w b).m.lin = (Transform.rotate w' b).m.lin * A := hA.conj w b
  have step : (Transform.rotate v a * Transform.rotate w b : Transform ℝ) = .rotate w b * .rotate v a ↔
      (Transform.rotate w' b : Transform ℝ) = .rotate w b := by
    constructor
    · intro h
      have hl : A * (Transform.rotate w b).m.lin = (Transform.rotate w b).m.lin * A := by
        have := congrArg (fun t : Transform ℝ => t.m.lin) h
        change ((Transform.rotate v a).m * (Transform.rotate w b).m).lin = ((Transform.rotate w b).m * (Transform.rotate v a).m).lin at this
        rwa [Mat4.lin_mul aw, Mat4.lin_mul av] at this
      refine Carries.ext (rotate_carries w' b hw'0) cw (Mat4.affine_ext (rotate_affine _ _) aw ?_ (by rw [rotate_trans, rotate_trans]))
      have := hcj.symm.trans hl
      have := congrArg (· * Aᵀ) this
      simp only [Matrix.mul_assoc, hA.orth', Matrix.mul_one] at this
      exact this
    · intro h
      refine Carries.ext (cv.mul cw) (cw.mul cv) (Mat4.affine_ext (av.mul aw) (aw.mul av) ?_ ?_)
      · change ((Transform.rotate v a).m * (Transform.rotate w b).m).lin = ((Transform.rotate w b).m * (Transform.rotate v a).m).lin
        rw [Mat4.lin_mul aw, Mat4.lin_mul av, ← hAdef, hcj, h]
      · change ((Transform.rotate v a).m * (Transform.rotate w b).m).trans = ((Transform.rotate w b).m * (Transform.rotate v a).m).trans
        rw [Mat4.trans_mul aw, Mat4.trans_mul av, rotate_trans, rotate_trans, Matrix.mulVec_zero, Matrix.mulVec_zero]
  have len : ∀ c : ℝ, 0 < c → (∀ i, w'.vec i = c * w.vec i ∨ w'.vec i = c * -w.vec i) → c = 1 := by
    intro c hc h
    have h1 : w'.vec ⬝ᵥ w'.vec = w.vec ⬝ᵥ w.vec := hA.dot _ _
    have h2 : w'.vec ⬝ᵥ w'.vec = c * c * (w.vec ⬝ᵥ w.vec) := by
      rw [dotProduct, dotProduct, Finset.mul_sum]
      refine Finset.sum_congr rfl fun i _ => ?_
      rcases h i with e | e <;> rw [e] <;> ring
    have hww : w.vec ⬝ᵥ w.vec ≠ 0 := by
      intro h; obtain ⟨i, hi⟩ := hw; exact hi (congrFun (dotProduct_self_eq_zero.1 h) i)
    have h3 : c * c = 1 := mul_right_cancel₀ hww (by rw [← h2, h1, one_mul])
    nlinarith
  rw [step, C138_rotate_eq w' w b b hw'0 hw]
  constructor
  · rintro (⟨h, -⟩ | ⟨⟨c, hc, h⟩, -⟩ | ⟨⟨c, hc, h⟩, h2⟩)
    · exact Or.inr (Or.inl h)
    · have := len c hc fun i => Or.inl (h i)
      subst this
      rcases (rotate_fixed hv w).1 (funext fun i => (h i).trans (one_mul _)) with h | h
      · exact Or.inl h
      · exact Or.inr (Or.inr (Or.inl h))
    · have := len c hc fun i => Or.inr (h i)
      subst this
      obtain ⟨h3, h4⟩ := (rotate_reversed hv hw).1 (funext fun i => (h i).trans (one_mul _))
      rcases h2.double with h5 | h5
      · exact Or.inr (Or.inl h5)
      · exact Or.inr (Or.inr (Or.inr ⟨h4, h3, h5⟩))
  · have same : w'.vec = w.vec → SameDir w' w ∧ Turns (b - b) := fun h =>
      ⟨⟨1, one_pos, fun i => by rw [h, one_mul]⟩, ⟨0, by simp⟩⟩
    rintro (h | h | h | ⟨h1, h2, h3⟩)
    · exact Or.inr (Or.inl (same ((rotate_fixed hv w).2 (Or.inl h))))
    · exact Or.inl ⟨h, h⟩
    · exact Or.inr (Or.inl (same ((rotate_fixed hv w).2 (Or.inr h))))
    · have h4 := (rotate_reversed hv hw).2 ⟨h2, h1⟩
      exact Or.inr (Or.inr ⟨⟨1, one_pos, fun i => by rw [one_mul]; exact congrFun h4 i⟩, h3.half.1⟩)

/-- Half turns about x and y commute, quarter turns about x and y do not. -/
example : (Transform.rotate (new3 1 0 0) Real.pi * Transform.rotate (new3 0 1 0) Real.pi : Transform ℝ) =
      .rotate (new3 0 1 0) Real.pi * .rotate (new3 1 0 0) Real.pi ∧
    (Transform.rotate (new3 1 0 0) (Real.pi / 2) * Transform.rotate (new3 0 1 0) (Real.pi / 2) : Transform ℝ) ≠
      .rotate (new3 0 1 0) (Real.pi / 2) * .rotate (new3 1 0 0) (Real.pi / 2) := by
  have hx : ∃ i, (new3 1 0 0 : Vec ℝ 3).vec i ≠ 0 := ⟨0, one_ne_zero⟩
  have hy : ∃ i, (new3 0 1 0 : Vec ℝ 3).vec i ≠ 0 := ⟨1, one_ne_zero⟩
  refine ⟨(C138_commute _ _ _ _ hx hy).2 (Or.inr (Or.inr (Or.inr ⟨?_, ⟨0, by simp⟩, ⟨0, by simp⟩⟩))), fun h => ?_⟩
  · rw [dotProduct, Fin.sum_univ_three]
    change (1 : ℝ) * 0 + 0 * 1 + 0 * 0 = 0; ring
  · have n1 : ¬ Turns (Real.pi / 2) := by rw [Turns.cos_one, Real.cos_pi_div_two]; exact zero_ne_one
    rcases (C138_commute _ _ _ _ hx hy).1 h with h | h | ⟨k, h⟩ | ⟨-, h, -⟩
    · exact n1 h
    · exact n1 h
    · have h1 : (1 : ℝ) = k * 0 := h 1
      rw [mul_zero] at h1
      exact one_ne_zero h1
    · have := h.half.2.1
      rw [Real.cos_pi_div_two] at this
      norm_num at this

/-- The same rotation twice: about (0,0,2) by 90 degrees and about (0,0,-3) by 270 degrees. -/
example : (Transform.rotate (new3 0 0 2) (Real.pi / 2) : Transform ℝ) = .rotate (new3 0 0 (-3)) (3 * Real.pi / 2) := by
  refine (C138_rotate_eq _ _ _ _ ⟨2, by change (2 : ℝ) ≠ 0; norm_num⟩ ⟨2, by change (-3 : ℝ) ≠ 0; norm_num⟩).2
    (Or.inr (Or.inr ⟨⟨2 / 3, by norm_num, fun i => ?_⟩, ⟨1, by push_cast; ring⟩⟩))
  fin_cases i
  · change (0 : ℝ) = 2 / 3 * -0; ring
  · change (0 : ℝ) = 2 / 3 * -0; ring
  · change (2 : ℝ) = 2 / 3 * - -3; ring

end Scarlet
