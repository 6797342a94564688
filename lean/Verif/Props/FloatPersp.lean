import Verif.Theory.Rel

/-! C108: `perspective` on floats. -/

set_option linter.unusedSectionVars false

namespace Scarlet
open Flt GVec

/-- a quotient of a nearly known number, with an absolute error, by an exact one -/
theorem quot_core {u η x z q N ε : ℝ} (hu : 0 < u) (hu1 : u ≤ 1 / 1024) (he : 0 ≤ η) (hz : z ≠ 0) (hx : |x - N| ≤ ε)
    (hq : |q - x / z| ≤ u * |x / z| + η) : |q - N / z| ≤ 1.001 * (ε / |z|) + u * |N / z| + η := by
  have zp := abs_pos.2 hz
  have ε0 := (abs_nonneg _).trans hx
  have e1 : |x / z - N / z| ≤ ε / |z| := by
    rw [← sub_div, abs_div]; exact div_le_div_of_nonneg_right hx zp.le
  have e2 := abs_add_le (x / z - N / z) (N / z)
  rw [sub_add_cancel] at e2
  have e3 := mul_le_mul_of_nonneg_left (e2.trans (add_le_add_left e1 _)) hu.le
  have e4 := mul_le_mul_of_nonneg_right hu1 (show 0 ≤ ε / |z| by positivity)
  have e5 := abs_sub_le q (x / z) (N / z)
  have e6 : 0 ≤ ε / |z| := by positivity
  linarith

/-- one of the first two coordinates -/
theorem persp_xy_core {u η x z p q e E : ℝ} (hu : 0 < u) (hu1 : u ≤ 1 / 1024) (he : 0 < η) (hz : z ≠ 0)
    (hE : |e - E| ≤ 4 * u * |E|) (hp : |p - x * -e| ≤ u * |x * -e| + η) (hq : |q - p / z| ≤ u * |p / z| + η) :
    |q - -(E * x) / z| ≤ 6.1 * u * |E * x / z| + 2 * (η / |z|) + η := by
  have zp := abs_pos.2 hz
  have P := abs_nonneg (E * x)
  have e1 : |x * -e - -(E * x)| ≤ 4 * u * |E * x| := by
    rw [show x * -e - -(E * x) = -(x * (e - E)) by ring, abs_neg, abs_mul, abs_mul]
    have := mul_le_mul_of_nonneg_left hE (abs_nonneg x)
    linarith
  have e2 : |x * -e| ≤ 1.01 * |E * x| := by
    have := abs_add_le (x * -e - -(E * x)) (-(E * x))
    rw [sub_add_cancel, abs_neg] at this
    have := mul_le_mul_of_nonneg_right hu1 P
    linarith
  have e3 : |p - -(E * x)| ≤ 5.01 * u * |E * x| + η := by
    have := abs_sub_le p (x * -e) (-(E * x))
    have := mul_le_mul_of_nonneg_left e2 hu.le
    linarith
  have e4 := quot_core hu hu1 he.le hz e3 hq
  have e5 : |-(E * x) / z| = |E * x / z| := by rw [neg_div, abs_neg]
  have e6 : (5.01 * u * |E * x| + η) / |z| = 5.01 * u * |E * x / z| + η / |z| := by rw [abs_div]; field_simp
  rw [e5, e6] at e4
  have e7 : 0 ≤ η / |z| := by positivity
  have e8 : 0 ≤ u * |E * x / z| := by positivity
  linarith

/-- the depth coordinate -/
theorem persp_z_core {u η z p s q a b A B : ℝ} (hu : 0 < u) (hu1 : u ≤ 1 / 1024) (he : 0 < η) (hz : z ≠ 0)
    (hA : |a - A| ≤ 2.1 * u * |A|) (hB : |b - B| ≤ 3.1 * u * |B|) (hp : |p - z * a| ≤ u * |z * a| + η)
    (hs : |s - (p + b)| ≤ u * |p + b|) (hq : |q - s / z| ≤ u * |s / z| + η) :
    |q - (A * z + B) / z| ≤ 6 * u * (|A| + |B / z|) + 2 * (η / |z|) + η := by
  have zp := abs_pos.2 hz
  have PA := mul_nonneg (abs_nonneg z) (abs_nonneg A)
  have PB := abs_nonneg B
  have e1 : |z * a - A * z| ≤ 2.1 * u * (|z| * |A|) := by
    rw [show z * a - A * z = z * (a - A) by ring, abs_mul]
    have := mul_le_mul_of_nonneg_left hA (abs_nonneg z)
    linarith
  have e2 : |z * a| ≤ 1.01 * (|z| * |A|) := by
    have := abs_add_le (z * a - A * z) (A * z)
    rw [sub_add_cancel, abs_mul A z, mul_comm |A|] at this
    have := mul_le_mul_of_nonneg_right hu1 PA
    linarith
  have e3 : |p - A * z| ≤ 3.11 * u * (|z| * |A|) + η := by
    have := abs_sub_le p (z * a) (A * z)
    have := mul_le_mul_of_nonneg_left e2 hu.le
    linarith
  have e4 : |p + b - (A * z + B)| ≤ 3.11 * u * (|z| * |A| + |B|) + η := by
    rw [show p + b - (A * z + B) = (p - A * z) + (b - B) by ring]
    have := abs_add_le (p - A * z) (b - B)
    have := mul_nonneg hu.le PB
    linarith
  have e5 : |A * z + B| ≤ |z| * |A| + |B| := by
    have := abs_add_le (A * z) B; rw [abs_mul A z, mul_comm |A|] at this; exact this
  have e6 : |p + b| ≤ 1.01 * (|z| * |A| + |B|) + η := by
    have := abs_add_le (p + b - (A * z + B)) (A * z + B); rw [sub_add_cancel] at this
    have := mul_le_mul_of_nonneg_right hu1 (add_nonneg PA PB)
    linarith
  have e7 : |s - (A * z + B)| ≤ 4.13 * u * (|z| * |A| + |B|) + 1.001 * η := by
    have := abs_sub_le s (p + b) (A * z + B)
    have := mul_le_mul_of_nonneg_left e6 hu.le
    have := mul_le_mul_of_nonneg_right hu1 he.le
    have := mul_nonneg hu.le (add_nonneg PA PB)
    linarith
  have e8 := quot_core hu hu1 he.le hz e7 hq
  have e9 : (4.13 * u * (|z| * |A| + |B|) + 1.001 * η) / |z| = 4.13 * (u * (|A| + |B / z|)) + 1.001 * (η / |z|) := by
    rw [abs_div]; field_simp
  have e10 : |(A * z + B) / z| ≤ |A| + |B / z| := by
    rw [add_div, mul_div_cancel_right₀ _ hz]; exact abs_add_le _ _
  have e11 := mul_le_mul_of_nonneg_left e10 hu.le
  have e12 : 0 ≤ η / |z| := by positivity
  have e13 : 0 ≤ u * (|A| + |B / z|) := by positivity
  rw [e9] at e8
  linarith

variable {mw ew : Nat} [FltImpl mw ew] [LawfulFlt mw ew] [Libm mw ew]

/-- what `perspective` needs to be accurate: a field of view between 0 and π whose half does not underflow and whose tangent
is computed to one float and has a reciprocal that does not underflow; clipping planes with `0 < near < far` and without
underflow or overflow in the entries of the matrix -/
structure PerspRegular (fov near far : Flt mw ew) : Prop where
  fovFin : fov.isFin = true
  fovPos : 0 < fov.toReal
  fovPi : fov.toReal < Real.pi
  fovBig : etaRnd mw ew ≤ uRnd mw * (fov.toReal / 2)
  tanAcc : AccurateAt (Libm.tan : Flt mw ew → Flt mw ew) Real.tan (fov * GFloat.half)
  tanFin : (GFloat.nextUp (Libm.tan (fov * GFloat.half))).isFin = true
  tanSmall : 2 * etaRnd mw ew * Real.tan (fov.toReal / 2) ≤ uRnd mw
  nearFin : near.isFin = true
  farFin : far.isFin = true
  nearPos : 0 < near.toReal
  nearFar : near.toReal < far.toReal
  nearBig : 2 * etaRnd mw ew ≤ uRnd mw * near.toReal
  prodBig : etaRnd mw ew ≤ uRnd mw * (far.toReal * near.toReal)
  prodFin : (far * near).isFin = true
  aFin : (far / (far - near)).isFin = true
  bFin : (far * near / (far - near)).isFin = true

variable {fov near far : Flt mw ew}

/-- the exact entries -/
noncomputable def perspE (fov : ℝ) : ℝ := 1 / Real.tan (fov / 2)

theorem tan_core {u η c T : ℝ} (hu : 0 < u) (hu1 : u ≤ 1 / 1024) (hT : 0 < T) (he : η ≤ u * T)
    (h : |c - T| ≤ Max.max (2 * η) (2 * u * |c|)) : |c - T| ≤ 2.01 * u * |T| ∧ 0 < c := by
  rw [abs_of_pos hT]
  have hc : |c| ≤ 1.01 * T := by
    have h1 := abs_add_le (c - T) T; rw [sub_add_cancel, abs_of_pos hT] at h1
    rcases le_max_iff.1 h with h2 | h2
    · nlinarith
    · have := mul_le_mul_of_nonneg_right hu1 (abs_nonneg c)
      nlinarith [abs_nonneg c]
  have h3 : |c - T| ≤ 2.01 * u * T ∨ |c - T| ≤ 2.02 * u * T := by
    right
    refine h.trans (max_le ?_ ?_)
    · nlinarith [mul_pos hu hT]
    · nlinarith
  have h2 : |c - T| ≤ 2.02 * u * T := by rcases h3 with h | h <;> nlinarith [mul_pos hu hT]
  have hc' : |c| ≤ (1 + 2.02 * u) * T := by
    have h1 := abs_add_le (c - T) T; rw [sub_add_cancel, abs_of_pos hT] at h1; linarith
  have h4 : |c - T| ≤ 2.01 * u * T := by
    refine h.trans (max_le ?_ ?_)
    · nlinarith [mul_pos hu hT]
    · have := mul_le_mul_of_nonneg_left hc' hu.le
      have := mul_le_mul_of_nonneg_right hu1 (mul_pos hu hT).le
      nlinarith
  refine ⟨h4, ?_⟩
  have := (abs_le.1 h4).1
  have := mul_le_mul_of_nonneg_right hu1 hT.le
  linarith

/-- the tangent of half the field of view -/
theorem tan_rel (hm : 9 ≤ mw) (fovFin : fov.isFin = true) (fovPos : 0 < fov.toReal) (fovPi : fov.toReal < Real.pi)
    (fovBig : etaRnd mw ew ≤ uRnd mw * (fov.toReal / 2)) (tanAcc : AccurateAt (Libm.tan : Flt mw ew → Flt mw ew) Real.tan (fov * GFloat.half))
    (tanFin : (GFloat.nextUp (Libm.tan (fov * GFloat.half))).isFin = true) :
    Rel (Libm.tan (fov * GFloat.half)) (Real.tan (fov.toReal / 2)) 2.01 ∧ 0 < (Libm.tan (fov * GFloat.half)).toReal ∧
    0 < Real.tan (fov.toReal / 2) := by
  have u0 := uRnd_pos (mw := mw)
  have e0 := etaRnd_pos (mw := mw) (ew := ew)
  have fp := fovPos
  have hx : 0 < fov.toReal / 2 := by linarith
  have hT : fov.toReal / 2 ≤ Real.tan (fov.toReal / 2) := (Real.lt_tan hx (by linarith [fovPi])).le
  have T0 : 0 < Real.tan (fov.toReal / 2) := lt_of_lt_of_le hx hT
  obtain ⟨fh, vh⟩ := half_exact fovFin (by rw [abs_of_pos hx]; exact fovBig)
  have acc := tanAcc
  have kpos : 0 < (Libm.tan (fov * GFloat.half) : Flt mw ew).key := by
    have hn : (Libm.tan (fov * GFloat.half) : Flt mw ew).isNaN = false := by
      have := acc.lo.1; rwa [isNaN_nextDown] at this
    have := acc.pos.2 (by rw [vh]; exact T0)
    have hz := (val_lt_iff (x := (Scalar.zero : Flt mw ew)) szero_notNaN hn).1 (by
      rw [val_of_isFin isFin_szero, toReal_szero]; exact_mod_cast this)
    rwa [key_szero] at hz
  have hn : (Libm.tan (fov * GFloat.half) : Flt mw ew).isNaN = false := by
    have := acc.lo.1; rwa [isNaN_nextDown] at this
  have fd : (GFloat.nextDown (Libm.tan (fov * GFloat.half) : Flt mw ew)).isFin = true := by
    obtain ⟨nd, kd⟩ := nextDown_key hn
    obtain ⟨nu, ku⟩ := nextUp_key hn
    have k2 := isFin_iff_key.1 tanFin
    have kb := key_bounds hn
    have := kInf_pos (mw := mw) (ew := ew)
    exact isFin_iff_key.2 ⟨by omega, by omega⟩
  obtain ⟨fc, ec⟩ := accurate_rel acc fd tanFin
  rw [vh] at ec
  obtain ⟨c1, c2⟩ := tan_core u0 (uRnd_small hm) T0 (fovBig.trans (mul_le_mul_of_nonneg_left hT u0.le)) ec
  exact ⟨⟨fc, c1⟩, c2, T0⟩

theorem persp_tan (hm : 9 ≤ mw) (h : PerspRegular fov near far) :
    Rel (Libm.tan (fov * GFloat.half)) (Real.tan (fov.toReal / 2)) 2.01 ∧ 0 < (Libm.tan (fov * GFloat.half)).toReal ∧
    0 < Real.tan (fov.toReal / 2) :=
  tan_rel hm h.fovFin h.fovPos h.fovPi h.fovBig h.tanAcc h.tanFin

theorem persp_e (hm : 9 ≤ mw) (h : PerspRegular fov near far) (fe : (GFloat.recip (Libm.tan (fov * GFloat.half)) : Flt mw ew).isFin = true) :
    Rel (GFloat.recip (Libm.tan (fov * GFloat.half)) : Flt mw ew) (perspE fov.toReal) 3.04 := by
  obtain ⟨rt, c0, T0⟩ := persp_tan hm h
  have u0 := uRnd_pos (mw := mw)
  have u1 := uRnd_small hm
  have e0 := etaRnd_pos (mw := mw) (ew := ew)
  refine rel_div hm (k := 0) ((rel_exact sone_spec.1).eq sone_spec.2) rt fe (Or.inr ?_) le_rfl (by norm_num) T0.ne' (by norm_num) (by norm_num)
  have hc := rt.abs_le
  rw [abs_of_pos c0, abs_of_pos T0] at hc
  rw [sone_spec.2, abs_of_pos (by positivity), mul_one_div, le_div_iff₀ c0]
  have := h.tanSmall
  have : (1 + 2.01 * uRnd mw) * Real.tan (fov.toReal / 2) ≤ 2 * Real.tan (fov.toReal / 2) :=
    mul_le_mul_of_nonneg_right (by linarith) T0.le
  have := mul_le_mul_of_nonneg_left (hc.trans this) e0.le
  linarith

theorem persp_ab (hm : 9 ≤ mw) (hw : mw + 3 ≤ 2 ^ (ew - 1)) (h : PerspRegular fov near far) :
    Rel (far / (far - near)) (far.toReal / (far.toReal - near.toReal)) 2.1 ∧
    Rel (far * near / (far - near)) (far.toReal * near.toReal / (far.toReal - near.toReal)) 3.1 := by
  have u0 := uRnd_pos (mw := mw)
  have u1 := uRnd_small hm
  have e0 := etaRnd_pos (mw := mw) (ew := ew)
  have n0 := h.nearPos
  have nf := h.nearFar
  have f0 : 0 < far.toReal := n0.trans nf
  have d0 : 0 < far.toReal - near.toReal := by linarith
  obtain ⟨-, nd, kd⟩ := isFin_of_div h.aFin
  have fd : (far - near).isFin = true := by
    have hk := (sub_fin h.farFin h.nearFin).2
    refine fin_below (B := far) h.farFin hk ?_
    rw [abs_of_pos d0]; linarith
  have rd := rel_sub_exact h.farFin h.nearFin fd
  have bd := rd.2
  rw [one_mul, abs_of_pos d0] at bd
  obtain ⟨b1, b2⟩ := _root_.abs_le.1 bd
  have ud : uRnd mw * (far.toReal - near.toReal) ≤ 1 / 1024 * (far.toReal - near.toReal) := mul_le_mul_of_nonneg_right u1 d0.le
  have dd : (far - near).toReal ≤ 1.001 * (far.toReal - near.toReal) := by linarith
  have dp : 0 < (far - near).toReal := by linarith
  have eu := eta_le_sq (mw := mw) (ew := ew) hw
  constructor
  · refine rel_div hm (k := 0) (rel_exact h.farFin) rd h.aFin (Or.inr ?_) le_rfl (by norm_num) d0.ne' (by norm_num) (by norm_num)
    rw [abs_of_pos (by positivity)]
    have : 1 / 2 ≤ far.toReal / (far - near).toReal := by rw [le_div_iff₀ dp]; linarith
    have := mul_le_mul_of_nonneg_left this u0.le
    have : uRnd mw ^ 2 ≤ uRnd mw * (1 / 1024) := by rw [sq]; exact mul_le_mul_of_nonneg_left u1 u0.le
    linarith
  · have rp : Rel (far * near) (far.toReal * near.toReal) 1 :=
      rel_mul hm (k := 0) (l := 0) (rel_exact h.farFin) (rel_exact h.nearFin) h.prodFin
        (Or.inr (by rw [abs_of_pos (by positivity)]; exact h.prodBig)) le_rfl le_rfl (by norm_num)
    refine rel_div hm rp rd h.bFin (Or.inr ?_) (by norm_num) (by norm_num) d0.ne' (by norm_num) (by norm_num)
    have bp := rp.2
    rw [one_mul, abs_of_pos (mul_pos f0 n0)] at bp
    have q1 := (_root_.abs_le.1 bp).1
    have up := mul_le_mul_of_nonneg_right u1 (mul_pos f0 n0).le
    have pp : 0.99 * (far.toReal * near.toReal) ≤ (far * near).toReal := by linarith [mul_pos f0 n0]
    have : near.toReal / 2 ≤ (far * near).toReal / (far - near).toReal := by
      rw [le_div_iff₀ dp]
      have := mul_le_mul_of_nonneg_left dd n0.le
      nlinarith [mul_pos f0 n0, mul_pos n0 n0]
    have hq : 0 < (far * near).toReal / (far - near).toReal := by linarith
    rw [abs_of_pos hq]
    have := mul_le_mul_of_nonneg_left this u0.le
    linarith [h.nearBig]

theorem persp_form (fov near far : Flt mw ew) : ∃ e a b : Flt mw ew,
    e = GFloat.recip (Libm.tan (fov * GFloat.half)) ∧ a = far / (far - near) ∧ b = far * near / (far - near) ∧
    (Transform.perspective fov near far).m = Mat4.mk4 (-e) Scalar.zero Scalar.zero Scalar.zero Scalar.zero (-e) Scalar.zero
      Scalar.zero Scalar.zero Scalar.zero a b Scalar.zero Scalar.zero Scalar.one Scalar.zero := ⟨_, _, _, rfl, rfl, rfl, rfl⟩

/-- the map of a matrix of this shape -/
theorem persp_map {e a b : Flt mw ew} {p : Point (Flt mw ew) 3} (hp : ∀ i, (p.vec i).isFin = true) (hz : (p.vec 2).toReal ≠ 0) :
    ∃ w : Flt mw ew, Same w p.z ∧
      mapPt (Mat4.mk4 (-e) Scalar.zero Scalar.zero Scalar.zero Scalar.zero (-e) Scalar.zero
        Scalar.zero Scalar.zero Scalar.zero a b Scalar.zero Scalar.zero Scalar.one Scalar.zero) p =
      some (new3 ((p.x * -e + p.y * Scalar.zero + p.z * Scalar.zero + Scalar.zero) / w)
        ((p.x * Scalar.zero + p.y * -e + p.z * Scalar.zero + Scalar.zero) / w)
        ((p.x * Scalar.zero + p.y * Scalar.zero + p.z * a + b) / w)) := by
  have hw : Same (p.x * Scalar.zero + p.y * Scalar.zero + p.z * Scalar.one + Scalar.zero) p.z :=
    add_zero_same (zero_add_same (add_zero_same (mul_zero_same (hp 0)) (mul_zero_same (hp 1))) (mul_one_same (hp 2))) szero_same
  refine ⟨_, hw, if_neg ?_⟩
  change ¬ Scalar.eq (p.x * Scalar.zero + p.y * Scalar.zero + p.z * Scalar.one + Scalar.zero) (Scalar.zero : Flt mw ew) = true
  intro hc
  have := (seq_iff.1 hc).2.2
  rw [hw.2.2, ← toReal_eq_iff, toReal_szero] at this
  exact hz this

/-- C108: on floats `perspective` never panics on a point off the plane `z = 0`, and the image is
`(-E x/z, -E y/z, A + B/z)` with `E = 1/tan(fov/2)`, `A = far/(far-near)`, `B = far·near/(far-near)`, up to six units of
rounding of the magnitudes involved (and underflow, `2η/|z| + η`). -/
theorem C108_perspective (hm : 9 ≤ mw) (hw : mw + 3 ≤ 2 ^ (ew - 1)) (h : PerspRegular fov near far)
    {p : Point (Flt mw ew) 3} (hp : ∀ i, (p.vec i).isFin = true) (hz : (p.vec 2).toReal ≠ 0) :
    ∃ q, (Transform.perspective fov near far).mapPoint p = some q ∧
      ((q.vec 0).isFin = true → |(q.vec 0).toReal - -(1 / Real.tan (fov.toReal / 2) * (p.vec 0).toReal) / (p.vec 2).toReal| ≤
        6.1 * uRnd mw * |1 / Real.tan (fov.toReal / 2) * (p.vec 0).toReal / (p.vec 2).toReal| +
          2 * (etaRnd mw ew / |(p.vec 2).toReal|) + etaRnd mw ew) ∧
      ((q.vec 1).isFin = true → |(q.vec 1).toReal - -(1 / Real.tan (fov.toReal / 2) * (p.vec 1).toReal) / (p.vec 2).toReal| ≤
        6.1 * uRnd mw * |1 / Real.tan (fov.toReal / 2) * (p.vec 1).toReal / (p.vec 2).toReal| +
          2 * (etaRnd mw ew / |(p.vec 2).toReal|) + etaRnd mw ew) ∧
      ((q.vec 2).isFin = true → |(q.vec 2).toReal - (far.toReal / (far.toReal - near.toReal) * (p.vec 2).toReal +
          far.toReal * near.toReal / (far.toReal - near.toReal)) / (p.vec 2).toReal| ≤
        6 * uRnd mw * (|far.toReal / (far.toReal - near.toReal)| +
          |far.toReal * near.toReal / (far.toReal - near.toReal) / (p.vec 2).toReal|) +
          2 * (etaRnd mw ew / |(p.vec 2).toReal|) + etaRnd mw ew) := by
  obtain ⟨e, a, b, he, ha, hb, E⟩ := persp_form fov near far
  have u0 := uRnd_pos (mw := mw)
  have u1 := uRnd_small hm
  have e0 := etaRnd_pos (mw := mw) (ew := ew)
  obtain ⟨rA, rB⟩ := persp_ab hm hw h
  rw [← ha] at rA
  rw [← hb] at rB
  unfold Transform.mapPoint
  rw [E]
  obtain ⟨w, hw', hmap⟩ := persp_map (e := e) (a := a) (b := b) hp hz
  refine ⟨_, hmap, ?_⟩
  have fw := hw'.isFin (hp 2)
  have vw : w.toReal = (p.vec 2).toReal := hw'.toReal
  have w0 : w.toReal ≠ 0 := by rw [vw]; exact hz
  have dv : ∀ {x : Flt mw ew}, (x / w).isFin = true →
      |(x / w).toReal - x.toReal / (p.vec 2).toReal| ≤ uRnd mw * |x.toReal / (p.vec 2).toReal| + etaRnd mw ew := fun {x} hf => by
    have := div_err (isFin_of_div hf).1 fw w0 hf
    rw [vw] at this
    exact this.trans (max_le (by have := mul_nonneg u0.le (abs_nonneg (x.toReal / (p.vec 2).toReal)); linarith) (by linarith))
  have xy : ∀ {c n q : Flt mw ew}, c.isFin = true → (n / w).isFin = true →
      Same n (c * -e) → (c * -e).isFin = true →
      |(n / w).toReal - -(1 / Real.tan (fov.toReal / 2) * c.toReal) / (p.vec 2).toReal| ≤
        6.1 * uRnd mw * |1 / Real.tan (fov.toReal / 2) * c.toReal / (p.vec 2).toReal| +
          2 * (etaRnd mw ew / |(p.vec 2).toReal|) + etaRnd mw ew := by
    intro c n q hc hf hn fp
    have fe : e.isFin = true := by have := (isFin_of_mul fp).2; rwa [isFin_negop] at this
    have rE : Rel e (perspE fov.toReal) 4 := by rw [he] at fe ⊢; exact (persp_e hm h fe).mono (by norm_num)
    have d := dv hf
    rw [hn.toReal] at d
    have m := mul_err' fp
    rw [toReal_negop] at m
    exact persp_xy_core u0 u1 e0 hz rE.2 m d
  refine ⟨fun hf => ?_, fun hf => ?_, fun hf => ?_⟩
  · change ((p.x * -e + p.y * Scalar.zero + p.z * Scalar.zero + Scalar.zero) / w).isFin = true at hf
    have f1 := (isFin_of_add (isFin_of_add (isFin_of_add (isFin_of_div hf).1).1).1).1
    exact xy (q := w) (hp 0) hf (add_zero_same (add_zero_same (add_zero_same (Same.refl (notNaN_of_isFin f1)) (mul_zero_same (hp 1)))
      (mul_zero_same (hp 2))) szero_same) f1
  · change ((p.x * Scalar.zero + p.y * -e + p.z * Scalar.zero + Scalar.zero) / w).isFin = true at hf
    have f1 := (isFin_of_add (isFin_of_add (isFin_of_add (isFin_of_div hf).1).1).1).2
    exact xy (q := w) (hp 1) hf (add_zero_same (add_zero_same (zero_add_same (mul_zero_same (hp 0)) (Same.refl (notNaN_of_isFin f1)))
      (mul_zero_same (hp 2))) szero_same) f1
  · change ((p.x * Scalar.zero + p.y * Scalar.zero + p.z * a + b) / w).isFin = true at hf
    have fs := (isFin_of_div hf).1
    obtain ⟨fl, fb⟩ := isFin_of_add fs
    have f1 := (isFin_of_add fl).2
    have sl : Same (p.x * Scalar.zero + p.y * Scalar.zero + p.z * a) (p.z * a) :=
      zero_add_same (add_zero_same (mul_zero_same (hp 0)) (mul_zero_same (hp 1))) (Same.refl (notNaN_of_isFin f1))
    have s := add_err fl fb fs
    rw [sl.toReal] at s
    exact persp_z_core u0 u1 e0 hz rA.2 rB.2 (mul_err' f1) s (dv hf)

/-- C108, view volume: a point of the exact frustum (depth between the clipping planes, inside the field of view) is mapped
into the box `[-1,1]² × [0,1]` enlarged by a few units of rounding. -/
theorem C108_frustum (hm : 9 ≤ mw) (hw : mw + 3 ≤ 2 ^ (ew - 1)) (h : PerspRegular fov near far)
    {p : Point (Flt mw ew) 3} (hp : ∀ i, (p.vec i).isFin = true) (hn : near.toReal ≤ -(p.vec 2).toReal)
    (hf : -(p.vec 2).toReal ≤ far.toReal) (hx : |(p.vec 0).toReal| ≤ -(p.vec 2).toReal * Real.tan (fov.toReal / 2))
    (hy : |(p.vec 1).toReal| ≤ -(p.vec 2).toReal * Real.tan (fov.toReal / 2)) :
    ∃ q, (Transform.perspective fov near far).mapPoint p = some q ∧ ((∀ i, (q.vec i).isFin = true) →
      |(q.vec 0).toReal| ≤ 1 + 8 * uRnd mw ∧ |(q.vec 1).toReal| ≤ 1 + 8 * uRnd mw ∧
      -(14 * uRnd mw * (far.toReal / (far.toReal - near.toReal))) ≤ (q.vec 2).toReal ∧
      (q.vec 2).toReal ≤ 1 + 14 * uRnd mw * (far.toReal / (far.toReal - near.toReal))) := by
  have u0 := uRnd_pos (mw := mw)
  have u1 := uRnd_small hm
  have e0 := etaRnd_pos (mw := mw) (ew := ew)
  have n0 := h.nearPos
  have nf := h.nearFar
  have d0 : 0 < far.toReal - near.toReal := by linarith
  obtain ⟨-, -, T0⟩ := persp_tan hm h
  have z0 : (p.vec 2).toReal < 0 := by linarith
  obtain ⟨q, hq, qx, qy, qz⟩ := C108_perspective hm hw h hp z0.ne
  refine ⟨q, hq, fun fq => ?_⟩
  have qx := qx (fq 0)
  have qy := qy (fq 1)
  have qz := qz (fq 2)
  generalize Real.tan (fov.toReal / 2) = T at *
  generalize (p.vec 0).toReal = x at *
  generalize (p.vec 1).toReal = y at *
  generalize hzz : (p.vec 2).toReal = z at *
  have az : |z| = -z := abs_of_neg z0
  have zp : 0 < -z := by linarith
  have eu := eta_le_sq (mw := mw) (ew := ew) hw
  have eu' : etaRnd mw ew ≤ 0.01 * uRnd mw := by nlinarith
  have ez : 2 * (etaRnd mw ew / |z|) ≤ uRnd mw := by
    rw [az, ← mul_div_assoc, div_le_iff₀ zp]
    exact h.nearBig.trans (mul_le_mul_of_nonneg_left hn u0.le)
  have one : ∀ {c v : ℝ}, |c| ≤ -z * T → |v - -(1 / T * c) / z| ≤ 6.1 * uRnd mw * |1 / T * c / z| +
      2 * (etaRnd mw ew / |z|) + etaRnd mw ew → |v| ≤ 1 + 8 * uRnd mw := fun {c v} hc hv => by
    have b : |1 / T * c / z| ≤ 1 := by
      rw [abs_div, abs_mul, az, div_le_one zp, abs_of_pos (by positivity), one_div_mul_eq_div, div_le_iff₀ T0]
      exact hc
    have b' : |-(1 / T * c) / z| ≤ 1 := by rwa [neg_div, abs_neg]
    have := abs_add_le (v - -(1 / T * c) / z) (-(1 / T * c) / z)
    rw [sub_add_cancel] at this
    have := mul_le_mul_of_nonneg_left b u0.le
    linarith
  refine ⟨one hx qx, one hy qy, ?_⟩
  generalize far.toReal = f at *
  generalize near.toReal = n at *
  have A0 : 0 < f / (f - n) := div_pos (by linarith) d0
  have A1 : 1 ≤ f / (f - n) := by rw [le_div_iff₀ d0]; linarith
  have hB : |f * n / (f - n) / z| ≤ f / (f - n) := by
    rw [abs_div, az, abs_of_pos (div_pos (mul_pos (n0.trans nf) n0) d0), div_le_iff₀ zp, mul_comm f n, mul_div_assoc, mul_comm n]
    exact mul_le_mul_of_nonneg_left hn A0.le
  have hv : (f / (f - n) * z + f * n / (f - n)) / z = f / (f - n) * ((-z - n) / -z) := by field_simp; ring
  have v0 : 0 ≤ f / (f - n) * ((-z - n) / -z) := mul_nonneg A0.le (div_nonneg (by linarith) zp.le)
  have v1 : f / (f - n) * ((-z - n) / -z) ≤ 1 := by
    rw [div_mul_div_comm, div_le_one (mul_pos d0 zp)]
    nlinarith
  rw [hv, abs_of_pos A0] at qz
  have k : 6 * uRnd mw * (f / (f - n) + |f * n / (f - n) / z|) + 2 * (etaRnd mw ew / |z|) + etaRnd mw ew ≤
      14 * uRnd mw * (f / (f - n)) := by
    have := mul_le_mul_of_nonneg_left hB u0.le
    have := mul_le_mul_of_nonneg_left A1 u0.le
    linarith
  obtain ⟨k1, k2⟩ := _root_.abs_le.1 (qz.trans k)
  constructor <;> linarith

/-- The hypotheses of C108 are met on `f32` with a field of view of 1 radian and the planes 1 and 2, for any libm whose
tangent is the correctly rounded one. -/
example : ∃ L : Libm 23 8, @PerspRegular 23 8 _ L (F32.lit 1) (F32.lit 1) (F32.lit 2) ∧ 9 ≤ 23 ∧ 23 + 3 ≤ 2 ^ (8 - 1) := by
  let L : Libm 23 8 := { sin := id, cos := id, tan := fun x => faithful 23 8 (Real.tan x.toReal), asin := id, acos := id, atan := id,
                         atan2 := fun x _ => x }
  obtain ⟨l1, l2, l3⟩ := toReal_lit_small
  have f1 : (F32.lit 1).isFin = true := by decide +kernel
  have big : etaRnd 23 8 ≤ uRnd 23 * (1 / 2) := by unfold etaRnd uRnd fK; norm_num
  have hh := half_exact (x := F32.lit 1) f1 (by rw [l1, abs_of_pos (by norm_num)]; exact big)
  have T1 : Real.tan (1 / 2) < 1 := by
    refine lt_of_lt_of_eq ?_ Real.tan_pi_div_four
    exact Real.tan_lt_tan_of_lt_of_lt_pi_div_two (by linarith [Real.pi_pos]) (by linarith [Real.pi_pos]) (by linarith [Real.pi_gt_three])
  have T0 : 0 < Real.tan (1 / 2) := Real.tan_pos_of_pos_of_lt_pi_div_two (by norm_num) (by linarith [Real.pi_gt_three])
  refine ⟨L, @PerspRegular.mk 23 8 _ L _ _ _ f1 (by rw [l1]; norm_num) (by rw [l1]; linarith [Real.pi_gt_three]) (by rw [l1]; exact big)
    (faithful_accurate rfl) ?_ (by rw [l1]; unfold etaRnd uRnd fK at *; norm_num; norm_num at T1; linarith) f1 (by decide +kernel)
    (by rw [l1]; norm_num) (by rw [l1, l2]; norm_num) (by rw [l1]; unfold etaRnd uRnd fK; norm_num)
    (by rw [l1, l2]; unfold etaRnd uRnd fK; norm_num) (by decide +kernel) (by decide +kernel) (by decide +kernel), by norm_num, by norm_num⟩
  change (GFloat.nextUp (faithful 23 8 (Real.tan (F32.lit 1 * GFloat.half).toReal))).isFin = true
  rw [hh.2, l1]
  obtain ⟨hn, hk⟩ := faithful_key (mw := 23) (ew := 8) (Real.tan (1 / 2))
  obtain ⟨nu, ku⟩ := nextUp_key hn
  have k1 : rndK 23 8 (Real.tan (1 / 2)) ≤ rndK 23 8 1 := rndK_mono _ _ T1.le
  have k0 : 0 ≤ rndK 23 8 (Real.tan (1 / 2)) := rndK_nonneg T0.le
  have k2 : rndK 23 8 1 = (F32.lit 1).key := by rw [← l1]; exact rndK_toReal (notNaN_of_isFin f1)
  have k3 : (F32.lit 1).key + 1 < kInf 23 8 := by decide +kernel
  have := kInf_pos (mw := 23) (ew := 8)
  rw [if_pos T0] at hk
  refine isFin_iff_key.2 ⟨?_, ?_⟩ <;> (rw [ku, hk]; split <;> omega)

end Scarlet
