import Verif.Spec.Libm
import Verif.Props.Interval4
import Mathlib.Analysis.Real.Pi.Irrational

/-! Real trigonometry and float facts for C24 and C25. -/

set_option linter.unusedSectionVars false

namespace Scarlet
open Real

/-! ### sine on an interval -/

theorem cos_nonneg_between {a b t : ℝ} (hab : b - a ≤ π) (ha : 0 < cos a) (hb : 0 < cos b) (h1 : a ≤ t) (h2 : t ≤ b) :
    0 ≤ cos t := by
  rcases eq_or_lt_of_le (h1.trans h2) with h | h
  · have : t = a := le_antisymm (h ▸ h2) h1
    rw [this]; exact ha.le
  · rcases eq_or_lt_of_le hab with hp | hp
    · exfalso
      have : b = a + π := by linarith
      rw [this, cos_add_pi] at hb; linarith
    · have e : sin (b - a) * cos t = sin (b - t) * cos a + sin (t - a) * cos b := by
        rw [sin_sub, sin_sub, sin_sub]; ring
      have s0 : 0 < sin (b - a) := sin_pos_of_pos_of_lt_pi (by linarith) hp
      have s1 : 0 ≤ sin (b - t) := sin_nonneg_of_nonneg_of_le_pi (by linarith) (by linarith)
      have s2 : 0 ≤ sin (t - a) := sin_nonneg_of_nonneg_of_le_pi (by linarith) (by linarith)
      by_contra hc
      rw [not_le] at hc
      nlinarith [mul_nonneg s1 ha.le, mul_nonneg s2 hb.le]

theorem sin_mono_between {a b x y : ℝ} (hab : b - a ≤ π) (ha : 0 < cos a) (hb : 0 < cos b) (h1 : a ≤ x) (h : x ≤ y) (h2 : y ≤ b) :
    sin x ≤ sin y := by
  have c := cos_nonneg_between (t := (y + x) / 2) hab ha hb (by linarith) (by linarith)
  have s : 0 ≤ sin ((y - x) / 2) := sin_nonneg_of_nonneg_of_le_pi (by linarith) (by linarith [pi_pos])
  have e := sin_sub_sin y x
  nlinarith [mul_nonneg s c]

/-- Same sign of the derivative at both ends and width at most `π`: monotone. -/
theorem sin_same {a b x : ℝ} (hab : b - a ≤ π) (h : (0 < cos a ∧ 0 < cos b) ∨ (cos a < 0 ∧ cos b < 0)) (h1 : a ≤ x) (h2 : x ≤ b) :
    min (sin a) (sin b) ≤ sin x ∧ sin x ≤ max (sin a) (sin b) := by
  rcases h with ⟨ha, hb⟩ | ⟨ha, hb⟩
  · exact ⟨(min_le_left _ _).trans (sin_mono_between hab ha hb le_rfl h1 h2),
      (sin_mono_between hab ha hb h1 h2 le_rfl).trans (le_max_right _ _)⟩
  · have ha' : 0 < cos (a + π) := by rw [cos_add_pi]; linarith
    have hb' : 0 < cos (b + π) := by rw [cos_add_pi]; linarith
    have m1 := sin_mono_between (x := a + π) (y := x + π) (by linarith) ha' hb' le_rfl (by linarith) (by linarith)
    have m2 := sin_mono_between (x := x + π) (y := b + π) (by linarith) ha' hb' (by linarith) (by linarith) le_rfl
    simp only [sin_add_pi] at m1 m2
    exact ⟨(min_le_right _ _).trans (by linarith), le_trans (by linarith) (le_max_left _ _)⟩

theorem cos_zero_between {a b : ℝ} (hab : a ≤ b) (ha : 0 ≤ cos a) (hb : cos b ≤ 0) : ∃ z, a ≤ z ∧ z ≤ b ∧ cos z = 0 := by
  have := intermediate_value_Icc' hab (f := cos) continuous_cos.continuousOn
  obtain ⟨z, hz, h0⟩ := this ⟨hb, ha⟩
  exact ⟨z, hz.1, hz.2, h0⟩
theorem cos_zero_between' {a b : ℝ} (hab : a ≤ b) (ha : cos a ≤ 0) (hb : 0 ≤ cos b) : ∃ z, a ≤ z ∧ z ≤ b ∧ cos z = 0 := by
  have := intermediate_value_Icc hab (f := cos) continuous_cos.continuousOn
  obtain ⟨z, hz, h0⟩ := this ⟨ha, hb⟩
  exact ⟨z, hz.1, hz.2, h0⟩

/-- Three alternations of the sign of cosine need a width of `2π`. -/
theorem three_zeros {a m n b : ℝ} (h1 : a ≤ m) (h2 : m ≤ n) (h3 : n ≤ b) (ca : 0 ≤ cos a) (cm : cos m < 0) (cn : 0 < cos n)
    (cb : cos b ≤ 0) : 2 * π ≤ b - a := by
  obtain ⟨z1, a1, b1, e1⟩ := cos_zero_between h1 ca cm.le
  obtain ⟨z2, a2, b2, e2⟩ := cos_zero_between' h2 cm.le cn.le
  obtain ⟨z3, a3, b3, e3⟩ := cos_zero_between h3 cn.le cb
  have l1 : z1 < z2 := lt_of_le_of_ne (b1.trans a2) (by
    rintro rfl; have := le_antisymm b1 a2; rw [← this, e1] at cm; linarith)
  have l2 : z2 < z3 := lt_of_le_of_ne (b2.trans a3) (by
    rintro rfl; have := le_antisymm b2 a3; rw [← this, e2] at cn; linarith)
  obtain ⟨k1, rfl⟩ := cos_eq_zero_iff.1 e1
  obtain ⟨k2, rfl⟩ := cos_eq_zero_iff.1 e2
  obtain ⟨k3, rfl⟩ := cos_eq_zero_iff.1 e3
  have hp := pi_pos
  have i1 : k1 < k2 := by
    by_contra h; have : (k2 : ℝ) ≤ k1 := by exact_mod_cast not_lt.1 h
    nlinarith
  have i2 : k2 < k3 := by
    by_contra h; have : (k3 : ℝ) ≤ k2 := by exact_mod_cast not_lt.1 h
    nlinarith
  have : (k1 : ℝ) + 2 ≤ k3 := by exact_mod_cast (by omega : k1 + 2 ≤ k3)
  nlinarith

/-- Rising at the left end and falling at the right end, width below `2π`: the minimum is at an end. -/
theorem sin_maxima {a b x : ℝ} (hab : b - a < 2 * π) (ca : 0 ≤ cos a) (cb : cos b ≤ 0) (h1 : a ≤ x) (h2 : x ≤ b) :
    min (sin a) (sin b) ≤ sin x := by
  by_contra hc
  rw [not_le, lt_min_iff] at hc
  have e1 := sin_sub_sin x a
  have e2 := sin_sub_sin b x
  have s1 : 0 ≤ sin ((x - a) / 2) := sin_nonneg_of_nonneg_of_le_pi (by linarith) (by linarith)
  have s2 : 0 ≤ sin ((b - x) / 2) := sin_nonneg_of_nonneg_of_le_pi (by linarith) (by linarith)
  have c1 : cos ((x + a) / 2) < 0 := by by_contra h; rw [not_lt] at h; nlinarith [mul_nonneg s1 h]
  have c2 : 0 < cos ((b + x) / 2) := by
    by_contra h; rw [not_lt] at h; nlinarith [mul_nonpos_of_nonneg_of_nonpos s2 h]
  have := three_zeros (a := a) (b := b) (by linarith) (by linarith) (by linarith) ca c1 c2 cb
  linarith

theorem sin_minima {a b x : ℝ} (hab : b - a < 2 * π) (ca : cos a ≤ 0) (cb : 0 ≤ cos b) (h1 : a ≤ x) (h2 : x ≤ b) :
    sin x ≤ max (sin a) (sin b) := by
  have := sin_maxima (a := a + π) (b := b + π) (x := x + π) (by linarith) (by rw [cos_add_pi]; linarith)
    (by rw [cos_add_pi]; linarith) (by linarith) (by linarith)
  simp only [sin_add_pi, min_neg_neg] at this
  linarith

/-- The same facts for cosine. -/
theorem cos_eq_sin (x : ℝ) : sin (x + π / 2) = cos x := sin_add_pi_div_two x
theorem cos_eq_neg_sin (x : ℝ) : cos (x + π / 2) = -sin x := cos_add_pi_div_two x

theorem cos_same {a b x : ℝ} (hab : b - a ≤ π) (h : (0 < sin a ∧ 0 < sin b) ∨ (sin a < 0 ∧ sin b < 0)) (h1 : a ≤ x) (h2 : x ≤ b) :
    min (cos a) (cos b) ≤ cos x ∧ cos x ≤ max (cos a) (cos b) := by
  have := sin_same (a := a + π / 2) (b := b + π / 2) (x := x + π / 2) (by linarith)
    (by rw [cos_eq_neg_sin, cos_eq_neg_sin]; rcases h with h | h
        · exact Or.inr ⟨by linarith, by linarith⟩
        · exact Or.inl ⟨by linarith, by linarith⟩) (by linarith) (by linarith)
  simpa only [cos_eq_sin] using this
theorem cos_maxima {a b x : ℝ} (hab : b - a < 2 * π) (ca : sin a ≤ 0) (cb : 0 ≤ sin b) (h1 : a ≤ x) (h2 : x ≤ b) :
    min (cos a) (cos b) ≤ cos x := by
  have := sin_maxima (a := a + π / 2) (b := b + π / 2) (x := x + π / 2) (by linarith) (by rw [cos_eq_neg_sin]; linarith)
    (by rw [cos_eq_neg_sin]; linarith) (by linarith) (by linarith)
  simpa only [cos_eq_sin] using this
theorem cos_minima {a b x : ℝ} (hab : b - a < 2 * π) (ca : 0 ≤ sin a) (cb : sin b ≤ 0) (h1 : a ≤ x) (h2 : x ≤ b) :
    cos x ≤ max (cos a) (cos b) := by
  have := sin_minima (a := a + π / 2) (b := b + π / 2) (x := x + π / 2) (by linarith) (by rw [cos_eq_neg_sin]; linarith)
    (by rw [cos_eq_neg_sin]; linarith) (by linarith) (by linarith)
  simpa only [cos_eq_sin] using this

/-! ### floats are rational, so they avoid the zeros of cosine, and of sine except 0 -/

namespace Flt
variable {mw ew : Nat}

theorem toReal_rat (x : Flt mw ew) : ∃ q : ℚ, x.toReal = (q : ℝ) := by
  rw [toReal_eq_key]
  unfold valZ
  split
  · exact ⟨-(magN mw x.key.natAbs : ℚ) / 2 ^ fK mw ew, by push_cast; rfl⟩
  · exact ⟨(magN mw x.key.natAbs : ℚ) / 2 ^ fK mw ew, by push_cast; rfl⟩

theorem cos_toReal_ne (x : Flt mw ew) : cos x.toReal ≠ 0 := by
  obtain ⟨q, hq⟩ := toReal_rat x
  intro h
  obtain ⟨k, hk⟩ := cos_eq_zero_iff.1 h
  refine irrational_pi ⟨2 * q / (2 * k + 1), ?_⟩
  have h2 : (2 * (k : ℝ) + 1) ≠ 0 := by exact_mod_cast (by omega : (2 * k + 1 : ℤ) ≠ 0)
  push_cast
  rw [← hq, hk]; field_simp

theorem sin_toReal_eq_zero {x : Flt mw ew} : sin x.toReal = 0 ↔ x.toReal = 0 := by
  constructor
  · intro h
    obtain ⟨q, hq⟩ := toReal_rat x
    obtain ⟨k, hk⟩ := sin_eq_zero_iff.1 h
    by_contra hx
    have hk0 : (k : ℝ) ≠ 0 := by rintro h0; rw [h0, zero_mul] at hk; exact hx hk.symm
    refine irrational_pi ⟨q / k, ?_⟩
    push_cast
    rw [← hq, ← hk]; field_simp
  · intro h; rw [h, sin_zero]

end Flt

/-! ### float facts -/

open Flt Scarlet.Interval
variable {mw ew : Nat} [FltImpl mw ew] [LawfulFlt mw ew]

theorem sone_spec : (Scalar.one : Flt mw ew).isFin = true ∧ (Scalar.one : Flt mw ew).toReal = 1 := by
  have hF : Fmt mw ew := inferInstance
  have hmw := hF.hmw
  have hew := hF.hew
  have h1 : 2 ^ ew = 2 * 2 ^ (ew - 1) := by rw [← pow_succ']; congr 1; omega
  have h2 : 2 ^ 2 ≤ 2 ^ (ew - 1) := Nat.pow_le_pow_right (by decide) (by omega)
  refine exact_of_repr ?_ ?_
  · refine repr_of_mul_pow 1 (fK mw ew) (Nat.one_le_two_pow) ?_ (by push_cast; ring)
    rw [magN_infIdx, ← pow_add, one_mul]
    apply Nat.pow_lt_pow_right (by decide)
    unfold fK; omega
  · change (ofRat mw ew false 1 1).key = _
    rw [(ofRat_key false 1 1 (by decide)).2]; simp

theorem key_sone_pos : 0 < (Scalar.one : Flt mw ew).key := toReal_pos_iff.1 (by rw [sone_spec.2]; norm_num)

theorem signum_spec {u : Flt mw ew} (hu : u.isNaN = false) : (Scalar.signum u).isNaN = false ∧
    (Scalar.signum u).key = if 0 < u.key then (Scalar.one : Flt mw ew).key else if u.key < 0 then -(Scalar.one : Flt mw ew).key else 0 := by
  have o := notNaN_of_isFin (sone_spec (mw := mw) (ew := ew)).1
  unfold Scalar.signum Scalar.isPositive Scalar.isNegative
  simp only [sgt_iff, slt_iff, key_szero, hu, szero_notNaN, true_and]
  split
  · exact ⟨o, rfl⟩
  · split
    · exact ⟨by rw [isNaN_negop]; exact o, by rw [key_negop]⟩
    · exact ⟨szero_notNaN, key_szero⟩

theorem signum_eq_iff {u v : Flt mw ew} (hu : u.isNaN = false) (hv : v.isNaN = false) :
    Scalar.eq (Scalar.signum u) (Scalar.signum v) = true ↔
      (0 < u.key ∧ 0 < v.key) ∨ (u.key < 0 ∧ v.key < 0) ∨ (u.key = 0 ∧ v.key = 0) := by
  obtain ⟨n1, k1⟩ := signum_spec hu
  obtain ⟨n2, k2⟩ := signum_spec hv
  have o := key_sone_pos (mw := mw) (ew := ew)
  rw [seq_iff, k1, k2]
  simp only [n1, n2, true_and]
  split <;> split <;> (try split) <;> (try split) <;> omega

theorem notNaN_of_step {u : Flt mw ew} {r : ℝ} (h : LowerOf (GFloat.nextDown u) r) : u.isNaN = false := by
  have := h.1; rwa [isNaN_nextDown] at this

theorem nextDown_mono {u v : Flt mw ew} (hu : u.isNaN = false) (hv : v.isNaN = false) (h : u.key ≤ v.key) {r : ℝ}
    (hl : LowerOf (GFloat.nextDown v) r) : LowerOf (GFloat.nextDown u) r := by
  have d1 := nextDown_key hu
  have d2 := nextDown_key hv
  exact ⟨d1.1, le_trans ((val_le_iff d1.1 d2.1).2 (by omega)) hl.2⟩
theorem nextUp_mono {u v : Flt mw ew} (hu : u.isNaN = false) (hv : v.isNaN = false) (h : v.key ≤ u.key) {r : ℝ}
    (hl : UpperOf (GFloat.nextUp v) r) : UpperOf (GFloat.nextUp u) r := by
  have d1 := nextUp_key hu
  have d2 := nextUp_key hv
  exact ⟨d1.1, le_trans hl.2 ((val_le_iff d2.1 d1.1).2 (by omega))⟩

theorem Flt.LowerOf.mono {l : Flt mw ew} {r r' : ℝ} (h : LowerOf l r) (hr : r ≤ r') : LowerOf l r' :=
  ⟨h.1, h.2.trans (by exact_mod_cast hr)⟩
theorem Flt.UpperOf.mono {l : Flt mw ew} {r r' : ℝ} (h : UpperOf l r) (hr : r' ≤ r) : UpperOf l r' :=
  ⟨h.1, le_trans (by exact_mod_cast hr) h.2⟩

theorem key_smin {u v : Flt mw ew} (hu : u.isNaN = false) (hv : v.isNaN = false) :
    (Scalar.min u v).isNaN = false ∧ (Scalar.min u v).key = min u.key v.key := by
  rw [smin_def]; split
  · next h => rw [slt_iff] at h; exact ⟨hu, by omega⟩
  · next h =>
    rw [slt_iff] at h
    have := not_lt.1 (fun h' => h ⟨hu, hv, h'⟩)
    exact ⟨hv, by omega⟩
theorem key_smax {u v : Flt mw ew} (hu : u.isNaN = false) (hv : v.isNaN = false) :
    (Scalar.max u v).isNaN = false ∧ (Scalar.max u v).key = max u.key v.key := by
  rw [smax_def]; split
  · next h => rw [sgt_iff] at h; exact ⟨hu, by omega⟩
  · next h =>
    rw [sgt_iff] at h
    have := not_lt.1 (fun h' => h ⟨hu, hv, h'⟩)
    exact ⟨hv, by omega⟩
theorem key_minMax {u v : Flt mw ew} (hu : u.isNaN = false) (hv : v.isNaN = false) :
    ((Scalar.minMax u v).1.isNaN = false ∧ (Scalar.minMax u v).1.key = min u.key v.key) ∧
    ((Scalar.minMax u v).2.isNaN = false ∧ (Scalar.minMax u v).2.key = max u.key v.key) := by
  unfold Scalar.minMax; split
  · next h => rw [slt_iff] at h; exact ⟨⟨hu, by simp only; omega⟩, hv, by simp only; omega⟩
  · next h =>
    rw [slt_iff] at h
    have := not_lt.1 (fun h' => h ⟨hu, hv, h'⟩)
    exact ⟨⟨hv, by simp only; omega⟩, hu, by simp only; omega⟩

/-- If `r` is above the smaller of two exact values, one step below the smaller float bounds it. -/
theorem lower_of_min {u v w : Flt mw ew} {p q r : ℝ} (hu : LowerOf (GFloat.nextDown u) p) (hv : LowerOf (GFloat.nextDown v) q)
    (hr : min p q ≤ r) (hw : w.isNaN = false) (hk : w.key = min u.key v.key) : LowerOf (GFloat.nextDown w) r := by
  rcases min_le_iff.1 hr with h | h
  · exact nextDown_mono hw (notNaN_of_step hu) (by omega) (hu.mono h)
  · exact nextDown_mono hw (notNaN_of_step hv) (by omega) (hv.mono h)
theorem upper_of_max {u v w : Flt mw ew} {p q r : ℝ} (nu : u.isNaN = false) (nv : v.isNaN = false)
    (hu : UpperOf (GFloat.nextUp u) p) (hv : UpperOf (GFloat.nextUp v) q)
    (hr : r ≤ max p q) (hw : w.isNaN = false) (hk : w.key = max u.key v.key) : UpperOf (GFloat.nextUp w) r := by
  rcases le_max_iff.1 hr with h | h
  · exact nextUp_mono hw nu (by omega) (hu.mono h)
  · exact nextUp_mono hw nv (by omega) (hv.mono h)

theorem neg_one_lower {r : ℝ} (h : -1 ≤ r) : LowerOf (-(Scalar.one : Flt mw ew)) r := by
  rw [lowerOf_fin (by rw [isFin_negop]; exact sone_spec.1), toReal_negop, sone_spec.2]; exact h
theorem one_upper {r : ℝ} (h : r ≤ 1) : UpperOf (Scalar.one : Flt mw ew) r := by
  rw [upperOf_fin sone_spec.1, sone_spec.2]; exact h

/-- `T::tau()` is at most the correctly rounded `2π` (true for both formats, `tau_f32`, `tau_f64`). -/
def TauOk (mw ew : Nat) [FltImpl mw ew] : Prop :=
  (GFloat.tau : Flt mw ew).isFin = true ∧ (GFloat.tau : Flt mw ew).key ≤ rndK mw ew (2 * π)

theorem tau_f32 : TauOk 23 8 := by
  refine ⟨by decide +kernel, ?_⟩
  have h1 : (ofRat 23 8 false 6283185307 1000000000).key = rndK 23 8 ((6283185307 : ℕ) / (1000000000 : ℕ) : ℝ) := by
    rw [(ofRat_key false _ _ (by decide)).2]; simp
  have h2 : (GFloat.tau : F32).key ≤ (ofRat 23 8 false 6283185307 1000000000).key := by decide +kernel
  refine h2.trans (h1.trans_le (rndK_mono 23 8 ?_))
  have := Real.pi_gt_d20
  norm_num at this ⊢; linarith
theorem tau_f64 : TauOk 52 11 := by
  refine ⟨by decide +kernel, ?_⟩
  have h1 : (ofRat 52 11 false 6283185307179586476 1000000000000000000).key = rndK 52 11 ((6283185307179586476 : ℕ) / (1000000000000000000 : ℕ) : ℝ) := by
    rw [(ofRat_key false _ _ (by decide)).2]; simp
  have h2 : (GFloat.tau : F64).key ≤ (ofRat 52 11 false 6283185307179586476 1000000000000000000).key := by decide +kernel
  refine h2.trans (h1.trans_le (rndK_mono 52 11 ?_))
  have := Real.pi_gt_d20
  norm_num at this ⊢; linarith

/-- If the code does not see a width of at least `tau`, both bounds are finite and the width is below `2π`. -/
theorem narrow {A : Interval (Flt mw ew)} {x : ℝ} (ht : TauOk mw ew) (hx : x ∈ A)
    (h : ¬ Scalar.ge (A.sup - A.inf) GFloat.tau = true) :
    Interval.Finite A ∧ A.sup.toReal - A.inf.toReal < 2 * π := by
  have kt := isFin_iff_key.1 ht.1
  have nt := notNaN_of_isFin ht.1
  have top : ∀ {z : Flt mw ew}, z = A.sup - A.inf → z.isNaN = false ∧ z.key = kInf mw ew → False := by
    rintro z rfl ⟨h1, h2⟩
    exact h (sge_iff.2 ⟨h1, nt, by omega⟩)
  rw [sge_iff] at h
  obtain ⟨a1, a2, -, -, a5, a6, aO⟩ := mem_facts hx
  have nn : (-A.inf).isNaN = false := by rw [isNaN_negop]; exact a1
  rcases sup_cases hx with hs | hs
  · exact (top (Flt.sub_eq_add_neg _ _).symm (add_top_left a2 nn hs (by rw [key_negop]; omega))).elim
  · rcases inf_cases hx with hi | hi
    · exact (top (Flt.sub_eq_add_neg _ _).symm (add_top_right a2 nn (by rw [key_negop]; omega) a6)).elim
    · refine ⟨⟨hi, hs⟩, ?_⟩
      by_contra hc
      rw [not_lt] at hc
      obtain ⟨s1, s2⟩ := sub_fin' hs hi
      have := rndK_mono mw ew hc
      exact h ⟨s1, nt, by rw [s2]; exact ht.2.trans this⟩

end Scarlet
