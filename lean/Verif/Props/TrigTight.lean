import Verif.Props.Converge
import Verif.Theory.Rel

/-! C156: the interval versions of the trigonometric functions over-estimate by at most two floats per bound.

C24 and C25 say when the result contains every exact value; these theorems say that it contains little else, also in the
cases where C24 and C25 fail. -/

set_option linter.unusedSectionVars false

namespace Scarlet
open Flt Scarlet.Interval
variable {mw ew : Nat} [FltImpl mw ew] [LawfulFlt mw ew]
variable {A : Interval (Flt mw ew)}

/-! ### the specification -/

/-- `T::tau()` is the float nearest to `2π`. -/
def TauNearest (mw ew : Nat) [FltImpl mw ew] : Prop :=
  (GFloat.tau : Flt mw ew).isFin = true ∧ (GFloat.tau : Flt mw ew).key = rndK mw ew (2 * Real.pi)

/-- Two floats inside either bound of `C` one has reached a value that `f` takes on `A`. -/
def Reached (f : ℝ → ℝ) (A C : Interval (Flt mw ew)) : Prop :=
  (∃ x, x ∈ A ∧ LowerOf (GFloat.nextDown (GFloat.nextDown C.sup)) (f x)) ∧
  (∃ y, y ∈ A ∧ UpperOf (GFloat.nextUp (GFloat.nextUp C.inf)) (f y))

/-- Either bound of `C` and the float two floats inside of it are on opposite sides of a value that `f` takes on `A`. -/
def Snug (f : ℝ → ℝ) (A C : Interval (Flt mw ew)) : Prop :=
  (∃ x, x ∈ A ∧ UpperOf C.sup (f x) ∧ LowerOf (GFloat.nextDown (GFloat.nextDown C.sup)) (f x)) ∧
  (∃ y, y ∈ A ∧ LowerOf C.inf (f y) ∧ UpperOf (GFloat.nextUp (GFloat.nextUp C.inf)) (f y))

theorem tauNearest_f32 : TauNearest 23 8 := by
  refine ⟨by decide +kernel, le_antisymm tau_f32.2 ?_⟩
  have h1 : (ofRat 23 8 false 6283185308 1000000000).key = rndK 23 8 ((6283185308 : ℕ) / (1000000000 : ℕ) : ℝ) := by
    rw [(ofRat_key false _ _ (by decide)).2]; simp
  have h2 : (ofRat 23 8 false 6283185308 1000000000).key ≤ (GFloat.tau : F32).key := by decide +kernel
  refine le_trans (rndK_mono 23 8 ?_) (h1.symm.trans_le h2)
  have := Real.pi_lt_d20
  norm_num at this ⊢; linarith
theorem tauNearest_f64 : TauNearest 52 11 := by
  refine ⟨by decide +kernel, le_antisymm tau_f64.2 ?_⟩
  have h1 : (ofRat 52 11 false 6283185307179586478 1000000000000000000).key = rndK 52 11 ((6283185307179586478 : ℕ) / (1000000000000000000 : ℕ) : ℝ) := by
    rw [(ofRat_key false _ _ (by decide)).2]; simp
  have h2 : (ofRat 52 11 false 6283185307179586478 1000000000000000000).key ≤ (GFloat.tau : F64).key := by decide +kernel
  refine le_trans (rndK_mono 52 11 ?_) (h1.symm.trans_le h2)
  have := Real.pi_lt_d20
  norm_num at this ⊢; linarith

/-! ### the floats next to one -/

theorem below_one : (GFloat.nextDown (Scalar.one : Flt mw ew)).isNaN = false ∧
    (GFloat.nextDown (Scalar.one : Flt mw ew)).isFin = true ∧
    (GFloat.nextDown (Scalar.one : Flt mw ew)).toReal ≤ 1 - uRnd mw := by
  have hF : Fmt mw ew := inferInstance
  have hew := hF.hew
  have h2 : 2 ^ 2 ≤ 2 ^ (ew - 1) := Nat.pow_le_pow_right (by decide) (by omega)
  obtain ⟨f1, e1⟩ := sone_spec (mw := mw) (ew := ew)
  have kp := key_sone_pos (mw := mw) (ew := ew)
  have kf := isFin_iff_key.1 f1
  obtain ⟨n0, n1⟩ := nextDown_key (notNaN_of_isFin f1)
  have hp : (0 : ℝ) < 2 ^ fK mw ew := by positivity
  obtain ⟨n, hn⟩ : ∃ n : Nat, (Scalar.one : Flt mw ew).key = ((n + 1 : Nat) : ℤ) :=
    ⟨((Scalar.one : Flt mw ew).key - 1).toNat, by omega⟩
  have hk : (GFloat.nextDown (Scalar.one : Flt mw ew)).key = (n : ℤ) := by rw [n1]; omega
  have hm : (magN mw (n + 1) : ℝ) = 2 ^ fK mw ew := by
    rw [toReal_eq_key, hn, valZ_nat, div_eq_one_iff_eq hp.ne'] at e1; exact e1
  have hm' : magN mw (n + 1) = 2 ^ fK mw ew := by exact_mod_cast hm
  obtain ⟨e, he⟩ : ∃ e, fK mw ew = mw + (e + 1) := ⟨fK mw ew - mw - 1, by unfold fK; omega⟩
  have hb := magN_block mw (e + 1) 0 (Nat.zero_le _)
  have hidx : n + 1 = (e + 1 + 1) * 2 ^ mw := by
    have : magN mw ((e + 1 + 1) * 2 ^ mw) = magN mw (n + 1) := by
      rw [hm', he, pow_add]; simpa using hb
    by_contra hc
    rcases lt_or_gt_of_ne hc with h | h
    · have := (valZ_lt (mw := mw) (a := ((n + 1 : Nat) : ℤ)) (b := (((e + 1 + 1) * 2 ^ mw : Nat) : ℤ))).2 (by exact_mod_cast h)
      rw [valZ_nat, valZ_nat] at this
      have : magN mw (n + 1) < magN mw ((e + 1 + 1) * 2 ^ mw) := by exact_mod_cast this
      omega
    · have := (valZ_lt (mw := mw) (b := ((n + 1 : Nat) : ℤ)) (a := (((e + 1 + 1) * 2 ^ mw : Nat) : ℤ))).2 (by exact_mod_cast h)
      rw [valZ_nat, valZ_nat] at this
      have : magN mw ((e + 1 + 1) * 2 ^ mw) < magN mw (n + 1) := by exact_mod_cast this
      omega
  have hg : magN mw n + 2 ^ e ≤ magN mw (n + 1) := by
    apply magN_gap
    have : (e + 1 + 1) * 2 ^ mw = (e + 1) * 2 ^ mw + 2 ^ mw := by ring
    have := Nat.two_pow_pos mw
    omega
  have hg' : (magN mw n : ℝ) + 2 ^ e ≤ 2 ^ fK mw ew := by rw [← hm]; exact_mod_cast hg
  refine ⟨n0, isFin_iff_key.2 (by constructor <;> omega), ?_⟩
  rw [toReal_eq_key, hk, valZ_nat, div_le_iff₀ hp]
  have : uRnd mw * 2 ^ fK mw ew = 2 ^ e := by
    unfold uRnd; rw [he, show mw + (e + 1) = (mw + 1) + e by ring, pow_add 2 (mw + 1) e]; field_simp
  nlinarith

theorem unit_near {s : ℝ} (h : 1 - uRnd mw ≤ s) : LowerOf (GFloat.nextDown (GFloat.nextDown (Scalar.one : Flt mw ew))) s := by
  obtain ⟨n0, f0, h0⟩ := below_one (mw := mw) (ew := ew)
  obtain ⟨n1, k1⟩ := nextDown_key n0
  have kf := isFin_iff_key.1 f0
  have hl : LowerOf (GFloat.nextDown (Scalar.one : Flt mw ew)) s := (lowerOf_fin f0).2 (by linarith)
  exact ⟨n1, le_trans ((val_le_iff n1 n0).2 (by omega)) hl.2⟩

theorem neg_unit_near {s : ℝ} (h : s ≤ -1 + uRnd mw) :
    UpperOf (GFloat.nextUp (GFloat.nextUp (-(Scalar.one : Flt mw ew)))) s := by
  obtain ⟨n0, f0, h0⟩ := below_one (mw := mw) (ew := ew)
  have f1 := (sone_spec (mw := mw) (ew := ew)).1
  have m1 : (-(Scalar.one : Flt mw ew)).isNaN = false := by rw [isNaN_negop]; exact notNaN_of_isFin f1
  have d1 := nextDown_key (notNaN_of_isFin f1)
  have u1 := nextUp_key m1
  have u2 := nextUp_key u1.1
  have kf := isFin_iff_key.1 f0
  have kp := isFin_iff_key.1 f1
  rw [key_negop] at u1
  have f2 : (GFloat.nextUp (-(Scalar.one : Flt mw ew))).isFin = true := isFin_iff_key.2 (by constructor <;> omega)
  have e : (GFloat.nextUp (-(Scalar.one : Flt mw ew))).toReal = -(GFloat.nextDown (Scalar.one : Flt mw ew)).toReal := by
    rw [← toReal_negop]; exact toReal_eq_iff.2 (by rw [key_negop]; omega)
  have hl : UpperOf (GFloat.nextUp (-(Scalar.one : Flt mw ew))) s := (upperOf_fin f2).2 (by rw [e]; linarith)
  exact ⟨u2.1, le_trans hl.2 ((val_le_iff u1.1 u2.1).2 (by omega))⟩

/-- The steps of the code out and ours in cancel, down to the accuracy of libm. -/
theorem reached_up {u : Flt mw ew} {s : ℝ} (h : LowerOf (GFloat.nextDown u) s) :
    LowerOf (GFloat.nextDown (GFloat.nextDown (GFloat.nextUp u))) s := by
  have n := notNaN_of_step h
  have k := nextUp_key n
  have k1 := nextDown_key k.1
  have k2 := nextDown_key k1.1
  have k3 := nextDown_key n
  exact ⟨k2.1, le_trans ((val_le_iff k2.1 k3.1).2 (by omega)) h.2⟩
theorem reached_down {u : Flt mw ew} {s : ℝ} (n : u.isNaN = false) (h : UpperOf (GFloat.nextUp u) s) :
    UpperOf (GFloat.nextUp (GFloat.nextUp (GFloat.nextDown u))) s := by
  have k := nextDown_key n
  have k1 := nextUp_key k.1
  have k2 := nextUp_key k1.1
  have k3 := nextUp_key n
  exact ⟨k2.1, le_trans h.2 ((val_le_iff k3.1 k2.1).2 (by omega))⟩

theorem LowerOf.of_key {u v : Flt mw ew} {s : ℝ} (h : LowerOf v s) (hu : u.isNaN = false) (hk : u.key ≤ v.key) : LowerOf u s :=
  ⟨hu, le_trans ((val_le_iff hu h.1).2 hk) h.2⟩
theorem UpperOf.of_key {u v : Flt mw ew} {s : ℝ} (h : UpperOf v s) (hu : u.isNaN = false) (hk : v.key ≤ u.key) : UpperOf u s :=
  ⟨hu, le_trans h.2 ((val_le_iff h.1 hu).2 hk)⟩

/-! ### the sine on a nearly full period -/

open Real in
theorem near_max {a b δ : ℝ} (h : 2 * π - δ ≤ b - a) (h0 : 0 ≤ b - a) : ∃ x, a ≤ x ∧ x ≤ b ∧ 1 - δ ^ 2 / 2 ≤ sin x := by
  set p := toIcoMod Real.two_pi_pos a (π / 2) with hp
  have hp1 := toIcoMod_mem_Ico Real.two_pi_pos a (π / 2)
  rw [← hp] at hp1
  have e : p = π / 2 - toIcoDiv Real.two_pi_pos a (π / 2) * (2 * π) := by
    have := toIcoMod_add_toIcoDiv_zsmul Real.two_pi_pos a (π / 2)
    rw [zsmul_eq_mul] at this
    linarith
  have sp : sin p = 1 := by rw [e, sin_sub_int_mul_two_pi, sin_pi_div_two]
  have cp : cos p = 0 := by rw [e, cos_sub_int_mul_two_pi, cos_pi_div_two]
  by_cases hb : p ≤ b
  · exact ⟨p, hp1.1, hb, by rw [sp]; nlinarith [sq_nonneg δ]⟩
  · rw [not_le] at hb
    refine ⟨b, by linarith, le_rfl, ?_⟩
    have : sin b = cos (p - b) := by
      conv_lhs => rw [show b = p - (p - b) by ring, sin_sub, sp, cp]
      ring
    rw [this]
    have h1 := Real.one_sub_sq_div_two_le_cos (x := p - b)
    have h2 : p - b ≤ δ := by linarith [hp1.2]
    nlinarith

open Real in
theorem near_min {a b δ : ℝ} (h : 2 * π - δ ≤ b - a) (h0 : 0 ≤ b - a) : ∃ x, a ≤ x ∧ x ≤ b ∧ sin x ≤ -1 + δ ^ 2 / 2 := by
  obtain ⟨x, h1, h2, h3⟩ := near_max (a := a + π) (b := b + π) (δ := δ) (by linarith) (by linarith)
  refine ⟨x - π, by linarith, by linarith, ?_⟩
  rw [sin_sub_pi]; linarith

theorem eta_le_u : etaRnd mw ew ≤ uRnd mw := by
  have hF : Fmt mw ew := inferInstance
  have hew := hF.hew
  have h2 : 2 ^ 2 ≤ 2 ^ (ew - 1) := Nat.pow_le_pow_right (by decide) (by omega)
  unfold etaRnd uRnd
  apply one_div_le_one_div_of_le (by positivity)
  apply pow_le_pow_right₀ (by norm_num)
  unfold fK; omega

/-- If the code sees a width of at least `tau`, the interval covers a full period except for a few rounding units. -/
theorem wide (hm : 9 ≤ mw) (ht : TauNearest mw ew) (hA : Ordered A) (fA : Interval.Finite A)
    (h : Scalar.ge (A.sup - A.inf) GFloat.tau = true) :
    ∃ δ : ℝ, 2 * Real.pi - δ ≤ A.sup.toReal - A.inf.toReal ∧ δ ^ 2 / 2 ≤ uRnd mw := by
  have hu := uRnd_pos (mw := mw)
  have hu1 := uRnd_small hm
  have hp3 := Real.pi_gt_three
  have hp4 := Real.pi_lt_d2
  have he := eta_le_u (mw := mw) (ew := ew)
  have oA := ordered_real hA fA
  rw [sge_iff] at h
  obtain ⟨s1, s2⟩ := sub_fin' fA.2 fA.1
  rcases le_or_gt (2 * Real.pi) (A.sup.toReal - A.inf.toReal) with hc | hc
  · exact ⟨0, by linarith, by simpa using hu.le⟩
  · have k1 := rndK_mono mw ew hc.le
    have k2 : (GFloat.tau : Flt mw ew).key = rndK mw ew (A.sup.toReal - A.inf.toReal) := by
      have := h.2.2; rw [s2] at this; have := ht.2; omega
    have e1 := err_of_key ht.1 k2
    have e2 := err_of_key ht.1 ht.2
    rw [abs_of_nonneg (by linarith : (0 : ℝ) ≤ A.sup.toReal - A.inf.toReal)] at e1
    rw [abs_of_nonneg (by linarith : (0 : ℝ) ≤ 2 * Real.pi)] at e2
    have b1 : max (etaRnd mw ew) (uRnd mw * (A.sup.toReal - A.inf.toReal)) ≤ uRnd mw * 7 :=
      max_le (by linarith) (mul_le_mul_of_nonneg_left (by linarith) hu.le)
    have b2 : max (etaRnd mw ew) (uRnd mw * (2 * Real.pi)) ≤ uRnd mw * 7 :=
      max_le (by linarith) (mul_le_mul_of_nonneg_left (by linarith) hu.le)
    have a1 := abs_le.1 (e1.trans b1)
    have a2 := abs_le.1 (e2.trans b2)
    exact ⟨14 * uRnd mw, by linarith [a1.1, a1.2, a2.1, a2.2], by nlinarith⟩

section trig
variable [Libm mw ew] [LawfulLibm mw ew]
open Real

theorem mem_ends (fA : Interval.Finite A) {x : ℝ} (h1 : A.inf.toReal ≤ x) (h2 : x ≤ A.sup.toReal) : x ∈ A :=
  (mem_fin_iff fA x).2 ⟨h1, h2⟩

/-- The larger of two libm values, widened, is reached at one of the two arguments; the smaller one likewise. -/
theorem ends_max {fl : Flt mw ew → Flt mw ew} {f : ℝ → ℝ} (hA : Ordered A) (fA : Interval.Finite A)
    (hi : AccurateAt fl f A.inf) (hs : AccurateAt fl f A.sup) {w : Flt mw ew} (hw : w.isNaN = false)
    (hk : w.key = Max.max (fl A.inf).key (fl A.sup).key) :
    ∃ x, x ∈ A ∧ UpperOf (GFloat.nextUp w) (f x) ∧ LowerOf (GFloat.nextDown (GFloat.nextDown (GFloat.nextUp w))) (f x) := by
  have o := ordered_real hA fA
  rcases le_total (fl A.inf).key (fl A.sup).key with h | h
  · exact ⟨A.sup.toReal, mem_ends fA o le_rfl, nextUp_mono hw hs.notNaN (by omega) hs.hi, reached_up (nextDown_mono hw hs.notNaN (by omega) hs.lo)⟩
  · exact ⟨A.inf.toReal, mem_ends fA le_rfl o, nextUp_mono hw hi.notNaN (by omega) hi.hi, reached_up (nextDown_mono hw hi.notNaN (by omega) hi.lo)⟩
theorem ends_min {fl : Flt mw ew → Flt mw ew} {f : ℝ → ℝ} (hA : Ordered A) (fA : Interval.Finite A)
    (hi : AccurateAt fl f A.inf) (hs : AccurateAt fl f A.sup) {w : Flt mw ew} (hw : w.isNaN = false)
    (hk : w.key = Min.min (fl A.inf).key (fl A.sup).key) :
    ∃ x, x ∈ A ∧ LowerOf (GFloat.nextDown w) (f x) ∧ UpperOf (GFloat.nextUp (GFloat.nextUp (GFloat.nextDown w))) (f x) := by
  have o := ordered_real hA fA
  rcases le_total (fl A.inf).key (fl A.sup).key with h | h
  · exact ⟨A.inf.toReal, mem_ends fA le_rfl o, nextDown_mono hw hi.notNaN (by omega) hi.lo, reached_down hw (nextUp_mono hw hi.notNaN (by omega) hi.hi)⟩
  · exact ⟨A.sup.toReal, mem_ends fA o le_rfl, nextDown_mono hw hs.notNaN (by omega) hs.lo, reached_down hw (nextUp_mono hw hs.notNaN (by omega) hs.hi)⟩

/-- C156: both bounds of `A.sin()` are at most two floats beyond a sine of a member of `A`. -/
theorem C156_sin (hm : 9 ≤ mw) (ht : TauNearest mw ew) (hA : Ordered A) (fA : Interval.Finite A) :
    Snug sin A (Interval.sin A) := by
  have o := ordered_real hA fA
  have hu := uRnd_pos (mw := mw)
  unfold Interval.sin
  simp only
  by_cases hw : Scalar.ge (A.sup - A.inf) GFloat.tau = true
  · rw [if_pos hw]
    obtain ⟨δ, d1, d2⟩ := wide hm ht hA fA hw
    obtain ⟨x, x1, x2, x3⟩ := near_max d1 (by linarith)
    obtain ⟨y, y1, y2, y3⟩ := near_min d1 (by linarith)
    exact ⟨⟨x, mem_ends fA x1 x2, one_upper (sin_le_one _), unit_near (by linarith)⟩, ⟨y, mem_ends fA y1 y2, neg_one_lower (neg_one_le_sin _), neg_unit_near (by linarith)⟩⟩
  · rw [if_neg hw]
    have ci := LawfulLibm.cos A.inf fA.1
    have cs := LawfulLibm.cos A.sup fA.2
    have si := LawfulLibm.sin A.inf fA.1
    have ss := LawfulLibm.sin A.sup fA.2
    have n1 := cos_toReal_ne A.inf
    rw [show (GTrig.cos A.inf : Flt mw ew) = Libm.cos A.inf from rfl, show (GTrig.cos A.sup : Flt mw ew) = Libm.cos A.sup from rfl,
      show (GTrig.sin A.inf : Flt mw ew) = Libm.sin A.inf from rfl, show (GTrig.sin A.sup : Flt mw ew) = Libm.sin A.sup from rfl]
    by_cases he : Scalar.eq (Scalar.signum (Libm.cos A.inf)) (Scalar.signum (Libm.cos A.sup)) = true
    · rw [if_pos he]
      obtain ⟨⟨m1, m2⟩, ⟨m3, m4⟩⟩ := key_minMax si.notNaN ss.notNaN
      exact ⟨ends_max hA fA si ss m3 m4, ends_min hA fA si ss m1 m2⟩
    · rw [if_neg he]
      rw [signum_eq_iff ci.notNaN cs.notNaN, ci.pos_iff, cs.pos_iff, ci.neg_iff, cs.neg_iff, ci.zero_iff, cs.zero_iff] at he
      have hb : Scalar.isNegative (Libm.cos A.inf) = true ↔ cos A.inf.toReal < 0 := by
        unfold Scalar.isNegative; rw [slt_iff, key_szero, ci.neg_iff]; simp [ci.notNaN, szero_notNaN]
      by_cases hn : Scalar.isNegative (Libm.cos A.inf) = true
      · rw [if_pos hn]
        rw [hb] at hn
        have hs : 0 ≤ cos A.sup.toReal := not_lt.1 fun h'' => he (Or.inr (Or.inl ⟨hn, h''⟩))
        obtain ⟨y, y1, y2, y3⟩ := sin_reaches_neg_one o hn hs
        obtain ⟨m3, m4⟩ := key_smax si.notNaN ss.notNaN
        exact ⟨ends_max hA fA si ss m3 m4, ⟨y, mem_ends fA y1 y2, neg_one_lower (neg_one_le_sin _), neg_unit_near (by linarith)⟩⟩
      · rw [if_neg hn]
        rw [hb, not_lt] at hn
        have hn' := lt_of_le_of_ne hn n1.symm
        have hs : cos A.sup.toReal ≤ 0 := not_lt.1 fun h'' => he (Or.inl ⟨hn', h''⟩)
        obtain ⟨x, x1, x2, x3⟩ := sin_reaches_one o hn' hs
        obtain ⟨m1, m2⟩ := key_smin si.notNaN ss.notNaN
        exact ⟨⟨x, mem_ends fA x1 x2, one_upper (sin_le_one _), unit_near (by linarith)⟩, ends_min hA fA si ss m1 m2⟩

/-- C156 for `cos`. -/
theorem C156_cos (hm : 9 ≤ mw) (ht : TauNearest mw ew) (hA : Ordered A) (fA : Interval.Finite A) :
    Snug cos A (Interval.cos A) := by
  have o := ordered_real hA fA
  have hu := uRnd_pos (mw := mw)
  unfold Interval.cos
  simp only
  by_cases hw : Scalar.ge (A.sup - A.inf) GFloat.tau = true
  · rw [if_pos hw]
    obtain ⟨δ, d1, d2⟩ := wide hm ht hA fA hw
    obtain ⟨x, x1, x2, x3⟩ := near_max (a := A.inf.toReal + π / 2) (b := A.sup.toReal + π / 2) (δ := δ) (by linarith) (by linarith)
    obtain ⟨y, y1, y2, y3⟩ := near_min (a := A.inf.toReal + π / 2) (b := A.sup.toReal + π / 2) (δ := δ) (by linarith) (by linarith)
    exact ⟨⟨x - π / 2, mem_ends fA (by linarith) (by linarith), one_upper (cos_le_one _), unit_near (by rw [cos_sub_pi_div_two]; linarith)⟩,
      ⟨y - π / 2, mem_ends fA (by linarith) (by linarith), neg_one_lower (neg_one_le_cos _), neg_unit_near (by rw [cos_sub_pi_div_two]; linarith)⟩⟩
  · rw [if_neg hw]
    have ci := LawfulLibm.cos A.inf fA.1
    have cs := LawfulLibm.cos A.sup fA.2
    have si := LawfulLibm.sin A.inf fA.1
    have ss := LawfulLibm.sin A.sup fA.2
    rw [show (GTrig.cos A.inf : Flt mw ew) = Libm.cos A.inf from rfl, show (GTrig.cos A.sup : Flt mw ew) = Libm.cos A.sup from rfl,
      show (GTrig.sin A.inf : Flt mw ew) = Libm.sin A.inf from rfl, show (GTrig.sin A.sup : Flt mw ew) = Libm.sin A.sup from rfl]
    by_cases he : Scalar.eq (Scalar.signum (Libm.sin A.inf)) (Scalar.signum (Libm.sin A.sup)) = true
    · rw [if_pos he]
      obtain ⟨⟨m1, m2⟩, ⟨m3, m4⟩⟩ := key_minMax ci.notNaN cs.notNaN
      exact ⟨ends_max hA fA ci cs m3 m4, ends_min hA fA ci cs m1 m2⟩
    · rw [if_neg he]
      rw [signum_eq_iff si.notNaN ss.notNaN, si.pos_iff, ss.pos_iff, si.neg_iff, ss.neg_iff, si.zero_iff, ss.zero_iff] at he
      have hb : Scalar.isPositive (Libm.sin A.inf) = true ↔ 0 < sin A.inf.toReal := by
        unfold Scalar.isPositive; rw [sgt_iff, key_szero, si.pos_iff]; simp [si.notNaN, szero_notNaN]
      by_cases hn : Scalar.isPositive (Libm.sin A.inf) = true
      · rw [if_pos hn]
        rw [hb] at hn
        have hs : sin A.sup.toReal ≤ 0 := not_lt.1 fun h'' => he (Or.inl ⟨hn, h''⟩)
        obtain ⟨y, y1, y2, y3⟩ := sin_reaches_neg_one (a := A.inf.toReal + π / 2) (b := A.sup.toReal + π / 2) (by linarith)
          (by rw [cos_add_pi_div_two]; linarith) (by rw [cos_add_pi_div_two]; linarith)
        obtain ⟨m3, m4⟩ := key_smax ci.notNaN cs.notNaN
        exact ⟨ends_max hA fA ci cs m3 m4,
          ⟨y - π / 2, mem_ends fA (by linarith) (by linarith), neg_one_lower (neg_one_le_cos _), neg_unit_near (by rw [cos_sub_pi_div_two]; linarith)⟩⟩
      · rw [if_neg hn]
        rw [hb, not_lt] at hn
        obtain ⟨m1, m2⟩ := key_smin ci.notNaN cs.notNaN
        refine ⟨?_, ends_min hA fA ci cs m1 m2⟩
        rcases eq_or_lt_of_le hn with e | e
        · refine ⟨A.inf.toReal, mem_ends fA le_rfl o, one_upper (cos_le_one _), unit_near ?_⟩
          rw [sin_toReal_eq_zero.1 e, cos_zero]; linarith
        · have hs : 0 ≤ sin A.sup.toReal := not_lt.1 fun h'' => he (Or.inr (Or.inl ⟨e, h''⟩))
          rcases eq_or_lt_of_le hs with e2 | e2
          · refine ⟨A.sup.toReal, mem_ends fA o le_rfl, one_upper (cos_le_one _), unit_near ?_⟩
            rw [sin_toReal_eq_zero.1 e2.symm, cos_zero]; linarith
          · obtain ⟨x, x1, x2, x3⟩ := sin_reaches_one (a := A.inf.toReal + π / 2) (b := A.sup.toReal + π / 2) (by linarith)
              (by rw [cos_add_pi_div_two]; linarith) (by rw [cos_add_pi_div_two]; linarith)
            exact ⟨x - π / 2, mem_ends fA (by linarith) (by linarith), one_upper (cos_le_one _), unit_near (by rw [cos_sub_pi_div_two]; linarith)⟩

/-- C156 for `atan`. -/
theorem C156_atan (hA : Ordered A) (fA : Interval.Finite A) : Snug arctan A (Interval.atan A) := by
  have o := ordered_real hA fA
  have ai := LawfulLibm.atan A.inf fA.1
  have as := LawfulLibm.atan A.sup fA.2
  exact ⟨⟨A.sup.toReal, mem_ends fA o le_rfl, as.hi, reached_up as.lo⟩,
    ⟨A.inf.toReal, mem_ends fA le_rfl o, ai.lo, reached_down ai.notNaN ai.hi⟩⟩

/-- Intersecting moves the bounds inwards only. -/
theorem Reached.intersect {f : ℝ → ℝ} {C D : Interval (Flt mw ew)} (h : Reached f A C) (hD : NoNaN D) :
    Reached f A (Interval.intersect C D) := by
  obtain ⟨⟨x, x1, x2⟩, ⟨y, y1, y2⟩⟩ := h
  have nu : C.sup.isNaN = false := by have := x2.1; rwa [isNaN_nextDown, isNaN_nextDown] at this
  have nl : C.inf.isNaN = false := by have := y2.1; rwa [isNaN_nextUp, isNaN_nextUp] at this
  obtain ⟨s1, s2⟩ := key_smin nu hD.2
  obtain ⟨l1, l2⟩ := key_smax nl hD.1
  have a1 := nextDown_key nu
  have a2 := nextDown_key a1.1
  have b1 := nextDown_key s1
  have b2 := nextDown_key b1.1
  have c1 := nextUp_key nl
  have c2 := nextUp_key c1.1
  have d1 := nextUp_key l1
  have d2 := nextUp_key d1.1
  refine ⟨⟨x, x1, ?_⟩, ⟨y, y1, ?_⟩⟩
  · change LowerOf (GFloat.nextDown (GFloat.nextDown (Scalar.min C.sup D.sup))) (f x)
    exact LowerOf.of_key x2 b2.1 (by omega)
  · change UpperOf (GFloat.nextUp (GFloat.nextUp (Scalar.max C.inf D.inf))) (f y)
    exact UpperOf.of_key y2 d2.1 (by omega)

/-- C156 for `asin` and `acos`, within their domain.  They are also cut off (wrongly, C25), so their bounds can be inside the
range, but never further out than two floats. -/
theorem C156_asin_acos (hc : (GFloat.fracPi2Upper : Flt mw ew).isNaN = false) (hA : Ordered A) (fA : Interval.Finite A)
    (h1 : -1 ≤ A.inf.toReal) (h2 : A.sup.toReal ≤ 1) :
    Reached arcsin A (Interval.asin A) ∧ Reached arccos A (Interval.acos A) := by
  have o := ordered_real hA fA
  have si := LawfulLibm.asin A.inf fA.1 h1 (o.trans h2)
  have ss := LawfulLibm.asin A.sup fA.2 (h1.trans o) h2
  have ci := LawfulLibm.acos A.inf fA.1 h1 (o.trans h2)
  have cs := LawfulLibm.acos A.sup fA.2 (h1.trans o) h2
  have hD : NoNaN (Interval.new (Scalar.zero : Flt mw ew) GFloat.fracPi2Upper) := ⟨szero_notNaN, hc⟩
  constructor
  · refine Reached.intersect ?_ hD
    exact ⟨⟨A.sup.toReal, mem_ends fA o le_rfl, reached_up ss.lo⟩,
      ⟨A.inf.toReal, mem_ends fA le_rfl o, reached_down si.notNaN si.hi⟩⟩
  · refine Reached.intersect ?_ hD
    exact ⟨⟨A.inf.toReal, mem_ends fA le_rfl o, reached_up ci.lo⟩,
      ⟨A.sup.toReal, mem_ends fA o le_rfl, reached_down cs.notNaN cs.hi⟩⟩

end trig

/-! ### widths -/

theorem big_inf : (4 : ℝ) ≤ valZ mw (kInf mw ew) / 2 ^ fK mw ew := by
  have hF : Fmt mw ew := inferInstance
  have hew := hF.hew
  have hmw := hF.hmw
  have h1 : 2 ^ ew = 2 * 2 ^ (ew - 1) := by rw [← pow_succ']; congr 1; omega
  have h2 : 2 ^ 2 ≤ 2 ^ (ew - 1) := Nat.pow_le_pow_right (by decide) (by omega)
  have hp : (0 : ℝ) < 2 ^ fK mw ew := by positivity
  unfold kInf
  rw [le_div_iff₀ hp, valZ_nat, magN_infIdx]
  push_cast
  rw [show (4 : ℝ) = 2 ^ 2 by norm_num, ← pow_add, ← pow_add]
  apply pow_le_pow_right₀ (by norm_num)
  unfold fK; omega

theorem snug_up {hi : Flt mw ew} {s : ℝ} (h0 : UpperOf hi s) (h1 : LowerOf (GFloat.nextDown (GFloat.nextDown hi)) s)
    (b1 : -1 ≤ s) (b2 : s ≤ 1) (hm : 9 ≤ mw) :
    hi.isFin = true ∧ s ≤ hi.toReal ∧ hi.toReal ≤ s + stepErr mw ew 1 / 2 := by
  have hu1 := uRnd_small hm
  have he := eta_le_u (mw := mw) (ew := ew)
  obtain ⟨f1, e1⟩ := sone_spec (mw := mw) (ew := ew)
  have k1 := isFin_iff_key.1 f1
  have d1 := nextDown_key h0.1
  have d2 := nextDown_key d1.1
  have hp : (0 : ℝ) < 2 ^ fK mw ew := by positivity
  set w := GFloat.nextDown (GFloat.nextDown hi) with hw
  have hk : hi.key ≤ w.key + 2 := by omega
  have wk : w.key ≤ (Scalar.one : Flt mw ew).key := by
    rw [← val_le_iff h1.1 (notNaN_of_isFin f1), val_of_isFin f1, e1]
    exact h1.2.trans (by exact_mod_cast b2)
  have hle : hi.toReal ≤ s + stepErr mw ew 1 / 2 := by
    rw [toReal_eq_key]
    by_cases hc : w.key ≤ -(Scalar.one : Flt mw ew).key
    · have t := two_up (x := -(Scalar.one : Flt mw ew)) (M := 1) (by rw [toReal_negop, e1]; simp)
      rw [key_negop, toReal_negop, e1] at t
      refine (div_le_div_of_nonneg_right (valZ_le.2 (by omega : hi.key ≤ -(Scalar.one : Flt mw ew).key + 2)) hp.le).trans (t.trans ?_)
      linarith
    · have wf : w.isFin = true := isFin_iff_key.2 (by constructor <;> omega)
      have t := two_up (x := w) (M := 1) (by
        rw [_root_.abs_le]
        refine ⟨?_, ?_⟩
        · have : (-(Scalar.one : Flt mw ew)).toReal ≤ w.toReal := toReal_le_iff.2 (by rw [key_negop]; omega)
          rwa [toReal_negop, e1] at this
        · have : w.toReal ≤ (Scalar.one : Flt mw ew).toReal := toReal_le_iff.2 wk
          rwa [e1] at this)
      have := (lowerOf_fin wf).1 h1
      refine (div_le_div_of_nonneg_right (valZ_le.2 hk) hp.le).trans (t.trans ?_)
      linarith
  have hf : hi.isFin = true := by
    rcases key_cases h0.1 with h | h | h
    · exact absurd h h0.key_ne_bot
    · have := big_inf (mw := mw) (ew := ew)
      rw [toReal_eq_key, h] at hle
      unfold stepErr at hle
      linarith
    · exact h
  exact ⟨hf, (upperOf_fin hf).1 h0, hle⟩

theorem snug_down {lo : Flt mw ew} {s : ℝ} (h0 : LowerOf lo s) (h1 : UpperOf (GFloat.nextUp (GFloat.nextUp lo)) s)
    (b1 : -1 ≤ s) (b2 : s ≤ 1) (hm : 9 ≤ mw) :
    lo.isFin = true ∧ lo.toReal ≤ s ∧ s - stepErr mw ew 1 / 2 ≤ lo.toReal := by
  have n0 : (-lo).isNaN = false := by rw [isNaN_negop]; exact h0.1
  have d1 := nextDown_key n0
  have d2 := nextDown_key d1.1
  have u1 := nextUp_key h0.1
  have u2 := nextUp_key u1.1
  have := snug_up (hi := -lo) (s := -s) (h0.neg) (LowerOf.of_key h1.neg d2.1 (by simp only [key_negop] at *; omega)) (by linarith) (by linarith) hm
  rw [isFin_negop, toReal_negop] at this
  exact ⟨this.1, by linarith, by linarith⟩

/-- C156: an interval with snug bounds is finite and at most a few rounding units wider than the operand. -/
theorem snug_width {f : ℝ → ℝ} {C : Interval (Flt mw ew)} (hf : ∀ x, -1 ≤ f x ∧ f x ≤ 1) (hl : ∀ x y, |f x - f y| ≤ |x - y|)
    (hm : 9 ≤ mw) (fA : Interval.Finite A) (h : Snug f A C) :
    Interval.Finite C ∧ C.width ≤ A.width + stepErr mw ew 1 := by
  obtain ⟨⟨x, x1, x2, x3⟩, ⟨y, y1, y2, y3⟩⟩ := h
  obtain ⟨a1, a2, a3⟩ := snug_up x2 x3 (hf x).1 (hf x).2 hm
  obtain ⟨c1, c2, c3⟩ := snug_down y2 y3 (hf y).1 (hf y).2 hm
  obtain ⟨p1, p2⟩ := (mem_fin_iff fA x).1 x1
  obtain ⟨q1, q2⟩ := (mem_fin_iff fA y).1 y1
  refine ⟨⟨c1, a1⟩, ?_⟩
  have h1 := (le_abs_self _).trans (hl x y)
  have h2 : |x - y| ≤ A.sup.toReal - A.inf.toReal := _root_.abs_le.2 ⟨by linarith, by linarith⟩
  unfold Interval.width
  linarith

section
variable [Libm mw ew] [LawfulLibm mw ew]
open Real

theorem sin_lip (x y : ℝ) : |sin x - sin y| ≤ |x - y| := by
  simpa [Real.dist_eq] using Real.lipschitzWith_sin.dist_le_mul x y
theorem cos_lip (x y : ℝ) : |cos x - cos y| ≤ |x - y| := by
  simpa [Real.dist_eq] using Real.lipschitzWith_cos.dist_le_mul x y

/-- C156: `sin` and `cos` do not widen intervals, up to the rounding of one operation: subdividing an interval of angles
makes its sines and cosines as narrow. -/
theorem C156_width (hm : 9 ≤ mw) (ht : TauNearest mw ew) (hA : Ordered A) (fA : Interval.Finite A) :
    (Interval.Finite (Interval.sin A) ∧ (Interval.sin A).width ≤ A.width + stepErr mw ew 1) ∧
    (Interval.Finite (Interval.cos A) ∧ (Interval.cos A).width ≤ A.width + stepErr mw ew 1) :=
  ⟨snug_width (fun x => ⟨neg_one_le_sin x, sin_le_one x⟩) sin_lip hm fA (C156_sin hm ht hA fA),
    snug_width (fun x => ⟨neg_one_le_cos x, cos_le_one x⟩) cos_lip hm fA (C156_cos hm ht hA fA)⟩

/-- C156: so everything in `A.sin()` is near the sine of every member of `A`, and likewise for `cos`, if `A` is at most `π`
wide. -/
theorem C156_near (hm : 9 ≤ mw) (ht : TauNearest mw ew) (fA : Interval.Finite A) (hw : A.width ≤ π) (x : ℝ) (hx : x ∈ A) (z : ℝ) :
    (z ∈ Interval.sin A → |z - sin x| ≤ A.width + stepErr mw ew 1) ∧
    (z ∈ Interval.cos A → |z - cos x| ≤ A.width + stepErr mw ew 1) := by
  have hk : TauOk mw ew := ⟨ht.1, ht.2.le⟩
  have hA : Ordered A := by
    obtain ⟨x1, x2⟩ := mem_fin_le hx fA
    exact ⟨hx.1.1, hx.2.1, by rw [val_of_isFin fA.1, val_of_isFin fA.2]; exact_mod_cast x1.trans x2⟩
  obtain ⟨⟨s1, s2⟩, c1, c2⟩ := C156_width hm ht hA fA
  have key : ∀ {C : Interval (Flt mw ew)} {p : ℝ}, Interval.Finite C → C.width ≤ A.width + stepErr mw ew 1 → p ∈ C → z ∈ C →
      |z - p| ≤ A.width + stepErr mw ew 1 := by
    intro C p h1 h2 h3 h4
    obtain ⟨p1, p2⟩ := mem_fin_le h3 h1
    obtain ⟨q1, q2⟩ := mem_fin_le h4 h1
    unfold Interval.width at *
    exact _root_.abs_le.2 ⟨by linarith, by linarith⟩
  exact ⟨key s1 s2 (C24_sin_partial hk A x hx fun _ => Or.inl hw), key c1 c2 (C24_cos_partial hk A x hx fun _ => Or.inl hw)⟩

end

/-- The hypotheses are met by `[0,6]` (where `C24_refuted_sin` shows that the result is not an enclosure) and `[0,3]`, in
both formats' constants, with some accurate libm. -/
example : (∃ L : Libm 23 8, @LawfulLibm 23 8 _ L) ∧ TauNearest 23 8 ∧ TauNearest 52 11 ∧ Ordered ex06 ∧ Interval.Finite ex06 ∧
    Interval.Finite ex03 ∧ ex03.width ≤ Real.pi ∧ (1 : ℝ) ∈ ex03 ∧ (GFloat.fracPi2Upper : F32).isNaN = false := by
  refine ⟨lawfulLibm_exists 23 8, tauNearest_f32, tauNearest_f64,
    ⟨by decide +kernel, by decide +kernel, (val_le_iff (by decide +kernel) (by decide +kernel)).2 (by decide +kernel)⟩,
    by unfold Interval.Finite; decide +kernel, by unfold Interval.Finite; decide +kernel, ?_,
    mem_lit0 (by norm_num) (by decide +kernel) (by norm_num) (by norm_num), by decide +kernel⟩
  change (F32.lit 3).toReal - (F32.lit 0).toReal ≤ Real.pi
  rw [toReal_lit (by norm_num), toReal_lit (by norm_num)]
  have := Real.pi_gt_three; push_cast; linarith

end Scarlet
