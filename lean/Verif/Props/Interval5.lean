import Verif.Theory.Trig

/-! C24: interval sine and cosine. -/

set_option linter.unusedSectionVars false

namespace Scarlet
open Flt Scarlet.Interval
open Real (pi sin cos)
variable {mw ew : Nat} [FltImpl mw ew] [LawfulFlt mw ew]

/-! ### the accuracy assumption can be met -/

/-- The float nearest to `r`, except that a nonzero `r` is never rounded to zero. -/
noncomputable def faithful (mw ew : Nat) (r : ℝ) : Flt mw ew :=
  let k := if rndK mw ew r = 0 then (if 0 < r then 1 else if r < 0 then -1 else 0) else rndK mw ew r
  ofIdx mw ew (decide (k < 0)) k.natAbs

theorem faithful_key (r : ℝ) : (faithful mw ew r).isNaN = false ∧
    (faithful mw ew r).key = if rndK mw ew r = 0 then (if 0 < r then 1 else if r < 0 then -1 else 0) else rndK mw ew r := by
  have hK := kInf_pos (mw := mw) (ew := ew)
  have hb := rndK_bounds mw ew r
  unfold faithful
  generalize hk : (if rndK mw ew r = 0 then (if 0 < r then (1 : ℤ) else if r < 0 then -1 else 0) else rndK mw ew r) = k
  have hkb : k.natAbs ≤ infIdx mw ew := by
    unfold kInf at hK hb
    split at hk
    · split at hk
      · omega
      · split at hk <;> omega
    · omega
  have hi : infIdx mw ew < 2 ^ (mw + ew) := by
    unfold infIdx
    rw [pow_add, mul_comm]
    exact Nat.mul_lt_mul_of_pos_left (by have := Nat.two_pow_pos ew; omega) (Nat.two_pow_pos mw)
  have h1 : k.natAbs < 2 ^ (mw + ew) := by omega
  simp only
  refine ⟨by rw [notNaN_iff, idx_ofIdx h1]; exact hkb, ?_⟩
  unfold key
  rw [sgn_ofIdx h1, idx_ofIdx h1]
  by_cases h : k < 0
  · simp only [h, decide_true, if_true]; omega
  · simp only [h, decide_false]; simp; omega

theorem faithful_spec (r : ℝ) : LowerOf (GFloat.nextDown (faithful mw ew r)) r ∧ UpperOf (GFloat.nextUp (faithful mw ew r)) r ∧
    (0 < (faithful mw ew r).val ↔ 0 < r) ∧ ((faithful mw ew r).val < 0 ↔ r < 0) := by
  have hK := kInf_pos (mw := mw) (ew := ew)
  obtain ⟨hn, hk⟩ := faithful_key (mw := mw) (ew := ew) r
  generalize faithful mw ew r = z at hn hk ⊢
  have hd := nextDown_key hn
  have hu := nextUp_key hn
  have hb := rndK_bounds mw ew r
  have zero_of : ∀ u : Flt mw ew, u.isNaN = false → u.key = 0 → u.val = 0 := fun u h1 h2 => (val_zero_iff h1).2 h2
  rw [val_zero_lt_iff hn, val_lt_zero_iff hn]
  rcases lt_trichotomy r 0 with h | h | h
  · have k1 : rndK mw ew r ≤ 0 := rndK_nonpos h.le
    rw [if_neg (not_lt.2 h.le), if_pos h] at hk
    have kk : z.key < 0 := by rw [hk]; split <;> omega
    refine ⟨lowerOf_of_key hd.1 ?_, ?_, ?_, ⟨fun _ => h, fun _ => kk⟩⟩
    · rw [hd.2, hk]; split <;> omega
    · by_cases hr0 : rndK mw ew r = 0
      · rw [if_pos hr0] at hk
        have := zero_of _ hu.1 (by rw [hu.2, hk]; omega)
        exact ⟨hu.1, by rw [this]; exact_mod_cast h.le⟩
      · rw [if_neg hr0] at hk
        exact upperOf_of_key hu.1 (by rw [hu.2, hk])
    · exact ⟨fun h' => by omega, fun h' => by linarith⟩
  · subst h
    rw [rndK_zero] at hk hb
    simp at hk
    refine ⟨lowerOf_of_key hd.1 (by rw [hd.2, hk, rndK_zero]), upperOf_of_key hu.1 (by rw [hu.2, hk, rndK_zero]), ?_, ?_⟩
    · rw [hk]; simp
    · rw [hk]; simp
  · have k1 : 0 ≤ rndK mw ew r := rndK_nonneg h.le
    rw [if_pos h] at hk
    have kk : 0 < z.key := by rw [hk]; split <;> omega
    refine ⟨?_, upperOf_of_key hu.1 ?_, ⟨fun _ => h, fun _ => kk⟩, ?_⟩
    · by_cases hr0 : rndK mw ew r = 0
      · rw [if_pos hr0] at hk
        have := zero_of _ hd.1 (by rw [hd.2, hk]; omega)
        exact ⟨hd.1, by rw [this]; exact_mod_cast h.le⟩
      · rw [if_neg hr0] at hk
        exact lowerOf_of_key hd.1 (by rw [hd.2, hk])
    · rw [hu.2, hk]; split <;> omega
    · exact ⟨fun h' => by omega, fun h' => by linarith⟩

theorem faithful_accurate {f : ℝ → ℝ} {fl : Flt mw ew → Flt mw ew} {x : Flt mw ew} (hfl : fl x = faithful mw ew (f x.toReal)) :
    AccurateAt fl f x := by
  obtain ⟨h1, h2, h3, h4⟩ := faithful_spec (mw := mw) (ew := ew) (f x.toReal)
  rw [← hfl] at h1 h2 h3 h4
  exact ⟨h1, h2, h3, h4⟩

/-- There is a libm meeting the accuracy assumption `LawfulLibm`, so the theorems below are not vacuous. -/
theorem lawfulLibm_exists (mw ew : Nat) [FltImpl mw ew] [LawfulFlt mw ew] : ∃ L : Libm mw ew, @LawfulLibm mw ew _ L := by
  classical
  let L : Libm mw ew := {
            sin := fun x => faithful mw ew (sin x.toReal), cos := fun x => faithful mw ew (cos x.toReal),
            tan := fun x => faithful mw ew (Real.tan x.toReal), asin := fun x => faithful mw ew (Real.arcsin x.toReal),
            acos := fun x => faithful mw ew (Real.arccos x.toReal),
            atan := fun x => if x.val = ⊥ then faithful mw ew (-(pi / 2)) else if x.val = ⊤ then faithful mw ew (pi / 2)
              else faithful mw ew (Real.arctan x.toReal),
            atan2 := fun x _ => x }
  refine ⟨L, @LawfulLibm.mk mw ew _ L ?_ ?_ ?_ ?_ ?_ ?_ ?_⟩
  · exact fun x _ => faithful_accurate rfl
  · exact fun x _ => faithful_accurate rfl
  · exact fun x _ _ _ => faithful_accurate rfl
  · exact fun x _ _ _ => faithful_accurate rfl
  · intro x hx
    refine faithful_accurate ?_
    change (if x.val = ⊥ then _ else if x.val = ⊤ then _ else _) = _
    rw [val_of_isFin hx, if_neg (EReal.coe_ne_bot _), if_neg (EReal.coe_ne_top _)]
  · intro x _ hx
    change LowerOf (GFloat.nextDown (if x.val = ⊥ then _ else _)) _
    rw [if_pos hx]
    exact (faithful_accurate (f := fun _ => -(pi / 2)) (fl := fun _ => faithful mw ew (-(pi / 2))) (x := x) rfl).lo
  · intro x _ hx
    change UpperOf (GFloat.nextUp (if x.val = ⊥ then _ else _)) _
    rw [if_neg (by rw [hx]; exact top_ne_bot), if_pos hx]
    exact (faithful_accurate (f := fun _ => pi / 2) (fl := fun _ => faithful mw ew (pi / 2)) (x := x) rfl).hi

theorem Flt.UpperOf.rndK_le {u : Flt mw ew} {r : ℝ} (h : UpperOf u r) : rndK mw ew r ≤ u.key := by
  have hb := rndK_bounds mw ew r
  rcases key_cases h.1 with h1 | h1 | h1
  · exact absurd h1 h.key_ne_bot
  · omega
  · rw [← rndK_toReal h.1]; exact rndK_mono mw ew ((upperOf_fin h1).1 h)
theorem Flt.LowerOf.le_rndK {u : Flt mw ew} {r : ℝ} (h : LowerOf u r) : u.key ≤ rndK mw ew r := by
  have hb := rndK_bounds mw ew r
  rcases key_cases h.1 with h1 | h1 | h1
  · omega
  · exact absurd h1 h.key_ne_top
  · rw [← rndK_toReal h.1]; exact rndK_mono mw ew ((lowerOf_fin h1).1 h)

/-! ### C24 -/

section
variable [Libm mw ew] [LawfulLibm mw ew]

theorem AccurateAt.notNaN {fl : Flt mw ew → Flt mw ew} {f : ℝ → ℝ} {x : Flt mw ew} (h : AccurateAt fl f x) :
    (fl x).isNaN = false := notNaN_of_step h.lo
theorem AccurateAt.pos_iff {fl : Flt mw ew → Flt mw ew} {f : ℝ → ℝ} {x : Flt mw ew} (h : AccurateAt fl f x) :
    0 < (fl x).key ↔ 0 < f x.toReal := by rw [← val_zero_lt_iff h.notNaN, h.pos]
theorem AccurateAt.neg_iff {fl : Flt mw ew → Flt mw ew} {f : ℝ → ℝ} {x : Flt mw ew} (h : AccurateAt fl f x) :
    (fl x).key < 0 ↔ f x.toReal < 0 := by rw [← val_lt_zero_iff h.notNaN, h.neg]
theorem AccurateAt.zero_iff {fl : Flt mw ew → Flt mw ew} {f : ℝ → ℝ} {x : Flt mw ew} (h : AccurateAt fl f x) :
    (fl x).key = 0 ↔ f x.toReal = 0 := by
  have h1 := h.pos_iff
  have h2 := h.neg_iff
  constructor
  · intro h0
    exact le_antisymm (not_lt.1 fun h' => by have := h1.2 h'; omega) (not_lt.1 fun h' => by have := h2.2 h'; omega)
  · intro h0
    rw [h0] at h1 h2
    simp only [lt_irrefl, iff_false] at h1 h2
    omega

theorem mem_fin_le {A : Interval (Flt mw ew)} {x : ℝ} (hx : x ∈ A) (hf : Interval.Finite A) :
    A.inf.toReal ≤ x ∧ x ≤ A.sup.toReal := ⟨(lowerOf_fin hf.1).1 hx.1, (upperOf_fin hf.2).1 hx.2⟩

theorem same_of_mul {p q : ℝ} (h : ¬ p * q < 0) (hp : p ≠ 0) (hq : q ≠ 0) : (0 < p ∧ 0 < q) ∨ (p < 0 ∧ q < 0) := by
  rcases lt_or_gt_of_ne hp with h1 | h1 <;> rcases lt_or_gt_of_ne hq with h2 | h2
  · exact Or.inr ⟨h1, h2⟩
  · exact absurd (mul_neg_of_neg_of_pos h1 h2) h
  · exact absurd (mul_neg_of_pos_of_neg h1 h2) h
  · exact Or.inl ⟨h1, h2⟩

/-- C24 (partial): `sin x ∈ A.sin()` for every `x ∈ A`, also with infinite bounds, unless the width of `A` is strictly
between `π` and `2π` and the endpoint cosines have the same sign.  The full claim (no such condition) is refuted by
`C24_refuted_sin`. -/
theorem C24_sin_partial (ht : TauOk mw ew) (A : Interval (Flt mw ew)) (x : ℝ) (hx : x ∈ A)
    (h : Interval.Finite A → A.sup.toReal - A.inf.toReal ≤ pi ∨ 2 * pi ≤ A.sup.toReal - A.inf.toReal ∨
      cos A.inf.toReal * cos A.sup.toReal < 0) :
    sin x ∈ Interval.sin A := by
  unfold Interval.sin
  simp only
  by_cases hw : Scalar.ge (A.sup - A.inf) GFloat.tau = true
  · rw [if_pos hw]
    exact ⟨neg_one_lower (Real.neg_one_le_sin x), one_upper (Real.sin_le_one x)⟩
  · rw [if_neg hw]
    obtain ⟨hf, hlt⟩ := narrow ht hx hw
    obtain ⟨x1, x2⟩ := mem_fin_le hx hf
    have ci := LawfulLibm.cos A.inf hf.1
    have cs := LawfulLibm.cos A.sup hf.2
    have si := LawfulLibm.sin A.inf hf.1
    have ss := LawfulLibm.sin A.sup hf.2
    have n1 := cos_toReal_ne A.inf
    have n2 := cos_toReal_ne A.sup
    have h' := h hf
    by_cases he : Scalar.eq (Scalar.signum (GTrig.cos A.inf)) (Scalar.signum (GTrig.cos A.sup)) = true
    · rw [if_pos he]
      rw [show (GTrig.cos A.inf : Flt mw ew) = Libm.cos A.inf from rfl, show (GTrig.cos A.sup : Flt mw ew) = Libm.cos A.sup from rfl,
        signum_eq_iff ci.notNaN cs.notNaN, ci.pos_iff, cs.pos_iff, ci.neg_iff, cs.neg_iff, ci.zero_iff, cs.zero_iff] at he
      have he2 : (0 < cos A.inf.toReal ∧ 0 < cos A.sup.toReal) ∨ (cos A.inf.toReal < 0 ∧ cos A.sup.toReal < 0) := by
        rcases he with he | he | he
        · exact Or.inl he
        · exact Or.inr he
        · exact absurd he.1 n1
      have hp : A.sup.toReal - A.inf.toReal ≤ pi := by
        rcases h' with h' | h' | h'
        · exact h'
        · linarith
        · rcases he2 with ⟨e1, e2⟩ | ⟨e1, e2⟩ <;> nlinarith
      obtain ⟨l, u⟩ := sin_same hp he2 x1 x2
      obtain ⟨⟨m1, m2⟩, ⟨m3, m4⟩⟩ := key_minMax si.notNaN ss.notNaN
      exact ⟨lower_of_min si.lo ss.lo l m1 m2, upper_of_max si.notNaN ss.notNaN si.hi ss.hi u m3 m4⟩
    · rw [if_neg he]
      rw [show (GTrig.cos A.inf : Flt mw ew) = Libm.cos A.inf from rfl, show (GTrig.cos A.sup : Flt mw ew) = Libm.cos A.sup from rfl] at *
      rw [signum_eq_iff ci.notNaN cs.notNaN, ci.pos_iff, cs.pos_iff, ci.neg_iff, cs.neg_iff, ci.zero_iff, cs.zero_iff] at he
      have hb : Scalar.isNegative (Libm.cos A.inf) = true ↔ cos A.inf.toReal < 0 := by
        unfold Scalar.isNegative; rw [slt_iff, key_szero, ci.neg_iff]; simp [ci.notNaN, szero_notNaN]
      by_cases hn : Scalar.isNegative (Libm.cos A.inf) = true
      · rw [if_pos hn]
        rw [hb] at hn
        have hs : 0 ≤ cos A.sup.toReal := not_lt.1 fun h'' => he (Or.inr (Or.inl ⟨hn, h''⟩))
        have u := sin_minima hlt hn.le hs x1 x2
        obtain ⟨m3, m4⟩ := key_smax si.notNaN ss.notNaN
        exact ⟨neg_one_lower (Real.neg_one_le_sin x), upper_of_max si.notNaN ss.notNaN si.hi ss.hi u m3 m4⟩
      · rw [if_neg hn]
        rw [hb, not_lt] at hn
        have hs : cos A.sup.toReal ≤ 0 := not_lt.1 fun h'' => he (Or.inl ⟨lt_of_le_of_ne hn n1.symm, h''⟩)
        have l := sin_maxima hlt hn hs x1 x2
        obtain ⟨m1, m2⟩ := key_smin si.notNaN ss.notNaN
        exact ⟨lower_of_min si.lo ss.lo l m1 m2, one_upper (Real.sin_le_one x)⟩

/-- C24 (partial): `cos x ∈ A.cos()` for every `x ∈ A`, also with infinite bounds, unless the width of `A` is strictly
between `π` and `2π` and either the endpoint sines have the same sign or the lower endpoint is zero.  The full
claim is refuted by `C24_refuted_cos`. -/
theorem C24_cos_partial (ht : TauOk mw ew) (A : Interval (Flt mw ew)) (x : ℝ) (hx : x ∈ A)
    (h : Interval.Finite A → A.sup.toReal - A.inf.toReal ≤ pi ∨ 2 * pi ≤ A.sup.toReal - A.inf.toReal ∨
      sin A.inf.toReal * sin A.sup.toReal < 0 ∨ A.sup.toReal = 0) :
    cos x ∈ Interval.cos A := by
  unfold Interval.cos
  simp only
  by_cases hw : Scalar.ge (A.sup - A.inf) GFloat.tau = true
  · rw [if_pos hw]
    exact ⟨neg_one_lower (Real.neg_one_le_cos x), one_upper (Real.cos_le_one x)⟩
  · rw [if_neg hw]
    obtain ⟨hf, hlt⟩ := narrow ht hx hw
    obtain ⟨x1, x2⟩ := mem_fin_le hx hf
    have ci := LawfulLibm.cos A.inf hf.1
    have cs := LawfulLibm.cos A.sup hf.2
    have si := LawfulLibm.sin A.inf hf.1
    have ss := LawfulLibm.sin A.sup hf.2
    have h' := h hf
    have z1 := sin_toReal_eq_zero (x := A.inf)
    have z2 := sin_toReal_eq_zero (x := A.sup)
    have hpp := Real.pi_pos
    rw [show (GTrig.sin A.inf : Flt mw ew) = Libm.sin A.inf from rfl, show (GTrig.sin A.sup : Flt mw ew) = Libm.sin A.sup from rfl]
    by_cases he : Scalar.eq (Scalar.signum (Libm.sin A.inf)) (Scalar.signum (Libm.sin A.sup)) = true
    · rw [if_pos he]
      rw [signum_eq_iff si.notNaN ss.notNaN, si.pos_iff, ss.pos_iff, si.neg_iff, ss.neg_iff, si.zero_iff, ss.zero_iff] at he
      obtain ⟨⟨m1, m2⟩, ⟨m3, m4⟩⟩ := key_minMax ci.notNaN cs.notNaN
      have lu : min (cos A.inf.toReal) (cos A.sup.toReal) ≤ cos x ∧ cos x ≤ max (cos A.inf.toReal) (cos A.sup.toReal) := by
        rw [← or_assoc] at he
        rcases he with he | ⟨e1, e2⟩
        · have hp : A.sup.toReal - A.inf.toReal ≤ pi := by
            rcases h' with h' | h' | h' | h'
            · exact h'
            · linarith
            · rcases he with ⟨e1, e2⟩ | ⟨e1, e2⟩ <;> nlinarith
            · rw [h', Real.sin_zero] at he; rcases he with ⟨e1, e2⟩ | ⟨e1, e2⟩ <;> linarith
          exact cos_same hp he x1 x2
        · rw [z1] at e1; rw [z2] at e2
          have : x = A.inf.toReal := by linarith
          rw [this]; exact ⟨min_le_left _ _, le_max_left _ _⟩
      exact ⟨lower_of_min ci.lo cs.lo lu.1 m1 m2, upper_of_max ci.notNaN cs.notNaN ci.hi cs.hi lu.2 m3 m4⟩
    · rw [if_neg he]
      rw [signum_eq_iff si.notNaN ss.notNaN, si.pos_iff, ss.pos_iff, si.neg_iff, ss.neg_iff, si.zero_iff, ss.zero_iff] at he
      have hb : Scalar.isPositive (Libm.sin A.inf) = true ↔ 0 < sin A.inf.toReal := by
        unfold Scalar.isPositive; rw [sgt_iff, key_szero, si.pos_iff]; simp [si.notNaN, szero_notNaN]
      by_cases hn : Scalar.isPositive (Libm.sin A.inf) = true
      · rw [if_pos hn]
        rw [hb] at hn
        have hs : sin A.sup.toReal ≤ 0 := not_lt.1 fun h'' => he (Or.inl ⟨hn, h''⟩)
        have u := cos_minima hlt hn.le hs x1 x2
        obtain ⟨m3, m4⟩ := key_smax ci.notNaN cs.notNaN
        exact ⟨neg_one_lower (Real.neg_one_le_cos x), upper_of_max ci.notNaN cs.notNaN ci.hi cs.hi u m3 m4⟩
      · rw [if_neg hn]
        rw [hb, not_lt] at hn
        have hs : 0 ≤ sin A.sup.toReal := by
          rcases eq_or_lt_of_le hn with e | e
          · have hi0 := z1.1 e
            rcases h' with h' | h' | h' | h'
            · exact Real.sin_nonneg_of_nonneg_of_le_pi (by linarith) (by linarith)
            · linarith
            · rw [e] at h'; linarith
            · rw [h', Real.sin_zero]
          · exact not_lt.1 fun h'' => he (Or.inr (Or.inl ⟨e, h''⟩))
        have l := cos_maxima hlt hn hs x1 x2
        obtain ⟨m1, m2⟩ := key_smin ci.notNaN cs.notNaN
        exact ⟨lower_of_min ci.lo cs.lo l m1 m2, one_upper (Real.cos_le_one x)⟩

/-- C24 (partial, width at most `π`): `sin_cos` is the pair of both and encloses, and so does `tan`, which is the
quotient. -/
theorem C24_sin_cos_tan_partial (ht : TauOk mw ew) (A : Interval (Flt mw ew)) (x : ℝ) (hx : x ∈ A)
    (hw : A.sup.toReal - A.inf.toReal ≤ pi) :
    (sin x ∈ (GTrig.sinCos A).1 ∧ cos x ∈ (GTrig.sinCos A).2) ∧
    (cos x ≠ 0 → Real.tan x ∈ (GTrig.tan A : Interval (Flt mw ew))) := by
  have h1 := C24_sin_partial ht A x hx (fun _ => Or.inl hw)
  have h2 := C24_cos_partial ht A x hx (fun _ => Or.inl hw)
  refine ⟨⟨h1, h2⟩, fun h0 => ?_⟩
  rw [Real.tan_eq_sin_div_cos]
  exact C14_div _ _ _ _ h1 h2 h0

end

/-! concrete cases and refutations -/

def ex06 : Interval F32 := ⟨F32.lit 0, F32.lit 6⟩
def ex04 : Interval F32 := ⟨F32.lit 0, F32.lit 4⟩
def ex03 : Interval F32 := ⟨F32.lit 0, F32.lit 3⟩

theorem mem_lit0 {n : Nat} (hn : n ≤ 2 ^ 24) (hf : (F32.lit n).isFin = true) {x : ℝ} (h0 : 0 ≤ x) (h1 : x ≤ n) :
    x ∈ (⟨F32.lit 0, F32.lit n⟩ : Interval F32) := by
  refine ⟨(lowerOf_fin (l := F32.lit 0) (by decide +kernel)).2 ?_, (upperOf_fin hf).2 ?_⟩
  · rw [toReal_lit (by norm_num)]; simpa using h0
  · rw [toReal_lit hn]; exact h1

/-- The hypotheses of the C24 theorems are met by `[0,3]`, `x = 1`, with `f32`'s `tau` and some accurate libm. -/
example : (∃ L : Libm 23 8, @LawfulLibm 23 8 _ L) ∧ TauOk 23 8 ∧ TauOk 52 11 ∧ (1 : ℝ) ∈ ex03 ∧ Interval.Finite ex03 ∧
    ex03.sup.toReal - ex03.inf.toReal ≤ pi := by
  refine ⟨lawfulLibm_exists 23 8, tau_f32, tau_f64, mem_lit0 (by norm_num) (by decide +kernel) (by norm_num) (by norm_num),
    by unfold Interval.Finite; decide +kernel, ?_⟩
  change (F32.lit 3).toReal - (F32.lit 0).toReal ≤ pi
  rw [toReal_lit (by norm_num), toReal_lit (by norm_num)]
  have := Real.pi_gt_three; push_cast; linarith

theorem sin_four_neg : sin 4 < 0 := by
  have h1 := Real.pi_gt_three; have h2 := Real.pi_lt_four
  have := Real.sin_pos_of_pos_of_lt_pi (x := 4 - pi) (by linarith) (by linarith)
  rw [Real.sin_sub_pi] at this; linarith
theorem sin_six_neg : sin 6 < 0 := by
  have h1 := Real.pi_gt_three; have h2 := Real.pi_lt_four
  have := Real.sin_pos_of_pos_of_lt_pi (x := 2 * pi - 6) (by linarith) (by linarith)
  rw [Real.sin_two_pi_sub] at this; linarith
theorem cos_six_pos : 0 < cos 6 := by
  have h1 := Real.pi_gt_d2; have h2 := Real.pi_lt_d2
  have := Real.cos_pos_of_mem_Ioo (x := 2 * pi - 6) ⟨by linarith, by linarith⟩
  rw [Real.cos_two_pi_sub] at this; exact this
theorem cos_four_gt : -(3 / 4) < cos 4 := by
  have h1 := Real.pi_gt_d2; have h2 := Real.pi_lt_d2
  have := Real.cos_lt_cos_of_nonneg_of_le_pi (x := pi / 4) (y := 4 - pi) (by linarith) (by linarith) (by linarith)
  rw [Real.cos_sub_pi, Real.cos_pi_div_four] at this
  have h3 : Real.sqrt 2 < 3 / 2 := by rw [Real.sqrt_lt' (by norm_num)]; norm_num
  linarith

/-- C24 is false for sine, whatever accurate libm is used: `π/2 ∈ [0,6]` but the upper bound of `[0,6].sin()` is the
smallest positive float. -/
theorem C24_refuted_sin [Libm 23 8] [LawfulLibm 23 8] :
    ¬ ∀ (A : Interval F32) (x : ℝ), Interval.Finite A → x ∈ A → sin x ∈ Interval.sin A := by
  intro h
  have hp := Real.pi_pos; have hp4 := Real.pi_lt_four
  have hm := (h ex06 (pi / 2) (by unfold Interval.Finite; decide +kernel)
    (mem_lit0 (by norm_num) (by decide +kernel) (by linarith) (by push_cast; linarith))).2
  rw [Real.sin_pi_div_two] at hm
  have r0 : (F32.lit 0).toReal = 0 := by rw [toReal_lit (by norm_num)]; norm_num
  have r6 : (F32.lit 6).toReal = 6 := by rw [toReal_lit (by norm_num)]; norm_num
  have ci := LawfulLibm.cos (F32.lit 0) (by decide +kernel)
  have cs := LawfulLibm.cos (F32.lit 6) (by decide +kernel)
  have si := LawfulLibm.sin (F32.lit 0) (by decide +kernel)
  have ss := LawfulLibm.sin (F32.lit 6) (by decide +kernel)
  have hw : ¬ Scalar.ge (ex06.sup - ex06.inf) GFloat.tau = true := by decide +kernel
  have he : Scalar.eq (Scalar.signum (GTrig.cos ex06.inf)) (Scalar.signum (GTrig.cos ex06.sup)) = true := by
    change Scalar.eq (Scalar.signum (Libm.cos (F32.lit 0))) (Scalar.signum (Libm.cos (F32.lit 6))) = true
    rw [signum_eq_iff ci.notNaN cs.notNaN, ci.pos_iff, cs.pos_iff, r0, r6, Real.cos_zero]
    exact Or.inl ⟨one_pos, cos_six_pos⟩
  obtain ⟨-, ⟨m3, m4⟩⟩ := key_minMax si.notNaN ss.notNaN
  have k1 : (Libm.sin (F32.lit 0)).key = 0 := by rw [si.zero_iff, r0, Real.sin_zero]
  have k2 : (Libm.sin (F32.lit 6)).key < 0 := by rw [ss.neg_iff, r6]; exact sin_six_neg
  unfold Interval.sin at hm
  simp only at hm
  rw [if_neg hw, if_pos he] at hm
  change UpperOf (GFloat.nextUp (Scalar.minMax (Libm.sin (F32.lit 0)) (Libm.sin (F32.lit 6))).2) 1 at hm
  have hu := nextUp_key m3
  have := hm.2
  have h1 : ((1 : ℝ) : EReal) = (F32.lit 1).val := by
    rw [val_of_isFin (by decide +kernel), toReal_lit (by norm_num)]; norm_num
  rw [h1, val_le_iff (by decide +kernel) hu.1, hu.2, m4, k1] at this
  have k3 : (F32.lit 1).key = 1065353216 := by decide +kernel
  rw [k3] at this
  omega

/-- C24 is false for cosine, whatever accurate libm is used: `π ∈ [0,4]` but the lower bound of `[0,4].cos()` is above
`cos π = -1`. -/
theorem C24_refuted_cos [Libm 23 8] [LawfulLibm 23 8] :
    ¬ ∀ (A : Interval F32) (x : ℝ), Interval.Finite A → x ∈ A → cos x ∈ Interval.cos A := by
  intro h
  have hp := Real.pi_pos; have hp4 := Real.pi_lt_four
  have hm := (h ex04 pi (by unfold Interval.Finite; decide +kernel)
    (mem_lit0 (by norm_num) (by decide +kernel) (by linarith) (by push_cast; linarith))).1
  rw [Real.cos_pi] at hm
  have r0 : (F32.lit 0).toReal = 0 := by rw [toReal_lit (by norm_num)]; norm_num
  have r4 : (F32.lit 4).toReal = 4 := by rw [toReal_lit (by norm_num)]; norm_num
  have ci := LawfulLibm.cos (F32.lit 0) (by decide +kernel)
  have cs := LawfulLibm.cos (F32.lit 4) (by decide +kernel)
  have si := LawfulLibm.sin (F32.lit 0) (by decide +kernel)
  have ss := LawfulLibm.sin (F32.lit 4) (by decide +kernel)
  have hw : ¬ Scalar.ge (ex04.sup - ex04.inf) GFloat.tau = true := by decide +kernel
  have k1 : (Libm.sin (F32.lit 0)).key = 0 := by rw [si.zero_iff, r0, Real.sin_zero]
  have k2 : (Libm.sin (F32.lit 4)).key < 0 := by rw [ss.neg_iff, r4]; exact sin_four_neg
  have he : ¬ Scalar.eq (Scalar.signum (GTrig.sin ex04.inf)) (Scalar.signum (GTrig.sin ex04.sup)) = true := by
    change ¬ Scalar.eq (Scalar.signum (Libm.sin (F32.lit 0))) (Scalar.signum (Libm.sin (F32.lit 4))) = true
    rw [signum_eq_iff si.notNaN ss.notNaN, k1]
    omega
  have hn : ¬ Scalar.isPositive (GTrig.sin ex04.inf) = true := by
    change ¬ Scalar.isPositive (Libm.sin (F32.lit 0)) = true
    unfold Scalar.isPositive; rw [sgt_iff, key_szero, k1]; omega
  obtain ⟨m1, m2⟩ := key_smin ci.notNaN cs.notNaN
  unfold Interval.cos at hm
  simp only at hm
  rw [if_neg hw, if_neg he, if_neg hn] at hm
  change LowerOf (GFloat.nextDown (Scalar.min (Libm.cos (F32.lit 0)) (Libm.cos (F32.lit 4)))) (-1) at hm
  have hd := nextDown_key m1
  have := hm.2
  have h1 : ((-1 : ℝ) : EReal) = (-(F32.lit 1)).val := by
    rw [val_of_isFin (by decide +kernel), toReal_negop, toReal_lit (by norm_num)]; norm_num
  rw [h1, val_le_iff hd.1 (by decide +kernel), hd.2, m2] at this
  have k3 : (-(F32.lit 1)).key = -1065353216 := by decide +kernel
  have k4 : 0 < (Libm.cos (F32.lit 0)).key := by rw [ci.pos_iff, r0, Real.cos_zero]; exact one_pos
  -- the float for cos 4 is at least the one below -3/4
  have k5 : (ofRat 23 8 true 3 4).key ≤ (Libm.cos (F32.lit 4)).key + 1 := by
    have hu := nextUp_key cs.notNaN
    have h2 := cs.hi.rndK_le
    rw [r4, hu.2] at h2
    have h3 := rndK_mono 23 8 cos_four_gt.le
    rw [(ofRat_key true 3 4 (by decide)).2]
    have h4 : (if (true : Bool) = true then -(((3 : ℕ) : ℝ) / ((4 : ℕ) : ℝ)) else ((3 : ℕ) : ℝ) / ((4 : ℕ) : ℝ)) = -(3 / 4) := by norm_num
    rw [h4]
    omega
  have k6 : (ofRat 23 8 true 3 4).key = -1061158912 := by decide +kernel
  have hK : kInf 23 8 = 2139095040 := by decide +kernel
  rw [k3] at this
  omega

end Scarlet
