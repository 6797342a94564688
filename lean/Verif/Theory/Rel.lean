import Verif.Theory.Near

/-!
A small calculus for relative errors measured in units of `u`: `Rel x X k` says that the float `x` is finite and within
`k·u·|X|` of the real `X`.
-/

namespace Scarlet
open Flt
variable {mw ew : Nat} [FltImpl mw ew] [LawfulFlt mw ew]

/-- the float `x` is finite and within `k·u·|X|` of `X` -/
def Rel (x : Flt mw ew) (X k : ℝ) : Prop := x.isFin = true ∧ |x.toReal - X| ≤ k * uRnd mw * |X|

theorem Rel.mono {x : Flt mw ew} {X k l : ℝ} (h : Rel x X k) (hkl : k ≤ l) : Rel x X l :=
  ⟨h.1, h.2.trans (mul_le_mul_of_nonneg_right (mul_le_mul_of_nonneg_right hkl uRnd_pos.le) (abs_nonneg _))⟩

theorem Rel.congr {x y : Flt mw ew} {X k : ℝ} (h : Rel x X k) (e : Same y x) : Rel y X k :=
  ⟨e.isFin h.1, by rw [e.toReal]; exact h.2⟩

theorem Rel.eq {x : Flt mw ew} {X Y k : ℝ} (h : Rel x X k) (e : X = Y) : Rel x Y k := e ▸ h

theorem rel_exact {x : Flt mw ew} (h : x.isFin = true) : Rel x x.toReal 0 := ⟨h, by simp⟩

theorem Rel.neg {x : Flt mw ew} {X k : ℝ} (h : Rel x X k) : Rel (-x) (-X) k :=
  ⟨by rw [isFin_negop]; exact h.1, by rw [toReal_negop, neg_sub_neg, abs_sub_comm, abs_neg]; exact h.2⟩

theorem Rel.abs_le {x : Flt mw ew} {X k : ℝ} (h : Rel x X k) : |x.toReal| ≤ (1 + k * uRnd mw) * |X| := by
  have h1 := abs_add_le (x.toReal - X) X
  rw [sub_add_cancel] at h1
  linarith [h.2]

theorem rel_mul_core {u x y z X Y k l m : ℝ} (hu : 0 < u) (hu1 : u ≤ 1 / 1024) (hx : |x - X| ≤ k * u * |X|)
    (hy : |y - Y| ≤ l * u * |Y|) (hz : |z - x * y| ≤ u * |x * y|) (hk : 0 ≤ k) (hl : 0 ≤ l)
    (h : (k + l + k * l / 1024) + 1 + (k + l + k * l / 1024) / 1024 ≤ m) : |z - X * Y| ≤ m * u * |X * Y| := by
  have P := abs_nonneg (X * Y)
  have e1 : |x * y - X * Y| ≤ (k + l + k * l / 1024) * u * |X * Y| := by
    rw [show x * y - X * Y = X * (y - Y) + Y * (x - X) + (x - X) * (y - Y) by ring]
    refine (abs_add_le _ _).trans ((add_le_add_left (abs_add_le _ _) _).trans ?_)
    rw [abs_mul, abs_mul, abs_mul]
    have h1 := mul_le_mul_of_nonneg_left hy (abs_nonneg X)
    have h2 := mul_le_mul_of_nonneg_left hx (abs_nonneg Y)
    have h3 := mul_le_mul hx hy (abs_nonneg _) (by positivity)
    have h4 : k * u * |X| * (l * u * |Y|) ≤ k * l / 1024 * u * |X * Y| := by
      have := mul_le_mul_of_nonneg_left hu1 (show 0 ≤ k * l * u * (|X| * |Y|) by positivity)
      rw [abs_mul]; linarith
    rw [abs_mul] at h4 ⊢
    linarith
  have e0 : 0 ≤ k + l + k * l / 1024 := by positivity
  have e2 : |x * y| ≤ (1 + (k + l + k * l / 1024) / 1024) * |X * Y| := by
    have := abs_add_le (x * y - X * Y) (X * Y); rw [sub_add_cancel] at this
    have := mul_le_mul_of_nonneg_right (mul_le_mul_of_nonneg_left hu1 e0) P
    linarith
  have e3 := mul_le_mul_of_nonneg_left e2 hu.le
  have e4 := abs_sub_le z (x * y) (X * Y)
  have e5 := mul_le_mul_of_nonneg_right h (mul_nonneg hu.le P)
  linarith

theorem rel_div_core {u x y z X Y k l m : ℝ} (hu : 0 < u) (hu1 : u ≤ 1 / 1024) (hx : |x - X| ≤ k * u * |X|)
    (hy : |y - Y| ≤ l * u * |Y|) (hz : |z - x / y| ≤ u * |x / y|) (hk : 0 ≤ k) (hl : 0 ≤ l) (hY : Y ≠ 0) (hl8 : l ≤ 8)
    (h : (k + l) * 1.01 + 1 + (k + l) * 1.01 / 1024 ≤ m) : y ≠ 0 ∧ |z - X / Y| ≤ m * u * |X / Y| := by
  have P := abs_nonneg (X / Y)
  have Yp := abs_pos.2 hY
  have l1 : l * u ≤ 8 / 1024 := by have := mul_le_mul hl8 hu1 hu.le (by norm_num); linarith
  have y1 : (1 - 8 / 1024) * |Y| ≤ |y| := by
    have h1 := abs_sub_abs_le_abs_sub Y y; rw [abs_sub_comm] at h1
    have := mul_le_mul_of_nonneg_right l1 Yp.le
    linarith
  have yp : 0 < |y| := lt_of_lt_of_le (by positivity) y1
  have y0 : y ≠ 0 := abs_pos.1 yp
  refine ⟨y0, ?_⟩
  have e1 : |x / y - X / Y| ≤ (k + l) * 1.01 * u * |X / Y| := by
    have e : x / y - X / Y = ((x - X) - X / Y * (y - Y)) / y := by field_simp; ring
    rw [e, abs_div, div_le_iff₀ yp]
    have h1 := abs_sub (x - X) (X / Y * (y - Y))
    rw [abs_mul] at h1
    have h2 := mul_le_mul_of_nonneg_left hy P
    have h3 : |X| = |X / Y| * |Y| := by rw [← abs_mul, div_mul_cancel₀ _ hY]
    rw [h3] at hx
    have h4 := mul_le_mul_of_nonneg_left y1 (show 0 ≤ (k + l) * 1.01 * u * |X / Y| by positivity)
    have h5 : 0 ≤ (k + l) * u * |X / Y| * |Y| := by positivity
    linarith
  have e2 : |x / y| ≤ (1 + (k + l) * 1.01 / 1024) * |X / Y| := by
    have := abs_add_le (x / y - X / Y) (X / Y); rw [sub_add_cancel] at this
    have := mul_le_mul_of_nonneg_right (mul_le_mul_of_nonneg_left hu1 (show 0 ≤ (k + l) * 1.01 by positivity)) P
    linarith
  have e3 := mul_le_mul_of_nonneg_left e2 hu.le
  have e4 := abs_sub_le z (x / y) (X / Y)
  have e5 := mul_le_mul_of_nonneg_right h (mul_nonneg hu.le P)
  linarith

theorem rel_mul (hm : 9 ≤ mw) {x y : Flt mw ew} {X Y k l m : ℝ} (hx : Rel x X k) (hy : Rel y Y l)
    (hf : (x * y).isFin = true) (hn : Normalised mw ew (x.toReal * y.toReal)) (hk : 0 ≤ k) (hl : 0 ≤ l)
    (h : (k + l + k * l / 1024) + 1 + (k + l + k * l / 1024) / 1024 ≤ m) : Rel (x * y) (X * Y) m :=
  ⟨hf, rel_mul_core uRnd_pos (uRnd_small hm) hx.2 hy.2 (mul_rel hx.1 hy.1 hf hn) hk hl h⟩

theorem rel_ne_zero (hm : 9 ≤ mw) {y : Flt mw ew} {Y l : ℝ} (hy : Rel y Y l) (hY : Y ≠ 0) (hl : 0 ≤ l) (hl8 : l ≤ 8) :
    y.toReal ≠ 0 :=
  (rel_div_core (x := 0) (X := 0) (z := 0) (k := 0) (m := (0 + l) * 1.01 + 1 + (0 + l) * 1.01 / 1024)
    (uRnd_pos (mw := mw)) (uRnd_small hm) (by simp) hy.2 (by simp) le_rfl hl hY hl8 le_rfl).1

theorem div_rel {x y : Flt mw ew} (hx : x.isFin = true) (hy : y.isFin = true) (h0 : y.toReal ≠ 0)
    (hz : (x / y).isFin = true) (hn : Normalised mw ew (x.toReal / y.toReal)) :
    |(x / y).toReal - x.toReal / y.toReal| ≤ uRnd mw * |x.toReal / y.toReal| := by
  refine rel_of_err (div_err hx hy h0 hz) hn fun h => ?_
  have := (div_fin hx hy (fun h => h0 (toReal_eq_zero_iff.2 h))).2
  rw [h, rndK_zero, ← div_def] at this
  exact toReal_eq_zero_iff.2 this

theorem rel_div (hm : 9 ≤ mw) {x y : Flt mw ew} {X Y k l m : ℝ} (hx : Rel x X k) (hy : Rel y Y l)
    (hf : (x / y).isFin = true) (hn : Normalised mw ew (x.toReal / y.toReal)) (hk : 0 ≤ k) (hl : 0 ≤ l) (hY : Y ≠ 0)
    (hl8 : l ≤ 8) (h : (k + l) * 1.01 + 1 + (k + l) * 1.01 / 1024 ≤ m) : Rel (x / y) (X / Y) m :=
  ⟨hf, (rel_div_core uRnd_pos (uRnd_small hm) hx.2 hy.2 (div_rel hx.1 hy.1 (rel_ne_zero hm hy hY hl hl8) hf hn) hk hl hY hl8 h).2⟩

theorem rel_sub_exact {x y : Flt mw ew} (hx : x.isFin = true) (hy : y.isFin = true) (hf : (x - y).isFin = true) :
    Rel (x - y) (x.toReal - y.toReal) 1 := ⟨hf, by rw [one_mul]; exact sub_err hx hy hf⟩

/-! ### halving is exact -/

theorem magN_half {mw i : Nat} (h : 2 ^ (mw + 1) ≤ magN mw i) : ∃ m e, m ≤ 2 ^ (mw + 1) ∧ magN mw i = m * 2 ^ e * 2 := by
  have hp := Nat.two_pow_pos mw
  rcases idx_cases mw i with h1 | ⟨e, m, hm, rfl⟩
  · rw [magN_of_lt h1, pow_succ] at h; omega
  · rw [magN_block _ _ _ hm.le] at h ⊢
    cases e with
    | zero => rw [pow_succ, pow_zero] at h; omega
    | succ e => exact ⟨2 ^ mw + m, e, by rw [pow_succ]; omega, by rw [pow_succ]; ring⟩

/-- halving a float that is at least twice the smallest normal number is exact -/
theorem half_exact {x : Flt mw ew} (hx : x.isFin = true) (hn : etaRnd mw ew ≤ uRnd mw * |x.toReal / 2|) :
    (x * GFloat.half).isFin = true ∧ (x * GFloat.half).toReal = x.toReal / 2 := by
  obtain ⟨fh, vh⟩ := half_spec (mw := mw) (ew := ew)
  have key : ∀ r : ℝ, 0 ≤ r → etaRnd mw ew ≤ uRnd mw * |r / 2| → (∃ i < infIdx mw ew, r * 2 ^ fK mw ew = magN mw i) → Repr mw ew (r / 2) := by
    intro r r0 hr ⟨i, hi, e⟩
    have big : 2 ^ (mw + 1) ≤ magN mw i := by
      unfold etaRnd uRnd at hr
      rw [abs_of_nonneg (by positivity), one_div_mul_eq_div, div_le_div_iff₀ (by positivity) (by positivity), one_mul,
        pow_succ 2 (fK mw ew)] at hr
      have : (2 : ℝ) ^ (mw + 1) ≤ magN mw i := by rw [← e]; linarith
      exact_mod_cast this
    obtain ⟨m, e', hm, h2⟩ := magN_half big
    refine repr_of_mul_pow m e' hm ?_ ?_
    · have := magN_strictMono mw hi
      have := Nat.two_pow_pos (mw + 1)
      omega
    · rw [h2] at e
      push_cast at e
      linarith
  have hk := (mul_fin hx fh).2
  rw [vh, show x.toReal * (1 / 2) = x.toReal / 2 by ring] at hk
  refine exact_of_repr ?_ hk
  have kx := isFin_iff_key.1 hx
  have hv := toReal_eq_key x
  have hp : (0 : ℝ) < 2 ^ fK mw ew := by positivity
  have hkI : kInf mw ew = (infIdx mw ew : ℤ) := rfl
  rcases le_or_gt 0 x.key with h | h
  · refine key _ ?_ hn ⟨x.key.natAbs, by omega, ?_⟩
    · exact toReal_nonneg_iff.2 h
    · rw [hv, valZ_nonneg_eq h, div_mul_cancel₀ _ hp.ne']
  · have := key (-x.toReal) ?_ (by rw [neg_div, abs_neg]; exact hn) ⟨x.key.natAbs, by omega, ?_⟩
    · have := this.neg
      rwa [neg_div, _root_.neg_neg] at this
    · have : x.toReal ≤ 0 := by
        have := toReal_nonneg_iff (x := -x).2 (by rw [key_negop]; omega)
        rw [toReal_negop] at this; linarith
      linarith
    · rw [hv]; unfold valZ
      rw [if_pos h, neg_div, _root_.neg_neg, div_mul_cancel₀ _ hp.ne']

/-- a function accurate to one float, away from overflow -/
theorem accurate_rel {fl : Flt mw ew → Flt mw ew} {f : ℝ → ℝ} {x : Flt mw ew} (h : AccurateAt fl f x)
    (fd : (GFloat.nextDown (fl x)).isFin = true) (fu : (GFloat.nextUp (fl x)).isFin = true) :
    (fl x).isFin = true ∧ |(fl x).toReal - f x.toReal| ≤ Max.max (2 * etaRnd mw ew) (2 * uRnd mw * |(fl x).toReal|) := by
  have hn : (fl x).isNaN = false := by have := h.lo.1; rwa [isNaN_nextDown] at this
  obtain ⟨nd, kd⟩ := nextDown_key hn
  obtain ⟨nu, ku⟩ := nextUp_key hn
  have k1 := isFin_iff_key.1 fd
  have k2 := isFin_iff_key.1 fu
  have kb := key_bounds hn
  set c := fl x
  have fc : c.isFin = true := isFin_iff_key.2 ⟨by omega, by omega⟩
  have lo := h.lo.2
  have hi := h.hi.2
  rw [val_of_isFin fd, EReal.coe_le_coe_iff] at lo
  rw [val_of_isFin fu, EReal.coe_le_coe_iff] at hi
  refine ⟨fc, ?_⟩
  have g1 := toReal_gap (x := c) (y := GFloat.nextUp c) (by omega)
  have g2 := toReal_gap (x := -c) (y := -(GFloat.nextDown c)) (by rw [key_negop, key_negop]; omega)
  rw [toReal_negop, toReal_negop, abs_neg] at g2
  rw [_root_.abs_le]
  constructor <;> linarith

end Scarlet
