import Verif.Props.NormExact
import Mathlib.Analysis.Real.Pi.Bounds

/-! C163: `rotate` about a coordinate axis against `rotate_x`, `rotate_y`, `rotate_z`, on floats and with `==`. -/

set_option linter.unusedSectionVars false
set_option linter.unusedSimpArgs false

namespace Scarlet
open Flt

/-! ### rounding next to 1 -/

section idx
variable {mw ew : Nat}

theorem rndIdx_tie (i : Nat) :
    rndIdx mw (((magN mw i : ℝ) + magN mw (i + 1)) / 2) = if i % 2 = 0 then i else i + 1 := by
  have hlt := magN_lt_succ mw i
  have hlt' : (magN mw i : ℝ) < magN mw (i + 1) := by exact_mod_cast hlt
  have h0 : (0 : ℝ) ≤ magN mw i := Nat.cast_nonneg _
  have fl : floorIdx mw ⌊((magN mw i : ℝ) + magN mw (i + 1)) / 2⌋₊ = i := by
    refine floorIdx_unique (Nat.le_floor (by linarith)) ?_
    rw [Nat.floor_lt (by linarith)]; linarith
  unfold rndIdx
  simp only [fl]
  rw [if_neg (by linarith), if_neg (by linarith)]

variable (hm : 10 ≤ mw) (hw : mw + 3 ≤ 2 ^ (ew - 1))
include hm hw

theorem oneIdx_even : oneIdx mw ew % 2 = 0 := by
  obtain ⟨k, rfl⟩ : ∃ k, mw = k + 1 := ⟨mw - 1, by omega⟩
  unfold oneIdx
  rw [pow_succ, ← Nat.mul_assoc, Nat.mul_mod_left]

theorem oneIdx_lt_inf : oneIdx mw ew < infIdx mw ew := by
  unfold oneIdx infIdx bias
  have : 2 ^ ew = 2 * 2 ^ (ew - 1) := by
    rw [← pow_succ']; congr 1
    by_contra h
    have : ew = 0 := by omega
    subst this; simp at hw
  exact Nat.mul_lt_mul_of_pos_right (by omega) (Nat.two_pow_pos mw)

theorem rndK_tie {i : Nat} (h : i + 1 ≤ infIdx mw ew) :
    rndK mw ew ((magV mw ew i + magV mw ew (i + 1)) / 2) = if i % 2 = 0 then (i : ℤ) else i + 1 := by
  have e : (magV mw ew i + magV mw ew (i + 1)) / 2 * 2 ^ fK mw ew = ((magN mw i : ℝ) + magN mw (i + 1)) / 2 := by
    unfold magV; field_simp
  unfold rndK
  rw [e, rndZ_of_nonneg (by positivity), rndIdx_tie]
  unfold kInf
  split <;> push_cast <;> omega

/-- everything from half a gap below to half a gap above 1 rounds to 1 -/
theorem rndK_one {t : ℝ} (h1 : 1 - uRnd mw / 2 ≤ t) (h2 : t ≤ 1 + uRnd mw) : rndK mw ew t = oneIdx mw ew := by
  have big := oneIdx_big (ew := ew) hm hw
  have ev := oneIdx_even (ew := ew) hm hw
  have li := oneIdx_lt_inf (ew := ew) hm hw
  have up0 := magV_up (ew := ew) hm hw (Nat.zero_le 8)
  have up1 := magV_up (ew := ew) hm hw (d := 1) (by norm_num)
  have dn1 := magV_down (ew := ew) hm hw (j := 1) (by norm_num)
  simp only [Nat.cast_zero, mul_zero, zero_mul, add_zero] at up0
  have a := rndK_tie (ew := ew) hm hw (i := oneIdx mw ew - 1) (by omega)
  have b := rndK_tie (ew := ew) hm hw (i := oneIdx mw ew) (by omega)
  rw [if_neg (by omega), Nat.sub_add_cancel (by omega), dn1, up0] at a
  rw [if_pos ev, up0, up1] at b
  have c1 := rndK_mono mw ew (show (1 - ((1 : ℕ) : ℝ) * uRnd mw + 1) / 2 ≤ t by push_cast; linarith)
  have c2 := rndK_mono mw ew (show t ≤ (1 + (1 + 2 * ((1 : ℕ) : ℝ) * uRnd mw)) / 2 by push_cast; linarith)
  rw [a] at c1
  rw [b] at c2
  omega

theorem rndK_pred : rndK mw ew (1 - uRnd mw) = oneIdx mw ew - 1 := by
  have big := oneIdx_big (ew := ew) hm hw
  have li := oneIdx_lt_inf (ew := ew) hm hw
  have dn1 := magV_down (ew := ew) hm hw (j := 1) (by norm_num)
  have h := rndK_valZ (mw := mw) (ew := ew) (k := ((oneIdx mw ew - 1 : ℕ) : ℤ)) (by unfold kInf; omega) (by unfold kInf; omega)
  rw [valZ_nat] at h
  change rndK mw ew (magV mw ew (oneIdx mw ew - 1)) = _ at h
  rw [dn1] at h
  rw [show (1 : ℝ) - uRnd mw = 1 - ((1 : ℕ) : ℝ) * uRnd mw by push_cast; ring, h]
  omega

end idx

section flt
variable {mw ew : Nat} [FltImpl mw ew] [LawfulFlt mw ew]

theorem exists_of_key {k : ℤ} (h1 : -kInf mw ew < k) (h2 : k < kInf mw ew) : ∃ y : Flt mw ew, y.key = k := by
  have hi : k.natAbs < 2 ^ (mw + ew) := by
    have h : infIdx mw ew ≤ 2 ^ (mw + ew) := by
      unfold infIdx; rw [pow_add, Nat.mul_comm (2 ^ mw)]; exact Nat.mul_le_mul_right _ (Nat.sub_le _ _)
    unfold kInf at h1 h2; omega
  refine ⟨ofIdx mw ew (decide (k < 0)) k.natAbs, ?_⟩
  unfold key
  rw [sgn_ofIdx hi, idx_ofIdx hi]
  by_cases h : k < 0
  · simp only [h, decide_true, if_true]; omega
  · simp only [h, decide_false, Bool.false_eq_true, if_false]; omega

/-- a float in units of `2⁻ᵍ`, for `g` equal to the number of mantissa bits or one more -/
theorem repr_grid {m g : Nat} (hw : mw + 3 ≤ 2 ^ (ew - 1)) (hg : g ≤ mw + 1) (h : m ≤ 2 ^ (mw + 1)) :
    Repr mw ew ((m : ℝ) / 2 ^ g) := by
  have hK : fK mw ew = mw + bias ew - 1 := rfl
  have hb : mw + 2 ≤ bias ew := by unfold bias; omega
  have hpow : 2 ^ ew = 2 * 2 ^ (ew - 1) := by
    rw [← pow_succ']; congr 1
    by_contra h
    have : ew = 0 := by omega
    subst this; simp at hw
  refine repr_of_mul_pow m (fK mw ew - g) h ?_ ?_
  · have big : magN mw (infIdx mw ew) = 2 ^ mw * 2 ^ (2 ^ ew - 2) := by
      have : infIdx mw ew = (2 ^ ew - 2 + 1) * 2 ^ mw + 0 := by unfold infIdx; congr 1; omega
      rw [this, magN_block mw _ 0 (Nat.zero_le _), Nat.add_zero]
    rw [big, ← pow_add]
    calc m * 2 ^ (fK mw ew - g) ≤ 2 ^ (mw + 1) * 2 ^ (fK mw ew - g) := Nat.mul_le_mul_right _ h
      _ = 2 ^ (mw + 1 + (fK mw ew - g)) := by rw [← pow_add]
      _ < 2 ^ (mw + (2 ^ ew - 2)) := Nat.pow_lt_pow_right (by norm_num) (by unfold bias at hK hb; omega)
  · rw [div_mul_eq_mul_div, div_eq_iff (by positivity), mul_assoc, ← pow_add]
    congr 2; omega

/-- the float nearest to a number in `[0, 2]` is within half a unit of the grid of `[1, 2]`; in `[0, 1]` of the finer one -/
theorem near_grid {z : Flt mw ew} {r : ℝ} (hw : mw + 3 ≤ 2 ^ (ew - 1)) (hz : z.isFin = true) (hk : z.key = rndK mw ew r)
    (h0 : 0 ≤ r) {g : Nat} (hg : g ≤ mw + 1) (h : r * 2 ^ g ≤ 2 ^ (mw + 1)) : |z.toReal - r| ≤ 1 / 2 ^ (g + 1) := by
  have hr : 0 ≤ r * 2 ^ g := by positivity
  obtain ⟨m, hm1, hm2⟩ : ∃ m : ℕ, m ≤ 2 ^ (mw + 1) ∧ |(m : ℝ) - r * 2 ^ g| ≤ 1 / 2 := by
    refine ⟨⌊r * 2 ^ g + 1 / 2⌋₊, ?_, ?_⟩
    · have : r * 2 ^ g + 1 / 2 < ((2 ^ (mw + 1) + 1 : ℕ) : ℝ) := by push_cast; linarith
      have := (Nat.floor_lt (by linarith)).2 this
      omega
    · have a := Nat.floor_le (show 0 ≤ r * 2 ^ g + 1 / 2 by linarith)
      have b := Nat.lt_floor_add_one (r * 2 ^ g + 1 / 2)
      exact abs_le.2 ⟨by linarith, by linarith⟩
  obtain ⟨k, k1, k2, k3⟩ := repr_grid (ew := ew) hw hg hm1
  obtain ⟨y, hy⟩ := exists_of_key k1 k2
  have n := nearest_of_key hz hk y
  have yr : y.toReal = (m : ℝ) / 2 ^ g := by rw [toReal_eq_key, hy, k3]
  refine n.trans ?_
  rw [yr]
  have : (m : ℝ) / 2 ^ g - r = (m - r * 2 ^ g) / 2 ^ g := by field_simp
  rw [this, abs_div, abs_of_pos (show (0 : ℝ) < 2 ^ g by positivity), pow_succ, div_le_div_iff₀ (by positivity) (by positivity)]
  have : (0 : ℝ) < 2 ^ g := by positivity
  nlinarith

/-- `c + (1 - c)` in floats: 1 for `c` in `[0, 1]`; for negative `c` possibly the float before 1 -/
theorem one_sub_add (hm : 10 ≤ mw) (hw : mw + 3 ≤ 2 ^ (ew - 1)) {c : Flt mw ew} (hc : c.isFin = true)
    (h1 : -1 ≤ c.toReal) (h2 : c.toReal ≤ 1) :
    (Scalar.one - c).isFin = true ∧ (c + (Scalar.one - c)).isFin = true ∧
    (0 ≤ c.toReal → (c + (Scalar.one - c)).key = oneIdx mw ew) ∧
    oneIdx mw ew - 1 ≤ (c + (Scalar.one - c)).key ∧ (c + (Scalar.one - c)).key ≤ oneIdx mw ew ∧
    (-uRnd mw < c.toReal → c.toReal < -(uRnd mw / 2) → (c + (Scalar.one - c)).key = oneIdx mw ew - 1) := by
  have big := oneIdx_big (ew := ew) hm hw
  have li := oneIdx_lt_inf (ew := ew) hm hw
  have o := sone_spec (mw := mw) (ew := ew)
  have hu := uRnd_pos (mw := mw)
  have d := sub_fin o.1 hc
  rw [← sub_def, o.2] at d
  have P : (0 : ℝ) < 2 ^ mw := by positivity
  have dr : rndK mw ew (1 - c.toReal) < kInf mw ew := by
    have r2 := repr_grid (mw := mw) (ew := ew) (m := 2) (g := 0) hw (by omega)
      (by have : 2 ^ 1 ≤ 2 ^ (mw + 1) := Nat.pow_le_pow_right (by norm_num) (by omega)
          simpa using this)
    obtain ⟨k, k1, k2, k3⟩ := r2
    have := rndK_mono mw ew (show 1 - c.toReal ≤ ((2 : ℕ) : ℝ) / 2 ^ 0 by norm_num; linarith)
    rw [← k3, rndK_valZ k1.le k2.le] at this
    omega
  have d0 : 0 ≤ rndK mw ew (1 - c.toReal) := rndK_nonneg (by linarith)
  have df : (Scalar.one - c).isFin = true := isFin_iff_key.2 (by
    have := kInf_pos (mw := mw) (ew := ew); omega)
  have e1 := near_grid hw df d.2 (by linarith) (g := mw) (by omega) (by rw [pow_succ]; nlinarith)
  have e2 : 0 ≤ c.toReal → |(Scalar.one - c).toReal - (1 - c.toReal)| ≤ 1 / 2 ^ (mw + 1 + 1) := fun h =>
    near_grid hw df d.2 (by linarith) (g := mw + 1) le_rfl (by
      have : (0 : ℝ) < 2 ^ (mw + 1) := by positivity
      nlinarith)
  have u1 : (1 : ℝ) / 2 ^ (mw + 1) = uRnd mw := rfl
  have u2 : (1 : ℝ) / 2 ^ (mw + 1 + 1) = uRnd mw / 2 := by unfold uRnd; rw [pow_succ _ (mw + 1)]; field_simp
  rw [u1] at e1
  rw [u2] at e2
  have s := add_fin hc df
  rw [← add_def] at s
  obtain ⟨l1, l2⟩ := abs_le.1 e1
  have one1 : rndK mw ew (1 : ℝ) = oneIdx mw ew := rndK_one hm hw (by linarith) (by linarith)
  have hi : (c + (Scalar.one - c)).key ≤ oneIdx mw ew := by
    rw [s.2, ← rndK_one (t := 1 + uRnd mw) hm hw (by linarith) le_rfl]
    exact rndK_mono mw ew (by linarith)
  have lo : oneIdx mw ew - 1 ≤ (c + (Scalar.one - c)).key := by
    rw [s.2, ← rndK_pred hm hw]
    exact rndK_mono mw ew (by linarith)
  refine ⟨df, isFin_iff_key.2 (by unfold kInf; omega), fun h => ?_, lo, hi, fun h h' => ?_⟩
  · obtain ⟨m1, m2⟩ := abs_le.1 (e2 h)
    rw [s.2]
    exact rndK_one hm hw (by linarith) (by linarith)
  · have dk : (Scalar.one - c).key = oneIdx mw ew := by rw [d.2]; exact rndK_one hm hw (by linarith) (by linarith)
    have dt : (Scalar.one - c).toReal = 1 := by
      rw [← o.2]; exact toReal_eq_iff.2 (by rw [dk, one_idx hm hw])
    rw [dt] at s
    by_contra hne
    have hk : (c + (Scalar.one - c)).key = oneIdx mw ew := by omega
    have ht : (c + (Scalar.one - c)).toReal = 1 := by
      rw [← o.2]; exact toReal_eq_iff.2 (by rw [hk, one_idx hm hw])
    -- the float before 1 is nearer
    have dn1 := magV_down (ew := ew) hm hw (j := 1) (by norm_num)
    obtain ⟨y, hy⟩ := exists_of_key (mw := mw) (ew := ew) (k := ((oneIdx mw ew - 1 : ℕ) : ℤ)) (by unfold kInf; omega) (by unfold kInf; omega)
    have yr : y.toReal = 1 - uRnd mw := by
      rw [toReal_pos_mag (by omega), hy, Int.toNat_natCast, dn1]; push_cast; ring
    have n := nearest_of_key (isFin_iff_key.2 (by unfold kInf; omega) : (c + (Scalar.one - c)).isFin = true) s.2 y
    rw [ht, yr] at n
    rw [show (1 : ℝ) - (c.toReal + 1) = -c.toReal by ring, show (1 : ℝ) - uRnd mw - (c.toReal + 1) = -(c.toReal + uRnd mw) by ring,
      abs_neg, abs_neg, abs_of_neg (by linarith), abs_of_pos (by linarith)] at n
    linarith

/-! ### the matrix of a rotation about an axis -/

/-- `x` is finite with value `r` -/
def Ex (x : Flt mw ew) (r : ℝ) : Prop := x.isFin = true ∧ x.toReal = r

theorem Ex.neg {x : Flt mw ew} {r : ℝ} (h : Ex x r) : Ex (-x) (-r) := ⟨by rw [isFin_negop]; exact h.1, by rw [toReal_negop, h.2]⟩
theorem ex_zero : Ex (Scalar.zero : Flt mw ew) 0 := ⟨isFin_szero, toReal_szero⟩
theorem ex_one : Ex (Scalar.one : Flt mw ew) 1 := sone_spec
theorem Ex.repr {x : Flt mw ew} {r : ℝ} (h : Ex x r) : Repr mw ew r := h.2 ▸ repr_toReal h.1

theorem Ex.mul {x y : Flt mw ew} {r t : ℝ} (hx : Ex x r) (hy : Ex y t)
    (h : r = 0 ∨ r = 1 ∨ r = -1 ∨ t = 0 ∨ t = 1 ∨ t = -1) : Ex (x * y) (r * t) := by
  have k := (mul_fin hx.1 hy.1).2
  rw [← mul_def, hx.2, hy.2] at k
  refine exact_of_repr ?_ k
  rcases h with rfl | rfl | rfl | rfl | rfl | rfl
  · rw [zero_mul]; exact hx.repr
  · rw [one_mul]; exact hy.repr
  · rw [neg_one_mul]; exact hy.repr.neg
  · rw [mul_zero]; exact hy.repr
  · rw [mul_one]; exact hx.repr
  · rw [mul_neg_one]; exact hx.repr.neg

theorem six_l {r t : ℝ} (h : r = 0 ∨ r = 1 ∨ r = -1) : r = 0 ∨ r = 1 ∨ r = -1 ∨ t = 0 ∨ t = 1 ∨ t = -1 := by
  rcases h with h | h | h <;> simp [h]
theorem six_r {r t : ℝ} (h : t = 0 ∨ t = 1 ∨ t = -1) : r = 0 ∨ r = 1 ∨ r = -1 ∨ t = 0 ∨ t = 1 ∨ t = -1 := by
  rcases h with h | h | h <;> simp [h]

theorem Ex.add {x y : Flt mw ew} {r t : ℝ} (hx : Ex x r) (hy : Ex y t) (h : r = 0 ∨ t = 0) : Ex (x + y) (r + t) := by
  have k := (add_fin hx.1 hy.1).2
  rw [← add_def, hx.2, hy.2] at k
  refine exact_of_repr ?_ k
  rcases h with rfl | rfl
  · rw [zero_add]; exact hy.repr
  · rw [add_zero]; exact hx.repr

theorem Ex.sub {x y : Flt mw ew} {r t : ℝ} (hx : Ex x r) (hy : Ex y t) (h : r = 0 ∨ t = 0) : Ex (x - y) (r - t) := by
  have k := (sub_fin hx.1 hy.1).2
  rw [← sub_def, hx.2, hy.2] at k
  refine exact_of_repr ?_ k
  rcases h with rfl | rfl
  · rw [zero_sub]; exact hy.repr.neg
  · rw [sub_zero]; exact hx.repr

theorem Ex.eq {x y : Flt mw ew} {r t : ℝ} (hx : Ex x r) (hy : Ex y t) (h : r = t) : Scalar.eq x y = true :=
  seq_iff.2 ⟨notNaN_of_isFin hx.1, notNaN_of_isFin hy.1, toReal_eq_iff.1 (by rw [hx.2, hy.2, h])⟩

/-- one entry off the axis: at most one of the three terms is not zero -/
theorem ex_entry {e c u d w p q : Flt mw ew} {er cr ur dr wr pr qr : ℝ} (he : Ex e er) (hc : Ex c cr) (hu : Ex u ur)
    (hd : Ex d dr) (hw : Ex w wr) (hp : Ex p pr) (hq : Ex q qr)
    (h1 : er = 0 ∨ er = 1) (h2 : ur = 0 ∨ ur = 1 ∨ ur = -1) (h3 : wr = 0 ∨ wr = 1 ∨ wr = -1)
    (h4 : pr = 0 ∨ pr = 1 ∨ pr = -1)
    (h5 : er = 0 ∧ ur * wr = 0 ∨ er = 0 ∧ pr = 0 ∨ ur * wr = 0 ∧ pr = 0) :
    Ex (e * c + u * d * w + p * q) (er * cr + ur * dr * wr + pr * qr) := by
  have z : ∀ {a b : ℝ}, a * b = 0 → a * dr * b = 0 := fun {a b} h => by rw [mul_right_comm, h, zero_mul]
  refine (((he.mul hc (six_l (h1.imp_right Or.inl))).add ((hu.mul hd (six_l h2)).mul hw (six_r h3)) ?_).add (hp.mul hq (six_l h4)) ?_)
  · rcases h5 with h | h | h
    · left; rw [h.1, zero_mul]
    · left; rw [h.1, zero_mul]
    · right; exact z h.1
  · rcases h5 with h | h | h
    · left; rw [h.1, z h.2]; ring
    · right; rw [h.2, zero_mul]
    · right; rw [h.2, zero_mul]

/-- the entry on the axis -/
theorem axis_entry {e c u d w p q : Flt mw ew} {cr ur dr pr qr : ℝ} (he : Ex e 1) (hc : Ex c cr) (hu : Ex u ur)
    (hd : Ex d dr) (hw : Ex w ur) (hp : Ex p pr) (hq : Ex q qr) (h2 : ur = 1 ∨ ur = -1) (h4 : pr = 0)
    (hs : (c + d).isFin = true) :
    Ex (e * c + u * d * w + p * q) (c + d).toReal := by
  have a := he.mul hc (six_l (Or.inr (Or.inl rfl)))
  have b := (hu.mul hd (six_l (Or.inr h2))).mul hw (six_r (Or.inr h2))
  have b' : ur * dr * ur = dr := by rcases h2 with rfl | rfl <;> ring
  rw [b'] at b
  rw [one_mul] at a
  have k := (add_fin a.1 b.1).2
  have k' := (add_fin hc.1 hd.1).2
  rw [← add_def, a.2, b.2] at k
  rw [← add_def, hc.2, hd.2, ← k] at k'
  have s : Ex (e * c + u * d * w) (c + d).toReal :=
    ⟨by rw [isFin_iff_key, ← k']; exact isFin_iff_key.1 hs, (toReal_eq_iff.2 k'.symm)⟩
  have := s.add (hp.mul hq (six_l (Or.inl h4))) (Or.inr (by rw [h4, zero_mul]))
  rwa [h4, zero_mul, add_zero] at this

/-- the sign of `(e_k × e_j)_i` -/
def eps (k j i : Fin 3) : ℝ :=
  if j = k + 1 ∧ i = k + 2 then 1 else if j = k + 2 ∧ i = k + 1 then -1 else 0

/-- a column computed by `rotate`, for an axis `u = σ e_k` -/
theorem axis_rot_entry {u e : Vec (Flt mw ew) 3} {k j : Fin 3} {σ : ℝ} (hσ : σ = 1 ∨ σ = -1)
    (hu : ∀ i, Ex (u.vec i) (if i = k then σ else 0)) (he : ∀ i, Ex (e.vec i) (if i = j then 1 else 0))
    {c d s : Flt mw ew} {cr dr sr : ℝ} (hc : Ex c cr) (hd : Ex d dr) (hs : Ex s sr) (hcd : (c + d).isFin = true) (i : Fin 3) :
    Ex ((e * c + u * d * u.dot e + u.cross e * s).vec i)
      (if i = k ∧ j = k then (c + d).toReal else (if i = j then cr else 0) + σ * eps k j i * sr) := by
  have dot : Ex (u.dot e) (if j = k then σ else 0) := by
    have h := ((ex_zero.add ((hu 0).mul (he 0) ?_) ?_).add ((hu 1).mul (he 1) ?_) ?_).add ((hu 2).mul (he 2) ?_) ?_
    · refine cast (congrArg (Ex _) ?_) h
      fin_cases k <;> fin_cases j <;> simp
    all_goals fin_cases k <;> fin_cases j <;> simp
  have cross : Ex ((u.cross e).vec i) (σ * eps k j i) := by
    have h : ∀ a b : Fin 3, Ex (u.vec a * e.vec b) (if a = k ∧ b = j then σ else 0) := fun a b => by
      refine cast (congrArg (Ex _) ?_) ((hu a).mul (he b) ?_)
      · split_ifs <;> simp_all
      · split_ifs <;> simp_all
    fin_cases i
    · refine cast (congrArg (Ex _) ?_) ((h 1 2).sub (h 2 1) ?_) <;> fin_cases k <;> fin_cases j <;> simp [eps]
    · refine cast (congrArg (Ex _) ?_) ((h 2 0).sub (h 0 2) ?_) <;> fin_cases k <;> fin_cases j <;> simp [eps]
    · refine cast (congrArg (Ex _) ?_) ((h 0 1).sub (h 1 0) ?_) <;> fin_cases k <;> fin_cases j <;> simp [eps]
  change Ex (e.vec i * c + u.vec i * d * u.dot e + (u.cross e).vec i * s) _
  have ep : σ * eps k j i = 0 ∨ σ * eps k j i = 1 ∨ σ * eps k j i = -1 := by
    unfold eps; rcases hσ with rfl | rfl <;> split_ifs <;> simp
  by_cases hk : i = k ∧ j = k
  · rw [if_pos hk]
    have hij : i = j := hk.1.trans hk.2.symm
    have e0 : eps k j i = 0 := by rw [hk.1, hk.2]; fin_cases k <;> simp [eps]
    have h1 := he i
    have h2 := hu i
    rw [if_pos hij] at h1
    rw [if_pos hk.1] at h2
    rw [if_pos hk.2] at dot
    exact axis_entry h1 hc h2 hd dot cross hs hσ (by rw [e0, mul_zero]) hcd
  · rw [if_neg hk]
    have z : (if i = k then σ else 0) * (if j = k then σ else 0) = 0 := by
      by_cases h1 : i = k
      · rw [if_neg (fun h2 => hk ⟨h1, h2⟩), mul_zero]
      · rw [if_neg h1, zero_mul]
    have t3 : ∀ (q : Prop) [Decidable q], (if q then σ else 0) = 0 ∨ (if q then σ else 0) = 1 ∨ (if q then σ else 0) = -1 := by
      intro q _; split
      · exact Or.inr hσ
      · exact Or.inl rfl
    refine cast (congrArg (Ex _) ?_) (ex_entry (he i) hc (hu i) hd dot cross hs ?_ (t3 _) (t3 _) ep ?_)
    · rw [mul_right_comm, z, zero_mul, add_zero, ite_mul, one_mul, zero_mul]
    · split <;> simp
    · have p0 : i = j → eps k j i = 0 := by rintro rfl; fin_cases k <;> fin_cases i <;> simp [eps]
      by_cases hij : i = j
      · right; right
        exact ⟨z, by rw [p0 hij, mul_zero]⟩
      · left
        exact ⟨if_neg hij, z⟩

/-- entries of a matrix: `f` in the linear part, no translation -/
structure MatEx (M : Mat4 (Flt mw ew)) (f : Fin 3 → Fin 3 → ℝ) : Prop where
  lin : ∀ i j : Fin 3, Ex (M.data i.castSucc j.castSucc) (f i j)
  tr : ∀ i : Fin 3, Ex (M.data i.castSucc 3) 0
  row : ∀ j : Fin 3, Ex (M.data 3 j.castSucc) 0
  corner : Ex (M.data 3 3) 1

theorem matEx_mk {a b c d e f g h i : Flt mw ew} {F : Fin 3 → Fin 3 → ℝ} (h1 : Ex a (F 0 0)) (h2 : Ex b (F 0 1)) (h3 : Ex c (F 0 2))
    (h4 : Ex d (F 1 0)) (h5 : Ex e (F 1 1)) (h6 : Ex f (F 1 2)) (h7 : Ex g (F 2 0)) (h8 : Ex h (F 2 1)) (h9 : Ex i (F 2 2)) :
    MatEx (Mat4.mk4 a b c Scalar.zero d e f Scalar.zero g h i Scalar.zero Scalar.zero Scalar.zero Scalar.zero Scalar.one) F := by
  have z := ex_zero (mw := mw) (ew := ew)
  refine ⟨fun i j => ?_, fun i => ?_, fun i => ?_, ex_one⟩
  · fin_cases i
    · fin_cases j
      · exact h1
      · exact h2
      · exact h3
    · fin_cases j
      · exact h4
      · exact h5
      · exact h6
    · fin_cases j
      · exact h7
      · exact h8
      · exact h9
  · fin_cases i <;> exact z
  · fin_cases i <;> exact z

theorem Ex.of {x : Flt mw ew} {r t : ℝ} (h : Ex x r) (e : r = t) : Ex x t := e ▸ h

theorem mat_eq_iff {a b : Mat4 (Flt mw ew)} : a.eq b = true ↔ ∀ i j, Scalar.eq (a.data i j) (b.data i j) = true := by
  unfold Mat4.eq
  simp only [List.all_eq_true, List.mem_finRange, true_implies]

theorem MatEx.eq_at {a b : Mat4 (Flt mw ew)} {f g : Fin 3 → Fin 3 → ℝ} (ha : MatEx a f) (hb : MatEx b g) (i j : Fin 4)
    (h : ∀ i' j' : Fin 3, i = i'.castSucc → j = j'.castSucc → f i' j' = g i' j') :
    Scalar.eq (a.data i j) (b.data i j) = true := by
  rcases Fin.eq_castSucc_or_eq_last i with ⟨i', rfl⟩ | rfl <;> rcases Fin.eq_castSucc_or_eq_last j with ⟨j', rfl⟩ | rfl
  · exact (ha.lin i' j').eq (hb.lin i' j') (h _ _ rfl rfl)
  · exact (ha.tr i').eq (hb.tr i') rfl
  · exact (ha.row j').eq (hb.row j') rfl
  · exact ha.corner.eq hb.corner rfl

/-- the exact linear part of a rotation about axis `k`, with the entry on the axis left open -/
noncomputable def rotV (σ : ℝ) (k : Fin 3) (cr sr ax : ℝ) (i j : Fin 3) : ℝ :=
  if i = k ∧ j = k then ax else (if i = j then cr else 0) + σ * eps k j i * sr

theorem rotV_swap (σ : ℝ) (k : Fin 3) (cr sr ax : ℝ) (i j : Fin 3) : rotV σ k cr sr ax j i = rotV (-σ) k cr sr ax i j := by
  have e : eps k i j = -eps k j i := by fin_cases k <;> fin_cases i <;> fin_cases j <;> simp [eps]
  unfold rotV
  by_cases h : i = k ∧ j = k
  · rw [if_pos h, if_pos h.symm]
  · rw [if_neg h, if_neg fun h' => h h'.symm, e]
    by_cases hij : i = j
    · rw [if_pos hij, if_pos hij.symm]; ring
    · rw [if_neg hij, if_neg fun h' => hij h'.symm]; ring

variable [Libm mw ew]

/-- the rotation about coordinate axis `k` that the library offers -/
def axisRot (k : Fin 3) (angle : Flt mw ew) : Transform (Flt mw ew) :=
  match k with
  | 0 => Transform.rotateX angle
  | 1 => Transform.rotateY angle
  | 2 => Transform.rotateZ angle

theorem axisRot_mat (k : Fin 3) {angle : Flt mw ew} {cr sr : ℝ} (hc : Ex (Libm.cos angle) cr) (hs : Ex (Libm.sin angle) sr) :
    MatEx (axisRot k angle).m (rotV 1 k cr sr 1) ∧ MatEx (axisRot k angle).minv (rotV (-1) k cr sr 1) := by
  have z := ex_zero (mw := mw) (ew := ew)
  have o := ex_one (mw := mw) (ew := ew)
  have n := hs.neg
  match k with
  | 0 => exact ⟨matEx_mk (o.of (by simp [rotV, eps])) (z.of (by simp [rotV, eps])) (z.of (by simp [rotV, eps])) (z.of (by simp [rotV, eps])) (hc.of (by simp [rotV, eps])) (n.of (by simp [rotV, eps])) (z.of (by simp [rotV, eps])) (hs.of (by simp [rotV, eps])) (hc.of (by simp [rotV, eps])),
      matEx_mk (o.of (by simp [rotV, eps])) (z.of (by simp [rotV, eps])) (z.of (by simp [rotV, eps])) (z.of (by simp [rotV, eps])) (hc.of (by simp [rotV, eps])) (hs.of (by simp [rotV, eps])) (z.of (by simp [rotV, eps])) (n.of (by simp [rotV, eps])) (hc.of (by simp [rotV, eps]))⟩
  | 1 => exact ⟨matEx_mk (hc.of (by simp [rotV, eps])) (z.of (by simp [rotV, eps])) (hs.of (by simp [rotV, eps])) (z.of (by simp [rotV, eps])) (o.of (by simp [rotV, eps])) (z.of (by simp [rotV, eps])) (n.of (by simp [rotV, eps])) (z.of (by simp [rotV, eps])) (hc.of (by simp [rotV, eps])),
      matEx_mk (hc.of (by simp [rotV, eps])) (z.of (by simp [rotV, eps])) (n.of (by simp [rotV, eps])) (z.of (by simp [rotV, eps])) (o.of (by simp [rotV, eps])) (z.of (by simp [rotV, eps])) (hs.of (by simp [rotV, eps])) (z.of (by simp [rotV, eps])) (hc.of (by simp [rotV, eps]))⟩
  | 2 => exact ⟨matEx_mk (hc.of (by simp [rotV, eps])) (n.of (by simp [rotV, eps])) (z.of (by simp [rotV, eps])) (hs.of (by simp [rotV, eps])) (hc.of (by simp [rotV, eps])) (z.of (by simp [rotV, eps])) (z.of (by simp [rotV, eps])) (z.of (by simp [rotV, eps])) (o.of (by simp [rotV, eps])),
      matEx_mk (hc.of (by simp [rotV, eps])) (hs.of (by simp [rotV, eps])) (z.of (by simp [rotV, eps])) (n.of (by simp [rotV, eps])) (hc.of (by simp [rotV, eps])) (z.of (by simp [rotV, eps])) (z.of (by simp [rotV, eps])) (z.of (by simp [rotV, eps])) (o.of (by simp [rotV, eps]))⟩

/-- `v` points along coordinate axis `k` (forward or backward), with any length whose square neither overflows nor
falls below the normal range -/
structure Along (v : Vec (Flt mw ew) 3) (k : Fin 3) : Prop where
  fin : (v.vec k).isFin = true
  zero : ∀ i, i ≠ k → Scalar.eq (v.vec i) Scalar.zero = true
  normal : NormalSq (v.vec k)
  sq : (Scalar.square (v.vec k)).isFin = true

/-- cos and sin came out finite, and cos in `[-1, 1]` -/
structure TrigOk (angle : Flt mw ew) : Prop where
  cos : (Libm.cos angle).isFin = true
  sin : (Libm.sin angle).isFin = true
  lo : Scalar.ge (Libm.cos angle) (-Scalar.one) = true
  hi : Scalar.le (Libm.cos angle) Scalar.one = true

noncomputable def sgnOf (v : Vec (Flt mw ew) 3) (k : Fin 3) : ℝ := if Scalar.gt (v.vec k) Scalar.zero then 1 else -1

theorem along_unit (hm : 10 ≤ mw) (hw : mw + 3 ≤ 2 ^ (ew - 1)) {v : Vec (Flt mw ew) 3} {k : Fin 3} (h : Along v k) (i : Fin 3) :
    Ex (v.normalize.vec i) (if i = k then sgnOf v k else 0) := by
  obtain ⟨-, h1, h2⟩ := C162_axis hm hw h.fin h.zero h.normal h.sq
  have o := ex_one (mw := mw) (ew := ew)
  have conv : ∀ {x y : Flt mw ew} {r : ℝ}, Scalar.eq x y = true → Ex y r → Ex x r := fun {x y r} e hy => by
    have e' := (seq_iff.1 e).2.2
    exact ⟨by rw [isFin_iff_key, e']; exact isFin_iff_key.1 hy.1, by rw [← hy.2]; exact toReal_eq_iff.2 e'⟩
  by_cases hi : i = k
  · rw [if_pos hi, hi]
    refine conv h1 ?_
    unfold sgnOf
    split
    · exact o
    · exact o.neg
  · rw [if_neg hi]
    exact conv (h2 i hi) ex_zero

theorem rotate_mat (hm : 10 ≤ mw) (hw : mw + 3 ≤ 2 ^ (ew - 1)) {v : Vec (Flt mw ew) 3} {k : Fin 3} (h : Along v k)
    {angle : Flt mw ew} (ht : TrigOk angle) :
    MatEx (Transform.rotate v angle).m (rotV (sgnOf v k) k (Libm.cos angle).toReal (Libm.sin angle).toReal
      (Libm.cos angle + (Scalar.one - Libm.cos angle)).toReal) ∧
    MatEx (Transform.rotate v angle).minv (rotV (-sgnOf v k) k (Libm.cos angle).toReal (Libm.sin angle).toReal
      (Libm.cos angle + (Scalar.one - Libm.cos angle)).toReal) := by
  have o := sone_spec (mw := mw) (ew := ew)
  have hl : -1 ≤ (Libm.cos angle).toReal := by
    have := toReal_le_iff.2 (sge_iff.1 ht.lo).2.2
    rwa [toReal_negop, o.2] at this
  have hh : (Libm.cos angle).toReal ≤ 1 := by rw [← o.2]; exact toReal_le_iff.2 (sle_iff.1 ht.hi).2.2
  obtain ⟨df, sf, -⟩ := one_sub_add hm hw ht.cos hl hh
  have z := ex_zero (mw := mw) (ew := ew)
  have u := along_unit hm hw h
  have hσ : sgnOf v k = 1 ∨ sgnOf v k = -1 := by unfold sgnOf; split <;> simp
  have ent := fun (e : Vec (Flt mw ew) 3) (j : Fin 3) he =>
    axis_rot_entry (u := v.normalize) (e := e) (j := j) hσ u he (⟨ht.cos, rfl⟩ : Ex (Libm.cos angle) _) (⟨df, rfl⟩ : Ex (Scalar.one - Libm.cos angle) _)
      (⟨ht.sin, rfl⟩ : Ex (Libm.sin angle) _) sf
  have e0 := ent (GVec.new3 Scalar.one Scalar.zero Scalar.zero) 0 (by intro i; fin_cases i <;> first | exact z | exact ex_one)
  have e1 := ent (GVec.new3 Scalar.zero Scalar.one Scalar.zero) 1 (by intro i; fin_cases i <;> first | exact z | exact ex_one)
  have e2 := ent (GVec.new3 Scalar.zero Scalar.zero Scalar.one) 2 (by intro i; fin_cases i <;> first | exact z | exact ex_one)
  have sw := rotV_swap (sgnOf v k) k (Libm.cos angle).toReal (Libm.sin angle).toReal (Libm.cos angle + (Scalar.one - Libm.cos angle)).toReal
  exact ⟨matEx_mk (e0 0) (e1 0) (e2 0) (e0 1) (e1 1) (e2 1) (e0 2) (e1 2) (e2 2),
    matEx_mk ((e0 0).of (sw 0 0)) ((e0 1).of (sw 0 1)) ((e0 2).of (sw 0 2)) ((e1 0).of (sw 1 0)) ((e1 1).of (sw 1 1))
      ((e1 2).of (sw 1 2)) ((e2 0).of (sw 2 0)) ((e2 1).of (sw 2 1)) ((e2 2).of (sw 2 2))⟩

/-- `==` on transforms (derived `PartialEq`, transform.rs:169): both matrices, entry by entry -/
def teq (a b : Transform (Flt mw ew)) : Bool := a.m.eq b.m && a.minv.eq b.minv

/-- **C163**: `rotate(a e_k, angle) == rotate_k(angle)`, exactly, for an axis of any length and every angle with
`cos ≥ 0`; for the backward axis it is `rotate_k(angle).inverse()`. -/
theorem C163_exact (hm : 10 ≤ mw) (hw : mw + 3 ≤ 2 ^ (ew - 1)) {v : Vec (Flt mw ew) 3} {k : Fin 3} (h : Along v k)
    {angle : Flt mw ew} (ht : TrigOk angle) (h0 : Scalar.ge (Libm.cos angle) Scalar.zero = true) :
    teq (Transform.rotate v angle)
      (if Scalar.gt (v.vec k) Scalar.zero then axisRot k angle else (axisRot k angle).inverse) = true := by
  have o := sone_spec (mw := mw) (ew := ew)
  have hh : (Libm.cos angle).toReal ≤ 1 := by rw [← o.2]; exact toReal_le_iff.2 (sle_iff.1 ht.hi).2.2
  have h0' : 0 ≤ (Libm.cos angle).toReal := toReal_nonneg_iff.2 (by
    have := (sge_iff.1 h0).2.2; rwa [key_szero] at this)
  obtain ⟨-, -, k1, -⟩ := one_sub_add hm hw ht.cos (by linarith) hh
  have ax : (Libm.cos angle + (Scalar.one - Libm.cos angle)).toReal = 1 := by
    rw [← o.2]; exact toReal_eq_iff.2 (by rw [k1 h0', one_idx hm hw])
  obtain ⟨r1, r2⟩ := rotate_mat hm hw h ht
  obtain ⟨a1, a2⟩ := axisRot_mat k (⟨ht.cos, rfl⟩ : Ex (Libm.cos angle) _) (⟨ht.sin, rfl⟩ : Ex (Libm.sin angle) _)
  rw [ax] at r1 r2
  unfold sgnOf at r1 r2
  unfold teq
  rw [Bool.and_eq_true, mat_eq_iff, mat_eq_iff]
  split
  · rename_i hp
    rw [if_pos hp] at r1 r2
    exact ⟨fun i j => r1.eq_at a1 i j fun _ _ _ _ => rfl, fun i j => r2.eq_at a2 i j fun _ _ _ _ => rfl⟩
  · rename_i hp
    rw [if_neg hp] at r1 r2
    rw [_root_.neg_neg] at r2
    exact ⟨fun i j => r1.eq_at a2 i j fun _ _ _ _ => rfl, fun i j => r2.eq_at a1 i j fun _ _ _ _ => rfl⟩

/-- **C163**: for every angle, all entries are equal except the one on the axis, which is 1 or the float before 1. -/
theorem C163_within (hm : 10 ≤ mw) (hw : mw + 3 ≤ 2 ^ (ew - 1)) {v : Vec (Flt mw ew) 3} {k : Fin 3} (h : Along v k)
    (hp : Scalar.gt (v.vec k) Scalar.zero = true) {angle : Flt mw ew} (ht : TrigOk angle) :
    (∀ i j, ¬(i = k.castSucc ∧ j = k.castSucc) →
      Scalar.eq ((Transform.rotate v angle).m.data i j) ((axisRot k angle).m.data i j) = true ∧
      Scalar.eq ((Transform.rotate v angle).minv.data i j) ((axisRot k angle).minv.data i j) = true) ∧
    Scalar.eq ((axisRot k angle).m.data k.castSucc k.castSucc) Scalar.one = true ∧
    (Scalar.eq ((Transform.rotate v angle).m.data k.castSucc k.castSucc) Scalar.one = true ∨
     Scalar.eq ((Transform.rotate v angle).m.data k.castSucc k.castSucc) (GFloat.nextDown Scalar.one) = true) := by
  have o := sone_spec (mw := mw) (ew := ew)
  have hl : -1 ≤ (Libm.cos angle).toReal := by
    have := toReal_le_iff.2 (sge_iff.1 ht.lo).2.2
    rwa [toReal_negop, o.2] at this
  have hh : (Libm.cos angle).toReal ≤ 1 := by rw [← o.2]; exact toReal_le_iff.2 (sle_iff.1 ht.hi).2.2
  obtain ⟨-, -, -, k1, k2, -⟩ := one_sub_add hm hw ht.cos hl hh
  obtain ⟨r1, r2⟩ := rotate_mat hm hw h ht
  obtain ⟨a1, a2⟩ := axisRot_mat k (⟨ht.cos, rfl⟩ : Ex (Libm.cos angle) _) (⟨ht.sin, rfl⟩ : Ex (Libm.sin angle) _)
  unfold sgnOf at r1 r2
  rw [if_pos hp] at r1 r2
  have off : ∀ {σ : ℝ} {cr sr x y : ℝ} {i j : Fin 3}, ¬(i = k ∧ j = k) → rotV σ k cr sr x i j = rotV σ k cr sr y i j := by
    intro σ cr sr x y i j hne
    unfold rotV; rw [if_neg hne, if_neg hne]
  refine ⟨fun i j hne => ⟨r1.eq_at a1 i j fun i' j' hi hj => off ?_, r2.eq_at a2 i j fun i' j' hi hj => off ?_⟩, ?_, ?_⟩
  · rintro ⟨rfl, rfl⟩; exact hne ⟨hi, hj⟩
  · rintro ⟨rfl, rfl⟩; exact hne ⟨hi, hj⟩
  · exact (a1.lin k k).eq ex_one (by unfold rotV; rw [if_pos ⟨rfl, rfl⟩])
  · have e := r1.lin k k
    unfold rotV at e
    rw [if_pos ⟨rfl, rfl⟩] at e
    have ek : ((Transform.rotate v angle).m.data k.castSucc k.castSucc).key = (Libm.cos angle + (Scalar.one - Libm.cos angle)).key :=
      toReal_eq_iff.1 e.2
    have big := oneIdx_big (ew := ew) hm hw
    have ok := one_idx (mw := mw) (ew := ew) hm hw
    have on := notNaN_of_isFin o.1
    have nd := nextDown_key on
    have hK := kInf_pos (mw := mw) (ew := ew)
    by_cases hc : (Libm.cos angle + (Scalar.one - Libm.cos angle)).key = oneIdx mw ew
    · exact Or.inl (seq_iff.2 ⟨notNaN_of_isFin e.1, on, by rw [ek, hc, ok]⟩)
    · exact Or.inr (seq_iff.2 ⟨notNaN_of_isFin e.1, nd.1, by rw [ek, nd.2, ok]; omega⟩)

/-- **C163**: for `cos` between minus the unit of rounding and minus half of it, the transforms differ. -/
theorem C163_differs (hm : 10 ≤ mw) (hw : mw + 3 ≤ 2 ^ (ew - 1)) {v : Vec (Flt mw ew) 3} {k : Fin 3} (h : Along v k)
    {angle : Flt mw ew} (ht : TrigOk angle) (h1 : -uRnd mw < (Libm.cos angle).toReal)
    (h2 : (Libm.cos angle).toReal < -(uRnd mw / 2)) :
    teq (Transform.rotate v angle) (axisRot k angle) = false := by
  have o := sone_spec (mw := mw) (ew := ew)
  have hu := uRnd_pos (mw := mw)
  have hs := u_small hm
  obtain ⟨-, -, -, -, -, k1⟩ := one_sub_add hm hw ht.cos (by linarith) (by linarith)
  obtain ⟨r1, -⟩ := rotate_mat hm hw h ht
  obtain ⟨a1, -⟩ := axisRot_mat k (⟨ht.cos, rfl⟩ : Ex (Libm.cos angle) _) (⟨ht.sin, rfl⟩ : Ex (Libm.sin angle) _)
  have e := r1.lin k k
  have e' := a1.lin k k
  unfold rotV at e e'
  rw [if_pos ⟨rfl, rfl⟩] at e e'
  by_contra hc
  rw [Bool.not_eq_false] at hc
  unfold teq at hc
  rw [Bool.and_eq_true, mat_eq_iff] at hc
  have q := (seq_iff.1 (hc.1 k.castSucc k.castSucc)).2.2
  have q1 : ((Transform.rotate v angle).m.data k.castSucc k.castSucc).key = (Libm.cos angle + (Scalar.one - Libm.cos angle)).key :=
    toReal_eq_iff.1 e.2
  have q2 : ((axisRot k angle).m.data k.castSucc k.castSucc).key = (Scalar.one : Flt mw ew).key :=
    toReal_eq_iff.1 (e'.2.trans o.2.symm)
  rw [q1, q2, k1 h1 h2, one_idx hm hw] at q
  omega

/-! ### a quarter turn with the library's constant -/

theorem acc_le [LawfulLibm mw ew] {fl : Flt mw ew → Flt mw ew} {f : ℝ → ℝ} {x : Flt mw ew} (h : AccurateAt fl f x) {y : Flt mw ew}
    (hf : y.isFin = true) (hy : f x.toReal < y.toReal) : (fl x).key ≤ y.key := by
  have hn := h.notNaN
  have d := nextDown_key hn
  have b := isFin_iff_key.1 hf
  by_contra hc
  rcases (lowerOf_iff.1 h.lo).2 with h1 | ⟨-, h1⟩
  · have := key_bounds hn; omega
  · have : y.toReal ≤ (GFloat.nextDown (fl x)).toReal := toReal_le_iff.2 (by omega)
    linarith

theorem acc_ge [LawfulLibm mw ew] {fl : Flt mw ew → Flt mw ew} {f : ℝ → ℝ} {x : Flt mw ew} (h : AccurateAt fl f x) {y : Flt mw ew}
    (hf : y.isFin = true) (hy : y.toReal < f x.toReal) : y.key ≤ (fl x).key := by
  have hn := h.notNaN
  have d := nextUp_key hn
  have b := isFin_iff_key.1 hf
  by_contra hc
  rcases (upperOf_iff.1 h.hi).2 with h1 | ⟨-, h1⟩
  · have := key_bounds hn; omega
  · have : (GFloat.nextUp (fl x)).toReal ≤ y.toReal := toReal_le_iff.2 (by omega)
    linarith

/-- an accurate libm whose cosine is well inside `(-1, 1)` -/
theorem trigOk_of [LawfulLibm mw ew] {x : Flt mw ew} (hx : x.isFin = true) (h1 : -1 < Real.cos x.toReal)
    (h2 : Real.cos x.toReal < 1) (h3 : -1 < Real.sin x.toReal) (h4 : Real.sin x.toReal < 1) : TrigOk x := by
  have o := sone_spec (mw := mw) (ew := ew)
  have on := notNaN_of_isFin o.1
  have ob := isFin_iff_key.1 o.1
  have nf : (-(Scalar.one : Flt mw ew)).isFin = true := by rw [isFin_negop]; exact o.1
  have nk := key_negop (Scalar.one : Flt mw ew)
  have ac := LawfulLibm.cos x hx
  have as := LawfulLibm.sin x hx
  have c1 := acc_le ac o.1 (by rw [o.2]; exact h2)
  have c2 := acc_ge ac nf (by rw [toReal_negop, o.2]; exact h1)
  have s1 := acc_le as o.1 (by rw [o.2]; exact h4)
  have s2 := acc_ge as nf (by rw [toReal_negop, o.2]; exact h3)
  exact ⟨isFin_iff_key.2 (by omega), isFin_iff_key.2 (by omega),
    sge_iff.2 ⟨ac.notNaN, by rw [isNaN_negop]; exact on, c2⟩, sle_iff.2 ⟨ac.notNaN, on, c1⟩⟩

end flt

/-- the coordinate axes as `Vector3::new(1, 0, 0)` and so on -/
def basisV {mw ew : Nat} [FltImpl mw ew] (k : Fin 3) : Vec (Flt mw ew) 3 :=
  match k with
  | 0 => GVec.new3 Scalar.one Scalar.zero Scalar.zero
  | 1 => GVec.new3 Scalar.zero Scalar.one Scalar.zero
  | 2 => GVec.new3 Scalar.zero Scalar.zero Scalar.one

theorem basisV_k {mw ew : Nat} [FltImpl mw ew] (k : Fin 3) : (basisV k : Vec (Flt mw ew) 3).vec k = Scalar.one := by
  fin_cases k <;> rfl

theorem along_basis {mw ew : Nat} [FltImpl mw ew] [LawfulFlt mw ew] (k : Fin 3)
    (h1 : (minNormal mw ew).key ≤ (Scalar.one : Flt mw ew).key) : Along (basisV k : Vec (Flt mw ew) 3) k := by
  have o := sone_spec (mw := mw) (ew := ew)
  have hz : Scalar.eq (Scalar.zero : Flt mw ew) Scalar.zero = true :=
    seq_iff.2 ⟨notNaN_of_isFin isFin_szero, notNaN_of_isFin isFin_szero, rfl⟩
  refine ⟨by rw [basisV_k]; exact o.1, fun i hi => ?_, ?_, ?_⟩
  · fin_cases k <;> fin_cases i <;> first | exact hz | exact absurd rfl hi
  · rw [basisV_k]
    unfold NormalSq
    have := toReal_le_iff.2 h1
    rw [o.2] at this ⊢
    linarith
  · rw [basisV_k]
    have := (ex_one (mw := mw) (ew := ew)).mul ex_one (six_l (Or.inr (Or.inl rfl)))
    exact this.1

/-- `sin` stays below 1 near π/2: the constant is not exactly π/2 -/
theorem sin_lt_one_of_cos {x : ℝ} (h : Real.cos x ≠ 0) : Real.sin x < 1 ∧ -1 < Real.sin x := by
  have s := Real.sin_sq_add_cos_sq x
  have : 0 < Real.cos x ^ 2 := by positivity
  constructor <;> nlinarith

theorem f64_pi2 : (GFloat.fracPi2 : F64).isFin = true ∧ (GFloat.fracPi2 : F64).toReal = 7074237752028440 / 2 ^ 52 := by
  refine ⟨by decide +kernel, ?_⟩
  have h := sval_cast (GFloat.fracPi2 : F64)
  have e : (GFloat.fracPi2 : F64).sval = 7074237752028440 * 2 ^ 1022 := by decide +kernel
  have k : fK 52 11 = 1022 + 52 := by decide +kernel
  rw [e, k, pow_add] at h
  push_cast at h
  rw [eq_div_iff (by positivity)]
  refine mul_right_cancel₀ (b := (2 : ℝ) ^ 1022) (by positivity) ?_
  rw [h]; ring

theorem f64_cos : 0 < Real.cos (GFloat.fracPi2 : F64).toReal ∧ Real.cos (GFloat.fracPi2 : F64).toReal < 1 := by
  rw [f64_pi2.2]
  have := Real.pi_gt_d20
  have hp := Real.pi_pos
  constructor
  · refine Real.cos_pos_of_mem_Ioo ⟨by norm_num; linarith, ?_⟩
    have : (7074237752028440 : ℝ) / 2 ^ 52 < 3.14159265358979323846 / 2 := by norm_num
    linarith
  · have h : Real.cos (7074237752028440 / 2 ^ 52) ≠ 1 := by
      intro h
      have := Real.cos_lt_cos_of_nonneg_of_le_pi (x := 0) (y := 7074237752028440 / 2 ^ 52) le_rfl (by norm_num; linarith) (by norm_num)
      rw [h, Real.cos_zero] at this
      exact lt_irrefl _ this
    exact lt_of_le_of_ne (Real.cos_le_one _) h

theorem f32_cos : -4.4e-8 < Real.cos (GFloat.fracPi2 : F32).toReal ∧ Real.cos (GFloat.fracPi2 : F32).toReal < -4.3e-8 := by
  have v : (GFloat.fracPi2 : F32).toReal = 13176795 / 2 ^ 23 := by
    have h := sval_cast (GFloat.fracPi2 : F32)
    have e : (GFloat.fracPi2 : F32).sval = 13176795 * 2 ^ 126 := by decide +kernel
    have k : fK 23 8 = 126 + 23 := by decide +kernel
    rw [e, k, pow_add] at h
    push_cast at h
    rw [eq_div_iff (by positivity)]
    norm_num at h ⊢; linarith
  rw [v]
  have l := Real.pi_gt_d20
  have u := Real.pi_lt_d20
  set δ := (13176795 : ℝ) / 2 ^ 23 - Real.pi / 2 with hδ
  have e : Real.cos (13176795 / 2 ^ 23) = -Real.sin δ := by
    rw [show (13176795 : ℝ) / 2 ^ 23 = δ + Real.pi / 2 by rw [hδ]; ring, Real.cos_add_pi_div_two]
  have d1 : 4.371e-8 < δ := by rw [hδ]; norm_num at u ⊢; linarith
  have d2 : δ < 4.372e-8 := by rw [hδ]; norm_num at l ⊢; linarith
  have s1 := Real.sin_lt (show 0 < δ by linarith)
  have s2 := Real.sin_gt_sub_cube (show 0 < δ by linarith)
  have cube : δ ^ 3 / 6 ≤ 1e-10 := by
    have : δ ^ 3 ≤ (4.372e-8 : ℝ) ^ 3 := pow_le_pow_left₀ (by linarith) d2.le 3
    norm_num at this ⊢; linarith
  rw [e]
  constructor <;> norm_num at * <;> linarith

/-- **C163**: the equalities of the repository's `test_rotate_on_axis` (`f64`, quarter turn) hold on every platform
whose libm is accurate to one float. -/
theorem C163_test_f64 [Libm 52 11] [LawfulLibm 52 11] (k : Fin 3) :
    teq (Transform.rotate (basisV k) (GFloat.fracPi2 : F64)) (axisRot k GFloat.fracPi2) = true := by
  have c := f64_cos
  have s := sin_lt_one_of_cos c.1.ne'
  have ht : TrigOk (GFloat.fracPi2 : F64) := trigOk_of f64_pi2.1 (by linarith) c.2 s.2 s.1
  have ac := LawfulLibm.cos (GFloat.fracPi2 : F64) f64_pi2.1
  have h := C163_exact (by norm_num) (by norm_num) (along_basis (mw := 52) (ew := 11) k (by decide +kernel)) ht
    (sge_iff.2 ⟨ac.notNaN, notNaN_of_isFin isFin_szero, by rw [key_szero]; exact (ac.pos_iff.2 c.1).le⟩)
  have p : Scalar.gt (Scalar.one : F64) Scalar.zero = true := by decide +kernel
  rw [if_pos (by rw [basisV_k]; exact p)] at h
  exact h

/-- **C163**, refuted for `f32` (the renderer's own type): with the same constant `FRAC_PI_2` the transforms differ, on
every platform whose libm is accurate to one float. -/
theorem C163_f32_refuted [Libm 23 8] [LawfulLibm 23 8] (k : Fin 3) :
    teq (Transform.rotate (basisV k) (GFloat.fracPi2 : F32)) (axisRot k GFloat.fracPi2) = false := by
  have c := f32_cos
  have hx : (GFloat.fracPi2 : F32).isFin = true := by decide +kernel
  have s := sin_lt_one_of_cos (x := (GFloat.fracPi2 : F32).toReal) (by have := c.2; intro h; rw [h] at this; norm_num at this)
  have ht : TrigOk (GFloat.fracPi2 : F32) := by
    refine trigOk_of hx (lt_trans ?_ c.1) (lt_trans c.2 ?_) s.2 s.1 <;> norm_num
  have ac := LawfulLibm.cos (GFloat.fracPi2 : F32) hx
  -- 13 * 2⁻²⁸ and 9 * 2⁻²⁸ enclose the magnitude of the cosine
  have val : ∀ {y : F32} {n : ℤ} {r : ℝ}, y.sval = n → (n : ℝ) = r * 2 ^ fK 23 8 → y.toReal = r := by
    intro y n r h1 h2
    have := sval_cast y
    rw [h1, h2] at this
    exact (mul_right_cancel₀ (by positivity) this).symm
  have v1 : (Flt.ofRat 23 8 true 13 (2 ^ 28)).toReal = -(13 / 2 ^ 28) := val (n := -(13 * 2 ^ 121)) (by decide +kernel) (by unfold fK; norm_num)
  have v2 : (Flt.ofRat 23 8 true 9 (2 ^ 28)).toReal = -(9 / 2 ^ 28) := val (n := -(9 * 2 ^ 121)) (by decide +kernel) (by unfold fK; norm_num)
  have k1 := acc_ge ac (y := Flt.ofRat 23 8 true 13 (2 ^ 28)) (by decide +kernel) (by rw [v1]; refine lt_trans ?_ c.1; norm_num)
  have k2 := acc_le ac (y := Flt.ofRat 23 8 true 9 (2 ^ 28)) (by decide +kernel) (by rw [v2]; refine lt_trans c.2 ?_; norm_num)
  have r1 := toReal_le_iff.2 k1
  have r2 := toReal_le_iff.2 k2
  rw [v1] at r1
  rw [v2] at r2
  refine C163_differs (by norm_num) (by norm_num) (along_basis (mw := 23) (ew := 8) k (by decide +kernel)) ht ?_ ?_
  · refine lt_of_lt_of_le ?_ r1; unfold uRnd; norm_num
  · refine lt_of_le_of_lt r2 ?_; unfold uRnd; norm_num

/-- a backward axis of length 3, a case of `C163_exact` for any platform with `cos 1` in `[0, 1]` -/
example [Libm 23 8] (ht : TrigOk (F32.lit 1)) (h0 : Scalar.ge (Libm.cos (F32.lit 1)) Scalar.zero = true) :
    teq (Transform.rotate (GVec.new3 Scalar.zero (-(F32.lit 3)) Scalar.zero) (F32.lit 1)) (Transform.rotateY (F32.lit 1)).inverse = true := by
  have n : NormalSq (-(F32.lit 3)) := by
    have := normalSq_of_one_le (x := F32.lit 3) (by decide +kernel)
    unfold NormalSq at this ⊢
    rw [toReal_negop]; linarith
  have h := C163_exact (k := 1) (v := GVec.new3 Scalar.zero (-(F32.lit 3)) Scalar.zero) (by norm_num) (by norm_num)
    ⟨by decide +kernel, by decide +kernel, n, by decide +kernel⟩ ht h0
  have p : ¬(Scalar.gt ((GVec.new3 Scalar.zero (-(F32.lit 3)) Scalar.zero : Vec F32 3).vec 1) Scalar.zero = true) := by decide +kernel
  rwa [if_neg p] at h

end Scarlet
