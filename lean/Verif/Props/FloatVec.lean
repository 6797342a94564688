import Verif.Theory.Vec
import Verif.Theory.Err
import Verif.Props.Float2
import Verif.Model.Transform

/-! C82 (laws of float vector operators), C83 (rounding error of `dot`), C86 (rounding error of `Ray::eval`). -/

set_option linter.unusedSectionVars false

namespace Scarlet
open Flt GVec

variable {mw ew : Nat} [Fmt mw ew] {n : Nat} {U I : Marker}

/-! ### scalar facts -/
namespace Flt

theorem add_comm' (x y : Flt mw ew) : x + y = y + x := by
  rw [add_def, add_def]
  unfold add
  rw [Bool.or_comm y.isNaN x.isNaN, add_comm y.sval x.sval, Bool.and_comm y.sgn x.sgn]
  cases hx : x.isInf <;> cases hy : y.isInf <;> cases hxs : x.sgn <;> cases hys : y.sgn <;>
    simp only [Bool.false_eq_true, if_true, if_false, Bool.true_and, Bool.false_and, bne_self_eq_false] <;> try rfl
  all_goals
    have : x = y := ext_sgn_idx (by rw [hxs, hys]) (by rw [isInf_iff] at hx hy; rw [hx, hy])
    rw [this]

theorem mul_comm' (x y : Flt mw ew) : x * y = y * x := by
  rw [mul_def, mul_def]
  unfold mul
  rw [Bool.or_comm y.isNaN x.isNaN, Bool.or_comm y.isInf x.isInf, Bool.or_comm y.isZero x.isZero,
    mul_comm (magN mw y.idx)]
  have : (y.sgn != x.sgn) = (x.sgn != y.sgn) := by cases x.sgn <;> cases y.sgn <;> rfl
  rw [this]

/-- not negative, or NaN -/
def NonNeg (x : Flt mw ew) : Prop := x.isNaN = false → 0 ≤ x.key

theorem NonNeg.add {x y : Flt mw ew} (hx : NonNeg x) (hy : NonNeg y) : NonNeg (x + y) := by
  intro h
  have hp := kInf_pos (mw := mw) (ew := ew)
  have nx : x.isNaN = false := by
    by_contra hc; rw [Bool.not_eq_false] at hc; rw [isNaN_add_of_left hc] at h; cases h
  have ny : y.isNaN = false := by
    by_contra hc; rw [Bool.not_eq_false] at hc; rw [isNaN_add_of_right hc] at h; cases h
  have kx := hx nx
  have ky := hy ny
  by_cases fx : x.isFin = true
  · by_cases fy : y.isFin = true
    · rw [add_def, (add_fin fx fy).2]
      exact rndK_nonneg (add_nonneg (toReal_nonneg_iff.2 kx) (toReal_nonneg_iff.2 ky))
    · have := key_bounds ny
      rw [isFin_iff_key] at fy
      rw [(add_top_right nx ny (by omega) (by omega)).2]; omega
  · have := key_bounds nx
    rw [isFin_iff_key] at fx
    rw [(add_top_left nx ny (by omega) (by omega)).2]; omega

theorem NonNeg.square (x : Flt mw ew) : NonNeg (x * x) := by
  intro h
  have nx : x.isNaN = false := by
    by_contra hc; rw [Bool.not_eq_false] at hc; rw [isNaN_mul_of_left hc] at h; cases h
  have hs : (x * x).sgn = false := by
    rw [mul_def] at h ⊢
    unfold mul at h ⊢
    rw [nx] at h ⊢
    have e : (x.sgn != x.sgn) = false := by cases x.sgn <;> rfl
    rw [e] at h ⊢
    simp only [Bool.or_self, Bool.false_eq_true, if_false] at h ⊢
    split
    · rename_i hi
      rw [hi] at h; simp only [if_true] at h
      split
      · rename_i hz; rw [hz] at h; simp only [if_true] at h; rw [isNaN_nan] at h; cases h
      · have : infIdx mw ew < 2 ^ (mw + ew) := by
          have := infIdx_lt (mw := mw) (ew := ew); omega
        exact sgn_ofIdx this
    · exact sgn_pack _ _
  unfold key; rw [hs]; simp

end Flt

theorem sumLoop_congr {f g : Fin n → Flt mw ew} (h : ∀ i, f i = g i) : sumLoop n f = sumLoop n g := by
  rw [funext h]

/-! ## C82 -/

/-- C82: on floats, `+`, component-wise `*` and `dot` are commutative bit for bit, in every dimension. -/
theorem C82_comm (a b : GVec (Flt mw ew) n U) (c : GVec (Flt mw ew) n I) :
    a + b = b + a ∧ a * b = b * a ∧ a.dot c = c.dot a := by
  refine ⟨GVec.ext (funext fun i => add_comm' _ _), GVec.ext (funext fun i => mul_comm' _ _), ?_⟩
  unfold dot; exact sumLoop_congr fun i => mul_comm' _ _

/-- C82: on floats, `a × b` and `b × a` have opposite values (and are NaN together). -/
theorem C82_cross (a b : GVec (Flt mw ew) 3 U) (i : _root_.Fin 3) :
    ((a.cross b).vec i).isNaN = ((b.cross a).vec i).isNaN ∧
    (((a.cross b).vec i).isNaN = false → ((b.cross a).vec i).val = -((a.cross b).vec i).val) := by
  have key : ∀ p q r s : Flt mw ew, (p * q - r * s).isNaN = (s * r - q * p).isNaN ∧
      ((p * q - r * s).isNaN = false → (s * r - q * p).val = -(p * q - r * s).val) := by
    intro p q r s
    rw [mul_comm' s r, mul_comm' q p]
    obtain ⟨h1, h2⟩ := sub_swap (p * q) (r * s)
    refine ⟨h1, fun h => ?_⟩
    have hn : (-(p * q - r * s)).isNaN = false := by rw [isNaN_negop]; exact h
    have e : (-(p * q - r * s)).val = -(p * q - r * s).val := by
      rcases isFin_or_isInf h with hf | hi
      · rw [val_of_isFin hf, val_of_isFin (by rw [isFin_negop]; exact hf), toReal_negop]; rfl
      · rw [isInf_iff_key] at hi
        rcases hi with hi | hi
        · rw [(val_top_iff h).2 hi, (val_bot_iff hn).2 (by rw [key_negop, hi])]; rfl
        · rw [(val_bot_iff h).2 hi, (val_top_iff hn).2 (by rw [key_negop, hi]; ring)]; rfl
    rw [← e, val_eq_iff (h1 ▸ h) hn, key_negop, h2 h]
  fin_cases i
  · exact key _ _ _ _
  · exact key _ _ _ _
  · exact key _ _ _ _

theorem squareNorm_nonNeg (a : GVec (Flt mw ew) n U) : NonNeg a.squareNorm := by
  unfold squareNorm
  have : ∀ (n : Nat) (f : _root_.Fin n → Flt mw ew), (∀ i, NonNeg (f i)) → NonNeg (sumLoop n f) := by
    intro n
    induction n with
    | zero => intro f _ _; exact le_of_eq key_szero.symm
    | succ n ih => intro f hf; exact (ih _ fun i => hf _).add (hf _)
  exact this n _ fun i => NonNeg.square _

/-- C82: on floats, `a.square_norm()` is `a.dot(a)` and is never negative; `norm` is therefore NaN only if
`square_norm` is. -/
theorem C82_squareNorm [FltImpl mw ew] (a : GVec (Flt mw ew) n U) :
    a.squareNorm = a.dot a ∧ (a.squareNorm.isNaN = false → 0 ≤ a.squareNorm.val) ∧
    (a.squareNorm.isNaN = false → a.norm.isNaN = false ∧ 0 ≤ a.norm.val) := by
  have hv : (Scalar.zero : Flt mw ew).val = 0 := by rw [val_of_isFin isFin_szero, toReal_szero]; rfl
  have hz : (Scalar.zero : Flt mw ew).isNaN = false := notNaN_of_isFin isFin_szero
  have nn : ∀ x : Flt mw ew, x.isNaN = false → 0 ≤ x.key → 0 ≤ x.val := fun x h1 h2 => by
    rw [← hv, val_le_iff hz h1, key_szero]; exact h2
  refine ⟨rfl, fun h => nn _ h (squareNorm_nonNeg a h), fun h => ?_⟩
  have hk := squareNorm_nonNeg a h
  unfold GVec.norm
  rw [sqrt_def]
  generalize a.squareNorm = s at *
  rcases isFin_or_isInf h with hf | hi
  · have := sqrt_fin hf hk
    refine ⟨this.1, nn _ this.1 ?_⟩
    rw [this.2]; exact rndK_nonneg (Real.sqrt_nonneg _)
  · have hk' : 0 < s.key := by
      rw [isInf_iff_key] at hi; have := kInf_pos (mw := mw) (ew := ew); omega
    have hzz : s.isZero = false := by
      rw [Bool.eq_false_iff, ne_eq, isZero_iff_key]; omega
    have : s.sqrt = s := by
      unfold sqrt; rw [h, hzz, sgn_of_key_pos hk', hi]; rfl
    rw [this]; exact ⟨h, nn _ h hk⟩

/-- C82: on floats, the distance between two vectors does not depend on their order. -/
theorem C82_distance [FltImpl mw ew] (a b : Vec (Flt mw ew) n) :
    squareDistance a b = squareDistance b a ∧ distance a b = distance b a := by
  have sq : ∀ x y : Flt mw ew, (x - y) * (x - y) = (y - x) * (y - x) := by
    intro x y
    obtain ⟨h1, h2⟩ := sub_swap x y
    have m : ∀ z : Flt mw ew, z * z = z.mul z := fun _ => rfl
    rw [m, m]
    cases hn : (x - y).isNaN
    · have h3 := h2 hn
      have hi : (x - y).idx = (y - x).idx := by
        rw [← key_natAbs, ← key_natAbs, h3, Int.natAbs_neg]
      unfold mul isInf isZero
      rw [← h1, hn, hi]
      have e : ∀ s : Bool, (s != s) = false := by decide
      rw [e, e]
    · unfold mul; rw [← h1, hn]; rfl
  have : squareDistance a b = squareDistance b a := by
    unfold squareDistance squareNorm
    exact sumLoop_congr fun i => sq _ _
  exact ⟨this, by unfold distance; rw [this]⟩

/-! ## C83 -/

theorem sumLoop_fin {f : _root_.Fin n → Flt mw ew} (h : (sumLoop n f).isFin = true) : ∀ i, (f i).isFin = true := by
  induction n with
  | zero => intro i; exact i.elim0
  | succ n ih =>
    obtain ⟨h1, h2⟩ := isFin_of_add h
    intro i
    refine Fin.lastCases h2 (fun j => ?_) i
    exact ih h1 j

/-- rounding error of the accumulation loop, for terms already carrying an error `u |g| + η` -/
theorem sumLoop_err {f : _root_.Fin n → Flt mw ew} (g : _root_.Fin n → ℝ) (h : (sumLoop n f).isFin = true)
    (hg : ∀ i, |(f i).toReal - g i| ≤ uRnd mw * |g i| + etaRnd mw ew) :
    |(sumLoop n f).toReal - ∑ i, g i| ≤
      ((1 + uRnd mw) ^ n - 1) * ∑ i, |g i| + n * etaRnd mw ew * (1 + uRnd mw) ^ (n - 1) := by
  have u0 := uRnd_pos (mw := mw)
  have e0 := etaRnd_pos (mw := mw) (ew := ew)
  induction n with
  | zero => simp only [sumLoop]; rw [toReal_szero]; simp
  | succ n ih =>
    obtain ⟨h1, h2⟩ := isFin_of_add h
    have ha := add_err h1 h2 h
    have hs : sumLoop (n + 1) f = sumLoop n (fun i => f i.castSucc) + f (Fin.last n) := rfl
    have hl := hg (Fin.last n)
    rw [Fin.sum_univ_castSucc, Fin.sum_univ_castSucc, hs]
    generalize hS : sumLoop n (fun i => f i.castSucc) = S at *
    generalize hL : f (Fin.last n) = L at *
    rcases Nat.eq_zero_or_pos n with rfl | hn
    · have hz : S.toReal = 0 := by rw [← hS]; exact toReal_szero
      have hex : (S + L).toReal = L.toReal := by
        have hk := (add_fin h1 h2).2
        rw [hz, zero_add, rndK_toReal (notNaN_of_isFin h2)] at hk
        rw [← add_def] at hk
        exact toReal_eq_iff.2 hk
      rw [hex]
      simp only [Finset.univ_eq_empty, Finset.sum_empty, zero_add, pow_one, add_sub_cancel_left]
      simp only [Nat.cast_one, one_mul, Nat.sub_self, pow_zero, mul_one]
      simpa using hl
    · have hi := ih (f := fun i => f i.castSucc) (fun i => g i.castSucc) (by rw [hS]; exact h1) (fun i => hg _)
      rw [hS] at hi
      set T := ∑ i : _root_.Fin n, g i.castSucc with hT
      set A := ∑ i : _root_.Fin n, |g i.castSucc| with hA
      have hTA : |T| ≤ A := Finset.abs_sum_le_sum_abs _ _
      have hA0 : 0 ≤ A := le_trans (abs_nonneg _) hTA
      set G := g (Fin.last n) with hG
      set u := uRnd mw with hu
      set e := etaRnd mw ew with he
      have hp1 : (1 + u) ≤ (1 + u) ^ n := le_self_pow₀ (by linarith) (by omega)
      have hpn : (1 + u) ^ (n - 1) * (1 + u) = (1 + u) ^ n := by
        rw [← pow_succ]; congr 1; omega
      have hq : (1 : ℝ) ≤ (1 + u) ^ n := le_trans (by linarith) hp1
      have t1 : |S.toReal + L.toReal| ≤ |T + G| + (|S.toReal - T| + |L.toReal - G|) := by
        have : S.toReal + L.toReal = (T + G) + ((S.toReal - T) + (L.toReal - G)) := by ring
        rw [this]
        exact (abs_add_le _ _).trans (by gcongr; exact abs_add_le _ _)
      have t2 : |(S + L).toReal - (T + G)| ≤ |(S + L).toReal - (S.toReal + L.toReal)| + (|S.toReal - T| + |L.toReal - G|) := by
        have : (S + L).toReal - (T + G) = ((S + L).toReal - (S.toReal + L.toReal)) + ((S.toReal - T) + (L.toReal - G)) := by ring
        rw [this]
        exact (abs_add_le _ _).trans (by gcongr; exact abs_add_le _ _)
      have t3 : |T + G| ≤ A + |G| := (abs_add_le _ _).trans (by gcongr)
      set D := |S.toReal - T| + |L.toReal - G| with hD
      have hDb : D ≤ ((1 + u) ^ n - 1) * A + n * e * (1 + u) ^ (n - 1) + (u * |G| + e) := by linarith
      have t4 : |(S + L).toReal - (T + G)| ≤ u * (A + |G|) + (1 + u) * D := by
        have : u * |S.toReal + L.toReal| ≤ u * (A + |G| + D) := by gcongr; linarith
        linarith
      refine t4.trans ?_
      have hm : (1 + u) * D ≤ (1 + u) * (((1 + u) ^ n - 1) * A + n * e * (1 + u) ^ (n - 1) + (u * |G| + e)) := by
        gcongr
      have hG0 := abs_nonneg G
      have hgoal : u * (A + |G|) + (1 + u) * (((1 + u) ^ n - 1) * A + n * e * (1 + u) ^ (n - 1) + (u * |G| + e)) ≤
          ((1 + u) ^ (n + 1) - 1) * (A + |G|) + ((n + 1 : ℕ) : ℝ) * e * (1 + u) ^ (n + 1 - 1) := by
        rw [pow_succ, Nat.add_sub_cancel]
        push_cast
        have c1 : (1 + u) * (n * e * (1 + u) ^ (n - 1)) = n * e * (1 + u) ^ n := by rw [← hpn]; ring
        have c2 : (1 + u) * e ≤ e * (1 + u) ^ n := by nlinarith
        have c3 : (u + (1 + u) * u) * |G| ≤ ((1 + u) ^ n * (1 + u) - 1) * |G| := by
          apply mul_le_mul_of_nonneg_right _ hG0
          nlinarith
        nlinarith [c1, c2, c3]
      linarith

/-- C83: rounding error of `dot` on floats, for every dimension: whenever the result is finite (no overflow), all
components are finite and
`|fl(a·b) − a·b| ≤ ((1+u)^n − 1) Σ|aᵢbᵢ| + n η (1+u)^(n-1)`, with `u = 2^-24`, `η = 2^-150` for `f32`. -/
theorem C83_dot (a : GVec (Flt mw ew) n U) (b : GVec (Flt mw ew) n I) (h : (a.dot b).isFin = true) :
    (∀ i, (a.vec i).isFin = true ∧ (b.vec i).isFin = true) ∧
    |(a.dot b).toReal - ∑ i, (a.vec i).toReal * (b.vec i).toReal| ≤
      ((1 + uRnd mw) ^ n - 1) * ∑ i, |(a.vec i).toReal * (b.vec i).toReal| +
        n * etaRnd mw ew * (1 + uRnd mw) ^ (n - 1) := by
  have hf : ∀ i, (a.vec i).isFin = true ∧ (b.vec i).isFin = true := fun i => isFin_of_mul (sumLoop_fin h i)
  refine ⟨hf, sumLoop_err (fun i => (a.vec i).toReal * (b.vec i).toReal) h fun i => ?_⟩
  have := mul_err (hf i).1 (hf i).2 (sumLoop_fin h i)
  refine this.trans (max_le ?_ ?_)
  · have := mul_nonneg (uRnd_pos (mw := mw)).le (abs_nonneg ((a.vec i).toReal * (b.vec i).toReal)); linarith
  · have := etaRnd_pos (mw := mw) (ew := ew); linarith

/-- C83 for `square_norm`: the error is relative, up to underflow. -/
theorem C83_squareNorm (a : GVec (Flt mw ew) n U) (h : a.squareNorm.isFin = true) :
    |a.squareNorm.toReal - ∑ i, (a.vec i).toReal ^ 2| ≤
      ((1 + uRnd mw) ^ n - 1) * ∑ i, (a.vec i).toReal ^ 2 + n * etaRnd mw ew * (1 + uRnd mw) ^ (n - 1) := by
  have := (C83_dot a a h).2
  have e : ∀ i, (a.vec i).toReal * (a.vec i).toReal = (a.vec i).toReal ^ 2 := fun i => by ring
  simp only [e, abs_sq] at this
  exact this

/-! ## C86 -/

/-- C86: rounding error of `Ray::eval` on floats: `|fl(o + t d) − (o + t d)| ≤ u|o + t d| + (1+u) max(η, u|t d|)`,
whenever the result is finite. -/
theorem C86_eval (r : Ray (Flt mw ew)) (t : Flt mw ew) (i : _root_.Fin 3) (h : ((r.eval t).vec i).isFin = true) :
    |((r.eval t).vec i).toReal - ((r.origin.vec i).toReal + (r.direction.vec i).toReal * t.toReal)| ≤
      uRnd mw * |(r.origin.vec i).toReal + (r.direction.vec i).toReal * t.toReal| +
      (1 + uRnd mw) * max (etaRnd mw ew) (uRnd mw * |(r.direction.vec i).toReal * t.toReal|) := by
  have e : (r.eval t).vec i = r.origin.vec i + r.direction.vec i * t := rfl
  rw [e] at h ⊢
  obtain ⟨h1, h2⟩ := isFin_of_add h
  obtain ⟨h3, h4⟩ := isFin_of_mul h2
  have a1 := add_err h1 h2 h
  have a2 := mul_err h3 h4 h2
  have u0 := uRnd_pos (mw := mw)
  generalize (r.origin.vec i).toReal = o at *
  generalize hp : (r.direction.vec i * t).toReal = p at *
  generalize (r.direction.vec i).toReal * t.toReal = q at *
  generalize (r.origin.vec i + r.direction.vec i * t).toReal = s at *
  generalize max (etaRnd mw ew) (uRnd mw * |q|) = m at *
  generalize uRnd mw = u at *
  have b1 : |s - (o + q)| ≤ |s - (o + p)| + |p - q| := by
    have : s - (o + q) = (s - (o + p)) + (p - q) := by ring
    rw [this]; exact abs_add_le _ _
  have b2 : |o + p| ≤ |o + q| + |p - q| := by
    have : o + p = (o + q) + (p - q) := by ring
    rw [this]; exact abs_add_le _ _
  have b3 : u * |o + p| ≤ u * (|o + q| + m) := by gcongr; linarith
  linarith

/-! ### concrete cases -/

example : ((new3 (F32.lit 1) (F32.lit 2) (F32.lit 3) : Vec F32 3).dot
    (new3 (ofRat 23 8 false 1 3) (F32.lit 5) (F32.lit 7) : Vec F32 3)).isFin = true := by decide +kernel
example : (((⟨new3 (F32.lit 1) (F32.lit 2) (F32.lit 3), new3 (ofRat 23 8 false 1 3) (F32.lit 5) (F32.lit 7), F32.lit 9⟩ : Ray F32).eval
    (F32.lit 2)).vec 0 |>.isFin) = true := by decide +kernel

end Scarlet
