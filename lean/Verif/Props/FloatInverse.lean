import Verif.Props.FloatTrip
import Verif.Props.Matrix
import Verif.Props.QuadFloat
import Mathlib.Data.Fintype.Basic

/-! C110: the float matrix inverse (adjugate over determinant). -/

set_option linter.unusedSectionVars false

namespace Scarlet
open Flt GVec

/-! ### specification: what the error is measured against -/

/-- permanent of the 3x3 block with rows `r` and columns `c` -/
def perm3 (M : _root_.Fin 4 → _root_.Fin 4 → ℝ) (r c : _root_.Fin 3 → _root_.Fin 4) : ℝ :=
  M (r 0) (c 0) * (M (r 1) (c 1) * M (r 2) (c 2) + M (r 1) (c 2) * M (r 2) (c 1)) +
  M (r 0) (c 1) * (M (r 1) (c 0) * M (r 2) (c 2) + M (r 1) (c 2) * M (r 2) (c 0)) +
  M (r 0) (c 2) * (M (r 1) (c 0) * M (r 2) (c 1) + M (r 1) (c 1) * M (r 2) (c 0))

/-- permanent of the block without row `i` and column `j` -/
def permMinor (M : _root_.Fin 4 → _root_.Fin 4 → ℝ) (i j : _root_.Fin 4) : ℝ := perm3 M i.succAbove j.succAbove

/-- permanent of a 4x4 matrix, expanded along the first row -/
def perm4 (M : _root_.Fin 4 → _root_.Fin 4 → ℝ) : ℝ :=
  M 0 0 * permMinor M 0 0 + M 0 1 * permMinor M 0 1 + M 0 2 * permMinor M 0 2 + M 0 3 * permMinor M 0 3

/-! ### the formula -/
section
variable {T : Type} [Add T] [Sub T] [Mul T] [Div T] [Neg T] [Scalar T]

def det3 (M : _root_.Fin 4 → _root_.Fin 4 → T) (r c : _root_.Fin 3 → _root_.Fin 4) : T :=
  M (r 0) (c 0) * (M (r 1) (c 1) * M (r 2) (c 2) - M (r 1) (c 2) * M (r 2) (c 1)) -
  M (r 0) (c 1) * (M (r 1) (c 0) * M (r 2) (c 2) - M (r 1) (c 2) * M (r 2) (c 0)) +
  M (r 0) (c 2) * (M (r 1) (c 0) * M (r 2) (c 1) - M (r 1) (c 1) * M (r 2) (c 0))

def minorT (M : _root_.Fin 4 → _root_.Fin 4 → T) (i j : _root_.Fin 4) : T := det3 M i.succAbove j.succAbove

def det4 (M : _root_.Fin 4 → _root_.Fin 4 → T) : T :=
  M 0 0 * minorT M 0 0 - M 0 1 * minorT M 0 1 + M 0 2 * minorT M 0 2 - M 0 3 * minorT M 0 3

def signT (i j : _root_.Fin 4) (x : T) : T := if (i.val + j.val) % 2 = 0 then x else -x

theorem inverse_form (a : Mat4 T) (i j : _root_.Fin 4) :
    a.inverse.data i j = signT i j (minorT a.data j i) * (Scalar.one / det4 a.data) := by
  fin_cases i <;> fin_cases j <;> rfl
end

namespace Flt
variable {mw ew : Nat} [FltImpl mw ew] [LawfulFlt mw ew]

theorem same_zero' {x : Flt mw ew} (h : x.toReal = 0) : Same x Scalar.zero := by
  have hk := toReal_eq_zero_iff.1 h
  exact ⟨notNaN_of_isFin (isFin_of_key_zero hk), notNaN_of_isFin isFin_szero, by rw [hk, key_szero]⟩

/-- `x` is `X` up to `k` units of rounding of the magnitude `B` of the terms it was computed from -/
def Dom (x : Flt mw ew) (X B k : ℝ) : Prop := x.isFin = true ∧ |x.toReal - X| ≤ k * uRnd mw * B ∧ |X| ≤ B

theorem Dom.neg {x : Flt mw ew} {X B k : ℝ} (h : Dom x X B k) : Dom (-x) (-X) B k :=
  ⟨by rw [isFin_negop]; exact h.1, by rw [toReal_negop, neg_sub_neg, abs_sub_comm]; exact h.2.1, by rw [abs_neg]; exact h.2.2⟩

theorem Dom.nonneg {x : Flt mw ew} {X B k : ℝ} (h : Dom x X B k) : 0 ≤ B := (abs_nonneg X).trans h.2.2

theorem dom_exact {x : Flt mw ew} (h : x.isFin = true) {δ : ℝ} (hδ : 0 ≤ δ) : Dom x x.toReal (|x.toReal| + δ) 0 :=
  ⟨h, by simp, by linarith⟩

theorem dom_mul (hm : 9 ≤ mw) {x y : Flt mw ew} {X Y B C k l m : ℝ} (hx : Dom x X B k) (hy : Dom y Y C l)
    (hf : (x * y).isFin = true) (hk : 0 ≤ k) (hl : 0 ≤ l) (hη : etaRnd mw ew ≤ uRnd mw * (B * C))
    (hmm : (k + l + k * l / 1024) + 1 + (k + l + k * l / 1024) / 1024 ≤ m) : Dom (x * y) (X * Y) (B * C) m := by
  have u0 := uRnd_pos (mw := mw)
  have u1 := uRnd_small hm
  have e := mul_err hx.1 hy.1 hf
  have hB := hx.nonneg
  have hC := hy.nonneg
  obtain ⟨fx, ex, bx⟩ := hx
  obtain ⟨fy, ey, bY⟩ := hy
  have hBC : 0 ≤ B * C := mul_nonneg hB hC
  set u := uRnd mw
  have hP : |X * Y| ≤ B * C := by rw [abs_mul]; exact mul_le_mul bx bY (abs_nonneg _) hB
  set s := k + l + k * l / 1024 with hs
  have hs0 : 0 ≤ s := by positivity
  have h1 : |x.toReal * y.toReal - X * Y| ≤ s * u * (B * C) := by
    have : x.toReal * y.toReal - X * Y = (x.toReal - X) * Y + X * (y.toReal - Y) + (x.toReal - X) * (y.toReal - Y) := by ring
    rw [this]
    refine (abs_add_le _ _).trans ?_
    refine (add_le_add (abs_add_le _ _) le_rfl).trans ?_
    rw [abs_mul, abs_mul, abs_mul]
    have a1 : |x.toReal - X| * |Y| ≤ k * u * B * C := mul_le_mul ex bY (abs_nonneg _) (by positivity)
    have a2 : |X| * |y.toReal - Y| ≤ B * (l * u * C) := mul_le_mul bx ey (abs_nonneg _) hB
    have a3 : |x.toReal - X| * |y.toReal - Y| ≤ (k * u * B) * (l * u * C) := mul_le_mul ex ey (abs_nonneg _) (by positivity)
    have a4 : (k * u * B) * (l * u * C) ≤ (k * l / 1024) * u * (B * C) := by
      have : (k * u * B) * (l * u * C) = (k * l * u * (B * C)) * u := by ring
      rw [this]
      have : (k * l * u * (B * C)) * u ≤ (k * l * u * (B * C)) * (1 / 1024) := mul_le_mul_of_nonneg_left u1 (by positivity)
      linarith
    rw [hs]; nlinarith [a1, a2, a3, a4]
  have h2 : |x.toReal * y.toReal| ≤ (1 + s / 1024) * (B * C) := by
    have t := abs_add_le (x.toReal * y.toReal - X * Y) (X * Y)
    rw [sub_add_cancel] at t
    have : s * u * (B * C) ≤ s * (1 / 1024) * (B * C) :=
      mul_le_mul_of_nonneg_right (mul_le_mul_of_nonneg_left u1 hs0) hBC
    linarith
  have h3 : |(x * y).toReal - x.toReal * y.toReal| ≤ u * ((1 + s / 1024) * (B * C)) := by
    refine e.trans (max_le (hη.trans ?_) (mul_le_mul_of_nonneg_left h2 u0.le))
    refine mul_le_mul_of_nonneg_left ?_ u0.le
    have : 0 ≤ s / 1024 * (B * C) := by positivity
    linarith
  refine ⟨hf, ?_, hP⟩
  have h4 := abs_add_le ((x * y).toReal - x.toReal * y.toReal) (x.toReal * y.toReal - X * Y)
  rw [sub_add_sub_cancel] at h4
  have h5 : (s + 1 + s / 1024) * (u * (B * C)) ≤ m * (u * (B * C)) := mul_le_mul_of_nonneg_right hmm (by positivity)
  linarith

theorem dom_add (hm : 9 ≤ mw) {x y : Flt mw ew} {X Y B C k l s m : ℝ} (hx : Dom x X B k) (hy : Dom y Y C l)
    (hf : (x + y).isFin = true) (hk : k ≤ s) (hl : l ≤ s) (hs0 : 0 ≤ s)
    (hmm : s + 1 + s / 1024 ≤ m) : Dom (x + y) (X + Y) (B + C) m := by
  have u0 := uRnd_pos (mw := mw)
  have u1 := uRnd_small hm
  have e := add_err hx.1 hy.1 hf
  have hB := hx.nonneg
  have hC := hy.nonneg
  obtain ⟨fx, ex, bx⟩ := hx
  obtain ⟨fy, ey, bY⟩ := hy
  set u := uRnd mw
  have hP : |X + Y| ≤ B + C := (abs_add_le _ _).trans (add_le_add bx bY)
  have h1 : |x.toReal + y.toReal - (X + Y)| ≤ s * u * (B + C) := by
    have : x.toReal + y.toReal - (X + Y) = (x.toReal - X) + (y.toReal - Y) := by ring
    rw [this]
    refine (abs_add_le _ _).trans ?_
    have a1 : k * u * B ≤ s * u * B := mul_le_mul_of_nonneg_right (mul_le_mul_of_nonneg_right hk u0.le) hB
    have a2 : l * u * C ≤ s * u * C := mul_le_mul_of_nonneg_right (mul_le_mul_of_nonneg_right hl u0.le) hC
    linarith
  have h2 : |x.toReal + y.toReal| ≤ (1 + s / 1024) * (B + C) := by
    have t := abs_add_le (x.toReal + y.toReal - (X + Y)) (X + Y)
    rw [sub_add_cancel] at t
    have : s * u * (B + C) ≤ s * (1 / 1024) * (B + C) :=
      mul_le_mul_of_nonneg_right (mul_le_mul_of_nonneg_left u1 hs0) (by positivity)
    linarith
  refine ⟨hf, ?_, hP⟩
  have h3 := e.trans (mul_le_mul_of_nonneg_left h2 u0.le)
  have h4 := abs_add_le ((x + y).toReal - (x.toReal + y.toReal)) (x.toReal + y.toReal - (X + Y))
  rw [sub_add_sub_cancel] at h4
  have h5 : (s + 1 + s / 1024) * (u * (B + C)) ≤ m * (u * (B + C)) := mul_le_mul_of_nonneg_right hmm (by positivity)
  linarith

theorem dom_sub (hm : 9 ≤ mw) {x y : Flt mw ew} {X Y B C k l s m : ℝ} (hx : Dom x X B k) (hy : Dom y Y C l)
    (hf : (x - y).isFin = true) (hk : k ≤ s) (hl : l ≤ s) (hs0 : 0 ≤ s)
    (hmm : s + 1 + s / 1024 ≤ m) : Dom (x - y) (X - Y) (B + C) m := by
  rw [Flt.sub_eq_add_neg] at hf ⊢
  rw [_root_.sub_eq_add_neg]
  exact dom_add hm hx hy.neg hf hk hl hs0 hmm

end Flt

section
variable {mw ew : Nat} [FltImpl mw ew] [LawfulFlt mw ew]
open Flt

/-- magnitudes of the entries, kept away from zero by `δ` -/
noncomputable def absM (A : Mat4 (Flt mw ew)) (δ : ℝ) : _root_.Fin 4 → _root_.Fin 4 → ℝ := fun i j => |(A.data i j).toReal| + δ

/-- every entry that a finite 3x3 determinant mentions is finite -/
theorem dom_det3 (hm : 9 ≤ mw) (A : Mat4 (Flt mw ew)) {δ : ℝ} (h0 : 0 < δ) (h1 : δ ≤ 1)
    (hη : etaRnd mw ew ≤ uRnd mw * δ ^ 4) (r c : _root_.Fin 3 → _root_.Fin 4) (hf : (det3 A.data r c).isFin = true) :
    Dom (det3 A.data r c) (det3 (matR A) r c) (perm3 (absM A δ) r c) (252 / 50) ∧ 6 * δ ^ 3 ≤ perm3 (absM A δ) r c := by
  have u0 := uRnd_pos (mw := mw)
  have hδ : ∀ i j, δ ≤ absM A δ i j := fun i j => by unfold absM; linarith [abs_nonneg (A.data i j).toReal]
  have d3 : δ ^ 4 ≤ δ ^ 3 := pow_le_pow_of_le_one h0.le h1 (by norm_num)
  have d2 : δ ^ 3 ≤ δ ^ 2 := pow_le_pow_of_le_one h0.le h1 (by norm_num)
  have p2 : ∀ i j k l, δ ^ 2 ≤ absM A δ i j * absM A δ k l := fun i j k l => by
    rw [sq]; exact mul_le_mul (hδ i j) (hδ k l) h0.le (h0.le.trans (hδ i j))
  have two : ∀ i j k l i' j' k' l', (A.data i j * A.data k l - A.data i' j' * A.data k' l').isFin = true →
      Dom (A.data i j * A.data k l - A.data i' j' * A.data k' l')
        (matR A i j * matR A k l - matR A i' j' * matR A k' l')
        (absM A δ i j * absM A δ k l + absM A δ i' j' * absM A δ k' l') (201 / 100) := by
    intro i j k l i' j' k' l' h
    obtain ⟨f1, f2⟩ := isFin_of_sub h
    obtain ⟨f3, f4⟩ := isFin_of_mul f1
    obtain ⟨f5, f6⟩ := isFin_of_mul f2
    refine dom_sub hm (k := 1) (l := 1) (s := 1)
      (dom_mul hm (dom_exact f3 h0.le) (dom_exact f4 h0.le) f1 le_rfl le_rfl ?_ (by norm_num))
      (dom_mul hm (dom_exact f5 h0.le) (dom_exact f6 h0.le) f2 le_rfl le_rfl ?_ (by norm_num)) h le_rfl le_rfl (by norm_num) (by norm_num)
    · exact hη.trans (mul_le_mul_of_nonneg_left ((d3.trans d2).trans (p2 _ _ _ _)) u0.le)
    · exact hη.trans (mul_le_mul_of_nonneg_left ((d3.trans d2).trans (p2 _ _ _ _)) u0.le)
  have p3 : ∀ i j i1 j1 k l i' j' k' l', 2 * δ ^ 3 ≤
      absM A δ i1 j1 * (absM A δ i j * absM A δ k l + absM A δ i' j' * absM A δ k' l') := by
    intro i j i1 j1 k l i' j' k' l'
    have a := p2 i j k l
    have b := p2 i' j' k' l'
    have : δ * (2 * δ ^ 2) ≤ absM A δ i1 j1 * (absM A δ i j * absM A δ k l + absM A δ i' j' * absM A δ k' l') :=
      mul_le_mul (hδ i1 j1) (by linarith) (by positivity) (h0.le.trans (hδ i1 j1))
    linarith [this, show δ * (2 * δ ^ 2) = 2 * δ ^ 3 by ring]
  have three : ∀ i1 j1 i j k l i' j' k' l', (A.data i1 j1 * (A.data i j * A.data k l - A.data i' j' * A.data k' l')).isFin = true →
      Dom (A.data i1 j1 * (A.data i j * A.data k l - A.data i' j' * A.data k' l'))
        (matR A i1 j1 * (matR A i j * matR A k l - matR A i' j' * matR A k' l'))
        (absM A δ i1 j1 * (absM A δ i j * absM A δ k l + absM A δ i' j' * absM A δ k' l')) (302 / 100) := by
    intro i1 j1 i j k l i' j' k' l' h
    obtain ⟨f1, f2⟩ := isFin_of_mul h
    refine dom_mul hm (dom_exact f1 h0.le) (two _ _ _ _ _ _ _ _ f2) h le_rfl (by norm_num) ?_ (by norm_num)
    refine hη.trans (mul_le_mul_of_nonneg_left ?_ u0.le)
    have := p3 i j i1 j1 k l i' j' k' l'
    have : 0 ≤ δ ^ 3 := by positivity
    linarith
  obtain ⟨g1, g2⟩ := isFin_of_add hf
  obtain ⟨g3, g4⟩ := isFin_of_sub g1
  refine ⟨dom_add hm (dom_sub hm (three _ _ _ _ _ _ _ _ _ _ g3) (three _ _ _ _ _ _ _ _ _ _ g4) g1 le_rfl le_rfl (by norm_num)
    (m := 403 / 100) (by norm_num)) (three _ _ _ _ _ _ _ _ _ _ g2) hf le_rfl (by norm_num) (by norm_num) (by norm_num), ?_⟩
  unfold perm3
  linarith [p3 (r 1) (c 1) (r 0) (c 0) (r 2) (c 2) (r 1) (c 2) (r 2) (c 1),
    p3 (r 1) (c 0) (r 0) (c 1) (r 2) (c 2) (r 1) (c 2) (r 2) (c 0),
    p3 (r 1) (c 0) (r 0) (c 2) (r 2) (c 1) (r 1) (c 1) (r 2) (c 0)]

theorem dom_det4 (hm : 9 ≤ mw) (A : Mat4 (Flt mw ew)) {δ : ℝ} (h0 : 0 < δ) (h1 : δ ≤ 1)
    (hη : etaRnd mw ew ≤ uRnd mw * δ ^ 4) (hf : (det4 A.data).isFin = true) :
    Dom (det4 A.data) (det4 (matR A)) (perm4 (absM A δ)) (91 / 10) := by
  have u0 := uRnd_pos (mw := mw)
  have hδ : ∀ i j, δ ≤ absM A δ i j := fun i j => by unfold absM; linarith [abs_nonneg (A.data i j).toReal]
  have d3 : δ ^ 4 ≤ δ ^ 3 := pow_le_pow_of_le_one h0.le h1 (by norm_num)
  obtain ⟨f1, f2⟩ := isFin_of_sub hf
  obtain ⟨f3, f4⟩ := isFin_of_add f1
  obtain ⟨f5, f6⟩ := isFin_of_sub f3
  have term : ∀ j, (A.data 0 j * minorT A.data 0 j).isFin = true →
      Dom (A.data 0 j * minorT A.data 0 j) (matR A 0 j * minorT (matR A) 0 j) (absM A δ 0 j * permMinor (absM A δ) 0 j) (605 / 100) := by
    intro j h
    obtain ⟨g1, g2⟩ := isFin_of_mul h
    obtain ⟨d, hp⟩ := dom_det3 hm A h0 h1 hη _ _ g2
    refine dom_mul hm (dom_exact g1 h0.le) d h le_rfl (by norm_num) ?_ (by norm_num)
    refine hη.trans (mul_le_mul_of_nonneg_left ?_ u0.le)
    have : δ * (6 * δ ^ 3) ≤ absM A δ 0 j * perm3 (absM A δ) (_root_.Fin.succAbove 0) j.succAbove :=
      mul_le_mul (hδ 0 j) hp (by positivity) (h0.le.trans (hδ 0 j))
    have h4 : 0 ≤ δ ^ 4 := by positivity
    have e : δ * (6 * δ ^ 3) = 6 * δ ^ 4 := by ring
    exact le_trans (by linarith) this
  exact dom_sub hm (dom_add hm (dom_sub hm (term 0 f5) (term 1 f6) f3 le_rfl le_rfl (by norm_num) (m := 706 / 100) (by norm_num))
    (term 2 f4) f1 le_rfl (by norm_num) (by norm_num) (m := 807 / 100) (by norm_num)) (term 3 f2) hf le_rfl (by norm_num)
    (by norm_num) (by norm_num)

/-- reciprocal of the determinant -/
theorem inv_core {u η D Dh P V : ℝ} (hu : 0 < u) (hD : |Dh - D| ≤ 91 / 10 * u * P) (hDP : |D| ≤ P) (hc : 20 * (u * P) ≤ |D|)
    (hP : 0 < P) (hη : P * η ≤ u) (hV : |V - 1 / Dh| ≤ Max.max η (u * |1 / Dh|)) :
    0 < |D| ∧ |V - 1 / D| ≤ 203 / 10 * u * P / D ^ 2 ∧ |V| ≤ 203 / 100 / |D| := by
  have hD0 : 0 < |D| := lt_of_lt_of_le (by positivity) hc
  have hDh : |D| / 2 ≤ |Dh| := by
    have := abs_add_le (D - Dh) Dh
    rw [sub_add_cancel, abs_sub_comm] at this
    have : 91 / 10 * u * P ≤ |D| / 2 := by linarith
    linarith
  have hDh0 : 0 < |Dh| := lt_of_lt_of_le (by linarith) hDh
  have n1 : D ≠ 0 := abs_pos.1 hD0
  have n2 : Dh ≠ 0 := abs_pos.1 hDh0
  have sqD : D ^ 2 = |D| * |D| := by rw [← sq, sq_abs]
  have i1 : |1 / Dh| ≤ 2 / |D| := by
    rw [abs_div, abs_one, div_le_div_iff₀ hDh0 hD0]; linarith
  have oneP : 1 / |D| ≤ P / D ^ 2 := by
    rw [sqD, div_le_div_iff₀ hD0 (by positivity)]
    nlinarith
  have k1 : |1 / Dh - 1 / D| ≤ 182 / 10 * u * (P / D ^ 2) := by
    have : 1 / Dh - 1 / D = (D - Dh) * (1 / Dh) * (1 / D) := by field_simp
    rw [this, abs_mul, abs_mul, abs_sub_comm D]
    have : |Dh - D| * |1 / Dh| * |1 / D| ≤ (91 / 10 * u * P) * (2 / |D|) * (1 / |D|) := by
      rw [abs_div 1 D, abs_one]
      exact mul_le_mul_of_nonneg_right (mul_le_mul hD i1 (abs_nonneg _) (by positivity)) (by positivity)
    refine this.trans (le_of_eq ?_)
    rw [sqD]; field_simp; ring
  have k2 : |V - 1 / Dh| ≤ 2 * u * (P / D ^ 2) := by
    refine hV.trans (max_le ?_ ?_)
    · have : η ≤ u * (1 / |D|) := by
        rw [mul_one_div, le_div_iff₀ hD0]
        rcases le_or_gt 0 η with h | h
        · nlinarith
        · nlinarith
      have := mul_le_mul_of_nonneg_left oneP hu.le
      have : 0 ≤ u * (P / D ^ 2) := by positivity
      linarith
    · have a := mul_le_mul_of_nonneg_left i1 hu.le
      have b := mul_le_mul_of_nonneg_left oneP hu.le
      have : u * (2 / |D|) = 2 * (u * (1 / |D|)) := by ring
      linarith
  have k3 : |V - 1 / D| ≤ 203 / 10 * u * P / D ^ 2 := by
    have := abs_add_le (V - 1 / Dh) (1 / Dh - 1 / D)
    rw [sub_add_sub_cancel] at this
    have e : 203 / 10 * u * P / D ^ 2 = 203 / 10 * (u * (P / D ^ 2)) := by ring
    have : 0 ≤ u * (P / D ^ 2) := by positivity
    rw [e]; linarith
  refine ⟨hD0, k3, ?_⟩
  have := abs_add_le (V - 1 / D) (1 / D)
  rw [sub_add_cancel, abs_div 1 D, abs_one] at this
  have : 203 / 10 * u * P / D ^ 2 ≤ 203 / 200 * (1 / |D|) := by
    rw [sqD, mul_one_div, div_le_div_iff₀ (by positivity) hD0]
    have := mul_le_mul_of_nonneg_right hc (mul_nonneg hD0.le hD0.le)
    nlinarith
  have e : 203 / 100 / |D| = 203 / 100 * (1 / |D|) := by ring
  have : 0 < 1 / |D| := by positivity
  rw [e]; linarith

/-- one entry -/
theorem entry_core {u η D P V Q d dh z : ℝ} (hu : 0 < u) (hu1 : u ≤ 1 / 1024) (hDP : |D| ≤ P) (hD0 : 0 < |D|) (hP : 0 < P)
    (hV : |V - 1 / D| ≤ 203 / 10 * u * P / D ^ 2) (hV2 : |V| ≤ 203 / 100 / |D|) (hd : |dh - d| ≤ 252 / 50 * u * Q) (hdQ : |d| ≤ Q)
    (hη : P * η ≤ u * Q) (hz : |z - dh * V| ≤ Max.max η (u * |dh * V|)) : |z - d / D| ≤ 33 * u * (Q * P / D ^ 2) := by
  have hQ : 0 ≤ Q := (abs_nonneg d).trans hdQ
  have sqD : D ^ 2 = |D| * |D| := by rw [← sq, sq_abs]
  have oneP : 1 / |D| ≤ P / D ^ 2 := by
    rw [sqD, div_le_div_iff₀ hD0 (by positivity)]
    nlinarith
  have hdh : |dh| ≤ 1005 / 1000 * Q := by
    have := abs_add_le (dh - d) d
    rw [sub_add_cancel] at this
    have : 252 / 50 * u * Q ≤ 252 / 50 * (1 / 1024) * Q := mul_le_mul_of_nonneg_right (by linarith) hQ
    linarith
  have W : Q * P / D ^ 2 = Q * (P / D ^ 2) := by ring
  have w0 : 0 ≤ u * (Q * (P / D ^ 2)) := by positivity
  have w1 : Q * (1 / |D|) ≤ Q * (P / D ^ 2) := mul_le_mul_of_nonneg_left oneP hQ
  have w2 : u * (Q * (1 / |D|)) ≤ u * (Q * (P / D ^ 2)) := mul_le_mul_of_nonneg_left w1 hu.le
  have a1 : |dh * V - d / D| ≤ 306 / 10 * (u * (Q * (P / D ^ 2))) := by
    have : dh * V - d / D = (dh - d) * V + d * (V - 1 / D) := by ring
    rw [this]
    refine (abs_add_le _ _).trans ?_
    rw [abs_mul, abs_mul]
    have b1 : |dh - d| * |V| ≤ (252 / 50 * u * Q) * (203 / 100 / |D|) := mul_le_mul hd hV2 (abs_nonneg _) (by positivity)
    have b2 : |d| * |V - 1 / D| ≤ Q * (203 / 10 * u * P / D ^ 2) := mul_le_mul hdQ hV (abs_nonneg _) hQ
    have e1 : (252 / 50 * u * Q) * (203 / 100 / |D|) = 252 / 50 * (203 / 100) * (u * (Q * (1 / |D|))) := by ring
    have e2 : Q * (203 / 10 * u * P / D ^ 2) = 203 / 10 * (u * (Q * (P / D ^ 2))) := by ring
    linarith
  have a2 : |z - dh * V| ≤ 205 / 100 * (u * (Q * (P / D ^ 2))) := by
    refine hz.trans (max_le ?_ ?_)
    · have : η ≤ u * (Q * (1 / P)) := by
        rw [mul_one_div, ← mul_div_assoc, le_div_iff₀ hP]; linarith
      have i : 1 / P ≤ 1 / |D| := one_div_le_one_div_of_le hD0 hDP
      have : u * (Q * (1 / P)) ≤ u * (Q * (1 / |D|)) := mul_le_mul_of_nonneg_left (mul_le_mul_of_nonneg_left i hQ) hu.le
      linarith
    · rw [abs_mul]
      have b : |dh| * |V| ≤ (1005 / 1000 * Q) * (203 / 100 / |D|) := mul_le_mul hdh hV2 (abs_nonneg _) (by positivity)
      have := mul_le_mul_of_nonneg_left b hu.le
      have e1 : u * ((1005 / 1000 * Q) * (203 / 100 / |D|)) = 1005 / 1000 * (203 / 100) * (u * (Q * (1 / |D|))) := by ring
      linarith
  have := abs_add_le (z - dh * V) (dh * V - d / D)
  rw [sub_add_sub_cancel] at this
  have e : 33 * u * (Q * P / D ^ 2) = 33 * (u * (Q * (P / D ^ 2))) := by ring
  rw [e]; linarith

theorem signT_fin {i j : _root_.Fin 4} {x : Flt mw ew} : (signT i j x).isFin = x.isFin := by
  unfold signT; split
  · rfl
  · rw [isFin_negop]

theorem signT_real {i j : _root_.Fin 4} {x : Flt mw ew} : (signT i j x).toReal = signT i j x.toReal := by
  unfold signT; split
  · rfl
  · rw [toReal_negop]

theorem signT_sub {i j : _root_.Fin 4} {x y : ℝ} : |signT i j x - signT i j y| = |x - y| := by
  unfold signT; split
  · rfl
  · rw [neg_sub_neg, abs_sub_comm]

theorem signT_abs {i j : _root_.Fin 4} {x : ℝ} : |signT i j x| = |x| := by
  unfold signT; split
  · rfl
  · rw [abs_neg]

/-- one over an infinity is a zero -/
theorem one_div_inf {y : Flt mw ew} (hn : y.isNaN = false) (hi : y.isInf = true) : ((Scalar.one : Flt mw ew) / y).toReal = 0 := by
  have ho := (sone_spec (mw := mw) (ew := ew)).1
  rw [div_def]; unfold Flt.div
  rw [notNaN_of_isFin ho, notInf_of_isFin ho, hn, hi]
  simp only [Bool.or_false, Bool.false_eq_true, if_false, if_true]
  exact toReal_eq_zero_iff.2 (key_zero _)

theorem matR_det (A : Mat4 (Flt mw ew)) : det4 (matR A) = (matR A).det := (Mat4.det_eq ⟨matR A⟩).symm

/-- C110: the computed inverse of a float matrix.  If the entries of `A.inverse()` are finite and not all zero (no overflow), and
the determinant is not lost in the rounding of its own terms, every computed entry is within a few units of rounding of the entry of
the mathematical inverse, measured against the magnitudes of the terms of the minor and of the determinant. -/
theorem C110_inverse (hm : 9 ≤ mw) (A : Mat4 (Flt mw ew)) (δ : ℝ) (h0 : 0 < δ) (h1 : δ ≤ 1)
    (hη : etaRnd mw ew ≤ uRnd mw * δ ^ 4) (hη' : perm4 (absM A δ) * etaRnd mw ew ≤ uRnd mw * δ ^ 3)
    (hf : ∀ i j, (A.inverse.data i j).isFin = true) (hz : ∃ i j, (A.inverse.data i j).toReal ≠ 0)
    (hc : 20 * (uRnd mw * perm4 (absM A δ)) ≤ |(matR A).det|) (i j : _root_.Fin 4) :
    |(A.inverse.data i j).toReal - (matR A)⁻¹ i j| ≤
      33 * uRnd mw * (permMinor (absM A δ) j i * perm4 (absM A δ) / (matR A).det ^ 2) := by
  have u0 := uRnd_pos (mw := mw)
  have u1 := uRnd_small hm
  have e0 := etaRnd_pos (mw := mw) (ew := ew)
  have ho := sone_spec (mw := mw) (ew := ew)
  have hv : (Scalar.one / det4 A.data : Flt mw ew).isFin = true := by
    have := hf 0 0
    rw [inverse_form] at this
    exact (isFin_of_mul this).2
  obtain ⟨-, nn, nz⟩ := isFin_of_div hv
  have fD : (det4 A.data).isFin = true := by
    rcases isFin_or_isInf nn with h | h
    · exact h
    · exfalso
      have z := one_div_inf nn h
      obtain ⟨i, j, hij⟩ := hz
      have hfij := hf i j
      rw [inverse_form] at hij hfij
      have := mul_zero_same' (isFin_of_mul hfij).1 (same_zero' z)
      exact hij (this.toReal.trans toReal_szero)
  have dD := dom_det4 hm A h0 h1 hη fD
  rw [matR_det] at dD
  have hP : 0 < perm4 (absM A δ) := by
    by_contra h
    have hle : perm4 (absM A δ) = 0 := le_antisymm (not_lt.1 h) dD.nonneg
    have t := dD.2.1
    have t2 := dD.2.2
    rw [hle, mul_zero] at t
    rw [hle] at t2
    have e1 := abs_nonpos_iff.1 t
    have e2 := abs_nonpos_iff.1 t2
    rw [e2, sub_zero] at e1
    exact nz (toReal_eq_zero_iff.1 e1)
  have hmin : ∀ i j, (minorT A.data j i).isFin = true := fun i j => by
    have := hf i j
    rw [inverse_form] at this
    have := (isFin_of_mul this).1
    rwa [signT_fin] at this
  obtain ⟨dd, hp⟩ := dom_det3 hm A h0 h1 hη _ _ (hmin i j)
  have hDne : (det4 A.data).toReal ≠ 0 := fun h => nz (toReal_eq_zero_iff.1 h)
  have ev := div_err ho.1 fD hDne hv
  rw [ho.2] at ev
  have d3 : δ ^ 3 ≤ 1 := pow_le_one₀ h0.le h1
  have hη1 : perm4 (absM A δ) * etaRnd mw ew ≤ uRnd mw := hη'.trans (by nlinarith)
  obtain ⟨hD0, v1, v2⟩ := inv_core u0 dD.2.1 dD.2.2 hc hP hη1 ev
  have fz := hf i j
  rw [inverse_form] at fz
  have ez := mul_err (isFin_of_mul fz).1 hv fz
  rw [signT_real] at ez
  have hη2 : perm4 (absM A δ) * etaRnd mw ew ≤ uRnd mw * permMinor (absM A δ) j i := by
    refine hη'.trans (mul_le_mul_of_nonneg_left ?_ u0.le)
    have : 0 ≤ δ ^ 3 := by positivity
    exact le_trans (by linarith) hp
  have main := entry_core u0 u1 dD.2.2 hD0 hP v1 v2 (d := signT i j (minorT (matR A) j i)) (by rw [signT_sub]; exact dd.2.1)
    (by rw [signT_abs]; exact dd.2.2) hη2 ez
  have spec : (matR A)⁻¹ i j = signT i j (minorT (matR A) j i) / (matR A).det := by
    have hs := C33_inverse_spec (⟨matR A⟩ : Mat4 ℝ) (abs_pos.1 hD0)
    have : (matR A)⁻¹ i j = (⟨matR A⟩ : Mat4 ℝ).inverse.data i j := by
      rw [show (matR A)⁻¹ = _ from hs.symm]; rfl
    rw [this, inverse_form, ← matR_det]
    change _ * (1 / _) = _
    ring
  rw [inverse_form, spec]
  exact main

theorem permMinor_le {M : _root_.Fin 4 → _root_.Fin 4 → ℝ} {m : ℝ} (h0 : ∀ i j, 0 ≤ M i j) (h : ∀ i j, M i j ≤ m) (i j : _root_.Fin 4) :
    permMinor M i j ≤ 6 * m ^ 3 ∧ 0 ≤ permMinor M i j := by
  have m0 : 0 ≤ m := (h0 0 0).trans (h 0 0)
  have p2 : ∀ a b c d, M a b * M c d ≤ m ^ 2 := fun a b c d => by rw [sq]; exact mul_le_mul (h a b) (h c d) (h0 c d) m0
  have p3 : ∀ a b x, 0 ≤ x → x ≤ 2 * m ^ 2 → M a b * x ≤ 2 * m ^ 3 ∧ 0 ≤ M a b * x := fun a b x hx hx' =>
    ⟨(mul_le_mul (h a b) hx' hx m0).trans (le_of_eq (by ring)), mul_nonneg (h0 a b) hx⟩
  have s2 : ∀ a b c d a' b' c' d', 0 ≤ M a b * M c d + M a' b' * M c' d' ∧ M a b * M c d + M a' b' * M c' d' ≤ 2 * m ^ 2 :=
    fun a b c d a' b' c' d' => ⟨add_nonneg (mul_nonneg (h0 _ _) (h0 _ _)) (mul_nonneg (h0 _ _) (h0 _ _)), by
      linarith [p2 a b c d, p2 a' b' c' d']⟩
  unfold permMinor perm3
  have t : ∀ a b c d e f a' b' c' d', _ := fun a b c d e f a' b' c' d' =>
    p3 a b _ (s2 c d e f a' b' c' d').1 (s2 c d e f a' b' c' d').2
  have t1 := t (i.succAbove 0) (j.succAbove 0) (i.succAbove 1) (j.succAbove 1) (i.succAbove 2) (j.succAbove 2)
    (i.succAbove 1) (j.succAbove 2) (i.succAbove 2) (j.succAbove 1)
  have t2 := t (i.succAbove 0) (j.succAbove 1) (i.succAbove 1) (j.succAbove 0) (i.succAbove 2) (j.succAbove 2)
    (i.succAbove 1) (j.succAbove 2) (i.succAbove 2) (j.succAbove 0)
  have t3 := t (i.succAbove 0) (j.succAbove 2) (i.succAbove 1) (j.succAbove 0) (i.succAbove 2) (j.succAbove 1)
    (i.succAbove 1) (j.succAbove 1) (i.succAbove 2) (j.succAbove 0)
  exact ⟨by linarith [t1.1, t2.1, t3.1], by linarith [t1.2, t2.2, t3.2]⟩

theorem perm4_le {M : _root_.Fin 4 → _root_.Fin 4 → ℝ} {m : ℝ} (h0 : ∀ i j, 0 ≤ M i j) (h : ∀ i j, M i j ≤ m) :
    perm4 M ≤ 24 * m ^ 4 ∧ 0 ≤ perm4 M := by
  have m0 : 0 ≤ m := (h0 0 0).trans (h 0 0)
  have t : ∀ j, M 0 j * permMinor M 0 j ≤ 6 * m ^ 4 ∧ 0 ≤ M 0 j * permMinor M 0 j := fun j => by
    obtain ⟨a, b⟩ := permMinor_le h0 h 0 j
    exact ⟨(mul_le_mul (h 0 j) a b m0).trans (le_of_eq (by ring)), mul_nonneg (h0 0 j) b⟩
  unfold perm4
  exact ⟨by linarith [(t 0).1, (t 1).1, (t 2).1, (t 3).1], by linarith [(t 0).2, (t 1).2, (t 2).2, (t 3).2]⟩

/-- C110, in terms of the largest entry only: with entries at most `M` in magnitude the error is at most `4752 u M^7 / det^2`. -/
theorem C110_norm (hm : 9 ≤ mw) (A : Mat4 (Flt mw ew)) (δ M : ℝ) (h0 : 0 < δ) (h1 : δ ≤ 1) (hM : ∀ i j, |(A.data i j).toReal| + δ ≤ M)
    (hη : etaRnd mw ew ≤ uRnd mw * δ ^ 4) (hη' : 24 * M ^ 4 * etaRnd mw ew ≤ uRnd mw * δ ^ 3)
    (hf : ∀ i j, (A.inverse.data i j).isFin = true) (hz : ∃ i j, (A.inverse.data i j).toReal ≠ 0)
    (hc : 480 * uRnd mw * M ^ 4 ≤ |(matR A).det|) (i j : _root_.Fin 4) :
    |(A.inverse.data i j).toReal - (matR A)⁻¹ i j| ≤ 4752 * uRnd mw * M ^ 7 / (matR A).det ^ 2 := by
  have u0 := uRnd_pos (mw := mw)
  have e0 := etaRnd_pos (mw := mw) (ew := ew)
  have p0 : ∀ i j, 0 ≤ absM A δ i j := fun i j => by unfold absM; linarith [abs_nonneg (A.data i j).toReal]
  have p1 : ∀ i j, absM A δ i j ≤ M := hM
  obtain ⟨a, a0⟩ := perm4_le p0 p1
  obtain ⟨b, b0⟩ := permMinor_le p0 p1 j i
  have m0 : 0 ≤ M := (p0 0 0).trans (p1 0 0)
  have := C110_inverse hm A δ h0 h1 hη ((mul_le_mul_of_nonneg_right a e0.le).trans hη') hf hz
    (by have := mul_le_mul_of_nonneg_left a u0.le; linarith) i j
  refine this.trans ?_
  have c : permMinor (absM A δ) j i * perm4 (absM A δ) ≤ (6 * M ^ 3) * (24 * M ^ 4) := mul_le_mul b a a0 (by positivity)
  have d : permMinor (absM A δ) j i * perm4 (absM A δ) / (matR A).det ^ 2 ≤ (6 * M ^ 3) * (24 * M ^ 4) / (matR A).det ^ 2 :=
    div_le_div_of_nonneg_right c (sq_nonneg _)
  refine (mul_le_mul_of_nonneg_left d (by positivity)).trans (le_of_eq ?_)
  ring

end

/-- The hypotheses hold of an `f32` matrix with shear, translation and projective part, determinant 10. -/
example :
    let A : Mat4 F32 := Mat4.mk4 (F32.lit 1) (F32.lit 2) (F32.lit 0) (F32.lit 3) (F32.lit 0) (F32.lit 1) (F32.lit 4) (F32.lit 0)
      (F32.lit 2) (F32.lit 0) (F32.lit 1) (F32.lit 0) (F32.lit 0) (F32.lit 1) (F32.lit 0) (F32.lit 2)
    (∀ i j, |(A.data i j).toReal| + 1 / 2 ^ 31 ≤ 5) ∧ etaRnd 23 8 ≤ uRnd 23 * (1 / 2 ^ 31) ^ 4 ∧
    24 * 5 ^ 4 * etaRnd 23 8 ≤ uRnd 23 * (1 / 2 ^ 31) ^ 3 ∧ (∀ i j, (A.inverse.data i j).isFin = true) ∧
    (A.inverse.data 0 0).key ≠ 0 ∧ 480 * uRnd 23 * 5 ^ 4 ≤ |(matR A).det| := by
  intro A
  have l0 := toReal_lit (n := 0) (by norm_num)
  have l1 := toReal_lit (n := 1) (by norm_num)
  have l2 := toReal_lit (n := 2) (by norm_num)
  have l3 := toReal_lit (n := 3) (by norm_num)
  have l4 := toReal_lit (n := 4) (by norm_num)
  refine ⟨?_, by unfold etaRnd uRnd fK; norm_num, by unfold etaRnd uRnd fK; norm_num, by decide +kernel, by decide +kernel, ?_⟩
  · intro i j
    fin_cases i <;> fin_cases j <;> simp [A, Mat4.mk4, l0, l1, l2, l3, l4] <;> norm_num
  · have e : (matR A).det = 10 := by
      rw [← matR_det]
      simp [det4, minorT, det3, matR, A, Mat4.mk4, Fin.succAbove, l0, l1, l2, l3, l4]
      norm_num
    rw [e]; unfold uRnd; norm_num

end Scarlet
