import Verif.Props.Interval4
import Verif.Props.Interval6

/-!
How close interval results are to the exact ranges, for the operations `C28` leaves out (square, square root, absolute
value, minimum, maximum, union), and the exact condition under which `sin` and `cos` enclose.
-/

namespace Scarlet
open Flt Interval
variable {mw ew : Nat} [FltImpl mw ew] [LawfulFlt mw ew]
variable {A B : Interval (Flt mw ew)}

theorem toReal_smin {u v : Flt mw ew} (hu : u.isFin = true) (hv : v.isFin = true) :
    (Scalar.min u v).isFin = true ∧ (Scalar.min u v).toReal = Min.min u.toReal v.toReal := by
  rw [smin_def]
  split
  · next h => rw [slt_iff] at h; exact ⟨hu, (min_eq_left (toReal_le_iff.2 h.2.2.le)).symm⟩
  · next h =>
    rw [slt_iff] at h
    have := not_lt.1 (fun h' => h ⟨notNaN_of_isFin hu, notNaN_of_isFin hv, h'⟩)
    exact ⟨hv, (min_eq_right (toReal_le_iff.2 this)).symm⟩

theorem toReal_smax {u v : Flt mw ew} (hu : u.isFin = true) (hv : v.isFin = true) :
    (Scalar.max u v).isFin = true ∧ (Scalar.max u v).toReal = Max.max u.toReal v.toReal := by
  rw [smax_def]
  split
  · next h => rw [sgt_iff] at h; exact ⟨hu, (max_eq_left (toReal_le_iff.2 h.2.2.le)).symm⟩
  · next h =>
    rw [sgt_iff] at h
    have := not_lt.1 (fun h' => h ⟨notNaN_of_isFin hu, notNaN_of_isFin hv, h'⟩)
    exact ⟨hv, (max_eq_right (toReal_le_iff.2 this)).symm⟩

/-- C28 for squares: the upper bound is less than two floats above the largest square, and the lower bound is less than
two floats below the smallest one, or exactly zero when the operand straddles zero (where the smallest square is zero). -/
theorem C28_square (hA : Ordered A) (fA : Interval.Finite A) :
    (∃ M, IsGreatest (Range1 (fun x => x * x) A) M ∧ WithinTwoAbove (Interval.square A).sup M) ∧
    (¬ Straddles A → ∃ m, IsLeast (Range1 (fun x => x * x) A) m ∧ WithinTwoBelow (Interval.square A).inf m) ∧
    (Straddles A → IsLeast (Range1 (fun x => x * x) A) 0 ∧ (Interval.square A).inf.val = 0) := by
  refine ⟨?_, fun hs => ?_, fun hs => ⟨⟨⟨0, ?_, by simp⟩, ?_⟩, ?_⟩⟩
  · obtain ⟨M, h1, h2⟩ := square_tightHi hA fA
    exact ⟨M, h1, two_above h2⟩
  · obtain ⟨m, h1, h2⟩ := square_tightLo hA fA hs
    exact ⟨m, h1, two_below h2⟩
  · rw [straddles_real fA] at hs
    rw [mem_fin_iff fA]; exact ⟨hs.1.le, hs.2.le⟩
  · rintro _ ⟨x, -, rfl⟩
    exact mul_self_nonneg x
  · rw [C16_square_straddle A hs]
    exact val_szero

/-- C28 for square roots of nonnegative intervals, both for the inherent method and for the trait method. -/
theorem C28_sqrt (hA : Ordered A) (fA : Interval.Finite A) (h0 : 0 ≤ A.inf.toReal) :
    TwoUlp (Range1 Real.sqrt A) (Interval.sqrt A) ∧ TwoUlp (Range1 Real.sqrt A) (GFloat.sqrt A : Interval (Flt mw ew)) := by
  have oA := ordered_real hA fA
  have i1 := mem_inf_of_ordered hA fA
  have i2 := mem_sup_of_ordered hA fA
  have k1 : 0 ≤ A.inf.key := toReal_nonneg_iff.1 h0
  have k2 : A.inf.key ≤ A.sup.key := toReal_le_iff.1 oA
  have t : TightLo (Range1 Real.sqrt A) (Interval.sqrt A) ∧ TightHi (Range1 Real.sqrt A) (Interval.sqrt A) := by
    refine ⟨⟨_, ⟨⟨_, i1, rfl⟩, ?_⟩, isLo_of (Flt.sqrt_fin fA.1 k1)⟩, ⟨_, ⟨⟨_, i2, rfl⟩, ?_⟩, isHi_of (Flt.sqrt_fin fA.2 (by omega))⟩⟩
    · rintro _ ⟨x, hx, rfl⟩; exact Real.sqrt_le_sqrt ((mem_fin_iff fA x).1 hx).1
    · rintro _ ⟨x, hx, rfl⟩; exact Real.sqrt_le_sqrt ((mem_fin_iff fA x).1 hx).2
  refine ⟨twoUlp_of t, ?_⟩
  have e := twoUlp_of t
  have hm := C17_sqrt_partial A _ i1 (by rw [val_of_isFin fA.1]; exact_mod_cast h0)
  have hle : (Interval.sqrt A).inf.val ≤ (Interval.sqrt A).sup.val := le_trans hm.1.2 hm.2.2
  have hk := (val_le_iff hm.1.1 hm.2.1).1 hle
  obtain ⟨⟨m1, m2⟩, ⟨m3, m4⟩⟩ := key_minMax (u := (Interval.sqrt A).inf) (v := (Interval.sqrt A).sup) hm.1.1 hm.2.1
  have tt : TightLo (Range1 Real.sqrt A) (GFloat.sqrt A : Interval (Flt mw ew)) ∧
      TightHi (Range1 Real.sqrt A) (GFloat.sqrt A : Interval (Flt mw ew)) := by
    obtain ⟨⟨m, h1, h2, h3⟩, ⟨M, h4, h5, h6⟩⟩ := t
    refine ⟨⟨m, h1, m1, ?_⟩, ⟨M, h4, m3, ?_⟩⟩
    · refine Eq.trans m2 ?_; rw [min_eq_left hk]; exact h3
    · refine Eq.trans m4 ?_; rw [max_eq_right hk]; exact h6
  exact twoUlp_of tt

/-- The bounds of `C` are exactly the least and the greatest element of `S`. -/
def ExactHull (S : Set ℝ) (C : Interval (Flt mw ew)) : Prop :=
  Interval.Finite C ∧ IsLeast S C.inf.toReal ∧ IsGreatest S C.sup.toReal

/-- C18: minimum and maximum return exactly the range of the pointwise operation; negation too; and the absolute value
does so unless the operand lies entirely below zero (then its lower bound is zero, `C18_abs_below`). -/
theorem C18_hull (hA : Ordered A) (hB : Ordered B) (fA : Interval.Finite A) (fB : Interval.Finite B) :
    ExactHull (Range2 Min.min A B) (Scalar.min A B) ∧ ExactHull (Range2 Max.max A B) (Scalar.max A B) ∧
    ExactHull (Range1 Neg.neg A) (-A) ∧
    (0 ≤ A.sup.toReal → ExactHull (Range1 abs A) (SignedScalar.abs A : Interval (Flt mw ew))) := by
  have oA := ordered_real hA fA
  have a1 := mem_inf_of_ordered hA fA
  have a2 := mem_sup_of_ordered hA fA
  have b1 := mem_inf_of_ordered hB fB
  have b2 := mem_sup_of_ordered hB fB
  refine ⟨?_, ?_, ?_, ?_⟩
  · have l := toReal_smin fA.1 fB.1
    have u := toReal_smin fA.2 fB.2
    refine ⟨⟨l.1, u.1⟩, ⟨⟨_, _, a1, b1, l.2.symm⟩, ?_⟩, ⟨⟨_, _, a2, b2, u.2.symm⟩, ?_⟩⟩
    · rintro _ ⟨x, y, hx, hy, rfl⟩
      exact l.2.le.trans (min_le_min ((mem_fin_iff fA x).1 hx).1 ((mem_fin_iff fB y).1 hy).1)
    · rintro _ ⟨x, y, hx, hy, rfl⟩
      exact (min_le_min ((mem_fin_iff fA x).1 hx).2 ((mem_fin_iff fB y).1 hy).2).trans u.2.ge
  · have l := toReal_smax fA.1 fB.1
    have u := toReal_smax fA.2 fB.2
    refine ⟨⟨l.1, u.1⟩, ⟨⟨_, _, a1, b1, l.2.symm⟩, ?_⟩, ⟨⟨_, _, a2, b2, u.2.symm⟩, ?_⟩⟩
    · rintro _ ⟨x, y, hx, hy, rfl⟩
      exact l.2.le.trans (max_le_max ((mem_fin_iff fA x).1 hx).1 ((mem_fin_iff fB y).1 hy).1)
    · rintro _ ⟨x, y, hx, hy, rfl⟩
      exact (max_le_max ((mem_fin_iff fA x).1 hx).2 ((mem_fin_iff fB y).1 hy).2).trans u.2.ge
  · have e1 : (-A).inf = -A.sup := rfl
    have e2 : (-A).sup = -A.inf := rfl
    refine ⟨⟨by rw [e1, isFin_negop]; exact fA.2, by rw [e2, isFin_negop]; exact fA.1⟩, ⟨⟨_, a2, ?_⟩, ?_⟩, ⟨⟨_, a1, ?_⟩, ?_⟩⟩
    · rw [e1, toReal_negop]
    · rintro _ ⟨x, hx, rfl⟩
      rw [e1, toReal_negop]; exact neg_le_neg ((mem_fin_iff fA x).1 hx).2
    · rw [e2, toReal_negop]
    · rintro _ ⟨x, hx, rfl⟩
      rw [e2, toReal_negop]; exact neg_le_neg ((mem_fin_iff fA x).1 hx).1
  · intro h0
    have kn : Scalar.isNegative A.inf = true ↔ A.inf.toReal < 0 := by
      unfold Scalar.isNegative
      rw [slt_iff, ← toReal_lt_iff, toReal_szero]
      simp [notNaN_of_isFin fA.1, szero_notNaN]
    have habs : ∀ u : Flt mw ew, u.isFin = true →
        (SignedScalar.abs u).isFin = true ∧ (SignedScalar.abs u).toReal = |u.toReal| := by
      intro u hu
      change (Scalar.absDefault u).isFin = true ∧ (Scalar.absDefault u).toReal = |u.toReal|
      have kn : Scalar.isNegative u = true ↔ u.toReal < 0 := by
        unfold Scalar.isNegative
        rw [slt_iff, ← toReal_lt_iff, toReal_szero]
        simp [notNaN_of_isFin hu, szero_notNaN]
      unfold Scalar.absDefault
      split
      · next h => rw [kn] at h; exact ⟨by rw [isFin_negop]; exact hu, by rw [toReal_negop, abs_of_neg h]⟩
      · next h => rw [kn, not_lt] at h; exact ⟨hu, by rw [abs_of_nonneg h]⟩
    change ExactHull (Range1 abs A) (if Scalar.isNegative A.inf then
      Interval.new Scalar.zero (Scalar.max (SignedScalar.abs A.inf) (SignedScalar.abs A.sup))
      else Interval.from2 (Scalar.minMax A.inf A.sup))
    by_cases hn : A.inf.toReal < 0
    · rw [if_pos (kn.2 hn)]
      obtain ⟨p1, p2⟩ := habs _ fA.1
      obtain ⟨q1, q2⟩ := habs _ fA.2
      obtain ⟨r1, r2⟩ := toReal_smax p1 q1
      refine ⟨⟨isFin_szero, r1⟩, ⟨⟨0, (mem_fin_iff fA 0).2 ⟨hn.le, h0⟩, ?_⟩, ?_⟩, ?_⟩
      · change |(0 : ℝ)| = (Scalar.zero : Flt mw ew).toReal
        rw [toReal_szero, abs_zero]
      · rintro _ ⟨x, -, rfl⟩
        change (Scalar.zero : Flt mw ew).toReal ≤ _
        rw [toReal_szero]; exact abs_nonneg x
      · change IsGreatest _ (Scalar.max (SignedScalar.abs A.inf) (SignedScalar.abs A.sup)).toReal
        rw [r2, p2, q2]
        refine ⟨?_, ?_⟩
        · rcases le_total |A.inf.toReal| |A.sup.toReal| with h | h
          · exact ⟨_, a2, (max_eq_right h).symm⟩
          · exact ⟨_, a1, (max_eq_left h).symm⟩
        · rintro _ ⟨x, hx, rfl⟩
          obtain ⟨x1, x2⟩ := (mem_fin_iff fA x).1 hx
          rcases le_total 0 x with h | h
          · refine le_trans ?_ (le_max_right _ _); rw [abs_of_nonneg h, abs_of_nonneg h0]; exact x2
          · refine le_trans ?_ (le_max_left _ _); rw [abs_of_nonpos h, abs_of_neg hn]; linarith
    · rw [if_neg (fun h => hn (kn.1 h))]
      rw [not_lt] at hn
      have m := key_minMax (notNaN_of_isFin fA.1) (notNaN_of_isFin fA.2)
      have hk := toReal_le_iff.1 oA
      rw [min_eq_left hk, max_eq_right hk] at m
      have f1 : (Scalar.minMax A.inf A.sup).1.isFin = true := by
        rw [isFin_iff_key, m.1.2]; exact isFin_iff_key.1 fA.1
      have f2 : (Scalar.minMax A.inf A.sup).2.isFin = true := by
        rw [isFin_iff_key, m.2.2]; exact isFin_iff_key.1 fA.2
      have e1 : (Scalar.minMax A.inf A.sup).1.toReal = A.inf.toReal := toReal_eq_iff.2 m.1.2
      have e2 : (Scalar.minMax A.inf A.sup).2.toReal = A.sup.toReal := toReal_eq_iff.2 m.2.2
      refine ⟨⟨f1, f2⟩, ?_, ?_⟩
      · change IsLeast _ (Scalar.minMax A.inf A.sup).1.toReal
        rw [e1]
        refine ⟨⟨_, a1, abs_of_nonneg hn⟩, ?_⟩
        rintro _ ⟨x, hx, rfl⟩
        exact ((mem_fin_iff fA x).1 hx).1.trans (le_abs_self x)
      · change IsGreatest _ (Scalar.minMax A.inf A.sup).2.toReal
        rw [e2]
        refine ⟨⟨_, a2, abs_of_nonneg h0⟩, ?_⟩
        rintro _ ⟨x, hx, rfl⟩
        obtain ⟨x1, x2⟩ := (mem_fin_iff fA x).1 hx
        rw [abs_of_nonneg (hn.trans x1)]; exact x2

/-- C18: the absolute value of an interval below zero starts at zero, although zero is not attained. -/
theorem C18_abs_below (hA : Ordered A) (fA : Interval.Finite A) (h0 : A.sup.toReal < 0) :
    (SignedScalar.abs A : Interval (Flt mw ew)).inf.toReal = 0 ∧ (0 : ℝ) ∉ Range1 abs A := by
  have oA := ordered_real hA fA
  have kn : Scalar.isNegative A.inf = true := by
    unfold Scalar.isNegative
    rw [slt_iff, ← toReal_lt_iff, toReal_szero]
    exact ⟨notNaN_of_isFin fA.1, szero_notNaN, by linarith⟩
  refine ⟨?_, ?_⟩
  · change (if Scalar.isNegative A.inf then
      Interval.new Scalar.zero (Scalar.max (SignedScalar.abs A.inf) (SignedScalar.abs A.sup))
      else Interval.from2 (Scalar.minMax A.inf A.sup)).inf.toReal = 0
    rw [if_pos kn]; exact toReal_szero
  · rintro ⟨x, hx, h⟩
    rw [abs_eq_zero.1 h] at hx
    linarith [((mem_fin_iff fA 0).1 hx).2]

/-! ### the exact condition for `sin` and `cos` -/

section trig
open Real

theorem sin_reaches_one {a b : ℝ} (hab : a ≤ b) (ca : 0 < cos a) (cb : cos b ≤ 0) : ∃ x, a ≤ x ∧ x ≤ b ∧ sin x = 1 := by
  set k := toIcoDiv Real.two_pi_pos (-π) a with hk
  set r := toIcoMod Real.two_pi_pos (-π) a with hr
  have e : a = r + k * (2 * π) := by
    have := toIcoMod_add_toIcoDiv_zsmul Real.two_pi_pos (-π) a
    rw [zsmul_eq_mul] at this
    exact this.symm
  have hr1 := toIcoMod_mem_Ico Real.two_pi_pos (-π) a
  rw [← hr] at hr1
  have cr : 0 < cos r := by rw [e, cos_add_int_mul_two_pi] at ca; exact ca
  have r2 : r < π / 2 := by
    by_contra h
    rw [not_lt] at h
    have := cos_nonpos_of_pi_div_two_le_of_le h (by linarith [hr1.2, Real.pi_pos])
    linarith
  have r1 : -(π / 2) < r := by
    by_contra h
    rw [not_lt] at h
    have := cos_nonpos_of_pi_div_two_le_of_le (x := -r) (by linarith) (by linarith [hr1.1, Real.pi_pos])
    rw [cos_neg] at this
    linarith
  refine ⟨π / 2 + k * (2 * π), by linarith, ?_, by rw [sin_add_int_mul_two_pi, sin_pi_div_two]⟩
  by_contra h
  rw [not_le] at h
  have := cos_pos_of_mem_Ioo (x := b - k * (2 * π)) ⟨by linarith, by linarith⟩
  rw [cos_sub_int_mul_two_pi] at this
  linarith

theorem sin_reaches_neg_one {a b : ℝ} (hab : a ≤ b) (ca : cos a < 0) (cb : 0 ≤ cos b) : ∃ x, a ≤ x ∧ x ≤ b ∧ sin x = -1 := by
  obtain ⟨x, h1, h2, h3⟩ := sin_reaches_one (a := a + π) (b := b + π) (by linarith) (by rw [cos_add_pi]; linarith)
    (by rw [cos_add_pi]; linarith)
  refine ⟨x - π, by linarith, by linarith, ?_⟩
  rw [sin_sub_pi, h3]

theorem sin_reaches_both {a b : ℝ} (hab : π < b - a) (h : 0 < cos a * cos b) :
    (∃ x, a ≤ x ∧ x ≤ b ∧ sin x = 1) ∧ (∃ x, a ≤ x ∧ x ≤ b ∧ sin x = -1) := by
  have hp := Real.pi_pos
  rcases mul_pos_iff.1 h with ⟨h1, h2⟩ | ⟨h1, h2⟩
  · obtain ⟨x, x1, x2, x3⟩ := sin_reaches_one (a := a) (b := a + π) (by linarith) h1 (by rw [cos_add_pi]; linarith)
    obtain ⟨y, y1, y2, y3⟩ := sin_reaches_neg_one (a := a + π) (b := b) (by linarith) (by rw [cos_add_pi]; linarith) h2.le
    exact ⟨⟨x, x1, by linarith, x3⟩, ⟨y, by linarith, y2, y3⟩⟩
  · obtain ⟨x, x1, x2, x3⟩ := sin_reaches_neg_one (a := a) (b := a + π) (by linarith) h1 (by rw [cos_add_pi]; linarith)
    obtain ⟨y, y1, y2, y3⟩ := sin_reaches_one (a := a + π) (b := b) (by linarith) (by rw [cos_add_pi]; linarith) h2.le
    exact ⟨⟨y, by linarith, y2, y3⟩, ⟨x, x1, by linarith, x3⟩⟩

theorem cos_reaches_both {a b : ℝ} (hab : π < b - a) (h : 0 < sin a * sin b ∨ a = 0) :
    (∃ x, a ≤ x ∧ x ≤ b ∧ cos x = 1) ∧ (∃ x, a ≤ x ∧ x ≤ b ∧ cos x = -1) := by
  have hp := Real.pi_pos
  rcases h with h | rfl
  · obtain ⟨⟨x, x1, x2, x3⟩, ⟨y, y1, y2, y3⟩⟩ := sin_reaches_both (a := a + π / 2) (b := b + π / 2) (by linarith)
      (by rw [cos_add_pi_div_two, cos_add_pi_div_two]; linarith)
    refine ⟨⟨x - π / 2, by linarith, by linarith, ?_⟩, ⟨y - π / 2, by linarith, by linarith, ?_⟩⟩
    · rw [cos_sub_pi_div_two, x3]
    · rw [cos_sub_pi_div_two, y3]
  · exact ⟨⟨0, le_rfl, by linarith, cos_zero⟩, ⟨π, hp.le, by linarith, cos_pi⟩⟩

variable [Libm mw ew] [LawfulLibm mw ew]

/-- C24 for finite intervals, exactly: `A.sin()` encloses the sine of every member of `A`, unless `A` is wider than `π`,
narrower than `2π`, has endpoint cosines of the same sign, and the returned interval misses `1` or `-1` — both of which
are then sines of members of `A`. -/
theorem C24_sin_exact (ht : TauOk mw ew) (hA : Ordered A) (fA : Interval.Finite A) :
    (∀ x : ℝ, x ∈ A → sin x ∈ Interval.sin A) ↔
      ¬ (π < A.sup.toReal - A.inf.toReal ∧ A.sup.toReal - A.inf.toReal < 2 * π ∧
        0 < cos A.inf.toReal * cos A.sup.toReal ∧ ((1 : ℝ) ∉ Interval.sin A ∨ (-1 : ℝ) ∉ Interval.sin A)) := by
  constructor
  · rintro h ⟨h1, -, h3, h4⟩
    obtain ⟨⟨x, x1, x2, x3⟩, ⟨y, y1, y2, y3⟩⟩ := sin_reaches_both h1 h3
    rcases h4 with h4 | h4
    · exact h4 (x3 ▸ h x ((mem_fin_iff fA x).2 ⟨x1, x2⟩))
    · exact h4 (y3 ▸ h y ((mem_fin_iff fA y).2 ⟨y1, y2⟩))
  · intro h x hx
    by_cases g : (1 : ℝ) ∉ Interval.sin A ∨ (-1 : ℝ) ∉ Interval.sin A
    · refine C24_sin_partial ht A x hx fun _ => ?_
      by_contra hc
      rw [not_or, not_or, not_le, not_le, not_lt] at hc
      refine h ⟨hc.1, hc.2.1, lt_of_le_of_ne hc.2.2 ?_, g⟩
      exact (mul_ne_zero (cos_toReal_ne _) (cos_toReal_ne _)).symm
    · rw [not_or, not_not, not_not] at g
      exact ⟨g.2.1.mono (neg_one_le_sin x), g.1.2.mono (sin_le_one x)⟩

/-- C24 for finite intervals, exactly, for `cos`: `A.cos()` encloses the cosine of every member of `A`, unless `A` is
wider than `π`, narrower than `2π`, has endpoint sines of the same sign or starts at zero, and the returned interval
misses `1` or `-1` — both of which are then cosines of members of `A`. -/
theorem C24_cos_exact (ht : TauOk mw ew) (hA : Ordered A) (fA : Interval.Finite A) :
    (∀ x : ℝ, x ∈ A → cos x ∈ Interval.cos A) ↔
      ¬ (π < A.sup.toReal - A.inf.toReal ∧ A.sup.toReal - A.inf.toReal < 2 * π ∧
        (0 < sin A.inf.toReal * sin A.sup.toReal ∨ A.inf.toReal = 0) ∧
        ((1 : ℝ) ∉ Interval.cos A ∨ (-1 : ℝ) ∉ Interval.cos A)) := by
  constructor
  · rintro h ⟨h1, -, h3, h4⟩
    obtain ⟨⟨x, x1, x2, x3⟩, ⟨y, y1, y2, y3⟩⟩ := cos_reaches_both h1 h3
    rcases h4 with h4 | h4
    · exact h4 (x3 ▸ h x ((mem_fin_iff fA x).2 ⟨x1, x2⟩))
    · exact h4 (y3 ▸ h y ((mem_fin_iff fA y).2 ⟨y1, y2⟩))
  · intro h x hx
    by_cases g : (1 : ℝ) ∉ Interval.cos A ∨ (-1 : ℝ) ∉ Interval.cos A
    · refine C24_cos_partial ht A x hx fun _ => ?_
      by_contra hc
      rw [not_or, not_or, not_or, not_le, not_le, not_lt] at hc
      refine h ⟨hc.1, hc.2.1, ?_, g⟩
      rcases eq_or_lt_of_le hc.2.2.1 with e | e
      · rcases mul_eq_zero.1 e.symm with e | e
        · exact Or.inr (sin_toReal_eq_zero.1 e)
        · exact absurd (sin_toReal_eq_zero.1 e) hc.2.2.2
      · exact Or.inl e
    · rw [not_or, not_not, not_not] at g
      exact ⟨g.2.1.mono (neg_one_le_cos x), g.1.2.mono (cos_le_one x)⟩

end trig

/-- The hypotheses of the theorems above are met by `[-1,2]` and `[1,2]` (`f32`), with the libm of `lawfulLibm_exists`. -/
example : Ordered exA ∧ Interval.Finite exA ∧ Straddles exA ∧
    Ordered (⟨F32.lit 1, F32.lit 2⟩ : Interval F32) ∧ Interval.Finite (⟨F32.lit 1, F32.lit 2⟩ : Interval F32) ∧ TauOk 23 8 ∧
    Ordered (⟨F32.lit 0, F32.lit 4⟩ : Interval F32) := by
  refine ⟨?_, by unfold Interval.Finite; decide +kernel, straddles_exA, ?_, by unfold Interval.Finite; decide +kernel, tau_f32, ?_⟩
  all_goals rw [← C20_assert_iff]; decide +kernel

end Scarlet
