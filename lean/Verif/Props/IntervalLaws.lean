import Verif.Props.FloatVec
import Verif.Props.Interval4
import Verif.Props.Mirror
import Verif.Props.Tight

/-! C144: the laws that interval arithmetic obeys although every operation widens its result. -/

set_option linter.unusedSectionVars false

namespace Scarlet
namespace Interval
open Flt
variable {mw ew : Nat} [FltImpl mw ew] [LawfulFlt mw ew] {A B C : Interval (Flt mw ew)}

/-! ### Specification -/

/-- The bounds are the same numbers (the zeros of either sign are one number), none of them NaN. -/
def SameBounds (A B : Interval (Flt mw ew)) : Prop := NoNaN A ∧ NoNaN B ∧ A.inf.val = B.inf.val ∧ A.sup.val = B.sup.val

/-- An interval as `Interval::new` makes it from two finite numbers, the smaller one first. -/
def Proper (A : Interval (Flt mw ew)) : Prop := Ordered A ∧ Interval.Finite A

theorem SameBounds.symm (h : SameBounds A B) : SameBounds B A := ⟨h.2.1, h.1, h.2.2.1.symm, h.2.2.2.symm⟩
theorem SameBounds.trans (h : SameBounds A B) (h' : SameBounds B C) : SameBounds A C :=
  ⟨h.1, h'.2.1, h.2.2.1.trans h'.2.2.1, h.2.2.2.trans h'.2.2.2⟩

/-! ### results with the same exact range have the same bounds -/

theorem same_of_keys (h1 : NoNaN A) (h2 : NoNaN B) (h3 : A.inf.key = B.inf.key) (h4 : A.sup.key = B.sup.key) : SameBounds A B :=
  ⟨h1, h2, (val_eq_iff h1.1 h2.1).2 h3, (val_eq_iff h1.2 h2.2).2 h4⟩

theorem same_of_tight {S : Set ℝ} (h : TightLo S A ∧ TightHi S A) (h' : TightLo S B ∧ TightHi S B) : SameBounds A B := by
  obtain ⟨⟨m, hm, n, k⟩, ⟨M, hM, N, K⟩⟩ := h
  obtain ⟨⟨m', hm', n', k'⟩, ⟨M', hM', N', K'⟩⟩ := h'
  obtain rfl := hm.unique hm'
  obtain rfl := hM.unique hM'
  exact same_of_keys ⟨n, N⟩ ⟨n', N'⟩ (k.trans k'.symm) (K.trans K'.symm)

/-- the negated result is as tight for the negated range -/
theorem tight_neg {S : Set ℝ} (h : TightLo S A ∧ TightHi S A) : TightLo (-S) (-A) ∧ TightHi (-S) (-A) := by
  obtain ⟨⟨m, hm, n, k⟩, ⟨M, hM, N, K⟩⟩ := h
  refine ⟨⟨-M, ⟨by simpa using hM.1, fun x hx => by have := hM.2 hx; linarith⟩, ?_⟩,
    ⟨-m, ⟨by simpa using hm.1, fun x hx => by have := hm.2 hx; linarith⟩, ?_⟩⟩
  · refine ⟨(isNaN_negop _).trans N, ?_⟩
    change (-A.sup).key = _
    rw [key_negop, K, rndK_neg]; omega
  · refine ⟨(isNaN_negop _).trans n, ?_⟩
    change (-A.inf).key = _
    rw [key_negop, k, rndK_neg]; omega

theorem proper_neg (h : Proper A) : Proper (-A) := by
  refine ⟨⟨(isNaN_negop _).trans h.1.2.1, (isNaN_negop _).trans h.1.1, ?_⟩, (isFin_negop _).trans h.2.2, (isFin_negop _).trans h.2.1⟩
  change (-A.sup).val ≤ (-A.inf).val
  rw [val_neg h.1.1, val_neg h.1.2.1, EReal.neg_le_neg_iff]
  exact h.1.2.2

theorem mem_neg (x : ℝ) : x ∈ -A ↔ -x ∈ A := by
  have := C18_neg_exact A (-x)
  rwa [_root_.neg_neg] at this

theorem straddles_neg (h : Proper A) : Straddles (-A) ↔ Straddles A := by
  rw [straddles_real h.2, straddles_real (proper_neg h).2]
  change (-A.sup).toReal < 0 ∧ 0 < (-A.inf).toReal ↔ _
  rw [toReal_negop, toReal_negop, neg_lt_zero, Left.neg_pos_iff, and_comm]

theorem range2_comm {f g : ℝ → ℝ → ℝ} (h : ∀ x y, f x y = g y x) : Range2 f A B = Range2 g B A := by
  ext z
  constructor
  · rintro ⟨x, y, hx, hy, rfl⟩; exact ⟨y, x, hy, hx, (h x y).symm⟩
  · rintro ⟨y, x, hy, hx, rfl⟩; exact ⟨x, y, hx, hy, h x y⟩

theorem range2_neg_left {f g : ℝ → ℝ → ℝ} (h : ∀ x y, f (-x) y = g x y) : Range2 f (-A) B = Range2 g A B := by
  ext z
  constructor
  · rintro ⟨x, y, hx, hy, rfl⟩; exact ⟨-x, y, (mem_neg x).1 hx, hy, by rw [← h, _root_.neg_neg]⟩
  · rintro ⟨x, y, hx, hy, rfl⟩; exact ⟨-x, y, (mem_neg _).2 (by rwa [_root_.neg_neg]), hy, h x y⟩

theorem range2_neg_right {f g : ℝ → ℝ → ℝ} (h : ∀ x y, f x (-y) = g x y) : Range2 f A (-B) = Range2 g A B := by
  ext z
  constructor
  · rintro ⟨x, y, hx, hy, rfl⟩; exact ⟨x, -y, hx, (mem_neg y).1 hy, by rw [← h, _root_.neg_neg]⟩
  · rintro ⟨x, y, hx, hy, rfl⟩; exact ⟨x, -y, hx, (mem_neg _).2 (by rwa [_root_.neg_neg]), h x y⟩

theorem range2_neg {f g : ℝ → ℝ → ℝ} (h : ∀ x y, g x y = -f x y) : -Range2 f A B = Range2 g A B := by
  ext z
  constructor
  · rintro ⟨x, y, hx, hy, e⟩; exact ⟨x, y, hx, hy, by rw [h, e, _root_.neg_neg]⟩
  · rintro ⟨x, y, hx, hy, rfl⟩; exact ⟨x, y, hx, hy, by rw [h, _root_.neg_neg]⟩

theorem range1_neg {f g : ℝ → ℝ} (h : ∀ x, f (-x) = g x) : Range1 f (-A) = Range1 g A := by
  ext z
  constructor
  · rintro ⟨x, hx, rfl⟩; exact ⟨-x, (mem_neg x).1 hx, by rw [← h, _root_.neg_neg]⟩
  · rintro ⟨x, hx, rfl⟩; exact ⟨-x, (mem_neg _).2 (by rwa [_root_.neg_neg]), h x⟩

theorem neg_range1 {f g : ℝ → ℝ} (h : ∀ x, g x = -f x) : -Range1 f A = Range1 g A := by
  ext z
  constructor
  · rintro ⟨x, hx, e⟩; exact ⟨x, hx, by rw [h, e, _root_.neg_neg]⟩
  · rintro ⟨x, hx, rfl⟩; exact ⟨x, hx, by rw [h, _root_.neg_neg]⟩

theorem same_of_hull {S : Set ℝ} (h : ExactHull S A) (h' : ExactHull S B) : SameBounds A B := by
  obtain ⟨f, l, g⟩ := h
  obtain ⟨f', l', g'⟩ := h'
  refine ⟨⟨notNaN_of_isFin f.1, notNaN_of_isFin f.2⟩, ⟨notNaN_of_isFin f'.1, notNaN_of_isFin f'.2⟩, ?_, ?_⟩
  · rw [val_of_isFin f.1, val_of_isFin f'.1, l.unique l']
  · rw [val_of_isFin f.2, val_of_isFin f'.2, g.unique g']

theorem hull_neg {S : Set ℝ} (h : ExactHull S A) : ExactHull (-S) (-A) := by
  obtain ⟨f, l, g⟩ := h
  refine ⟨⟨(isFin_negop _).trans f.2, (isFin_negop _).trans f.1⟩, ?_, ?_⟩
  · change IsLeast _ (-A.sup).toReal
    rw [toReal_negop]
    exact ⟨by simpa using g.1, fun x hx => by have := g.2 hx; linarith⟩
  · change IsGreatest _ (-A.inf).toReal
    rw [toReal_negop]
    exact ⟨by simpa using l.1, fun x hx => by have := l.2 hx; linarith⟩

theorem neg_neg_iv (A : Interval (Flt mw ew)) : - -A = A := by
  change (⟨- -A.inf, - -A.sup⟩ : Interval (Flt mw ew)) = A
  rw [neg_neg_op, neg_neg_op]

theorem whole_same (h : IsWhole A) (h' : IsWhole B) : SameBounds A B :=
  ⟨h.1, h'.1, h.2.1.trans h'.2.1.symm, h.2.2.trans h'.2.2.symm⟩
theorem whole_neg (h : IsWhole A) : IsWhole (-A) := by
  refine ⟨⟨(isNaN_negop _).trans h.1.2, (isNaN_negop _).trans h.1.1⟩, ?_, ?_⟩
  · change (-A.sup).val = ⊥
    rw [val_neg h.1.2, h.2.2]; rfl
  · change (-A.inf).val = ⊤
    rw [val_neg h.1.1, h.2.1]; rfl

/-! ### C144 -/

/-- C144: `is_same` compares the bounds as numbers. -/
theorem C144_is_same (A B : Interval (Flt mw ew)) : isSame A B = true ↔ SameBounds A B := by
  unfold isSame SameBounds NoNaN
  rw [Bool.and_eq_true, seq_iff, seq_iff]
  constructor
  · rintro ⟨⟨h1, h2, h3⟩, h4, h5, h6⟩
    exact ⟨⟨h1, h4⟩, ⟨h2, h5⟩, (val_eq_iff h1 h2).2 h3, (val_eq_iff h4 h5).2 h6⟩
  · rintro ⟨⟨h1, h4⟩, ⟨h2, h5⟩, h3, h6⟩
    exact ⟨⟨h1, h2, (val_eq_iff h1 h2).1 h3⟩, h4, h5, (val_eq_iff h4 h5).1 h6⟩

/-- C144, bit for bit and without conditions (NaN, infinities and reversed bounds included): sums commute, a difference is the sum with
the negated subtrahend, negation is undone by negation, and adding, subtracting or dividing by a number is the operation with the
interval of that number alone. -/
theorem C144_bitwise (A B : Interval (Flt mw ew)) (t : Flt mw ew) :
    A + B = B + A ∧ A - B = A + -B ∧ - -A = A ∧ A + t = A + from1 t ∧ A - t = A - from1 t ∧ A / t = A / from1 t := by
  refine ⟨?_, rfl, neg_neg_iv A, rfl, rfl, ?_⟩
  · change (⟨_, _⟩ : Interval (Flt mw ew)) = ⟨_, _⟩
    rw [Flt.add_comm' A.inf, Flt.add_comm' A.sup]
  · change divS A t = div A (from1 t)
    unfold divS div isPositive isNegative from1 new
    simp only [ite_self]

/-- C144: sums and differences of negated intervals. -/
theorem C144_add (hA : Proper A) (hB : Proper B) :
    SameBounds (A - B) (-(B - A)) ∧ SameBounds (-A + -B) (-(A + B)) ∧ SameBounds (-A - B) (-(A + B)) := by
  have h1 : SameBounds (-A + -B) (-(A + B)) := by
    refine same_of_tight (add_tight (proper_neg hA).1 (proper_neg hB).1 (proper_neg hA).2 (proper_neg hB).2) ?_
    have := tight_neg (add_tight hA.1 hB.1 hA.2 hB.2)
    rwa [range2_neg (g := fun x y => -x + -y) (fun x y => by ring), ← range2_neg_left (f := fun x y => x + -y) (fun _ _ => rfl),
      ← range2_neg_right (f := fun x y => x + y) (fun _ _ => rfl)] at this
  refine ⟨?_, h1, h1⟩
  refine same_of_tight (sub_tight hA.1 hB.1 hA.2 hB.2) ?_
  have := tight_neg (sub_tight hB.1 hA.1 hB.2 hA.2)
  rwa [range2_neg (g := fun x y => y - x) (fun x y => by ring), range2_comm (g := fun x y => x - y) (fun _ _ => rfl)] at this

/-- C144: products, unless both factors have zero strictly inside: the order of the factors does not matter, a sign can be taken out of
either factor, and multiplying by a number is multiplying by the interval of that number alone. -/
theorem C144_mul (hA : Proper A) (hB : Proper B) (hs : ¬ (Straddles A ∧ Straddles B)) :
    SameBounds (A * B) (B * A) ∧ SameBounds (-A * B) (-(A * B)) ∧ SameBounds (A * -B) (-(A * B)) ∧ SameBounds (-A * -B) (A * B) := by
  have nA := proper_neg hA
  have nB := proper_neg hB
  have t := mul_tight hA.1 hB.1 hA.2 hB.2 hs
  have tn := tight_neg t
  refine ⟨same_of_tight t ?_, same_of_tight ?_ tn, same_of_tight ?_ tn, same_of_tight ?_ t⟩
  · have := mul_tight hB.1 hA.1 hB.2 hA.2 (fun h => hs h.symm)
    rwa [range2_comm (g := fun x y => x * y) (fun x y => mul_comm x y)] at this
  · have := mul_tight nA.1 hB.1 nA.2 hB.2 (fun h => hs ⟨(straddles_neg hA).1 h.1, h.2⟩)
    rwa [range2_neg_left (g := fun x y => -(x * y)) (fun x y => neg_mul x y), ← range2_neg (f := fun x y => x * y) (fun _ _ => rfl)] at this
  · have := mul_tight hA.1 nB.1 hA.2 nB.2 (fun h => hs ⟨h.1, (straddles_neg hB).1 h.2⟩)
    rwa [range2_neg_right (g := fun x y => -(x * y)) (fun x y => mul_neg x y), ← range2_neg (f := fun x y => x * y) (fun _ _ => rfl)] at this
  · have := mul_tight nA.1 nB.1 nA.2 nB.2 (fun h => hs ⟨(straddles_neg hA).1 h.1, (straddles_neg hB).1 h.2⟩)
    rwa [range2_neg_left (g := fun x y => -(x * y)) (fun x y => neg_mul x y),
      range2_neg_right (g := fun x y => x * y) (fun x y => by ring)] at this

/-- C144: multiplying by a number is multiplying by the interval of that number alone, on either side. -/
theorem C144_mul_scalar (hA : Proper A) (t : Flt mw ew) (ht : t.isFin = true) :
    SameBounds (A * t) (A * from1 t) ∧ SameBounds (A * t) (from1 t * A) ∧ SameBounds (A * -t) (-(A * t)) ∧ SameBounds (-A * t) (-(A * t)) := by
  have ok := from1_ok ht
  have hs : ¬ (Straddles A ∧ Straddles (from1 t)) := fun h => by
    have := h.2.2.2.1.trans h.2.2.2.2
    exact lt_irrefl _ this
  have h1 : SameBounds (A * t) (A * from1 t) := by
    have := mul_tight hA.1 ok.1 hA.2 ok.2 hs
    rw [range_from1 (· * ·) ht] at this
    exact same_of_tight (mulS_tight ht hA.1 hA.2) this
  obtain ⟨c, -⟩ := C144_mul hA ok hs
  refine ⟨h1, h1.trans c, ?_, ?_⟩
  · have ht' : (-t).isFin = true := (isFin_negop t).trans ht
    refine same_of_tight (mulS_tight ht' hA.1 hA.2) ?_
    have := tight_neg (mulS_tight ht hA.1 hA.2)
    rwa [neg_range1 (g := fun x => x * (-t).toReal) (fun x => by rw [toReal_negop]; ring)] at this
  · refine same_of_tight (mulS_tight ht (proper_neg hA).1 (proper_neg hA).2) ?_
    have := tight_neg (mulS_tight ht hA.1 hA.2)
    rwa [neg_range1 (g := fun x => -x * t.toReal) (fun x => by ring), ← range1_neg (f := fun x => x * t.toReal) (fun _ => rfl)] at this

/-- C144: a sign can be taken out of a quotient; zero in the divisor included (both sides are then the whole line). -/
theorem C144_div (hA : Proper A) (hB : Proper B) :
    SameBounds (-A / B) (-(A / B)) ∧ SameBounds (A / -B) (-(A / B)) ∧ SameBounds (-A / -B) (A / B) := by
  have nA := proper_neg hA
  have nB := proper_neg hB
  have hz : (0 : ℝ) ∈ -B ↔ (0 : ℝ) ∈ B := by rw [mem_neg, neg_zero]
  by_cases h0 : (0 : ℝ) ∈ B
  · have w := C14_div_by_zero A B h0
    exact ⟨whole_same (C14_div_by_zero _ _ h0) (whole_neg w), whole_same (C14_div_by_zero _ _ (hz.2 h0)) (whole_neg w),
      whole_same (C14_div_by_zero _ _ (hz.2 h0)) w⟩
  · have t := div_tight hA.1 hB.1 hA.2 hB.2 h0
    have tn := tight_neg t
    refine ⟨same_of_tight ?_ tn, same_of_tight ?_ tn, same_of_tight ?_ t⟩
    · have := div_tight nA.1 hB.1 nA.2 hB.2 h0
      rwa [range2_neg_left (g := fun x y => -(x / y)) (fun x y => neg_div y x), ← range2_neg (f := fun x y => x / y) (fun _ _ => rfl)] at this
    · have := div_tight hA.1 nB.1 hA.2 nB.2 (fun h => h0 (hz.1 h))
      rwa [range2_neg_right (g := fun x y => -(x / y)) (fun x y => div_neg x), ← range2_neg (f := fun x y => x / y) (fun _ _ => rfl)] at this
    · have := div_tight nA.1 nB.1 nA.2 nB.2 (fun h => h0 (hz.1 h))
      rwa [range2_neg_left (g := fun x y => -(x / y)) (fun x y => neg_div y x),
        range2_neg_right (g := fun x y => x / y) (fun x y => by rw [div_neg, _root_.neg_neg])] at this

/-- C144: the square does not depend on the sign; unless zero is strictly inside it is the product of the interval with itself, and
always part of it. -/
theorem C144_square (hA : Proper A) : SameBounds (square (-A)) (square A) ∧ (¬ Straddles A → SameBounds (square A) (A * A)) ∧
    Within (square A) (A * A) := by
  have nA := proper_neg hA
  have hi := square_tightHi hA.1 hA.2
  have hi' := square_tightHi nA.1 nA.2
  rw [range1_neg (g := fun x => x * x) (fun x => by ring)] at hi'
  have prod : ¬ Straddles A → SameBounds (square A) (A * A) := by
    intro hs
    have lo := square_tightLo hA.1 hA.2 hs
    obtain ⟨⟨m, hm, n, k⟩, ⟨M, hM, N, K⟩⟩ := mul_tight hA.1 hA.1 hA.2 hA.2 (fun h => hs h.1)
    refine same_of_tight ⟨lo, hi⟩ ⟨⟨m, ?_, n, k⟩, ⟨M, ?_, N, K⟩⟩
    · refine ⟨?_, fun _ ⟨z, hz, e⟩ => e ▸ hm.2 ⟨z, z, hz, hz, rfl⟩⟩
      obtain ⟨x, y, hx, hy, e⟩ := hm.1
      have e' : x * y = m := e
      have h1 : m ≤ x * x := hm.2 ⟨x, x, hx, hx, rfl⟩
      have h2 : m ≤ y * y := hm.2 ⟨y, y, hy, hy, rfl⟩
      have hx' := (mem_fin_iff hA.2 _).1 hx
      have hy' := (mem_fin_iff hA.2 _).1 hy
      have hxy : 0 ≤ x * y := by
        rw [straddles_real hA.2] at hs
        rcases not_and_or.1 hs with h | h
        · rw [not_lt] at h; exact mul_nonneg (by linarith) (by linarith)
        · rw [not_lt] at h; exact mul_nonneg_of_nonpos_of_nonpos (by linarith) (by linarith)
      rcases le_or_gt (x * x) m with h | h
      · exact ⟨x, hx, le_antisymm h h1⟩
      · refine ⟨y, hy, le_antisymm (not_lt.1 fun h' => ?_) h2⟩
        have h' : m < y * y := h'
        have : m * m < x * x * (y * y) := mul_lt_mul'' h h' (by linarith) (by linarith)
        rw [← e'] at this
        linarith [mul_mul_mul_comm x x y y]
    · refine ⟨?_, fun _ ⟨z, hz, e⟩ => e ▸ hM.2 ⟨z, z, hz, hz, rfl⟩⟩
      obtain ⟨x, y, hx, hy, e⟩ := hM.1
      have e' : x * y = M := e
      have h1 : x * x ≤ M := hM.2 ⟨x, x, hx, hx, rfl⟩
      have h2 : y * y ≤ M := hM.2 ⟨y, y, hy, hy, rfl⟩
      refine ⟨x, hx, le_antisymm h1 ?_⟩
      change M ≤ x * x
      nlinarith [mul_self_nonneg (x - y)]
  have z : ∀ {X : Interval (Flt mw ew)}, Proper X → Straddles X → (square X).inf = Scalar.zero := by
    intro X hX hs
    rw [straddles_real hX.2] at hs
    unfold Interval.square
    simp only [nonneg_real hX.2, nonpos_real hX.2]
    rw [if_neg (not_le.2 hs.1), if_neg (not_le.2 hs.2)]; rfl
  refine ⟨?_, prod, ?_⟩
  · by_cases hs : Straddles A
    · obtain ⟨M, hM, N, K⟩ := hi
      obtain ⟨M', hM', N', K'⟩ := hi'
      obtain rfl := hM.unique hM'
      have z1 := z hA hs
      have z2 := z nA ((straddles_neg hA).2 hs)
      exact same_of_keys ⟨by rw [z2]; exact szero_notNaN, N'⟩ ⟨by rw [z1]; exact szero_notNaN, N⟩ (by rw [z1, z2]) (K'.trans K.symm)
    · have lo := square_tightLo nA.1 nA.2 (fun h => hs ((straddles_neg hA).1 h))
      rw [range1_neg (g := fun x => x * x) (fun x => by ring)] at lo
      exact same_of_tight ⟨lo, hi'⟩ ⟨square_tightLo hA.1 hA.2 hs, hi⟩
  · by_cases hs : Straddles A
    · obtain ⟨M, hM, N, K⟩ := hi
      have z1 := z hA hs
      rw [straddles_real hA.2] at hs
      obtain ⟨n1, k1⟩ := mul_fin hA.2.1 hA.2.1
      obtain ⟨n2, k2⟩ := mul_fin hA.2.2 hA.2.2
      obtain ⟨n3, k3⟩ := mul_fin hA.2.1 hA.2.2
      obtain ⟨n4, k4⟩ := mul_fin hA.2.2 hA.2.1
      have e : A * A = ⟨GFloat.nextDown (Scalar.min (A.inf * A.sup) (A.sup * A.inf)),
          GFloat.nextUp (Scalar.max (A.inf * A.inf) (A.sup * A.sup))⟩ := by
        change Interval.mul A A = _
        unfold Interval.mul
        simp only [nonneg_real hA.2, nonpos_real hA.2]
        rw [if_neg (not_le.2 hs.1), if_neg (not_le.2 hs.2), if_neg (not_le.2 hs.1), if_neg (not_le.2 hs.2)]; rfl
      obtain ⟨n5, k5⟩ := smin_key (x := A.inf * A.sup) (y := A.sup * A.inf) n3 n4
      obtain ⟨n6, k6⟩ := smax_key (x := A.inf * A.inf) (y := A.sup * A.sup) n1 n2
      obtain ⟨n7, k7⟩ := nextDown_key n5
      obtain ⟨n8, k8⟩ := nextUp_key n6
      have hn : NoNaN (square A) := ⟨by rw [z1]; exact szero_notNaN, N⟩
      rw [e]
      refine ⟨hn, ⟨n7, n8⟩, ?_, ?_⟩
      · rw [z1, val_le_iff n7 szero_notNaN, key_szero, k7, k5]
        have : (A.inf * A.sup).key ≤ 0 := by
          change (A.inf.mul A.sup).key ≤ 0
          rw [k3, ← rndK_zero (mw := mw) (ew := ew)]
          exact rndK_mono mw ew (mul_nonpos_of_nonpos_of_nonneg hs.1.le hs.2.le)
        have := kInf_pos (mw := mw) (ew := ew)
        omega
      · rw [val_le_iff N n8, K, k8, k6]
        change _ ≤ min (Max.max (A.inf.mul A.inf).key (A.sup.mul A.sup).key + 1) _
        rw [k1, k2]
        obtain ⟨w, hw, rfl⟩ := hM.1
        rw [mem_fin_iff hA.2] at hw
        rcases le_total 0 w with h | h
        · have := rndK_mono mw ew (show w * w ≤ A.sup.toReal * A.sup.toReal by nlinarith)
          simp only
          omega
        · have := rndK_mono mw ew (show w * w ≤ A.inf.toReal * A.inf.toReal by nlinarith)
          simp only
          omega
    · have h := prod hs
      exact ⟨h.1, h.2.1, h.2.2.1.ge, h.2.2.2.le⟩

/-- C144: minimum and maximum are symmetric and negation exchanges them. -/
theorem C144_min_max (hA : Proper A) (hB : Proper B) : SameBounds (Scalar.min A B) (Scalar.min B A) ∧
    SameBounds (Scalar.max A B) (Scalar.max B A) ∧ SameBounds (Scalar.min (-A) (-B)) (-Scalar.max A B) := by
  have nA := proper_neg hA
  have nB := proper_neg hB
  obtain ⟨a1, a2, -⟩ := C18_hull hA.1 hB.1 hA.2 hB.2
  obtain ⟨b1, b2, -⟩ := C18_hull hB.1 hA.1 hB.2 hA.2
  obtain ⟨c1, -⟩ := C18_hull nA.1 nB.1 nA.2 nB.2
  rw [range2_comm (g := Min.min) (fun x y => min_comm x y)] at b1
  rw [range2_comm (g := Max.max) (fun x y => max_comm x y)] at b2
  refine ⟨same_of_hull a1 b1, same_of_hull a2 b2, same_of_hull c1 ?_⟩
  have := hull_neg a2
  rwa [range2_neg (g := fun x y => Min.min (-x) (-y)) (fun x y => min_neg_neg x y),
    ← range2_neg_left (f := fun x y => Min.min x (-y)) (fun _ _ => rfl), ← range2_neg_right (f := Min.min) (fun _ _ => rfl)] at this

/-- C144: union and intersection are symmetric, infinite bounds included. -/
theorem C144_union (hA : NoNaN A) (hB : NoNaN B) : SameBounds (union A B) (union B A) ∧ SameBounds (intersect A B) (intersect B A) := by
  constructor
  · have a1 := smin_key hA.1 hB.1
    have a2 := smax_key hA.2 hB.2
    have b1 := smin_key hB.1 hA.1
    have b2 := smax_key hB.2 hA.2
    exact same_of_keys ⟨a1.1, a2.1⟩ ⟨b1.1, b2.1⟩ (by rw [← min_comm] at b1; exact a1.2.trans b1.2.symm) (by rw [← max_comm] at b2; exact a2.2.trans b2.2.symm)
  · have a1 := smax_key hA.1 hB.1
    have a2 := smin_key hA.2 hB.2
    have b1 := smax_key hB.1 hA.1
    have b2 := smin_key hB.2 hA.2
    exact same_of_keys ⟨a1.1, a2.1⟩ ⟨b1.1, b2.1⟩ (by rw [← max_comm] at b1; exact a1.2.trans b1.2.symm) (by rw [← min_comm] at b2; exact a2.2.trans b2.2.symm)

/-- C144: the absolute value, exactly: it does not depend on the sign if and only if zero is in the interval (otherwise one of the two
starts at zero and the other does not). -/
theorem C144_abs_exact (hA : Proper A) : SameBounds (SignedScalar.abs (-A)) (SignedScalar.abs A) ↔ (0 : ℝ) ∈ A := by
  have nA := proper_neg hA
  have key : ∀ {X : Interval (Flt mw ew)}, Proper X → 0 < X.inf.toReal → ¬ SameBounds (SignedScalar.abs (-X)) (SignedScalar.abs X) := by
    intro X hX h0 h
    have oX := ordered_real hX.1 hX.2
    have nX := proper_neg hX
    have hs : (-X).sup.toReal < 0 := by change (-X.inf).toReal < 0; rw [toReal_negop]; linarith
    have z := (C18_abs_below nX.1 nX.2 hs).1
    obtain ⟨f, l, -⟩ := (C18_hull hX.1 hX.1 hX.2 hX.2).2.2.2 (by linarith)
    have e := h.2.2.1
    have f' : (SignedScalar.abs (-X) : Interval (Flt mw ew)).inf.isFin = true := by
      change ((if Scalar.isNegative (-X).inf then
        Interval.new Scalar.zero (Scalar.max (SignedScalar.abs (-X).inf) (SignedScalar.abs (-X).sup))
        else from2 (Scalar.minMax (-X).inf (-X).sup)) : Interval (Flt mw ew)).inf.isFin = true
      have kn : Scalar.isNegative (-X).inf = true := by
        unfold Scalar.isNegative
        rw [slt_iff, ← toReal_lt_iff, toReal_szero]
        exact ⟨notNaN_of_isFin nX.2.1, szero_notNaN, by linarith [ordered_real nX.1 nX.2]⟩
      rw [if_pos kn]; exact isFin_szero
    rw [val_of_isFin f.1, val_of_isFin f', EReal.coe_eq_coe_iff, z] at e
    obtain ⟨x, hx, he⟩ := l.1
    rw [← e, abs_eq_zero] at he
    rw [mem_fin_iff hX.2] at hx
    linarith
  rw [mem_fin_iff hA.2]
  constructor
  · intro h
    refine ⟨not_lt.1 fun hc => key hA hc h, not_lt.1 fun hc => ?_⟩
    have : 0 < (-A).inf.toReal := by change 0 < (-A.sup).toReal; rw [toReal_negop]; linarith
    have h' := key nA this
    rw [neg_neg_iv] at h'
    exact h' h.symm
  · rintro ⟨h1, h2⟩
    have a := (C18_hull hA.1 hA.1 hA.2 hA.2).2.2.2 h2
    have b := (C18_hull nA.1 nA.1 nA.2 nA.2).2.2.2 (by change 0 ≤ (-A.inf).toReal; rw [toReal_negop]; linarith)
    rw [range1_neg (g := abs) (fun x => abs_neg x)] at b
    exact same_of_hull b a

theorem proper_of_le (h : Scalar.le A.inf A.sup = true) (f1 : A.inf.isFin = true) (f2 : A.sup.isFin = true) : Proper A := by
  rw [sle_iff] at h
  exact ⟨⟨h.1, h.2.1, (val_le_iff h.1 h.2.1).2 h.2.2⟩, f1, f2⟩

/-- C144 without the condition on the factors is false of the code: `[-1, 1] * [-1, 2]` and `[-1, 2] * [-1, 1]` have different upper
bounds (`max(a.inf * a.inf, b.sup * b.sup)`, interval.rs:241-246). -/
theorem C144_refuted : ∃ A B : Interval F32, Proper A ∧ Proper B ∧ ¬ SameBounds (A * B) (B * A) := by
  refine ⟨⟨-F32.lit 1, F32.lit 1⟩, ⟨-F32.lit 1, F32.lit 2⟩, ?_, ?_, ?_⟩
  · exact proper_of_le (by decide +kernel) (by decide +kernel) (by decide +kernel)
  · exact proper_of_le (by decide +kernel) (by decide +kernel) (by decide +kernel)
  · rw [← C144_is_same]; decide +kernel

/-- C144: and so is the sign rule: `[-1, 1] * -[-1, 2]` is not `-([-1, 1] * [-1, 2])`. -/
theorem C144_sign_refuted : ∃ A B : Interval F32, Proper A ∧ Proper B ∧ ¬ SameBounds (A * -B) (-(A * B)) := by
  refine ⟨⟨-F32.lit 1, F32.lit 1⟩, ⟨-F32.lit 1, F32.lit 2⟩, ?_, ?_, ?_⟩
  · exact proper_of_le (by decide +kernel) (by decide +kernel) (by decide +kernel)
  · exact proper_of_le (by decide +kernel) (by decide +kernel) (by decide +kernel)
  · rw [← C144_is_same]; decide +kernel

/-- A non-trivial instance: `[-1, 2]` (which straddles zero) and `[3, 5]` (which does not) are proper; their product is `[-5, 10]`
with each bound moved outwards by one float, in either order; and negating a factor gives other bounds. -/
example : Proper (⟨-F32.lit 1, F32.lit 2⟩ : Interval F32) ∧ Proper (⟨F32.lit 3, F32.lit 5⟩ : Interval F32) ∧
    ¬(Straddles (⟨-F32.lit 1, F32.lit 2⟩ : Interval F32) ∧ Straddles (⟨F32.lit 3, F32.lit 5⟩ : Interval F32)) ∧
    SameBounds ((⟨-F32.lit 1, F32.lit 2⟩ : Interval F32) * ⟨F32.lit 3, F32.lit 5⟩)
      ⟨GFloat.nextDown (-F32.lit 5), GFloat.nextUp (F32.lit 10)⟩ ∧
    ¬ SameBounds ((⟨-F32.lit 1, F32.lit 2⟩ : Interval F32) * ⟨F32.lit 3, F32.lit 5⟩) (-(⟨-F32.lit 1, F32.lit 2⟩ : Interval F32) * ⟨F32.lit 3, F32.lit 5⟩) := by
  have p2 : Proper (⟨F32.lit 3, F32.lit 5⟩ : Interval F32) := proper_of_le (by decide +kernel) (by decide +kernel) (by decide +kernel)
  refine ⟨proper_of_le (by decide +kernel) (by decide +kernel) (by decide +kernel), p2, ?_, ?_, ?_⟩
  · rintro ⟨-, h⟩
    rw [straddles_real p2.2] at h
    have : 0 ≤ (F32.lit 3).toReal := by
      rw [← toReal_szero (mw := 23) (ew := 8), toReal_le_iff]; decide +kernel
    exact absurd h.1 (not_lt.2 this)
  · rw [← C144_is_same]; decide +kernel
  · rw [← C144_is_same]; decide +kernel

end Interval
end Scarlet
