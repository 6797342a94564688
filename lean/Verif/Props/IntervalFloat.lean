import Verif.Props.IntervalVec
import Verif.Props.Transform4
import Verif.Props.FloatBox
import Verif.Props.Float4

/-! C123: the value computed in floats never leaves the value computed in intervals. -/

set_option linter.unusedSectionVars false

namespace Scarlet
open Flt Scarlet.Interval
variable {mw ew : Nat} [FltImpl mw ew] [LawfulFlt mw ew]

namespace Interval

/-- The finite float `x` lies in the interval `A`. -/
def HasFlt (A : Interval (Flt mw ew)) (x : Flt mw ew) : Prop := x.isFin = true ∧ x.toReal ∈ A

end Interval

/-- A float that is the rounding of a real in a finite interval lies in the interval. -/
theorem round_mem {z : Flt mw ew} {r : ℝ} {I : Interval (Flt mw ew)} (hz : z.isNaN = false ∧ z.key = rndK mw ew r)
    (hr : r ∈ I) (hI : Interval.Finite I) : I.HasFlt z := by
  obtain ⟨h1, h2⟩ := (mem_fin_iff hI r).1 hr
  have k1 := rndK_mono mw ew h1
  have k2 := rndK_mono mw ew h2
  rw [rndK_toReal (notNaN_of_isFin hI.1), ← hz.2] at k1
  rw [rndK_toReal (notNaN_of_isFin hI.2), ← hz.2] at k2
  have f1 := isFin_iff_key.1 hI.1
  have f2 := isFin_iff_key.1 hI.2
  exact ⟨isFin_iff_key.2 ⟨by omega, by omega⟩, (mem_fin_iff hI _).2 ⟨toReal_le_iff.2 k1, toReal_le_iff.2 k2⟩⟩

theorem not_finite_of_whole {A : Interval (Flt mw ew)} (h : IsWhole A) : ¬ Interval.Finite A := by
  intro hf
  have := h.2.1
  rw [val_of_isFin hf.1] at this
  exact EReal.coe_ne_bot _ this

variable {A B : Interval (Flt mw ew)} {x y t : Flt mw ew}

theorem hasFlt_add (hx : A.HasFlt x) (hy : B.HasFlt y) (hf : Interval.Finite (A + B)) : (A + B).HasFlt (x + y) :=
  round_mem (add_fin hx.1 hy.1) (C11_add _ _ _ _ hx.2 hy.2) hf
theorem hasFlt_sub (hx : A.HasFlt x) (hy : B.HasFlt y) (hf : Interval.Finite (A - B)) : (A - B).HasFlt (x - y) :=
  round_mem (sub_fin' hx.1 hy.1) (C11_sub _ _ _ _ hx.2 hy.2) hf
theorem hasFlt_mul (hx : A.HasFlt x) (hy : B.HasFlt y) (hs : ¬ (Straddles A ∧ Straddles B)) (hf : Interval.Finite (A * B)) :
    (A * B).HasFlt (x * y) :=
  round_mem (mul_fin hx.1 hy.1)
    (C12_mul_partial _ _ _ _ hx.2 hy.2 hs ⟨notNaN_of_isFin hf.1, notNaN_of_isFin hf.2⟩) hf
theorem nonzero_of_div (hf : Interval.Finite (A / B)) : (0 : ℝ) ∉ B :=
  fun h => not_finite_of_whole (C14_div_by_zero A B h) hf
theorem hasFlt_div (hx : A.HasFlt x) (hy : B.HasFlt y) (hf : Interval.Finite (A / B)) : (A / B).HasFlt (x / y) := by
  have h0 : y.toReal ≠ 0 := fun h => nonzero_of_div hf (h ▸ hy.2)
  exact round_mem (div_fin hx.1 hy.1 fun h => h0 (toReal_eq_zero_iff.2 h)) (C14_div _ _ _ _ hx.2 hy.2 h0) hf
theorem hasFlt_neg (hx : A.HasFlt x) : (-A).HasFlt (-x) :=
  ⟨by rw [isFin_negop]; exact hx.1, by rw [toReal_negop]; exact C18_neg _ _ hx.2⟩
theorem hasFlt_square (hx : A.HasFlt x) (hf : Interval.Finite A.square) : A.square.HasFlt (Scalar.square x) :=
  round_mem (mul_fin hx.1 hx.1) (C16_square _ _ hx.2) hf
theorem hasFlt_abs (hx : A.HasFlt x) : (SignedScalar.abs A : Interval (Flt mw ew)).HasFlt (SignedScalar.abs x) := by
  have hn := notNaN_of_isFin hx.1
  obtain ⟨-, -, -, -, h1, h2⟩ := C79_float x hn
  rw [val_of_isFin hx.1, ← EReal.coe_neg, show Max.max (x.toReal : EReal) ((-x.toReal : ℝ) : EReal) =
    ((Max.max x.toReal (-x.toReal) : ℝ) : EReal) from (EReal.coe_strictMono.monotone.map_max).symm] at h2
  have hf : (SignedScalar.abs x).isFin = true := by
    rcases isFin_or_isInf h1 with h | h
    · exact h
    · exfalso
      rcases isInf_iff_key.1 h with h | h
      · rw [(val_top_iff h1).2 h] at h2; exact EReal.coe_ne_top _ h2.symm
      · rw [(val_bot_iff h1).2 h] at h2; exact EReal.coe_ne_bot _ h2.symm
  refine ⟨hf, ?_⟩
  rw [val_of_isFin hf, EReal.coe_eq_coe_iff] at h2
  rw [h2]
  exact C18_abs _ _ hx.2
theorem hasFlt_min (hx : A.HasFlt x) (hy : B.HasFlt y) : (Scalar.min A B : Interval (Flt mw ew)).HasFlt (Scalar.min x y) := by
  obtain ⟨h1, h2⟩ := smin_fin hx.1 hy.1
  exact ⟨h1, h2 ▸ C18_min _ _ _ _ hx.2 hy.2⟩
theorem hasFlt_max (hx : A.HasFlt x) (hy : B.HasFlt y) : (Scalar.max A B : Interval (Flt mw ew)).HasFlt (Scalar.max x y) := by
  obtain ⟨h1, h2⟩ := smax_fin hx.1 hy.1
  exact ⟨h1, h2 ▸ C18_max _ _ _ _ hx.2 hy.2⟩
theorem hasFlt_addC (hx : A.HasFlt x) (ht : t.isFin = true) (hf : Interval.Finite (A + t)) : (A + t).HasFlt (x + t) :=
  round_mem (add_fin hx.1 ht) (C11_add_scalar _ _ _ hx.2 ht) hf
theorem hasFlt_subC (hx : A.HasFlt x) (ht : t.isFin = true) (hf : Interval.Finite (A - t)) : (A - t).HasFlt (x - t) :=
  round_mem (sub_fin' hx.1 ht) (C11_sub_scalar _ _ _ hx.2 ht) hf
theorem hasFlt_mulC (hx : A.HasFlt x) (ht : t.isFin = true) (hA : Interval.Finite A) (hf : Interval.Finite (A * t)) :
    (A * t).HasFlt (x * t) :=
  round_mem (mul_fin hx.1 ht) (C13_mul_scalar_partial _ _ _ hx.2 ht (Or.inl hA)) hf
theorem hasFlt_divC (hx : A.HasFlt x) (ht : t.isFin = true) (hf : Interval.Finite (A / t)) : (A / t).HasFlt (x / t) := by
  have h0 : t.toReal ≠ 0 := fun h => not_finite_of_whole (C15_div_scalar_zero A t ht h) hf
  exact round_mem (div_fin hx.1 ht fun h => h0 (toReal_eq_zero_iff.2 h)) (C15_div_scalar _ _ _ hx.2 ht h0) hf

namespace IExpr

/-- Evaluation with the code's float operators (model of what a user writes). -/
def evalF (s : Nat → Flt mw ew) : IExpr (Flt mw ew) → Flt mw ew
  | var i => s i
  | const t => t
  | add a b => evalF s a + evalF s b
  | sub a b => evalF s a - evalF s b
  | mul a b => evalF s a * evalF s b
  | div a b => evalF s a / evalF s b
  | neg a => -evalF s a
  | square a => Scalar.square (evalF s a)
  | abs a => SignedScalar.abs (evalF s a)
  | min a b => Scalar.min (evalF s a) (evalF s b)
  | max a b => Scalar.max (evalF s a) (evalF s b)
  | addC a t => evalF s a + t
  | subC a t => evalF s a - t
  | mulC a t => evalF s a * t
  | divC a t => evalF s a / t

/-- What a user can check on the interval evaluation alone: every intermediate interval has finite bounds, and no product of
two intervals that both straddle zero is taken.  (Constants are finite.) -/
def Bounded (ρ : Nat → Interval (Flt mw ew)) (e : IExpr (Flt mw ew)) : Prop :=
  Interval.Finite (evalI ρ e) ∧ match e with
  | var _ | const _ => True
  | mul a b => Bounded ρ a ∧ Bounded ρ b ∧ ¬(Straddles (evalI ρ a) ∧ Straddles (evalI ρ b))
  | add a b | sub a b | min a b | max a b | div a b => Bounded ρ a ∧ Bounded ρ b
  | neg a | square a | abs a => Bounded ρ a
  | addC a t | subC a t | mulC a t | divC a t => Bounded ρ a ∧ t.isFin = true

/-- The interval evaluation already rules out division by zero and `0·∞`. -/
theorem Bounded.defined {ρ : Nat → Interval (Flt mw ew)} {σ : Nat → ℝ} (hσ : ∀ i, σ i ∈ ρ i) {e : IExpr (Flt mw ew)} :
    e.Bounded ρ → e.Defined σ ∧ e.MulSafe ρ := by
  induction e with
  | var i => exact fun _ => ⟨trivial, trivial⟩
  | const t => exact fun h => ⟨(by unfold Bounded at h; exact h.1.1), trivial⟩
  | mul a b iha ihb =>
    intro h; unfold Bounded at h
    obtain ⟨hf, ha, hb, hs⟩ := h
    exact ⟨⟨(iha ha).1, (ihb hb).1⟩, (iha ha).2, (ihb hb).2, hs, notNaN_of_isFin hf.1, notNaN_of_isFin hf.2⟩
  | add a b iha ihb | sub a b iha ihb | min a b iha ihb | max a b iha ihb =>
    intro h; unfold Bounded at h
    exact ⟨⟨(iha h.2.1).1, (ihb h.2.2).1⟩, (iha h.2.1).2, (ihb h.2.2).2⟩
  | div a b iha ihb =>
    intro h; unfold Bounded at h
    refine ⟨⟨(iha h.2.1).1, (ihb h.2.2).1, fun h0 => ?_⟩, (iha h.2.1).2, (ihb h.2.2).2⟩
    exact nonzero_of_div h.1 (h0 ▸ C23_partial ρ σ hσ b (ihb h.2.2).1 (ihb h.2.2).2)
  | neg a iha | square a iha | abs a iha =>
    intro h; unfold Bounded at h
    exact iha h.2
  | addC a t iha | subC a t iha =>
    intro h; unfold Bounded at h
    exact ⟨⟨(iha h.2.1).1, h.2.2⟩, (iha h.2.1).2⟩
  | mulC a t iha =>
    intro h; unfold Bounded at h
    refine ⟨⟨(iha h.2.1).1, h.2.2⟩, (iha h.2.1).2, Or.inl ?_⟩
    have := h.2.1; unfold Bounded at this; exact this.1
  | divC a t iha =>
    intro h; unfold Bounded at h
    exact ⟨⟨(iha h.2.1).1, h.2.2, fun h0 => not_finite_of_whole (C15_div_scalar_zero _ t h.2.2 h0) h.1⟩, (iha h.2.1).2⟩

end IExpr

/-- The float evaluation stays inside the interval evaluation. -/
theorem C123_inside (ρ : Nat → Interval (Flt mw ew)) (s : Nat → Flt mw ew) (hs : ∀ i, (ρ i).HasFlt (s i)) :
    ∀ e : IExpr (Flt mw ew), e.Bounded ρ → (e.evalI ρ).HasFlt (e.evalF s) := by
  intro e
  induction e with
  | var i => exact fun _ => hs i
  | const t => intro h; unfold IExpr.Bounded at h; exact ⟨h.1.1, LowerOf.of_fin h.1.1, UpperOf.of_fin h.1.1⟩
  | add a b iha ihb => intro h; unfold IExpr.Bounded at h; exact hasFlt_add (iha h.2.1) (ihb h.2.2) h.1
  | sub a b iha ihb => intro h; unfold IExpr.Bounded at h; exact hasFlt_sub (iha h.2.1) (ihb h.2.2) h.1
  | mul a b iha ihb => intro h; unfold IExpr.Bounded at h; exact hasFlt_mul (iha h.2.1) (ihb h.2.2.1) h.2.2.2 h.1
  | div a b iha ihb => intro h; unfold IExpr.Bounded at h; exact hasFlt_div (iha h.2.1) (ihb h.2.2) h.1
  | neg a iha => intro h; unfold IExpr.Bounded at h; exact hasFlt_neg (iha h.2)
  | square a iha => intro h; unfold IExpr.Bounded at h; exact hasFlt_square (iha h.2) h.1
  | abs a iha => intro h; unfold IExpr.Bounded at h; exact hasFlt_abs (iha h.2)
  | min a b iha ihb => intro h; unfold IExpr.Bounded at h; exact hasFlt_min (iha h.2.1) (ihb h.2.2)
  | max a b iha ihb => intro h; unfold IExpr.Bounded at h; exact hasFlt_max (iha h.2.1) (ihb h.2.2)
  | addC a t iha => intro h; unfold IExpr.Bounded at h; exact hasFlt_addC (iha h.2.1) h.2.2 h.1
  | subC a t iha => intro h; unfold IExpr.Bounded at h; exact hasFlt_subC (iha h.2.1) h.2.2 h.1
  | mulC a t iha =>
    intro h; unfold IExpr.Bounded at h
    have ha := h.2.1; unfold IExpr.Bounded at ha
    exact hasFlt_mulC (iha h.2.1) h.2.2 ha.1 h.1
  | divC a t iha => intro h; unfold IExpr.Bounded at h; exact hasFlt_divC (iha h.2.1) h.2.2 h.1

/-- The width of the interval result is a guaranteed bound on the error of the float result: the float inputs and the exact
inputs both lie in the input intervals, and then so do the results. -/
theorem C123_error_bound (ρ : Nat → Interval (Flt mw ew)) (s : Nat → Flt mw ew) (σ : Nat → ℝ)
    (hs : ∀ i, (ρ i).HasFlt (s i)) (hσ : ∀ i, σ i ∈ ρ i) (e : IExpr (Flt mw ew)) (h : e.Bounded ρ) :
    (e.evalF s).isFin = true ∧ (e.evalF s).toReal ∈ e.evalI ρ ∧ e.evalR σ ∈ e.evalI ρ ∧
    |(e.evalF s).toReal - e.evalR σ| ≤ (e.evalI ρ).sup.toReal - (e.evalI ρ).inf.toReal := by
  have h1 := C123_inside ρ s hs e h
  have h2 := C23_partial ρ σ hσ e (h.defined hσ).1 (h.defined hσ).2
  have hf : Interval.Finite (e.evalI ρ) := by unfold IExpr.Bounded at h; exact h.1
  refine ⟨h1.1, h1.2, h2, ?_⟩
  obtain ⟨a1, a2⟩ := (mem_fin_iff hf _).1 h1.2
  obtain ⟨b1, b2⟩ := (mem_fin_iff hf _).1 h2
  rw [_root_.abs_le]
  constructor <;> linarith

/-- The same step for the square root. -/
theorem C123_sqrt (A : Interval (Flt mw ew)) (x : Flt mw ew) (hx : A.HasFlt x) (h0 : 0 ≤ A.inf.val)
    (hf : Interval.Finite (GFloat.sqrt A : Interval (Flt mw ew))) :
    (GFloat.sqrt A : Interval (Flt mw ew)).HasFlt (GFloat.sqrt x) := by
  obtain ⟨a1, a2⟩ := (lowerOf_iff.1 hx.2.1)
  have hk : 0 ≤ x.key := by
    rw [← toReal_nonneg_iff]
    have := le_trans h0 hx.2.1.2
    exact_mod_cast this
  exact round_mem (sqrt_fin hx.1 hk) (C17_sqrt_trait_partial A x.toReal hx.2 h0) hf

/-! ### rays and transformed points -/

theorem fin_of_down {u v : Flt mw ew} {a b : ℝ} (hu : LowerOf u a) (hv : LowerOf v b)
    (hf : (GFloat.nextDown (u + v)).isFin = true) : u.isFin = true ∧ v.isFin = true := by
  have key : (u + v).isNaN = false → (u + v).key ≠ -kInf mw ew := fun hn h => by
    have := nextDown_key hn
    have h2 := isFin_iff_key.1 hf
    have := kInf_pos (mw := mw) (ew := ew)
    omega
  rcases key_cases hu.1 with h | h | h
  · have := add_bot_left hu.1 hv.1 h hv.key_ne_top
    exact absurd this.2 (key this.1)
  · exact absurd h hu.key_ne_top
  · rcases key_cases hv.1 with h' | h' | h'
    · have := add_bot_right hu.1 hv.1 h' hu.key_ne_top
      exact absurd this.2 (key this.1)
    · exact absurd h' hv.key_ne_top
    · exact ⟨h, h'⟩
theorem fin_of_up {u v : Flt mw ew} {a b : ℝ} (hu : UpperOf u a) (hv : UpperOf v b)
    (hf : (GFloat.nextUp (u + v)).isFin = true) : u.isFin = true ∧ v.isFin = true := by
  have key : (u + v).isNaN = false → (u + v).key ≠ kInf mw ew := fun hn h => by
    have := nextUp_key hn
    have h2 := isFin_iff_key.1 hf
    have := kInf_pos (mw := mw) (ew := ew)
    omega
  rcases key_cases hu.1 with h | h | h
  · exact absurd h hu.key_ne_bot
  · have := add_top_left hu.1 hv.1 h hv.key_ne_bot
    exact absurd this.2 (key this.1)
  · rcases key_cases hv.1 with h' | h' | h'
    · exact absurd h' hv.key_ne_bot
    · have := add_top_right hu.1 hv.1 h' hu.key_ne_bot
      exact absurd this.2 (key this.1)
    · exact ⟨h, h'⟩

/-- The terms of a finite interval sum are finite. -/
theorem finite_of_add {u v : ℝ} (hu : u ∈ A) (hv : v ∈ B) (hf : Interval.Finite (A + B)) :
    Interval.Finite A ∧ Interval.Finite B := by
  have h1 := fin_of_down hu.1 hv.1 hf.1
  have h2 := fin_of_up hu.2 hv.2 hf.2
  exact ⟨⟨h1.1, h2.1⟩, h1.2, h2.2⟩
theorem finite_of_addC {u : ℝ} (hu : u ∈ A) (ht : t.isFin = true) (hf : Interval.Finite (A + t)) : Interval.Finite A :=
  ⟨(fin_of_down hu.1 (LowerOf.of_fin ht) hf.1).1, (fin_of_up hu.2 (UpperOf.of_fin ht) hf.2).1⟩

/-- C123 for `Ray::eval` of an interval ray (ray.rs:12, 28-31): the float point of every float ray inside, at every float
parameter inside, lies in the interval point. -/
theorem C123_ray_eval (R : Ray (Interval (Flt mw ew))) (T : Interval (Flt mw ew)) (r : Ray (Flt mw ew)) (t : Flt mw ew)
    (ho : ∀ i, (R.origin.vec i).HasFlt (r.origin.vec i)) (hd : ∀ i, (R.direction.vec i).HasFlt (r.direction.vec i))
    (ht : T.HasFlt t) (fd : ∀ i, Interval.Finite (R.direction.vec i)) (fT : Interval.Finite T)
    (hs : ∀ i, ¬ (Straddles (R.direction.vec i) ∧ Straddles T)) (hf : ∀ i, Interval.Finite ((R.eval T).vec i)) (i : Fin 3) :
    ((R.eval T).vec i).HasFlt ((r.eval t).vec i) := by
  have hp := C12_mul_finite_partial _ _ _ _ (hd i).2 ht.2 (fd i) fT (hs i)
  have hf' : Interval.Finite (R.origin.vec i + R.direction.vec i * T) := hf i
  exact hasFlt_add (ho i) (hasFlt_mul (hd i) ht (hs i) (finite_of_add (ho i).2 hp hf').2) hf'

/-- One row of the homogeneous image. -/
def rowOf {V : Type} [HMul V (Flt mw ew) V] [HAdd V (Flt mw ew) V] [Add V] (m : Mat4 (Flt mw ew)) (p : Point V 3) (i : Fin 4) : V :=
  p.x * m.idx i 0 + p.y * m.idx i 1 + p.z * m.idx i 2 + m.idx i 3

/-- C123 for `map_point` of an interval point: the float image of every float point inside lies in the interval image, and
so the width of the interval image bounds the distance to the exact image of every real point inside. -/
theorem C123_mapPoint (m : Mat4 (Flt mw ew)) (hm : ∀ i j, (m.data i j).isFin = true)
    (P : Point (Interval (Flt mw ew)) 3) (p : Point (Flt mw ew) 3) (hP : ∀ i, Interval.Finite (P.vec i))
    (hp : ∀ i, (P.vec i).HasFlt (p.vec i)) (Q : Point (Interval (Flt mw ew)) 3) (hQ : mapPt m P = some Q)
    (hrow : ∀ i, Interval.Finite (rowOf m P i)) (hf : ∀ i, Interval.Finite (Q.vec i)) :
    ∃ q, mapPt m p = some q ∧ (∀ i, (Q.vec i).HasFlt (q.vec i)) ∧
      ∀ x : Fin 3 → ℝ, P.Encl x → ∀ i, |(q.vec i).toReal - realImage m x i.castSucc / realImage m x 3| ≤
        (Q.vec i).sup.toReal - (Q.vec i).inf.toReal := by
  have hm' : ∀ i j, (m.idx i j).isFin = true := hm
  have row : ∀ i, (rowOf m P i).HasFlt (rowOf m p i) := by
    intro i
    have f := hrow i
    unfold rowOf at f ⊢
    have h0 := C13_mul_scalar_partial P.x (m.idx i 0) _ (hp 0).2 (hm' i 0) (Or.inl (hP 0))
    have h1 := C13_mul_scalar_partial P.y (m.idx i 1) _ (hp 1).2 (hm' i 1) (Or.inl (hP 1))
    have h2 := C13_mul_scalar_partial P.z (m.idx i 2) _ (hp 2).2 (hm' i 2) (Or.inl (hP 2))
    have h01 := C11_add _ _ _ _ h0 h1
    have f2 := finite_of_addC (C11_add _ _ _ _ h01 h2) (hm' i 3) f
    have f1 := finite_of_add h01 h2 f2
    have f0 := finite_of_add h0 h1 f1.1
    exact hasFlt_addC (hasFlt_add (hasFlt_add (hasFlt_mulC (hp 0) (hm' i 0) (hP 0) f0.1)
      (hasFlt_mulC (hp 1) (hm' i 1) (hP 1) f0.2) f1.1) (hasFlt_mulC (hp 2) (hm' i 2) (hP 2) f1.2) f2) (hm' i 3) f
  have e : Q = GVec.new3 (rowOf m P 0 / rowOf m P 3) (rowOf m P 1 / rowOf m P 3) (rowOf m P 2 / rowOf m P 3) := by
    unfold mapPt at hQ
    dsimp only at hQ
    split at hQ
    · cases hQ
    · rw [Option.some.injEq] at hQ; exact hQ.symm
  subst e
  have d : ∀ i : Fin 4, Interval.Finite (rowOf m P i / rowOf m P 3) →
      (rowOf m P i / rowOf m P 3).HasFlt (rowOf m p i / rowOf m p 3) := fun i h => hasFlt_div (row i) (row 3) h
  have w0 : Scalar.eq (rowOf m p 3) (Scalar.zero : Flt mw ew) = false := by
    rw [Bool.eq_false_iff]
    intro h
    have h0 : (rowOf m p 3).toReal = 0 := by
      rw [toReal_eq_zero_iff]
      rw [seq_iff, key_szero] at h
      exact h.2.2
    exact nonzero_of_div (hf 0) (h0 ▸ (row 3).2)
  have hq : ∀ i, ((GVec.new3 (rowOf m P 0 / rowOf m P 3) (rowOf m P 1 / rowOf m P 3) (rowOf m P 2 / rowOf m P 3) :
      Point (Interval (Flt mw ew)) 3).vec i).HasFlt ((GVec.new3 (rowOf m p 0 / rowOf m p 3) (rowOf m p 1 / rowOf m p 3)
        (rowOf m p 2 / rowOf m p 3) : Point (Flt mw ew) 3).vec i) := by
    intro i
    fin_cases i
    exacts [d 0 (hf 0), d 1 (hf 1), d 2 (hf 2)]
  refine ⟨GVec.new3 (rowOf m p 0 / rowOf m p 3) (rowOf m p 1 / rowOf m p 3) (rowOf m p 2 / rowOf m p 3), ?_, hq, ?_⟩
  · unfold mapPt
    dsimp only
    unfold rowOf at w0
    rw [w0]
    rfl
  · intro x hx i
    obtain ⟨Q', hQ', hin⟩ := C75_mapPoint m hm P hP x hx
    rw [hQ, Option.some.injEq] at hQ'
    have hw : realImage m x 3 ≠ 0 := by
      intro h0
      apply nonzero_of_div (hf 0)
      have := C11_add_scalar _ (m.data 3 3) _ (row_mem m hm (hx 0) (hx 1) (hx 2) (hP 0) (hP 1) (hP 2) 3) (hm 3 3)
      rw [← h0, show realImage m x 3 = x 0 * (m.data 3 0).toReal + x 1 * (m.data 3 1).toReal + x 2 * (m.data 3 2).toReal
        + (m.data 3 3).toReal from by
          unfold realImage; rw [Fin.sum_univ_three]
          change (m.data 3 0).toReal * x 0 + (m.data 3 1).toReal * x 1 + (m.data 3 2).toReal * x 2 + _ = _
          ring]
      exact this
    have h2 := hin x hx hw i
    rw [← hQ'] at h2
    obtain ⟨a1, a2⟩ := (mem_fin_iff (hf i) _).1 (hq i).2
    obtain ⟨b1, b2⟩ := (mem_fin_iff (hf i) _).1 h2
    rw [_root_.abs_le]
    constructor <;> linarith

/-! ### the condition on products is needed; examples -/

/-- Without the condition on products C123 is false: `-1 ∈ [-1,2]`, `-3 ∈ [-3,1]`, and the float product `3` is not in the
interval product, although everything is finite. -/
theorem C123_refuted : Interval.Finite (exA * exB) ∧ exA.HasFlt (-(F32.lit 1)) ∧ exB.HasFlt (-(F32.lit 3)) ∧
    ¬ (exA * exB).HasFlt (-(F32.lit 1) * -(F32.lit 3)) := by
  have hf : Interval.Finite (exA * exB) := by unfold Interval.Finite; decide +kernel
  have f1 : (-(F32.lit 1)).isFin = true := by decide +kernel
  have f3 : (-(F32.lit 3)).isFin = true := by decide +kernel
  obtain ⟨e1, e2, e3⟩ := toReal_lit_small
  refine ⟨hf, ⟨f1, ?_⟩, ⟨f3, ?_⟩, ?_⟩
  · rw [toReal_negop, e1]; exact mem_exA
  · rw [toReal_negop, e3]; exact mem_exB
  · rintro ⟨-, -, h⟩
    have h1 := (upperOf_fin hf.2).1 h
    rw [toReal_le_iff] at h1
    exact absurd h1 (by decide +kernel)

/-- `C123_error_bound`: `(v0 - 3) · (v0 / 3)²` on `[-1,2]` with the float input `2` and the exact input `-1`; the division is
inexact. -/
example : ∃ (e : IExpr F32) (ρ : Nat → Interval F32) (s : Nat → F32) (σ : Nat → ℝ), (∀ i, (ρ i).HasFlt (s i)) ∧
    (∀ i, σ i ∈ ρ i) ∧ e.Bounded ρ ∧ e = .mul (.subC (.var 0) (F32.lit 3)) (.square (.divC (.var 0) (F32.lit 3))) := by
  have h2 : exA.HasFlt (F32.lit 2) :=
    ⟨by decide +kernel, (lowerOf_fin (by decide +kernel)).2 (toReal_le_iff.2 (by decide +kernel)),
      (upperOf_fin (by decide +kernel)).2 (toReal_le_iff.2 (by decide +kernel))⟩
  refine ⟨_, fun _ => exA, fun _ => F32.lit 2, fun _ => -1, fun _ => h2, fun _ => mem_exA, ?_, rfl⟩
  · have fA : IExpr.Bounded (fun _ => exA) (.var 0) := by
      unfold IExpr.Bounded Interval.Finite; exact ⟨by decide +kernel, trivial⟩
    have f1 : IExpr.Bounded (fun _ => exA) (.subC (.var 0) (F32.lit 3)) := by
      unfold IExpr.Bounded Interval.Finite; exact ⟨by decide +kernel, fA, by decide +kernel⟩
    have f2 : IExpr.Bounded (fun _ => exA) (.divC (.var 0) (F32.lit 3)) := by
      unfold IExpr.Bounded Interval.Finite; exact ⟨by decide +kernel, fA, by decide +kernel⟩
    have f3 : IExpr.Bounded (fun _ => exA) (.square (.divC (.var 0) (F32.lit 3))) := by
      unfold IExpr.Bounded Interval.Finite; exact ⟨by decide +kernel, f2⟩
    unfold IExpr.Bounded Interval.Finite
    refine ⟨by decide +kernel, f1, f3, ?_⟩
    rintro ⟨-, h1, -, h3, -⟩
    rw [val_lt_zero_iff h1] at h3
    exact absurd h3 (by decide +kernel)

/-- `C123_sqrt`: `2 ∈ [1,2]`. -/
example : (⟨F32.lit 1, F32.lit 2⟩ : Interval F32).HasFlt (F32.lit 2) ∧
    0 ≤ (⟨F32.lit 1, F32.lit 2⟩ : Interval F32).inf.val ∧
    Interval.Finite (GFloat.sqrt (⟨F32.lit 1, F32.lit 2⟩ : Interval F32)) := by
  refine ⟨⟨by decide +kernel, (lowerOf_fin (by decide +kernel)).2 (toReal_le_iff.2 (by decide +kernel)),
    (upperOf_fin (by decide +kernel)).2 (toReal_le_iff.2 (by decide +kernel))⟩, ?_, ?_⟩
  · exact (val_nonneg_iff (by decide +kernel)).2 (by decide +kernel)
  · unfold Interval.Finite; decide +kernel

theorem has_exA : exA.HasFlt (F32.lit 1) :=
  ⟨by decide +kernel, (lowerOf_fin (by decide +kernel)).2 (toReal_le_iff.2 (by decide +kernel)),
    (upperOf_fin (by decide +kernel)).2 (toReal_le_iff.2 (by decide +kernel))⟩
theorem has_exB : exB.HasFlt (F32.lit 1) :=
  ⟨by decide +kernel, (lowerOf_fin (by decide +kernel)).2 (toReal_le_iff.2 (by decide +kernel)),
    (upperOf_fin (by decide +kernel)).2 (toReal_le_iff.2 (by decide +kernel))⟩

/-- `C123_ray_eval`: a ray whose origin and direction straddle zero in every component, at parameters in `[1,2]`. -/
example : ∃ (R : Ray (Interval F32)) (T : Interval F32) (r : Ray F32) (t : F32),
    (∀ i, (R.origin.vec i).HasFlt (r.origin.vec i)) ∧ (∀ i, (R.direction.vec i).HasFlt (r.direction.vec i)) ∧ T.HasFlt t ∧
    (∀ i, Interval.Finite (R.direction.vec i)) ∧ Interval.Finite T ∧ (∀ i, ¬ (Straddles (R.direction.vec i) ∧ Straddles T)) ∧
    ∀ i, Interval.Finite ((R.eval T).vec i) := by
  refine ⟨⟨GVec.new3 exA exB exA, GVec.new3 exB exA exB, exA⟩, ⟨F32.lit 1, F32.lit 2⟩,
    ⟨GVec.new3 (F32.lit 1) (F32.lit 1) (F32.lit 1), GVec.new3 (F32.lit 1) (F32.lit 1) (F32.lit 1), F32.lit 1⟩, F32.lit 1,
    ?_, ?_, ?_, ?_, ?_, ?_, ?_⟩
  · intro i; fin_cases i; exacts [has_exA, has_exB, has_exA]
  · intro i; fin_cases i; exacts [has_exB, has_exA, has_exB]
  · exact ⟨by decide +kernel, (lowerOf_fin (by decide +kernel)).2 (toReal_le_iff.2 (by decide +kernel)),
      (upperOf_fin (by decide +kernel)).2 (toReal_le_iff.2 (by decide +kernel))⟩
  · unfold Interval.Finite; decide +kernel
  · unfold Interval.Finite; decide +kernel
  · rintro i ⟨-, h1, -, h3, -⟩
    rw [val_lt_zero_iff h1] at h3
    exact absurd h3 (by decide +kernel)
  · unfold Interval.Finite; decide +kernel

/-- `C123_mapPoint`: a translation and the box `[-1,2] × [-3,1] × [-1,2]`. -/
example : mapPt (Transform.translate (GVec.new3 (F32.lit 3) (F32.lit 2) (F32.lit 1)) : Transform F32).m
      (GVec.new3 exA exB exA : Point (Interval F32) 3) =
        some (GVec.new3 (rowOf (Transform.translate (GVec.new3 (F32.lit 3) (F32.lit 2) (F32.lit 1)) : Transform F32).m
          (GVec.new3 exA exB exA : Point (Interval F32) 3) 0 /
          rowOf (Transform.translate (GVec.new3 (F32.lit 3) (F32.lit 2) (F32.lit 1)) : Transform F32).m
          (GVec.new3 exA exB exA : Point (Interval F32) 3) 3)
          (rowOf (Transform.translate (GVec.new3 (F32.lit 3) (F32.lit 2) (F32.lit 1)) : Transform F32).m
          (GVec.new3 exA exB exA : Point (Interval F32) 3) 1 /
          rowOf (Transform.translate (GVec.new3 (F32.lit 3) (F32.lit 2) (F32.lit 1)) : Transform F32).m
          (GVec.new3 exA exB exA : Point (Interval F32) 3) 3)
          (rowOf (Transform.translate (GVec.new3 (F32.lit 3) (F32.lit 2) (F32.lit 1)) : Transform F32).m
          (GVec.new3 exA exB exA : Point (Interval F32) 3) 2 /
          rowOf (Transform.translate (GVec.new3 (F32.lit 3) (F32.lit 2) (F32.lit 1)) : Transform F32).m
          (GVec.new3 exA exB exA : Point (Interval F32) 3) 3)) ∧
    (∀ i : Fin 4, Interval.Finite (rowOf (Transform.translate (GVec.new3 (F32.lit 3) (F32.lit 2) (F32.lit 1)) : Transform F32).m
      (GVec.new3 exA exB exA : Point (Interval F32) 3) i)) ∧
    (∀ i : Fin 4, Interval.Finite (rowOf (Transform.translate (GVec.new3 (F32.lit 3) (F32.lit 2) (F32.lit 1)) : Transform F32).m
      (GVec.new3 exA exB exA : Point (Interval F32) 3) i /
      rowOf (Transform.translate (GVec.new3 (F32.lit 3) (F32.lit 2) (F32.lit 1)) : Transform F32).m
      (GVec.new3 exA exB exA : Point (Interval F32) 3) 3)) ∧
    ∀ i, ((GVec.new3 exA exB exA : Point (Interval F32) 3).vec i).HasFlt
      ((GVec.new3 (F32.lit 1) (F32.lit 1) (F32.lit 1) : Point F32 3).vec i) := by
  refine ⟨?_, ?_, ?_, ?_⟩
  · unfold mapPt
    rw [if_neg (by decide +kernel)]
    rfl
  · unfold Interval.Finite; decide +kernel
  · unfold Interval.Finite; decide +kernel
  · intro i; fin_cases i; exacts [has_exA, has_exB, has_exA]

end Scarlet
