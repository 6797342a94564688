import Verif.Props.IntervalFloat
import Mathlib.Topology.Order.IntermediateValue
import Mathlib.Topology.Algebra.Order.Group
import Mathlib.Topology.Algebra.GroupWithZero
import Mathlib.Topology.Instances.Real.Lemmas
import Mathlib.Topology.Order.Lattice

/-! C161: interval runs prove that an equation has a solution, or that it has none.

`e` is any expression of the operations of interval.rs; `i` is the unknown and the other variables are parameters.  All the
hypotheses are facts about the computed intervals; all the conclusions are about the exact real function. -/

namespace Scarlet
open Flt Scarlet.Interval
variable {mw ew : Nat} [FltImpl mw ew] [LawfulFlt mw ew]

/-- The inputs with another value for the unknown. -/
def setVar {α : Type} (f : Nat → α) (i : Nat) (x : α) : Nat → α := fun j => if j = i then x else f j

theorem setVar_same {α : Type} (f : Nat → α) (i : Nat) (x : α) : setVar f i x i = x := if_pos rfl
theorem setVar_ne {α : Type} (f : Nat → α) {i j : Nat} (x : α) (h : j ≠ i) : setVar f i x j = f j := if_neg h

omit [FltImpl mw ew] [LawfulFlt mw ew] in
theorem setVar_mem {ρ : Nat → Interval (Flt mw ew)} {σ : Nat → ℝ} {i : Nat} {X : Interval (Flt mw ew)} {x : ℝ}
    (hσ : ∀ j, j ≠ i → σ j ∈ ρ j) (hx : x ∈ X) (j : Nat) : setVar σ i x j ∈ setVar ρ i X j := by
  by_cases h : j = i
  · subst h; rw [setVar_same, setVar_same]; exact hx
  · rw [setVar_ne _ _ h, setVar_ne _ _ h]; exact hσ j h

/-- The exact function of the unknown. -/
noncomputable def funOf (e : IExpr (Flt mw ew)) (σ : Nat → ℝ) (i : Nat) (x : ℝ) : ℝ := e.evalR (setVar σ i x)
/-- The interval function of the unknown. -/
def boxOf (e : IExpr (Flt mw ew)) (ρ : Nat → Interval (Flt mw ew)) (i : Nat) (X : Interval (Flt mw ew)) :
    Interval (Flt mw ew) := e.evalI (setVar ρ i X)

theorem funOf_mem {e : IExpr (Flt mw ew)} {ρ : Nat → Interval (Flt mw ew)} {σ : Nat → ℝ} {i : Nat}
    {X : Interval (Flt mw ew)} (hσ : ∀ j, j ≠ i → σ j ∈ ρ j) (hb : e.Bounded (setVar ρ i X)) {x : ℝ} (hx : x ∈ X) :
    funOf e σ i x ∈ boxOf e ρ i X :=
  C23_partial _ _ (setVar_mem hσ hx) e (hb.defined (setVar_mem hσ hx)).1 (hb.defined (setVar_mem hσ hx)).2

/-- An expression whose interval evaluation is bounded is a continuous function there. -/
theorem funOf_cont {ρ : Nat → Interval (Flt mw ew)} {σ : Nat → ℝ} {i : Nat}
    {X : Interval (Flt mw ew)} (hσ : ∀ j, j ≠ i → σ j ∈ ρ j) (e : IExpr (Flt mw ew)) (hb : e.Bounded (setVar ρ i X)) :
    ContinuousOn (funOf e σ i) {x | x ∈ X} := by
  induction e with
  | var j =>
    by_cases h : j = i
    · subst h
      refine continuousOn_id.congr fun x _ => ?_
      simp only [funOf, IExpr.evalR, setVar_same, id]
    · refine (continuousOn_const (c := σ j)).congr fun x _ => ?_
      simp only [funOf, IExpr.evalR, setVar_ne _ _ h]
  | const t => exact continuousOn_const
  | add a b iha ihb => unfold IExpr.Bounded at hb; exact (iha hb.2.1).add (ihb hb.2.2)
  | sub a b iha ihb => unfold IExpr.Bounded at hb; exact (iha hb.2.1).sub (ihb hb.2.2)
  | mul a b iha ihb => unfold IExpr.Bounded at hb; exact (iha hb.2.1).mul (ihb hb.2.2.1)
  | div a b iha ihb =>
    have h0 : ∀ x ∈ {x | x ∈ X}, funOf b σ i x ≠ 0 := fun x hx => (hb.defined (setVar_mem hσ hx)).1.2.2
    unfold IExpr.Bounded at hb
    exact (iha hb.2.1).div (ihb hb.2.2) h0
  | neg a iha => unfold IExpr.Bounded at hb; exact (iha hb.2).neg
  | square a iha => unfold IExpr.Bounded at hb; exact (iha hb.2).pow 2
  | abs a iha => unfold IExpr.Bounded at hb; exact (iha hb.2).abs
  | min a b iha ihb => unfold IExpr.Bounded at hb; exact ContinuousOn.inf (iha hb.2.1) (ihb hb.2.2)
  | max a b iha ihb => unfold IExpr.Bounded at hb; exact ContinuousOn.sup (iha hb.2.1) (ihb hb.2.2)
  | addC a t iha => unfold IExpr.Bounded at hb; exact (iha hb.2.1).add continuousOn_const
  | subC a t iha => unfold IExpr.Bounded at hb; exact (iha hb.2.1).sub continuousOn_const
  | mulC a t iha => unfold IExpr.Bounded at hb; exact (iha hb.2.1).mul continuousOn_const
  | divC a t iha => unfold IExpr.Bounded at hb; exact (iha hb.2.1).div_const _

/-- No zero: if the result over `X` is reported positive or negative, the function has no zero in `X`. -/
theorem C161_no_zero (e : IExpr (Flt mw ew)) (ρ : Nat → Interval (Flt mw ew)) (σ : Nat → ℝ) (i : Nat)
    (X : Interval (Flt mw ew)) (hσ : ∀ j, j ≠ i → σ j ∈ ρ j) (hb : e.Bounded (setVar ρ i X))
    (h : Interval.isPositive (boxOf e ρ i X) = true ∨ Interval.isNegative (boxOf e ρ i X) = true) :
    ∀ x ∈ X, funOf e σ i x ≠ 0 := by
  intro x hx h0
  have hm := funOf_mem hσ hb hx
  obtain ⟨c1, c2, -, -⟩ := C22_signs _ ⟨_, hm⟩
  rcases h with h | h
  · exact absurd h0 (ne_of_gt (c1.1 h _ hm))
  · exact absurd h0 (ne_of_lt (c2.1 h _ hm))

/-- A zero: if the results at two floats `s` and `t` of `X` are reported negative and positive, the function has a zero
strictly between them, whatever the values of the parameters. -/
theorem C161_zero (e : IExpr (Flt mw ew)) (ρ : Nat → Interval (Flt mw ew)) (σ : Nat → ℝ) (i : Nat)
    (X : Interval (Flt mw ew)) (hσ : ∀ j, j ≠ i → σ j ∈ ρ j) (hX : Interval.Finite X) (hb : e.Bounded (setVar ρ i X))
    (s t : Flt mw ew) (fs : s.isFin = true) (ft : t.isFin = true)
    (hs : Interval.contains X s = true) (ht : Interval.contains X t = true)
    (bs : e.Bounded (setVar ρ i (Interval.from1 s))) (bt : e.Bounded (setVar ρ i (Interval.from1 t)))
    (ns : Interval.isNegative (boxOf e ρ i (Interval.from1 s)) = true)
    (pt : Interval.isPositive (boxOf e ρ i (Interval.from1 t)) = true) :
    ∃ x : ℝ, min s.toReal t.toReal < x ∧ x < max s.toReal t.toReal ∧ funOf e σ i x = 0 := by
  have ms : s.toReal ∈ (Interval.from1 s : Interval (Flt mw ew)) := ⟨LowerOf.of_fin fs, UpperOf.of_fin fs⟩
  have mt : t.toReal ∈ (Interval.from1 t : Interval (Flt mw ew)) := ⟨LowerOf.of_fin ft, UpperOf.of_fin ft⟩
  have vs := funOf_mem hσ bs ms
  have vt := funOf_mem hσ bt mt
  have h1 : funOf e σ i s.toReal < 0 := (C22_signs _ ⟨_, vs⟩).2.1.1 ns _ vs
  have h2 : 0 < funOf e σ i t.toReal := (C22_signs _ ⟨_, vt⟩).1.1 pt _ vt
  have xs := (mem_fin_iff hX _).1 ((C22_contains X s fs).1 hs)
  have xt := (mem_fin_iff hX _).1 ((C22_contains X t ft).1 ht)
  have hc : ContinuousOn (funOf e σ i) (Set.uIcc s.toReal t.toReal) := by
    refine (funOf_cont hσ e hb).mono fun x hx => ?_
    rw [Set.mem_ofPred_eq, mem_fin_iff hX]
    rw [Set.mem_uIcc] at hx
    rcases hx with hx | hx <;> constructor <;> linarith [hx.1, hx.2]
  have := intermediate_value_uIcc hc
  obtain ⟨x, hx, h0⟩ := this (Set.mem_uIcc.2 (Or.inl ⟨h1.le, h2.le⟩))
  have n1 : x ≠ s.toReal := fun h => by rw [h] at h0; linarith
  have n2 : x ≠ t.toReal := fun h => by rw [h] at h0; linarith
  refine ⟨x, ?_, ?_, h0⟩
  · refine lt_of_le_of_ne hx.1 fun h => ?_
    rcases min_choice s.toReal t.toReal with c | c
    · exact n1 (by rw [← h]; exact c)
    · exact n2 (by rw [← h]; exact c)
  · refine lt_of_le_of_ne hx.2 fun h => ?_
    rcases max_choice s.toReal t.toReal with c | c
    · exact n1 (by rw [h]; exact c)
    · exact n2 (by rw [h]; exact c)

/-- A fixed point: if the result over `X` is reported to lie in the range of `X`, the function has a fixed point in `X`, and
it lies in the result. -/
theorem C161_fixed_point (e : IExpr (Flt mw ew)) (ρ : Nat → Interval (Flt mw ew)) (σ : Nat → ℝ) (i : Nat)
    (X : Interval (Flt mw ew)) (hσ : ∀ j, j ≠ i → σ j ∈ ρ j) (hX : Interval.Finite X) (ho : Interval.Ordered X)
    (hb : e.Bounded (setVar ρ i X)) (hr : Interval.inRange (boxOf e ρ i X) X.inf X.sup = true) :
    ∃ x : ℝ, x ∈ X ∧ x ∈ boxOf e ρ i X ∧ funOf e σ i x = x := by
  have hle := ordered_real ho hX
  have ml : X.inf.toReal ∈ X := (mem_fin_iff hX _).2 ⟨le_rfl, hle⟩
  have mu : X.sup.toReal ∈ X := (mem_fin_iff hX _).2 ⟨hle, le_rfl⟩
  have hin := (C22_in_range _ _ _ hX.1 hX.2 ⟨_, funOf_mem hσ hb ml⟩).1 hr
  have c1 := (hin _ (funOf_mem hσ hb ml)).1
  have c2 := (hin _ (funOf_mem hσ hb mu)).2
  have hc : ContinuousOn (fun x => funOf e σ i x - x) (Set.Icc X.inf.toReal X.sup.toReal) := by
    refine ((funOf_cont hσ e hb).mono fun x hx => ?_).sub continuousOn_id
    exact (mem_fin_iff hX _).2 hx
  obtain ⟨x, hx, h0⟩ := intermediate_value_Icc' hle hc (show (0 : ℝ) ∈ Set.Icc _ _ from ⟨by linarith, by linarith⟩)
  have h0' : funOf e σ i x - x = 0 := h0
  have hxX : x ∈ X := (mem_fin_iff hX _).2 hx
  have hm := funOf_mem hσ hb hxX
  have he : funOf e σ i x = x := by linarith
  exact ⟨x, hxX, by rwa [he] at hm, he⟩

/-- One narrowing step: cut `X` down to the part that its image covers (`intersect`). -/
def narrowTo (e : IExpr (Flt mw ew)) (ρ : Nat → Interval (Flt mw ew)) (i : Nat) (X : Interval (Flt mw ew)) :
    Interval (Flt mw ew) := Interval.intersect X (boxOf e ρ i X)

theorem narrowTo_keys {e : IExpr (Flt mw ew)} {ρ : Nat → Interval (Flt mw ew)} {i : Nat} {X : Interval (Flt mw ew)}
    (hX : NoNaN X) (hb : e.Bounded (setVar ρ i X)) :
    NoNaN (narrowTo e ρ i X) ∧ X.inf.key ≤ (narrowTo e ρ i X).inf.key ∧ (narrowTo e ρ i X).sup.key ≤ X.sup.key := by
  unfold IExpr.Bounded at hb
  have n1 : (boxOf e ρ i X).inf.isNaN = false := notNaN_of_isFin hb.1.1
  have n2 : (boxOf e ρ i X).sup.isNaN = false := notNaN_of_isFin hb.1.2
  obtain ⟨a1, a2⟩ := key_smax hX.1 n1
  obtain ⟨b1, b2⟩ := key_smin hX.2 n2
  refine ⟨⟨a1, b1⟩, ?_, ?_⟩
  · show _ ≤ (Scalar.max X.inf (boxOf e ρ i X).inf).key
    omega
  · show (Scalar.min X.sup (boxOf e ρ i X).sup).key ≤ _
    omega

/-- Narrowing loses no fixed point, at any number of steps. -/
theorem C161_narrow_keeps (e : IExpr (Flt mw ew)) (ρ : Nat → Interval (Flt mw ew)) (σ : Nat → ℝ) (i : Nat)
    (X : Interval (Flt mw ew)) (hσ : ∀ j, j ≠ i → σ j ∈ ρ j)
    (n : Nat) (hb : ∀ k < n, e.Bounded (setVar ρ i ((narrowTo e ρ i)^[k] X)))
    (x : ℝ) (hx : x ∈ X) (hf : funOf e σ i x = x) : x ∈ (narrowTo e ρ i)^[n] X := by
  induction n with
  | zero => exact hx
  | succ n ih =>
    have hp := ih fun k hk => hb k (Nat.lt_succ_of_lt hk)
    have hbn := hb n (Nat.lt_succ_self n)
    rw [Function.iterate_succ_apply']
    have hm := funOf_mem hσ hbn hp
    rw [hf] at hm
    obtain ⟨a1, a2, -⟩ := mem_facts hp
    obtain ⟨b1, b2, -⟩ := mem_facts hm
    exact (C18_intersect _ _ ⟨a1, a2⟩ ⟨b1, b2⟩ x).2 ⟨hp, hm⟩

/-- If some step of the narrowing leaves nothing, there was no fixed point in `X`. -/
theorem C161_narrow_empty (e : IExpr (Flt mw ew)) (ρ : Nat → Interval (Flt mw ew)) (σ : Nat → ℝ) (i : Nat)
    (X : Interval (Flt mw ew)) (hσ : ∀ j, j ≠ i → σ j ∈ ρ j)
    (n : Nat) (hb : ∀ k < n, e.Bounded (setVar ρ i ((narrowTo e ρ i)^[k] X)))
    (he : Scalar.gt ((narrowTo e ρ i)^[n] X).inf ((narrowTo e ρ i)^[n] X).sup = true) :
    ∀ x ∈ X, funOf e σ i x ≠ x := by
  intro x hx hf
  have hm := C161_narrow_keeps e ρ σ i X hσ n hb x hx hf
  obtain ⟨-, -, -, -, -, -, h⟩ := mem_facts hm
  rw [sgt_iff] at he
  omega

/-- Narrowing ends: after at most as many steps as there are floats in `X`, it has either left nothing or stopped changing
the interval (`is_same`). -/
theorem C161_narrow_ends (e : IExpr (Flt mw ew)) (ρ : Nat → Interval (Flt mw ew)) (i : Nat)
    (X : Interval (Flt mw ew)) (hX : Interval.NoNaN X)
    (hb : ∀ k, e.Bounded (setVar ρ i ((narrowTo e ρ i)^[k] X))) :
    ∃ n : Nat, n ≤ (X.sup.key - X.inf.key + 1).toNat ∧
      (Scalar.gt ((narrowTo e ρ i)^[n] X).inf ((narrowTo e ρ i)^[n] X).sup = true ∨
       Interval.isSame ((narrowTo e ρ i)^[n + 1] X) ((narrowTo e ρ i)^[n] X) = true) := by
  by_contra hcon
  push Not at hcon
  have key : ∀ n : Nat, n ≤ (X.sup.key - X.inf.key + 1).toNat + 1 → NoNaN ((narrowTo e ρ i)^[n] X) ∧
      ((narrowTo e ρ i)^[n] X).sup.key - ((narrowTo e ρ i)^[n] X).inf.key ≤ X.sup.key - X.inf.key - n := by
    intro n
    induction n with
    | zero => intro _; exact ⟨hX, by simp⟩
    | succ n ih =>
      intro hn
      obtain ⟨nn, hk⟩ := ih (by omega)
      obtain ⟨h1, h2⟩ := hcon n (by omega)
      obtain ⟨m1, m2, m3⟩ := narrowTo_keys (e := e) (ρ := ρ) (i := i) nn (hb n)
      rw [Function.iterate_succ_apply'] at h2 ⊢
      refine ⟨m1, ?_⟩
      have : ¬ ((narrowTo e ρ i ((narrowTo e ρ i)^[n] X)).inf.key = ((narrowTo e ρ i)^[n] X).inf.key ∧
          (narrowTo e ρ i ((narrowTo e ρ i)^[n] X)).sup.key = ((narrowTo e ρ i)^[n] X).sup.key) := by
        rintro ⟨c1, c2⟩
        refine h2 ?_
        unfold Interval.isSame
        rw [Bool.and_eq_true, seq_iff, seq_iff]
        exact ⟨⟨m1.1, nn.1, c1⟩, m1.2, nn.2, c2⟩
      push_cast
      omega
  obtain ⟨nn, hk⟩ := key (X.sup.key - X.inf.key + 1).toNat (by omega)
  obtain ⟨h1, -⟩ := hcon _ le_rfl
  refine h1 ?_
  rw [sgt_iff]
  exact ⟨nn.1, nn.2, by omega⟩

/-- `(1/d + d)/4 + 1/2`, the map of the repository's `division_test` (interval.rs:498-522); its fixed point is 1. -/
def exDiv : IExpr F32 :=
  .addC (.divC (.add (.div (.const (F32.lit 1)) (.var 0)) (.var 0)) (F32.lit 4)) (F32.lit 1 / F32.lit 2)
/-- `[0.5, 1.5]` -/
def exX : Interval F32 := ⟨F32.lit 1 / F32.lit 2, F32.lit 3 / F32.lit 2⟩
/-- `x² - 2` -/
def exSq : IExpr F32 := .subC (.square (.var 0)) (F32.lit 2)

def finB (A : Interval F32) : Bool := A.inf.isFin && A.sup.isFin
theorem finB_iff {A : Interval F32} : finB A = true ↔ Interval.Finite A := by
  unfold finB Interval.Finite; rw [Bool.and_eq_true]

theorem ival_ext {A B : Interval F32} (h1 : A.inf = B.inf) (h2 : A.sup = B.sup) : A = B := by
  cases A; cases B; simp only at h1 h2; rw [h1, h2]
theorem isFin_lit1 : (F32.lit 1).isFin = true := by decide +kernel

/-- The check of `Bounded` for `exDiv`, as a computation. -/
def exDivB (X : Interval F32) : Bool :=
  finB X && finB (Interval.from1 (F32.lit 1) / X) && finB (Interval.from1 (F32.lit 1) / X + X) &&
  finB ((Interval.from1 (F32.lit 1) / X + X) / F32.lit 4) && finB (boxOf exDiv (fun _ => exX) 0 X)

theorem exDivB_spec {X : Interval F32} (h : exDivB X = true) : exDiv.Bounded (setVar (fun _ => exX) 0 X) := by
  unfold exDivB at h
  simp only [Bool.and_eq_true, finB_iff] at h
  obtain ⟨⟨⟨⟨h1, h2⟩, h3⟩, h4⟩, h5⟩ := h
  have b0 : IExpr.Bounded (setVar (fun _ => exX) 0 X) (.var 0) := by unfold IExpr.Bounded; exact ⟨h1, trivial⟩
  have b1 : IExpr.Bounded (setVar (fun _ => exX) 0 X) (.const (F32.lit 1)) := by
    unfold IExpr.Bounded; exact ⟨⟨isFin_lit1, isFin_lit1⟩, trivial⟩
  have b2 : IExpr.Bounded (setVar (fun _ => exX) 0 X) (.div (.const (F32.lit 1)) (.var 0)) := by
    unfold IExpr.Bounded; exact ⟨h2, b1, b0⟩
  have b3 : IExpr.Bounded (setVar (fun _ => exX) 0 X) (.add (.div (.const (F32.lit 1)) (.var 0)) (.var 0)) := by
    unfold IExpr.Bounded; exact ⟨h3, b2, b0⟩
  have b4 : IExpr.Bounded (setVar (fun _ => exX) 0 X)
      (.divC (.add (.div (.const (F32.lit 1)) (.var 0)) (.var 0)) (F32.lit 4)) := by
    unfold IExpr.Bounded; exact ⟨h4, b3, by decide +kernel⟩
  unfold exDiv IExpr.Bounded
  exact ⟨h5, b4, by decide +kernel⟩

/-- `C161_fixed_point`: on `[0.5, 1.5]` the run proves that `(1/d + d)/4 + 1/2` has a fixed point. -/
example : Interval.Finite exX ∧ Interval.Ordered exX ∧ exDiv.Bounded (setVar (fun _ => exX) 0 exX) ∧
    Interval.inRange (boxOf exDiv (fun _ => exX) 0 exX) exX.inf exX.sup = true := by
  refine ⟨finB_iff.1 (by decide +kernel), ⟨by decide +kernel, by decide +kernel,
    (val_le_iff (by decide +kernel) (by decide +kernel)).2 (by decide +kernel)⟩, exDivB_spec (by decide +kernel),
    by decide +kernel⟩

/-- `C161_narrow_keeps`, `C161_narrow_ends`: the narrowing from `[0.5, 1.5]` stays bounded for ever; it keeps the fixed point
(of the previous case) and has stopped after 30 steps, at an interval of a few floats around 1. -/
example : Interval.NoNaN exX ∧ (∀ k, exDiv.Bounded (setVar (fun _ => exX) 0 ((narrowTo exDiv (fun _ => exX) 0)^[k] exX))) ∧
    Interval.isSame ((narrowTo exDiv (fun _ => exX) 0)^[31] exX) ((narrowTo exDiv (fun _ => exX) 0)^[30] exX) = true ∧
    ((narrowTo exDiv (fun _ => exX) 0)^[30] exX).sup.key - ((narrowTo exDiv (fun _ => exX) 0)^[30] exX).inf.key ≤ 16 := by
  have small : ∀ k < 31, exDivB ((narrowTo exDiv (fun _ => exX) 0)^[k] exX) = true := by decide +kernel
  have e1 : ((narrowTo exDiv (fun _ => exX) 0)^[31] exX).inf = ((narrowTo exDiv (fun _ => exX) 0)^[30] exX).inf := by
    decide +kernel
  have e2 : ((narrowTo exDiv (fun _ => exX) 0)^[31] exX).sup = ((narrowTo exDiv (fun _ => exX) 0)^[30] exX).sup := by
    decide +kernel
  have step : narrowTo exDiv (fun _ => exX) 0 ((narrowTo exDiv (fun _ => exX) 0)^[30] exX) =
      (narrowTo exDiv (fun _ => exX) 0)^[30] exX := by
    rw [← Function.iterate_succ_apply' (narrowTo exDiv (fun _ => exX) 0) 30 exX]
    exact ival_ext e1 e2
  have late : ∀ k, (narrowTo exDiv (fun _ => exX) 0)^[30 + k] exX = (narrowTo exDiv (fun _ => exX) 0)^[30] exX := by
    intro k
    induction k with
    | zero => rfl
    | succ k ih =>
      rw [show 30 + (k + 1) = (30 + k) + 1 from rfl, Function.iterate_succ_apply', ih, step]
  refine ⟨⟨by decide +kernel, by decide +kernel⟩, fun k => exDivB_spec ?_, by decide +kernel, by decide +kernel⟩
  rcases Nat.lt_or_ge k 31 with h | h
  · exact small k h
  · obtain ⟨m, rfl⟩ : ∃ m, k = 30 + m := ⟨k - 30, by omega⟩
    rw [late]; exact small 30 (by omega)

theorem exSq_bounded {X : Interval F32} (h : (finB X && finB (Interval.square X) && finB (Interval.square X - F32.lit 2)) = true) :
    exSq.Bounded (setVar (fun _ => exX) 0 X) := by
  simp only [Bool.and_eq_true, finB_iff] at h
  obtain ⟨⟨h1, h2⟩, h3⟩ := h
  have b0 : IExpr.Bounded (setVar (fun _ => exX) 0 X) (.var 0) := by unfold IExpr.Bounded; exact ⟨h1, trivial⟩
  have b1 : IExpr.Bounded (setVar (fun _ => exX) 0 X) (.square (.var 0)) := by unfold IExpr.Bounded; exact ⟨h2, b0⟩
  unfold exSq IExpr.Bounded
  exact ⟨h3, b1, by decide +kernel⟩

/-- `C161_zero`: the signs at 1.25 and 1.5 prove a root of `x² - 2` between them, although no float is a root. -/
example : ∃ s t : F32, Interval.Finite exX ∧ exSq.Bounded (setVar (fun _ => exX) 0 exX) ∧ s.isFin = true ∧ t.isFin = true ∧
    Interval.contains exX s = true ∧ Interval.contains exX t = true ∧
    exSq.Bounded (setVar (fun _ => exX) 0 (Interval.from1 s)) ∧ exSq.Bounded (setVar (fun _ => exX) 0 (Interval.from1 t)) ∧
    Interval.isNegative (boxOf exSq (fun _ => exX) 0 (Interval.from1 s)) = true ∧
    Interval.isPositive (boxOf exSq (fun _ => exX) 0 (Interval.from1 t)) = true :=
  ⟨F32.lit 5 / F32.lit 4, F32.lit 3 / F32.lit 2, finB_iff.1 (by decide +kernel), exSq_bounded (by decide +kernel),
    by decide +kernel, by decide +kernel, by decide +kernel, by decide +kernel, exSq_bounded (by decide +kernel),
    exSq_bounded (by decide +kernel), by decide +kernel, by decide +kernel⟩

/-- `C161_no_zero`: none between 0.5 and 1.25.  `C161_narrow_empty`: `x² - 2` has no fixed point in `[0.5, 1.5]`, found in one
step. -/
example : (∃ X : Interval F32, exSq.Bounded (setVar (fun _ => exX) 0 X) ∧
      Interval.isNegative (boxOf exSq (fun _ => exX) 0 X) = true) ∧
    (∀ k < 1, exSq.Bounded (setVar (fun _ => exX) 0 ((narrowTo exSq (fun _ => exX) 0)^[k] exX))) ∧
    Scalar.gt ((narrowTo exSq (fun _ => exX) 0)^[1] exX).inf ((narrowTo exSq (fun _ => exX) 0)^[1] exX).sup = true := by
  refine ⟨⟨⟨F32.lit 1 / F32.lit 2, F32.lit 5 / F32.lit 4⟩, exSq_bounded (by decide +kernel), by decide +kernel⟩, ?_,
    by decide +kernel⟩
  intro k hk
  obtain rfl : k = 0 := by omega
  exact exSq_bounded (by decide +kernel)

end Scarlet
