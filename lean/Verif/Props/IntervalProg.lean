import Verif.Model.Assign
import Verif.Props.IntervalFloat

/-! C128: interval runs of whole programs, with assignments, branches and loops, certify the float run and the exact run. -/

set_option linter.unusedSectionVars false

namespace Scarlet
open Flt Scarlet.Interval
variable {mw ew : Nat} [FltImpl mw ew] [LawfulFlt mw ew]

/-- The program run with the operators of `Interval` (interval.rs). -/
def machineI (mw ew : Nat) [FltImpl mw ew] : Machine (IExpr (Flt mw ew)) (Flt mw ew) (Interval (Flt mw ew)) where
  eval := IExpr.evalI
  upd op a b := match op with
    | .add => a.addAssign b | .sub => a.subAssign b | .mul => a.mulAssign b | .div => a.divAssign b
  mulK := Interval.mulAssignS
  divK := Interval.divAssignS
  lt := Scalar.lt

/-- The program run with the operators of the float type. -/
def machineF (mw ew : Nat) [FltImpl mw ew] : Machine (IExpr (Flt mw ew)) (Flt mw ew) (Flt mw ew) where
  eval := IExpr.evalF
  upd op a b := match op with | .add => a + b | .sub => a - b | .mul => a * b | .div => a / b
  mulK a t := a * t
  divK a t := a / t
  lt := Scalar.lt

open Classical in
/-- Specification: the program run exactly, over the reals. -/
noncomputable def machineR (mw ew : Nat) : Machine (IExpr (Flt mw ew)) (Flt mw ew) ℝ where
  eval := IExpr.evalR
  upd op a b := match op with | .add => a + b | .sub => a - b | .mul => a * b | .div => a / b
  mulK a t := a * t.toReal
  divK a t := a / t.toReal
  lt a b := decide (a < b)

/-- the expression a compound assignment evaluates -/
def AssignOp.expr {F : Type} (op : AssignOp) (i : Nat) (e : IExpr F) : IExpr F :=
  match op with | .add => .add (.var i) e | .sub => .sub (.var i) e | .mul => .mul (.var i) e | .div => .div (.var i) e

/-- Specification: a comparison is decided if the intervals are comparable. -/
def Decided (ρ : Nat → Interval (Flt mw ew)) (a b : IExpr (Flt mw ew)) : Prop :=
  a.Bounded ρ ∧ b.Bounded ρ ∧ Scalar.pcmp (a.evalI ρ) (b.evalI ρ) ≠ none

/-- Specification: the loop is certain as far as it runs. -/
def LoopCertain (a b : IExpr (Flt mw ew)) (body : (Nat → Interval (Flt mw ew)) → Option ((Nat → Interval (Flt mw ew)) × List Bool))
    (ok : (Nat → Interval (Flt mw ew)) → Prop) : Nat → (Nat → Interval (Flt mw ew)) → Prop
  | 0, _ => True
  | n + 1, ρ => Decided ρ a b ∧ (Scalar.lt (a.evalI ρ) (b.evalI ρ) = true →
      ok ρ ∧ ∀ x, body ρ = some x → LoopCertain a b body ok n x.1)

/-- Specification, a condition on the interval run alone: along the run every interval computed is finite, no two zero-straddling
intervals are multiplied, and every comparison is decided. -/
def Certain (n : Nat) : Prog (IExpr (Flt mw ew)) (Flt mw ew) → (Nat → Interval (Flt mw ew)) → Prop
  | .skip, _ => True
  | .set _ e, ρ => e.Bounded ρ
  | .upd op i e, ρ => (op.expr i e).Bounded ρ
  | .mulK i t, ρ => (IExpr.mulC (.var i) t).Bounded ρ
  | .divK i t, ρ => (IExpr.divC (.var i) t).Bounded ρ
  | .seq p q, ρ => Certain n p ρ ∧ ∀ x, (machineI mw ew).run n p ρ = some x → Certain n q x.1
  | .ifLt a b p q, ρ => Decided ρ a b ∧
      if Scalar.lt (a.evalI ρ) (b.evalI ρ) = true then Certain n p ρ else Certain n q ρ
  | .whileLt a b p, ρ => LoopCertain a b ((machineI mw ew).run n p) (Certain n p) n ρ

/-- the three stores agree -/
def Sim (ρ : Nat → Interval (Flt mw ew)) (σ : Nat → ℝ) (s : Nat → Flt mw ew) : Prop :=
  (∀ i, σ i ∈ ρ i) ∧ ∀ i, (ρ i).HasFlt (s i)

/-- Specification: the three runs end together, with the same outcomes of all tests, and the exact and the float store lie in the
interval store; or none of them ends within the given number of tests. -/
def Agree : Option ((Nat → Interval (Flt mw ew)) × List Bool) → Option ((Nat → ℝ) × List Bool) → Option ((Nat → Flt mw ew) × List Bool) → Prop
  | some x, some y, some z => (Sim x.1 y.1 z.1) ∧ y.2 = x.2 ∧ z.2 = x.2
  | none, none, none => True
  | _, _, _ => False

theorem Sim.store {ρ : Nat → Interval (Flt mw ew)} {σ : Nat → ℝ} {s : Nat → Flt mw ew} (h : Sim ρ σ s) (i : Nat)
    {A : Interval (Flt mw ew)} {x : ℝ} {y : Flt mw ew} (hx : x ∈ A) (hy : A.HasFlt y) :
    Sim (Scarlet.store ρ i A) (Scarlet.store σ i x) (Scarlet.store s i y) := by
  constructor <;> intro j <;> unfold Scarlet.store <;> by_cases hj : j = i
  · simp only [hj, if_true]; exact hx
  · simp only [hj, if_false]; exact h.1 j
  · simp only [hj, if_true]; exact hy
  · simp only [hj, if_false]; exact h.2 j

theorem Sim.eval {ρ : Nat → Interval (Flt mw ew)} {σ : Nat → ℝ} {s : Nat → Flt mw ew} (h : Sim ρ σ s) {e : IExpr (Flt mw ew)}
    (he : e.Bounded ρ) : e.evalR σ ∈ e.evalI ρ ∧ (e.evalI ρ).HasFlt (e.evalF s) :=
  ⟨C23_partial ρ σ h.1 e (he.defined h.1).1 (he.defined h.1).2, C123_inside ρ s h.2 e he⟩

/-- a decided comparison comes out the same three times -/
theorem Sim.test {ρ : Nat → Interval (Flt mw ew)} {σ : Nat → ℝ} {s : Nat → Flt mw ew} (h : Sim ρ σ s) {a b : IExpr (Flt mw ew)}
    (hd : Decided ρ a b) : (machineR mw ew).lt (a.evalR σ) (b.evalR σ) = Scalar.lt (a.evalI ρ) (b.evalI ρ) ∧
      (machineF mw ew).lt (a.evalF s) (b.evalF s) = Scalar.lt (a.evalI ρ) (b.evalI ρ) := by
  obtain ⟨ha, hb, hn⟩ := hd
  obtain ⟨a1, a2⟩ := h.eval ha
  obtain ⟨b1, b2⟩ := h.eval hb
  have key : ∀ x y : ℝ, x ∈ a.evalI ρ → y ∈ b.evalI ρ → (x < y ↔ Scalar.lt (a.evalI ρ) (b.evalI ρ) = true) := by
    intro x y hx hy
    constructor
    · intro hxy
      by_contra hc
      cases hp : Scalar.pcmp (a.evalI ρ) (b.evalI ρ) with
      | none => exact hn hp
      | some o =>
        cases o with
        | lt => exact hc (by unfold Scalar.lt; rw [hp]; rfl)
        | gt =>
          have : Scalar.gt (a.evalI ρ) (b.evalI ρ) = true := by unfold Scalar.gt; rw [hp]; rfl
          exact absurd ((C19_gt _ _ ⟨x, hx⟩ ⟨y, hy⟩).1 this x y hx hy) (not_lt.2 hxy.le)
        | eq =>
          have he : Scalar.eq (a.evalI ρ) (b.evalI ρ) = true := by
            change Interval.pcmp _ _ = _ at hp
            change Interval.eq _ _ = true
            unfold Interval.pcmp at hp
            by_contra hc2
            rw [if_neg hc2] at hp
            split at hp
            · cases hp
            · split at hp <;> cases hp
          obtain ⟨r, h1, h2⟩ := (C19_eq _ _ ⟨x, hx⟩ ⟨y, hy⟩).1 he
          rw [(h1 x).1 hx, (h2 y).1 hy] at hxy
          exact lt_irrefl _ hxy
    · intro hl
      exact (C19_lt _ _ ⟨x, hx⟩ ⟨y, hy⟩).1 hl x y hx hy
  constructor
  · rw [Bool.eq_iff_iff, ← key _ _ a1 b1]
    exact decide_eq_true_iff
  · rw [Bool.eq_iff_iff, ← key _ _ a2.2 b2.2, toReal_lt_iff]
    change Scalar.lt _ _ = true ↔ _
    rw [slt_iff]
    exact ⟨fun h => h.2.2, fun h => ⟨notNaN_of_isFin a2.1, notNaN_of_isFin b2.1, h⟩⟩

theorem agree_bind {α : Option ((Nat → Interval (Flt mw ew)) × List Bool)} {β : Option ((Nat → ℝ) × List Bool)}
    {γ : Option ((Nat → Flt mw ew) × List Bool)} (h : Agree α β γ)
    {f : (Nat → Interval (Flt mw ew)) → Option ((Nat → Interval (Flt mw ew)) × List Bool)}
    {g : (Nat → ℝ) → Option ((Nat → ℝ) × List Bool)} {k : (Nat → Flt mw ew) → Option ((Nat → Flt mw ew) × List Bool)} (pre : List Bool)
    (hk : ∀ x y z, α = some x → Sim x.1 y z → Agree (f x.1) (g y) (k z)) :
    Agree (α.bind fun x => (f x.1).map fun y => (y.1, pre ++ x.2 ++ y.2)) (β.bind fun x => (g x.1).map fun y => (y.1, pre ++ x.2 ++ y.2))
      (γ.bind fun x => (k x.1).map fun y => (y.1, pre ++ x.2 ++ y.2)) := by
  cases α with
  | none =>
    cases β with
    | none => cases γ with
      | none => exact trivial
      | some z => exact h.elim
    | some y => cases γ <;> exact h.elim
  | some x =>
    cases β with
    | none => cases γ <;> exact h.elim
    | some y => cases γ with
      | none => exact h.elim
      | some z =>
        obtain ⟨h1, h2, h3⟩ := h
        have := hk x y.1 z.1 rfl h1
        simp only [Option.bind_some]
        cases e1 : f x.1 with
        | none =>
          rw [e1] at this
          cases e2 : g y.1 with
          | none =>
            rw [e2] at this
            cases e3 : k z.1 with
            | none => exact trivial
            | some w => rw [e3] at this; exact this.elim
          | some v => rw [e2] at this; cases e3 : k z.1 <;> rw [e3] at this <;> exact this.elim
        | some u =>
          rw [e1] at this
          cases e2 : g y.1 with
          | none => rw [e2] at this; cases e3 : k z.1 <;> rw [e3] at this <;> exact this.elim
          | some v =>
            rw [e2] at this
            cases e3 : k z.1 with
            | none => rw [e3] at this; exact this.elim
            | some w =>
              rw [e3] at this
              obtain ⟨t1, t2, t3⟩ := this
              refine ⟨t1, ?_, ?_⟩
              · change pre ++ y.2 ++ v.2 = pre ++ x.2 ++ u.2; rw [h2, t2]
              · change pre ++ z.2 ++ w.2 = pre ++ x.2 ++ u.2; rw [h3, t3]

theorem agree_map {α : Option ((Nat → Interval (Flt mw ew)) × List Bool)} {β : Option ((Nat → ℝ) × List Bool)}
    {γ : Option ((Nat → Flt mw ew) × List Bool)} (h : Agree α β γ) (b : Bool) :
    Agree (α.map fun x => (x.1, b :: x.2)) (β.map fun x => (x.1, b :: x.2)) (γ.map fun x => (x.1, b :: x.2)) := by
  cases α <;> cases β <;> cases γ <;> first | exact h.elim | exact trivial | exact ⟨h.1, congrArg (b :: ·) h.2.1, congrArg (b :: ·) h.2.2⟩

theorem agree_loop (a b : IExpr (Flt mw ew))
    {f : (Nat → Interval (Flt mw ew)) → Option ((Nat → Interval (Flt mw ew)) × List Bool)}
    {g : (Nat → ℝ) → Option ((Nat → ℝ) × List Bool)} {k : (Nat → Flt mw ew) → Option ((Nat → Flt mw ew) × List Bool)} (ok : (Nat → Interval (Flt mw ew)) → Prop)
    (hb : ∀ ρ σ s, Sim ρ σ s → ok ρ → Agree (f ρ) (g σ) (k s)) (n : Nat) (ρ : Nat → Interval (Flt mw ew)) (σ : Nat → ℝ)
    (s : Nat → Flt mw ew) (h : Sim ρ σ s) (hc : LoopCertain a b f ok n ρ) :
    Agree ((machineI mw ew).loop a b f n ρ) ((machineR mw ew).loop a b g n σ) ((machineF mw ew).loop a b k n s) := by
  induction n generalizing ρ σ s with
  | zero => exact trivial
  | succ n ih =>
    obtain ⟨hd, hc⟩ := hc
    obtain ⟨t1, t2⟩ := h.test hd
    unfold Machine.loop
    rw [show (machineR mw ew).lt ((machineR mw ew).eval σ a) ((machineR mw ew).eval σ b) = _ from t1,
      show (machineF mw ew).lt ((machineF mw ew).eval s a) ((machineF mw ew).eval s b) = _ from t2,
      show (machineI mw ew).lt ((machineI mw ew).eval ρ a) ((machineI mw ew).eval ρ b) = Scalar.lt (a.evalI ρ) (b.evalI ρ) from rfl]
    by_cases hl : Scalar.lt (a.evalI ρ) (b.evalI ρ) = true
    · rw [if_pos hl, if_pos hl, if_pos hl]
      obtain ⟨ho, hc⟩ := hc hl
      exact agree_bind (hb ρ σ s h ho) [true] fun x y z hx hs => ih x.1 y z hs (hc x hx)
    · rw [if_neg hl, if_neg hl, if_neg hl]
      exact ⟨h, rfl, rfl⟩

/-- C128: if the interval run of a program is certain, then for all exact and float inputs in the input intervals the exact run and the
float run take the same branches and the same numbers of loop iterations as the interval run, and the exact and the float
values of all variables lie in the final intervals; if one does not end within `n` tests per loop, none does. -/
theorem C128_run (n : Nat) (p : Prog (IExpr (Flt mw ew)) (Flt mw ew)) (ρ : Nat → Interval (Flt mw ew)) (σ : Nat → ℝ) (s : Nat → Flt mw ew)
    (hσ : ∀ i, σ i ∈ ρ i) (hs : ∀ i, (ρ i).HasFlt (s i)) (hc : Certain n p ρ) :
    Agree ((machineI mw ew).run n p ρ) ((machineR mw ew).run n p σ) ((machineF mw ew).run n p s) := by
  have h : Sim ρ σ s := ⟨hσ, hs⟩
  clear hσ hs
  induction p generalizing ρ σ s with
  | skip => exact ⟨h, rfl, rfl⟩
  | set i e => exact ⟨h.store i (h.eval hc).1 (h.eval hc).2, rfl, rfl⟩
  | upd op i e =>
    have := h.eval hc
    refine ⟨h.store i ?_ ?_, rfl, rfl⟩ <;> cases op
    · exact this.1
    · exact this.1
    · exact this.1
    · exact this.1
    · exact this.2
    · exact this.2
    · exact this.2
    · exact this.2
  | mulK i t => exact ⟨h.store i (h.eval hc).1 (h.eval hc).2, rfl, rfl⟩
  | divK i t => exact ⟨h.store i (h.eval hc).1 (h.eval hc).2, rfl, rfl⟩
  | seq p q ihp ihq =>
    exact agree_bind (ihp ρ σ s hc.1 h) [] fun x y z hx hs => ihq x.1 y z (hc.2 x hx) hs
  | ifLt a b p q ihp ihq =>
    obtain ⟨hd, hc⟩ := hc
    obtain ⟨t1, t2⟩ := h.test hd
    unfold Machine.run
    rw [show (machineR mw ew).lt ((machineR mw ew).eval σ a) ((machineR mw ew).eval σ b) = _ from t1,
      show (machineF mw ew).lt ((machineF mw ew).eval s a) ((machineF mw ew).eval s b) = _ from t2,
      show (machineI mw ew).lt ((machineI mw ew).eval ρ a) ((machineI mw ew).eval ρ b) = Scalar.lt (a.evalI ρ) (b.evalI ρ) from rfl]
    by_cases hl : Scalar.lt (a.evalI ρ) (b.evalI ρ) = true
    · rw [if_pos hl] at hc
      rw [if_pos hl, if_pos hl, if_pos hl]
      exact agree_map (ihp ρ σ s hc h) true
    · rw [if_neg hl] at hc
      rw [if_neg hl, if_neg hl, if_neg hl]
      exact agree_map (ihq ρ σ s hc h) false
  | whileLt a b p ih =>
    exact agree_loop a b (Certain n p) (fun ρ σ s hs ho => ih ρ σ s ho hs) n ρ σ s h hc

/-- C128: so the widths of the final intervals bound the errors of the whole float computation, loops included. -/
theorem C128_error (n : Nat) (p : Prog (IExpr (Flt mw ew)) (Flt mw ew)) (ρ : Nat → Interval (Flt mw ew)) (σ : Nat → ℝ) (s : Nat → Flt mw ew)
    (hσ : ∀ i, σ i ∈ ρ i) (hs : ∀ i, (ρ i).HasFlt (s i)) (hc : Certain n p ρ) (x : (Nat → Interval (Flt mw ew)) × List Bool)
    (hx : (machineI mw ew).run n p ρ = some x) :
    ∃ y z, (machineR mw ew).run n p σ = some y ∧ (machineF mw ew).run n p s = some z ∧ y.2 = x.2 ∧ z.2 = x.2 ∧
      ∀ i, (z.1 i).isFin = true ∧ (Interval.Finite (x.1 i) → |(z.1 i).toReal - y.1 i| ≤ (x.1 i).sup.toReal - (x.1 i).inf.toReal) := by
  have h := C128_run n p ρ σ s hσ hs hc
  rw [hx] at h
  cases hy : (machineR mw ew).run n p σ with
  | none => rw [hy] at h; cases hz : (machineF mw ew).run n p s <;> rw [hz] at h <;> exact h.elim
  | some y =>
    cases hz : (machineF mw ew).run n p s with
    | none => rw [hy, hz] at h; exact h.elim
    | some z =>
      rw [hy, hz] at h
      obtain ⟨⟨h1, h2⟩, h3, h4⟩ := h
      refine ⟨y, z, rfl, rfl, h3, h4, fun i => ⟨(h2 i).1, fun hf => ?_⟩⟩
      obtain ⟨a1, a2⟩ := (mem_fin_iff hf _).1 (h2 i).2
      obtain ⟨b1, b2⟩ := (mem_fin_iff hf _).1 (h1 i)
      rw [_root_.abs_le]
      constructor <;> linarith

/-! ### decided comparisons are needed; an example with a loop -/

/-- the interval `[1,1]` -/
def exOne : Interval F32 := ⟨F32.lit 1, F32.lit 1⟩
/-- `2⁻²⁵` -/
def exTiny : F32 := ⟨855638016⟩

theorem toReal_exTiny : exTiny.toReal = 1 / 2 ^ 25 := by
  have h := toReal_bits32 855638016 0 (-25) (by decide +kernel) (by decide +kernel) (by decide +kernel) (by decide +kernel)
  rw [show exTiny = (⟨855638016⟩ : F32) from rfl, h]
  norm_num

theorem has_exOne : exOne.HasFlt (F32.lit 1) :=
  ⟨by decide +kernel, (lowerOf_fin (by decide +kernel)).2 (toReal_le_iff.2 (by decide +kernel)),
    (upperOf_fin (by decide +kernel)).2 (toReal_le_iff.2 (by decide +kernel))⟩

/-- `if 1 < 1 + 2⁻²⁵ { v_0 = 3 }` -/
def exBranch : Prog (IExpr F32) F32 :=
  .ifLt (.const (F32.lit 1)) (.add (.const (F32.lit 1)) (.const exTiny)) (.set 0 (.const (F32.lit 3))) .skip

/-- the test of `exBranch`, on intervals -/
theorem exBranch_test (ρ : Nat → Interval F32) :
    Scalar.lt (IExpr.evalI ρ (.const (F32.lit 1))) (IExpr.evalI ρ (.add (.const (F32.lit 1)) (.const exTiny))) = false := by
  change Scalar.lt (Interval.from1 (F32.lit 1)) (Interval.from1 (F32.lit 1) + Interval.from1 exTiny) = false
  decide +kernel

/-- C128: an undecided test is not harmless. All intervals of this run on `f32` are finite and nothing is multiplied, but the test is
undecided, the exact run takes the other branch, and its result is not in the final interval. -/
theorem C128_refuted : ∃ (p : Prog (IExpr F32) F32) (a b : IExpr F32) (q : Prog (IExpr F32) F32), p = .ifLt a b q .skip ∧
    ∃ (ρ : Nat → Interval F32) (σ : Nat → ℝ) (s : Nat → F32), (∀ i, σ i ∈ ρ i) ∧ (∀ i, (ρ i).HasFlt (s i)) ∧
      a.Bounded ρ ∧ b.Bounded ρ ∧ Certain 1 q ρ ∧
      ∃ x y z, (machineI 23 8).run 1 p ρ = some x ∧ (machineR 23 8).run 1 p σ = some y ∧ (machineF 23 8).run 1 p s = some z ∧
        x.2 = [false] ∧ y.2 = [true] ∧ z.2 = [false] ∧ ¬ y.1 0 ∈ x.1 0 := by
  have hb1 : ∀ t : F32, Interval.Finite (Interval.from1 t) → IExpr.Bounded (fun _ => exOne) (.const t) := by
    intro t h; unfold IExpr.Bounded; exact ⟨h, trivial⟩
  refine ⟨exBranch, _, _, _, rfl, fun _ => exOne, fun _ => 1, fun _ => F32.lit 1, ?_, fun _ => has_exOne, ?_, ?_, ?_, ?_⟩
  · intro i
    have := has_exOne.2
    rwa [toReal_lit_small.1] at this
  · exact hb1 _ (by unfold Interval.Finite; decide +kernel)
  · unfold IExpr.Bounded
    exact ⟨by unfold Interval.Finite; decide +kernel, hb1 _ (by unfold Interval.Finite; decide +kernel),
      hb1 _ (by unfold Interval.Finite; decide +kernel)⟩
  · exact hb1 _ (by unfold Interval.Finite; decide +kernel)
  · refine ⟨(fun _ => exOne, [false]), (store (fun _ => 1) 0 (F32.lit 3).toReal, [true]), (fun _ => F32.lit 1, [false]),
      ?_, ?_, ?_, rfl, rfl, rfl, ?_⟩
    · unfold exBranch Machine.run
      rw [show (machineI 23 8).lt ((machineI 23 8).eval (fun _ => exOne) (.const (F32.lit 1)))
          ((machineI 23 8).eval (fun _ => exOne) (.add (.const (F32.lit 1)) (.const exTiny))) = false from exBranch_test fun _ => exOne]
      rfl
    · unfold exBranch Machine.run
      have : (machineR 23 8).lt ((machineR 23 8).eval (fun _ => (1 : ℝ)) (.const (F32.lit 1)))
          ((machineR 23 8).eval (fun _ => (1 : ℝ)) (.add (.const (F32.lit 1)) (.const exTiny))) = true := by
        refine decide_eq_true ?_
        change (F32.lit 1).toReal < (F32.lit 1).toReal + exTiny.toReal
        rw [toReal_exTiny]
        norm_num
      rw [if_pos this]
      rfl
    · unfold exBranch Machine.run
      have : (machineF 23 8).lt ((machineF 23 8).eval (fun _ => F32.lit 1) (.const (F32.lit 1)))
          ((machineF 23 8).eval (fun _ => F32.lit 1) (.add (.const (F32.lit 1)) (.const exTiny))) = false := by
        change Scalar.lt (F32.lit 1) (F32.lit 1 + exTiny) = false
        decide +kernel
      rw [this]
      rfl
    · intro h
      have h2 := (mem_fin_iff (A := exOne) (by unfold Interval.Finite; decide +kernel) _).1 h
      have h3 := h2.2
      change (F32.lit 3).toReal ≤ (F32.lit 1).toReal at h3
      rw [toReal_lit_small.1, toReal_lit_small.2.2] at h3
      norm_num at h3

/-- `while v_0 < 4 { v_0 += 2; v_1 *= 3; }` -/
def exLoop : Prog (IExpr F32) F32 :=
  .whileLt (.var 0) (.const (F32.lit 4)) (.seq (.upd .add 0 (.const (F32.lit 2))) (.mulK 1 (F32.lit 3)))

/-- one turn of `exLoop` on intervals -/
def exTurn (ρ : Nat → Interval F32) : Nat → Interval F32 :=
  store (store ρ 0 ((ρ 0).addAssign (Interval.from1 (F32.lit 2)))) 1 ((ρ 1).mulAssignS (F32.lit 3))

theorem exLoop_body (n : Nat) (ρ : Nat → Interval F32) :
    (machineI 23 8).run n (.seq (.upd .add 0 (.const (F32.lit 2))) (.mulK 1 (F32.lit 3))) ρ = some (exTurn ρ, []) := rfl

theorem fin_two : Interval.Finite (Interval.from1 (F32.lit 2)) := by unfold Interval.Finite; decide +kernel
theorem fin_four : Interval.Finite (Interval.from1 (F32.lit 4)) := by unfold Interval.Finite; decide +kernel

theorem exLoop_turn (n : Nat) (ρ : Nat → Interval F32) (h0 : Interval.Finite (ρ 0)) (h1 : Interval.Finite (ρ 1))
    (h2 : Interval.Finite (exTurn ρ 0)) (h3 : Interval.Finite (exTurn ρ 1)) :
    Certain n (.seq (.upd .add 0 (.const (F32.lit 2))) (.mulK 1 (F32.lit 3))) ρ := by
  refine ⟨?_, ?_⟩
  · change IExpr.Bounded ρ (.add (.var 0) (.const (F32.lit 2)))
    unfold IExpr.Bounded
    exact ⟨h2, by unfold IExpr.Bounded; exact ⟨h0, trivial⟩,
      by unfold IExpr.Bounded; exact ⟨fin_two, trivial⟩⟩
  · rintro x hx
    obtain rfl : _ = x := Option.some.inj hx
    change IExpr.Bounded _ (.mulC (.var 1) (F32.lit 3))
    unfold IExpr.Bounded
    exact ⟨h3, by unfold IExpr.Bounded; exact ⟨h1, trivial⟩, by decide +kernel⟩

theorem exLoop_test (ρ : Nat → Interval F32) (h0 : Interval.Finite (ρ 0))
    (h : Scalar.pcmp (ρ 0) (Interval.from1 (F32.lit 4)) ≠ none) : Decided ρ (.var 0) (.const (F32.lit 4)) :=
  ⟨by unfold IExpr.Bounded; exact ⟨h0, trivial⟩,
    by unfold IExpr.Bounded; exact ⟨fin_four, trivial⟩, h⟩

/-- `C128_run`: the loop started with `v_0, v_1 = 1` runs twice and every test is decided. -/
theorem exLoop_certain : Certain 5 exLoop (fun _ => exOne) ∧
    ((machineI 23 8).run 5 exLoop fun _ => exOne).map Prod.snd = some [true, true, false] := by
  have F0 : Interval.Finite exOne := by unfold Interval.Finite; decide +kernel
  have F1 : Interval.Finite (exTurn (fun _ => exOne) 0) := by unfold Interval.Finite; decide +kernel
  have F2 : Interval.Finite (exTurn (fun _ => exOne) 1) := by unfold Interval.Finite; decide +kernel
  have F3 : Interval.Finite (exTurn (exTurn fun _ => exOne) 0) := by unfold Interval.Finite; decide +kernel
  have F4 : Interval.Finite (exTurn (exTurn fun _ => exOne) 1) := by unfold Interval.Finite; decide +kernel
  constructor
  · unfold exLoop Certain
    refine ⟨exLoop_test _ F0 (by decide +kernel), fun _ => ⟨exLoop_turn _ _ F0 F0 F1 F2, ?_⟩⟩
    rintro x hx
    obtain rfl : _ = x := Option.some.inj hx
    refine ⟨exLoop_test _ F1 (by decide +kernel), fun _ => ⟨exLoop_turn _ _ F1 F2 F3 F4, ?_⟩⟩
    rintro x hx
    obtain rfl : _ = x := Option.some.inj hx
    refine ⟨exLoop_test _ F3 (by decide +kernel), fun h => ?_⟩
    exact absurd h (by decide +kernel)
  · decide +kernel

/-- so the exact run and the `f32` run from 1 also go round twice -/
example : ∃ y z, (machineR 23 8).run 5 exLoop (fun _ => (F32.lit 1).toReal) = some y ∧
    (machineF 23 8).run 5 exLoop (fun _ => F32.lit 1) = some z ∧ y.2 = [true, true, false] ∧ z.2 = [true, true, false] := by
  obtain ⟨hc, hr⟩ := exLoop_certain
  obtain ⟨x, hx, hx2⟩ := Option.map_eq_some_iff.1 hr
  obtain ⟨y, z, hy, hz, e1, e2, -⟩ := C128_error 5 exLoop _ (fun _ => (F32.lit 1).toReal) (fun _ => F32.lit 1)
    (fun _ => has_exOne.2) (fun _ => has_exOne) hc x hx
  exact ⟨y, z, hy, hz, e1.trans hx2, e2.trans hx2⟩

end Scarlet
