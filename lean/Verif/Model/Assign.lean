import Verif.Model.Interval

/-!
Model of the compound assignments of `/repo/src/math/interval.rs`, and of programs made of them: assignments, compound assignments,
`if a < b` and `while a < b` over a store of scalar variables.  A compound assignment is modelled by the value the assigned variable has
afterwards.  `rem` and `rem_assign` (interval.rs:391-401) are `unimplemented!()` and not modelled.
-/

namespace Scarlet
variable {T : Type}

namespace Interval
variable [Add T] [Sub T] [Mul T] [Div T] [Neg T] [Scalar T] [SignedScalar T] [GFloat T]

/-- `AddAssign<Self>` (interval.rs:318-323) -/
def addAssign (a b : Interval T) : Interval T := a + b
/-- `SubAssign<Self>` (interval.rs:324-329) -/
def subAssign (a b : Interval T) : Interval T := a - b
/-- `MulAssign<Self>` (interval.rs:330-335) -/
def mulAssign (a b : Interval T) : Interval T := a * b
/-- `DivAssign<Self>` (interval.rs:336-341) -/
def divAssign (a b : Interval T) : Interval T := a / b
/-- `MulAssign<T>` (interval.rs:260-265) -/
def mulAssignS (a : Interval T) (t : T) : Interval T := a * t
/-- `DivAssign<T>` (interval.rs:298-303) -/
def divAssignS (a : Interval T) (t : T) : Interval T := a / t
end Interval

/-- the four compound assignments with a scalar of the same type -/
inductive AssignOp where
  | add | sub | mul | div

/-- Programs a user writes with a scalar type; `E` are the expressions, `K` the float constants. -/
inductive Prog (E K : Type) where
  | skip
  /-- `v_i = e;` -/
  | set (i : Nat) (e : E)
  /-- `v_i += e;` and so on -/
  | upd (op : AssignOp) (i : Nat) (e : E)
  /-- `v_i *= t;` and `v_i /= t;` for a float `t` -/
  | mulK (i : Nat) (t : K)
  | divK (i : Nat) (t : K)
  | seq (p q : Prog E K)
  /-- `if a < b { p } else { q }` -/
  | ifLt (a b : E) (p q : Prog E K)
  /-- `while a < b { p }` -/
  | whileLt (a b : E) (p : Prog E K)

/-- What a scalar type `V` provides to run a program. -/
structure Machine (E K V : Type) where
  eval : (Nat → V) → E → V
  upd : AssignOp → V → V → V
  mulK : V → K → V
  divK : V → K → V
  lt : V → V → Bool

/-- the store after `v_i = x` -/
def store {V : Type} (s : Nat → V) (i : Nat) (x : V) : Nat → V := fun j => if j = i then x else s j

namespace Machine
variable {E K V : Type} (M : Machine E K V)

/-- `while` with at most `n` tests; `none` if it does not end within them.  The list of test outcomes is kept. -/
def loop (a b : E) (body : (Nat → V) → Option ((Nat → V) × List Bool)) : Nat → (Nat → V) → Option ((Nat → V) × List Bool)
  | 0, _ => none
  | n + 1, s =>
    if M.lt (M.eval s a) (M.eval s b) then
      (body s).bind fun x => (loop a b body n x.1).map fun y => (y.1, true :: x.2 ++ y.2)
    else some (s, [false])

/-- The store after a program and the outcomes of all its tests in order; `none` if a loop does not end within `n` tests. -/
def run (n : Nat) : Prog E K → (Nat → V) → Option ((Nat → V) × List Bool)
  | .skip, s => some (s, [])
  | .set i e, s => some (store s i (M.eval s e), [])
  | .upd op i e, s => some (store s i (M.upd op (s i) (M.eval s e)), [])
  | .mulK i t, s => some (store s i (M.mulK (s i) t), [])
  | .divK i t, s => some (store s i (M.divK (s i) t), [])
  | .seq p q, s => (run n p s).bind fun x => (run n q x.1).map fun y => (y.1, x.2 ++ y.2)
  | .ifLt a b p q, s =>
    if M.lt (M.eval s a) (M.eval s b) then (run n p s).map fun x => (x.1, true :: x.2)
    else (run n q s).map fun x => (x.1, false :: x.2)
  | .whileLt a b p, s => M.loop a b (run n p) n s
end Machine

end Scarlet
