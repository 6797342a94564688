import Verif.Model.Checked
import Mathlib.Tactic.Ring
import Mathlib.Tactic.NormNum
import Mathlib.Tactic.Linarith
import Mathlib.Algebra.BigOperators.Fin
import Mathlib.Algebra.Order.BigOperators.Group.Finset
import Mathlib.Tactic.FinCases
import Mathlib.Tactic.Positivity
import Mathlib.Tactic.Tauto

/-! C146 (integer vectors and matrices in debug and in release builds). -/

set_option linter.unusedSectionVars false

namespace Scarlet
open Chk IntWord

/-- What the language reference says about the wrapping operators of an integer type. -/
class LawfulWord (T : Type) [IntWord T] [Scalar T] [Add T] [Sub T] [Mul T] [Div T] : Prop where
  inj : ∀ x y : T, toZ x = toZ y → x = y
  onto : ∀ e : ℤ, lo T ≤ e → e ≤ hi T → ∃ x : T, toZ x = e
  lo_le : ∀ x : T, lo T ≤ toZ x
  le_hi : ∀ x : T, toZ x ≤ hi T
  add : ∀ x y : T, (hi T - lo T + 1) ∣ toZ (x + y) - (toZ x + toZ y)
  sub : ∀ x y : T, (hi T - lo T + 1) ∣ toZ (x - y) - (toZ x - toZ y)
  mul : ∀ x y : T, (hi T - lo T + 1) ∣ toZ (x * y) - toZ x * toZ y
  div : ∀ x y : T, ¬ (toZ y = 0 ∨ (toZ x = lo T ∧ toZ y = -1)) → toZ (x / y) = (toZ x).tdiv (toZ y)
  div_out : ∀ x y : T, toZ x = lo T → toZ y = -1 → hi T < (toZ x).tdiv (toZ y)
  zero : toZ (Scalar.zero : T) = 0
  square : ∀ x : T, Scalar.square x = x * x

/-- … and about unary minus of a signed one. -/
class LawfulNeg (T : Type) [IntWord T] [Neg T] : Prop where
  neg : ∀ x : T, (hi T - lo T + 1) ∣ toZ (-x) - -toZ x

section instances

theorem dvd_move {m a b : ℤ} (h : m ∣ a) (e : b = a) : m ∣ b := e ▸ h

theorem bmod_word {x : ℤ} {m : ℕ} {lo hi : ℤ} (h : hi - lo + 1 = m) : (hi - lo + 1) ∣ x.bmod m - x := by
  rw [h]
  exact Int.dvd_bmod_sub_self

theorem tdiv_range {lo hi a b : ℤ} (hl : lo = -hi - 1) (h1 : lo ≤ a) (h2 : a ≤ hi) (hb : ¬ (b = 0 ∨ (a = lo ∧ b = -1))) :
    lo ≤ a.tdiv b ∧ a.tdiv b ≤ hi := by
  have h := Int.natAbs_tdiv_le_natAbs a b
  by_cases e : a = lo
  · have hb0 : b ≠ 0 := fun h => hb (.inl h)
    have hb1 : b ≠ -1 := fun h => hb (.inr ⟨e, h⟩)
    refine ⟨by omega, ?_⟩
    by_contra hc
    have hn : (a.tdiv b).natAbs = a.natAbs := by omega
    rw [Int.natAbs_tdiv] at hn
    rcases Nat.lt_or_ge 1 b.natAbs with hb2 | hb2
    · have : a.natAbs.div b.natAbs < a.natAbs := Nat.div_lt_self (by omega) hb2
      omega
    · have : b = 1 := by omega
      subst this
      rw [Int.tdiv_one] at hc
      omega
  · omega

theorem bmod_id {x : ℤ} {m k : ℕ} (hm : m = 2 * k) (h1 : -(k : ℤ) ≤ x) (h2 : x ≤ k - 1) : x.bmod m = x := by
  apply Int.bmod_eq_of_le <;> omega

set_option hygiene false in
macro "signed_word" s:term:max k:num : tactic => `(tactic| (
  refine ⟨?_, ?_, ?_, ?_, ?_, ?_, ?_, ?_, ?_, ?_, ?_⟩
  · intro x y h; exact ($s).1 x y h
  · intro e h1 h2; exact ($s).2.1 e h1 h2
  · intro x; exact ($s).2.2.1 x
  · intro x; exact Int.le_sub_one_of_lt (($s).2.2.2.1 x)
  · intro x y; have h := ($s).2.2.2.2.1 x y; change _ ∣ (x + y).toInt - _; rw [h]; exact bmod_word (by decide)
  · intro x y; have h := ($s).2.2.2.2.2.1 x y; change _ ∣ (x - y).toInt - _; rw [h]; exact bmod_word (by decide)
  · intro x y; have h := ($s).2.2.2.2.2.2.1 x y; change _ ∣ (x * y).toInt - _; rw [h]; exact bmod_word (by decide)
  · intro x y h
    change (x / y).toInt = _
    rw [($s).2.2.2.2.2.2.2 x y]
    have hr := tdiv_range (hi := 2 ^ $k - 1) (by decide) (($s).2.2.1 x) (Int.le_sub_one_of_lt (($s).2.2.2.1 x)) h
    exact bmod_id (k := 2 ^ $k) (by decide) (by exact_mod_cast hr.1) (by exact_mod_cast hr.2)
  · intro x y h1 h2
    rw [h1, h2]
    decide
  · decide
  · intro x; rfl))

theorem ofInt_range8 (e : ℤ) (h1 : -2 ^ 7 ≤ e) (h2 : e ≤ 2 ^ 7 - 1) : ∃ x : Int8, x.toInt = e :=
  ⟨Int8.ofInt e, by rw [Int8.toInt_ofInt]; exact bmod_id (k := 2 ^ 7) (by decide) (by exact_mod_cast h1) (by exact_mod_cast h2)⟩
theorem ofInt_range16 (e : ℤ) (h1 : -2 ^ 15 ≤ e) (h2 : e ≤ 2 ^ 15 - 1) : ∃ x : Int16, x.toInt = e :=
  ⟨Int16.ofInt e, by rw [Int16.toInt_ofInt]; exact bmod_id (k := 2 ^ 15) (by decide) (by exact_mod_cast h1) (by exact_mod_cast h2)⟩
theorem ofInt_range32 (e : ℤ) (h1 : -2 ^ 31 ≤ e) (h2 : e ≤ 2 ^ 31 - 1) : ∃ x : Int32, x.toInt = e :=
  ⟨Int32.ofInt e, by rw [Int32.toInt_ofInt]; exact bmod_id (k := 2 ^ 31) (by decide) (by exact_mod_cast h1) (by exact_mod_cast h2)⟩
theorem ofInt_range64 (e : ℤ) (h1 : -2 ^ 63 ≤ e) (h2 : e ≤ 2 ^ 63 - 1) : ∃ x : Int64, x.toInt = e :=
  ⟨Int64.ofInt e, by rw [Int64.toInt_ofInt]; exact bmod_id (k := 2 ^ 63) (by decide) (by exact_mod_cast h1) (by exact_mod_cast h2)⟩

instance : LawfulWord Int8 := by
  signed_word (⟨fun x y h => Int8.toInt_inj.1 h, ofInt_range8, Int8.le_toInt, Int8.toInt_lt, Int8.toInt_add, Int8.toInt_sub,
    Int8.toInt_mul, Int8.toInt_div⟩ : (∀ x y : Int8, x.toInt = y.toInt → x = y) ∧ _ ∧ _ ∧ _ ∧ _ ∧ _ ∧ _ ∧ _) 7
instance : LawfulWord Int16 := by
  signed_word (⟨fun x y h => Int16.toInt_inj.1 h, ofInt_range16, Int16.le_toInt, Int16.toInt_lt, Int16.toInt_add, Int16.toInt_sub,
    Int16.toInt_mul, Int16.toInt_div⟩ : (∀ x y : Int16, x.toInt = y.toInt → x = y) ∧ _ ∧ _ ∧ _ ∧ _ ∧ _ ∧ _ ∧ _) 15
instance : LawfulWord Int32 := by
  signed_word (⟨fun x y h => Int32.toInt_inj.1 h, ofInt_range32, Int32.le_toInt, Int32.toInt_lt, Int32.toInt_add, Int32.toInt_sub,
    Int32.toInt_mul, Int32.toInt_div⟩ : (∀ x y : Int32, x.toInt = y.toInt → x = y) ∧ _ ∧ _ ∧ _ ∧ _ ∧ _ ∧ _ ∧ _) 31
instance : LawfulWord Int64 := by
  signed_word (⟨fun x y h => Int64.toInt_inj.1 h, ofInt_range64, Int64.le_toInt, Int64.toInt_lt, Int64.toInt_add, Int64.toInt_sub,
    Int64.toInt_mul, Int64.toInt_div⟩ : (∀ x y : Int64, x.toInt = y.toInt → x = y) ∧ _ ∧ _ ∧ _ ∧ _ ∧ _ ∧ _ ∧ _) 63

instance : LawfulNeg Int8 := ⟨fun x => by change _ ∣ (-x).toInt - _; rw [Int8.toInt_neg]; exact bmod_word (by decide)⟩
instance : LawfulNeg Int16 := ⟨fun x => by change _ ∣ (-x).toInt - _; rw [Int16.toInt_neg]; exact bmod_word (by decide)⟩
instance : LawfulNeg Int32 := ⟨fun x => by change _ ∣ (-x).toInt - _; rw [Int32.toInt_neg]; exact bmod_word (by decide)⟩
instance : LawfulNeg Int64 := ⟨fun x => by change _ ∣ (-x).toInt - _; rw [Int64.toInt_neg]; exact bmod_word (by decide)⟩

theorem mod_word {a m : ℕ} {e lo hi : ℤ} (h : hi - lo + 1 = m) (he : (m : ℤ) ∣ (a : ℤ) - e) :
    (hi - lo + 1) ∣ ((a % m : ℕ) : ℤ) - e := by
  rw [h]
  have : ((a % m : ℕ) : ℤ) - e = (a - e) - m * ((a / m : ℕ) : ℤ) := by
    have := Nat.mod_add_div a m
    have h2 : ((a % m : ℕ) : ℤ) + m * ((a / m : ℕ) : ℤ) = a := by exact_mod_cast this
    linarith
  rw [this]
  exact dvd_sub he (dvd_mul_right _ _)

set_option hygiene false in
macro "unsigned_word" W:ident k:num : tactic => `(tactic| (
  refine ⟨?_, ?_, ?_, ?_, ?_, ?_, ?_, ?_, ?_, ?_, ?_⟩
  · intro x y h
    have h : (x.toNat : ℤ) = y.toNat := h
    exact ($(Lean.mkIdent (W.getId ++ `toNat_inj))).1 (by exact_mod_cast h)
  · intro e h1 h2
    have h1 : 0 ≤ e := h1
    have h2 : e ≤ 2 ^ $k - 1 := h2
    refine ⟨$(Lean.mkIdent (W.getId ++ `ofNat)) e.toNat, ?_⟩
    change ((($(Lean.mkIdent (W.getId ++ `ofNat)) e.toNat).toNat : ℕ) : ℤ) = e
    rw [$(Lean.mkIdent (W.getId ++ `toNat_ofNat')):ident, Nat.mod_eq_of_lt (by omega)]
    omega
  · intro x; exact Int.natCast_nonneg _
  · intro x
    have h := $(Lean.mkIdent (W.getId ++ `toNat_lt)) x
    change (x.toNat : ℤ) ≤ 2 ^ $k - 1
    omega
  · intro x y
    change _ ∣ (((x + y).toNat : ℕ) : ℤ) - ((x.toNat : ℤ) + y.toNat)
    rw [$(Lean.mkIdent (W.getId ++ `toNat_add)):ident]
    exact mod_word (by decide) ⟨0, by push_cast; ring⟩
  · intro x y
    change _ ∣ (((x - y).toNat : ℕ) : ℤ) - ((x.toNat : ℤ) - y.toNat)
    rw [$(Lean.mkIdent (W.getId ++ `toNat_sub)):ident]
    have h := $(Lean.mkIdent (W.getId ++ `toNat_lt)) y
    exact mod_word (by decide) ⟨1, by rw [Nat.cast_add, Nat.cast_sub h.le]; push_cast; ring⟩
  · intro x y
    change _ ∣ (((x * y).toNat : ℕ) : ℤ) - ((x.toNat : ℤ) * y.toNat)
    rw [$(Lean.mkIdent (W.getId ++ `toNat_mul)):ident]
    exact mod_word (by decide) ⟨0, by push_cast; ring⟩
  · intro x y h
    change (((x / y).toNat : ℕ) : ℤ) = ((x.toNat : ℤ)).tdiv y.toNat
    rw [$(Lean.mkIdent (W.getId ++ `toNat_div)):ident]
    exact Int.ofNat_tdiv _ _
  · intro x y h1 h2
    have h2 : (y.toNat : ℤ) = -1 := h2
    omega
  · decide
  · intro x; rfl))

instance : LawfulWord UInt8 := by unsigned_word UInt8 8
instance : LawfulWord UInt16 := by unsigned_word UInt16 16
instance : LawfulWord UInt32 := by unsigned_word UInt32 32
instance : LawfulWord UInt64 := by unsigned_word UInt64 64

end instances

/-- the exact value `e` is a value of the type -/
def Fits (T : Type) [IntWord T] (e : ℤ) : Prop := lo T ≤ e ∧ e ≤ hi T

/-- the sum of the first `k` terms -/
def prefixSum {n : Nat} (f : Fin n → ℤ) (k : Nat) : ℤ := ∑ i, if i.val < k then f i else 0

section
variable {T : Type} [IntWord T] [Scalar T] [Add T] [Sub T] [Mul T] [Div T] [LawfulWord T]

theorem word_exact {x : T} {e : ℤ} (h : (hi T - lo T + 1) ∣ toZ x - e) (hf : Fits T e) : toZ x = e := by
  obtain ⟨k, hk⟩ := h
  have h1 := LawfulWord.lo_le x
  have h2 := LawfulWord.le_hi x
  obtain ⟨h3, h4⟩ := hf
  have hk0 : k = 0 := by
    rcases lt_trichotomy k 0 with h | h | h
    · have : (hi T - lo T + 1) * k ≤ (hi T - lo T + 1) * (-1) := mul_le_mul_of_nonneg_left (by omega) (by omega)
      linarith
    · exact h
    · have : (hi T - lo T + 1) * 1 ≤ (hi T - lo T + 1) * k := mul_le_mul_of_nonneg_left (by omega) (by omega)
      linarith
  rw [hk0, mul_zero] at hk
  linarith

theorem fits_toZ (x : T) : Fits T (toZ x) := ⟨LawfulWord.lo_le x, LawfulWord.le_hi x⟩

theorem arith_debug {e : ℤ} {w z : T} (h : (hi T - lo T + 1) ∣ toZ w - e) : arith .debug e w = some z ↔ toZ z = e := by
  by_cases hf : Fits T e
  · have hw := word_exact h hf
    simp only [arith, fitsB, hf.1, hf.2, decide_true, Bool.and_true, if_true, Option.some.injEq]
    constructor
    · rintro rfl; exact hw
    · intro hz; exact LawfulWord.inj _ _ (hw.trans hz.symm)
  · have : fitsB T e = false := by
      rw [Bool.eq_false_iff]
      intro hc
      simp only [fitsB, Bool.and_eq_true, decide_eq_true_eq] at hc
      exact hf hc
    simp only [arith, this]
    constructor
    · intro h; cases h
    · intro hz; exact absurd (hz ▸ fits_toZ z) hf

theorem run_add {b : Build} {x y : Chk b T} {z : T} : (x + y).run = some z ↔
    ∃ u v, x.run = some u ∧ y.run = some v ∧ arith b (toZ u + toZ v) (u + v) = some z := by
  change (x.run.bind fun a => y.run.bind fun c => arith b (toZ a + toZ c) (a + c)) = some z ↔ _
  rcases x.run with _ | u <;> rcases y.run with _ | v <;> simp
theorem run_sub {b : Build} {x y : Chk b T} {z : T} : (x - y).run = some z ↔
    ∃ u v, x.run = some u ∧ y.run = some v ∧ arith b (toZ u - toZ v) (u - v) = some z := by
  change (x.run.bind fun a => y.run.bind fun c => arith b (toZ a - toZ c) (a - c)) = some z ↔ _
  rcases x.run with _ | u <;> rcases y.run with _ | v <;> simp
theorem run_mul {b : Build} {x y : Chk b T} {z : T} : (x * y).run = some z ↔
    ∃ u v, x.run = some u ∧ y.run = some v ∧ arith b (toZ u * toZ v) (u * v) = some z := by
  change (x.run.bind fun a => y.run.bind fun c => arith b (toZ a * toZ c) (a * c)) = some z ↔ _
  rcases x.run with _ | u <;> rcases y.run with _ | v <;> simp
theorem run_of {b : Build} {x z : T} : (of b x).run = some z ↔ x = z := by
  change some x = some z ↔ _
  exact Option.some_inj

/-- C146: on single integers, a debug build returns exactly the exact sum, difference or product (and panics when the type has
no such value); a release build always returns, and what it returns is the exact result modulo the size of the type. -/
theorem C146_integers (x y z : T) :
    ((of .debug x + of .debug y).run = some z ↔ toZ z = toZ x + toZ y) ∧
      ((of .debug x - of .debug y).run = some z ↔ toZ z = toZ x - toZ y) ∧
      ((of .debug x * of .debug y).run = some z ↔ toZ z = toZ x * toZ y) ∧
      ((Scalar.square (of .debug x)).run = some z ↔ toZ z = toZ x ^ 2) ∧
      ((of .release x + of .release y).run = some (x + y) ∧ (hi T - lo T + 1) ∣ toZ (x + y) - (toZ x + toZ y)) ∧
      ((of .release x - of .release y).run = some (x - y) ∧ (hi T - lo T + 1) ∣ toZ (x - y) - (toZ x - toZ y)) ∧
      ((of .release x * of .release y).run = some (x * y) ∧ (hi T - lo T + 1) ∣ toZ (x * y) - toZ x * toZ y) := by
  have hm : ∀ x y z : T, (of .debug x * of .debug y).run = some z ↔ toZ z = toZ x * toZ y := fun x y z =>
    arith_debug (LawfulWord.mul x y)
  refine ⟨arith_debug (LawfulWord.add x y), arith_debug (LawfulWord.sub x y), hm x y z, ?_, ⟨rfl, LawfulWord.add x y⟩,
    ⟨rfl, LawfulWord.sub x y⟩, ⟨rfl, LawfulWord.mul x y⟩⟩
  rw [sq]
  exact hm x x z

/-- C146: in both builds integer division returns the quotient rounded towards zero, and returns nothing else: it panics
for a zero divisor and for the quotient `MIN / -1` that the type cannot hold. -/
theorem C146_division (b : Build) (x y z : T) :
    ((of b x / of b y).run = some z ↔ toZ y ≠ 0 ∧ toZ z = (toZ x).tdiv (toZ y)) ∧
      ((of b x / of b y).run = none ↔ toZ y = 0 ∨ (toZ x = lo T ∧ toZ y = -1)) := by
  change ((if toZ y = 0 ∨ (toZ x = lo T ∧ toZ y = -1) then none else some (x / y)) = some z ↔ _) ∧
    ((if toZ y = 0 ∨ (toZ x = lo T ∧ toZ y = -1) then none else some (x / y)) = none ↔ _)
  by_cases h : toZ y = 0 ∨ (toZ x = lo T ∧ toZ y = -1)
  · rw [if_pos h]
    refine ⟨⟨(fun h => nomatch h), ?_⟩, iff_of_true rfl h⟩
    rintro ⟨h0, hz⟩
    rcases h with h | h
    · exact absurd h h0
    · have := LawfulWord.div_out x y h.1 h.2
      have := LawfulWord.le_hi z
      omega
  · rw [if_neg h]
    refine ⟨?_, iff_of_false (by simp) h⟩
    have hd := LawfulWord.div x y h
    rw [Option.some_inj]
    constructor
    · rintro rfl; exact ⟨fun h0 => h (.inl h0), hd⟩
    · intro hz; exact LawfulWord.inj _ _ (hd.trans hz.2.symm)

section vectors
variable {n : Nat} {U I : Marker}

/-- C146: the componentwise operations of vectors in a debug build return exactly the exact result. -/
theorem C146_vectors (a c w : GVec T n U) (a' c' w' : Vec T n) (t : T) :
    (Returns (ofVec .debug a + ofVec .debug c) w ↔ ∀ i, toZ (w.vec i) = toZ (a.vec i) + toZ (c.vec i)) ∧
      (Returns (ofVec .debug a' - ofVec .debug c') w' ↔ ∀ i, toZ (w'.vec i) = toZ (a'.vec i) - toZ (c'.vec i)) ∧
      (Returns (ofVec .debug a * ofVec .debug c) w ↔ ∀ i, toZ (w.vec i) = toZ (a.vec i) * toZ (c.vec i)) ∧
      (Returns (ofVec .debug a * of .debug t) w ↔ ∀ i, toZ (w.vec i) = toZ (a.vec i) * toZ t) :=
  ⟨forall_congr' fun i => (C146_integers (a.vec i) (c.vec i) (w.vec i)).1,
    forall_congr' fun i => (C146_integers (a'.vec i) (c'.vec i) (w'.vec i)).2.1,
    forall_congr' fun i => (C146_integers (a.vec i) (c.vec i) (w.vec i)).2.2.1,
    forall_congr' fun i => (C146_integers (a.vec i) t (w.vec i)).2.2.1⟩

/-- C146: moving a point by a vector and the difference of two points. -/
theorem C146_points (p q r : Point T n) (v d : Vec T n) :
    (Returns (ofVec .debug p - ofVec .debug q : Vec (Chk .debug T) n) d ↔ ∀ i, toZ (d.vec i) = toZ (p.vec i) - toZ (q.vec i)) ∧
      (Returns (ofVec .debug p + ofVec .debug v : Point (Chk .debug T) n) r ↔
        ∀ i, toZ (r.vec i) = toZ (p.vec i) + toZ (v.vec i)) ∧
      (Returns (ofVec .debug v + ofVec .debug p : Point (Chk .debug T) n) r ↔
        ∀ i, toZ (r.vec i) = toZ (v.vec i) + toZ (p.vec i)) ∧
      (Returns (ofVec .debug p - ofVec .debug v : Point (Chk .debug T) n) r ↔
        ∀ i, toZ (r.vec i) = toZ (p.vec i) - toZ (v.vec i)) :=
  ⟨forall_congr' fun i => (C146_integers (p.vec i) (q.vec i) (d.vec i)).2.1,
    forall_congr' fun i => (C146_integers (p.vec i) (v.vec i) (r.vec i)).1,
    forall_congr' fun i => (C146_integers (v.vec i) (p.vec i) (r.vec i)).1,
    forall_congr' fun i => (C146_integers (p.vec i) (v.vec i) (r.vec i)).2.1⟩

/-- C146: dividing vectors, by a vector and by a scalar, in both builds. -/
theorem C146_vector_division (b : Build) (a c w : GVec T n U) (t : T) :
    (Returns (ofVec b a / ofVec b c) w ↔
        ∀ i, toZ (c.vec i) ≠ 0 ∧ toZ (w.vec i) = (toZ (a.vec i)).tdiv (toZ (c.vec i))) ∧
      (Returns (ofVec b a / of b t) w ↔ ∀ i, toZ t ≠ 0 ∧ toZ (w.vec i) = (toZ (a.vec i)).tdiv (toZ t)) :=
  ⟨forall_congr' fun i => (C146_division b (a.vec i) (c.vec i) (w.vec i)).1,
    forall_congr' fun i => (C146_division b (a.vec i) t (w.vec i)).1⟩

/-- C146: negating a signed vector: exact in a debug build (so it panics on `MIN`); in a release build exact modulo the size. -/
theorem C146_neg [Neg T] [LawfulNeg T] (a w : GVec T n U) :
    (Returns (-ofVec .debug a) w ↔ ∀ i, toZ (w.vec i) = -toZ (a.vec i)) ∧
      Returns (-ofVec .release a) (-a) ∧ ∀ i, (hi T - lo T + 1) ∣ toZ ((-a).vec i) - -toZ (a.vec i) :=
  ⟨forall_congr' fun i => arith_debug (LawfulNeg.neg (a.vec i)), fun _ => rfl, fun i => LawfulNeg.neg (a.vec i)⟩

theorem prefixSum_castSucc {n : Nat} (f : Fin (n + 1) → ℤ) {k : Nat} (hk : k ≤ n) :
    prefixSum (fun i : Fin n => f i.castSucc) k = prefixSum f k := by
  unfold prefixSum
  rw [Fin.sum_univ_castSucc (f := fun i => if i.val < k then f i else 0)]
  simp [Nat.not_lt.2 hk]

theorem prefixSum_all {n : Nat} (f : Fin n → ℤ) : prefixSum f n = ∑ i, f i :=
  Finset.sum_congr rfl fun i _ => if_pos i.isLt

/-- A debug accumulation loop: the terms must be computed, and every running total must fit. -/
theorem sum_debug : ∀ (n : Nat) (f : Fin n → Chk .debug T) (g : Fin n → ℤ)
    (_ : ∀ i z, (f i).run = some z ↔ toZ z = g i) (z : T),
    (sumLoop n f).run = some z ↔ (∀ i, Fits T (g i)) ∧ (∀ k ≤ n, Fits T (prefixSum g k)) ∧ toZ z = ∑ i, g i
  | 0, f, g, _, z => by
    change (of .debug Scalar.zero).run = some z ↔ _
    rw [run_of]
    constructor
    · rintro rfl
      refine ⟨fun i => i.elim0, fun k _ => ?_, ?_⟩
      · have := fits_toZ (Scalar.zero : T)
        rw [LawfulWord.zero] at this
        simpa [prefixSum] using this
      · simpa using LawfulWord.zero
    · rintro ⟨_, _, h⟩
      refine LawfulWord.inj _ _ ?_
      rw [h, LawfulWord.zero]
      simp
  | n + 1, f, g, hf, z => by
    change (sumLoop n (fun i => f i.castSucc) + f (Fin.last n)).run = some z ↔ _
    rw [run_add]
    have ih := sum_debug n (fun i => f i.castSucc) (fun i => g i.castSucc) (fun i z => hf _ z)
    constructor
    · rintro ⟨u, v, hu, hv, hz⟩
      rw [ih] at hu
      rw [hf] at hv
      rw [arith_debug (LawfulWord.add u v)] at hz
      obtain ⟨h1, h2, h3⟩ := hu
      have htot : toZ z = ∑ i, g i := by rw [hz, h3, hv, Fin.sum_univ_castSucc]
      refine ⟨fun i => ?_, fun k hk => ?_, htot⟩
      · induction i using Fin.lastCases with
        | last => exact hv ▸ fits_toZ v
        | cast i => exact h1 i
      · rcases Nat.lt_or_ge n k with h | h
        · have : k = n + 1 := by omega
          subst this
          rw [prefixSum_all, ← htot]
          exact fits_toZ z
        · rw [← prefixSum_castSucc g h]
          exact h2 k h
    · rintro ⟨h1, h2, h3⟩
      have hp : Fits T (∑ i : Fin n, g i.castSucc) := by
        rw [← prefixSum_all, prefixSum_castSucc g le_rfl]
        exact h2 n (by omega)
      obtain ⟨u, hu⟩ := LawfulWord.onto _ hp.1 hp.2
      obtain ⟨v, hv⟩ := LawfulWord.onto _ (h1 (Fin.last n)).1 (h1 (Fin.last n)).2
      refine ⟨u, v, (ih u).2 ⟨fun i => h1 _, fun k hk => ?_, hu⟩, (hf _ v).2 hv, ?_⟩
      · rw [prefixSum_castSucc g hk]
        exact h2 k (by omega)
      · rw [arith_debug (LawfulWord.add u v), h3, Fin.sum_univ_castSucc, hu, hv]

/-- A release accumulation loop: right modulo the size of the type. -/
theorem sum_release : ∀ (n : Nat) (f : Fin n → Chk .release T) (f' : Fin n → T) (g : Fin n → ℤ)
    (_ : ∀ i, (f i).run = some (f' i)) (_ : ∀ i, (hi T - lo T + 1) ∣ toZ (f' i) - g i),
    (sumLoop n f).run = some (sumLoop n f') ∧ (hi T - lo T + 1) ∣ toZ (sumLoop n f') - ∑ i, g i
  | 0, _, _, _, _, _ => by
    refine ⟨rfl, ?_⟩
    change _ ∣ toZ (Scalar.zero : T) - _
    rw [LawfulWord.zero]
    simp
  | n + 1, f, f', g, h1, h2 => by
    obtain ⟨i1, i2⟩ := sum_release n (fun i => f i.castSucc) (fun i => f' i.castSucc) (fun i => g i.castSucc)
      (fun i => h1 _) (fun i => h2 _)
    refine ⟨run_add.2 ⟨_, _, i1, h1 _, rfl⟩, ?_⟩
    change _ ∣ toZ (sumLoop n (fun i => f' i.castSucc) + f' (Fin.last n)) - _
    have := dvd_add (dvd_add (LawfulWord.add (sumLoop n (fun i => f' i.castSucc)) (f' (Fin.last n))) i2) (h2 (Fin.last n))
    rw [Fin.sum_univ_castSucc]
    refine dvd_move this ?_
    ring

theorem agree_of {d r : Option T} {e : ℤ} {w : T} (hd : ∀ z, d = some z → toZ z = e) (hr : r = some w)
    (hw : (hi T - lo T + 1) ∣ toZ w - e) : ∀ z, d = some z → r = some z := fun z hz => by
  have he := hd z hz
  rw [hr, Option.some_inj]
  exact LawfulWord.inj _ _ ((word_exact hw (he ▸ fits_toZ z)).trans he.symm)

/-- C146: `dot` in a debug build returns `z` exactly when every product and every running total fits the type and `z` is the
exact inner product. -/
theorem C146_dot_debug (a : GVec T n U) (c : GVec T n I) (z : T) :
    (GVec.dot (ofVec .debug a) (ofVec .debug c)).run = some z ↔
      (∀ i, Fits T (toZ (a.vec i) * toZ (c.vec i))) ∧
        (∀ k ≤ n, Fits T (prefixSum (fun i => toZ (a.vec i) * toZ (c.vec i)) k)) ∧
        toZ z = ∑ i, toZ (a.vec i) * toZ (c.vec i) :=
  sum_debug n _ _ (fun i z => (C146_integers (a.vec i) (c.vec i) z).2.2.1) z

/-- C146: `dot` in a release build always returns; the result is exact modulo the size of the type, hence exact whenever the
inner product itself fits, even if an intermediate value did not; and it is the debug result when there is one. -/
theorem C146_dot_release (a : GVec T n U) (c : GVec T n I) :
    (GVec.dot (ofVec .release a) (ofVec .release c)).run = some (GVec.dot a c) ∧
      (hi T - lo T + 1) ∣ toZ (GVec.dot a c) - ∑ i, toZ (a.vec i) * toZ (c.vec i) ∧
      (Fits T (∑ i, toZ (a.vec i) * toZ (c.vec i)) → toZ (GVec.dot a c) = ∑ i, toZ (a.vec i) * toZ (c.vec i)) ∧
      ∀ z, (GVec.dot (ofVec .debug a) (ofVec .debug c)).run = some z →
        (GVec.dot (ofVec .release a) (ofVec .release c)).run = some z := by
  obtain ⟨h1, h2⟩ := sum_release n (fun i => (ofVec .release a).vec i * (ofVec .release c).vec i)
    (fun i => a.vec i * c.vec i) (fun i => toZ (a.vec i) * toZ (c.vec i)) (fun i => rfl) (fun i => LawfulWord.mul _ _)
  exact ⟨h1, h2, word_exact h2, agree_of (fun z hz => ((C146_dot_debug a c z).1 hz).2.2) h1 h2⟩

/-- C146: `square_norm` in both builds.  The running totals of squares only grow, so a debug build panics exactly when the
square norm does not fit. -/
theorem C146_square_norm (a : GVec T n U) (z : T) :
    ((GVec.squareNorm (ofVec .debug a)).run = some z ↔ toZ z = ∑ i, toZ (a.vec i) ^ 2) ∧
      (GVec.squareNorm (ofVec .release a)).run = some (GVec.squareNorm a) ∧
      ((hi T - lo T + 1) ∣ toZ (GVec.squareNorm a) - ∑ i, toZ (a.vec i) ^ 2) := by
  have hlo : lo T ≤ 0 := by have := LawfulWord.lo_le (Scalar.zero : T); rwa [LawfulWord.zero] at this
  have key : (GVec.squareNorm (ofVec .debug a)).run = some z ↔ (∀ i, Fits T (toZ (a.vec i) ^ 2)) ∧
      (∀ k ≤ n, Fits T (prefixSum (fun i => toZ (a.vec i) ^ 2) k)) ∧ toZ z = ∑ i, toZ (a.vec i) ^ 2 :=
    sum_debug n _ _ (fun i z => (C146_integers (a.vec i) (a.vec i) z).2.2.2.1) z
  refine ⟨?_, ?_⟩
  · rw [key]
    refine ⟨fun h => h.2.2, fun h => ?_⟩
    have hh : ∑ i, toZ (a.vec i) ^ 2 ≤ hi T := h ▸ LawfulWord.le_hi z
    refine ⟨fun i => ⟨hlo.trans (sq_nonneg _), le_trans ?_ hh⟩, fun k _ => ⟨?_, le_trans ?_ hh⟩, h⟩
    · exact Finset.single_le_sum (f := fun i => toZ (a.vec i) ^ 2) (fun i _ => sq_nonneg _) (Finset.mem_univ i)
    · exact hlo.trans (Finset.sum_nonneg fun i _ => by split_ifs <;> positivity)
    · exact Finset.sum_le_sum fun i _ => by split_ifs <;> first | exact le_rfl | positivity
  · exact sum_release n (fun i => Scalar.square ((ofVec .release a).vec i)) (fun i => Scalar.square (a.vec i)) _
      (fun i => by rw [LawfulWord.square (a.vec i)]; rfl)
      (fun i => by rw [LawfulWord.square, sq]; exact LawfulWord.mul _ _)

/-- C146: so a square norm computed without a panic is not negative, and zero only for the zero vector. -/
theorem C146_square_norm_sign (a : GVec T n U) (z : T) (h : (GVec.squareNorm (ofVec .debug a)).run = some z) :
    0 ≤ toZ z ∧ (toZ z = 0 ↔ ∀ i, toZ (a.vec i) = 0) := by
  rw [(C146_square_norm a z).1] at h
  rw [h]
  refine ⟨Finset.sum_nonneg fun i _ => sq_nonneg _, ?_⟩
  rw [Finset.sum_eq_zero_iff_of_nonneg fun i _ => sq_nonneg _]
  simp

/-- C146: `cross` in a debug build returns `w` exactly when the six products fit and `w` is the exact cross product. -/
theorem C146_cross_debug (a c w : GVec T 3 U) :
    Returns (GVec.cross (ofVec .debug a) (ofVec .debug c)) w ↔
      (∀ i j, i ≠ j → Fits T (toZ (a.vec i) * toZ (c.vec j))) ∧
        toZ w.x = toZ a.y * toZ c.z - toZ a.z * toZ c.y ∧ toZ w.y = toZ a.z * toZ c.x - toZ a.x * toZ c.z ∧
        toZ w.z = toZ a.x * toZ c.y - toZ a.y * toZ c.x := by
  have comp : ∀ p q r s w : T, (of .debug p * of .debug q - of .debug r * of .debug s).run = some w ↔
      Fits T (toZ p * toZ q) ∧ Fits T (toZ r * toZ s) ∧ toZ w = toZ p * toZ q - toZ r * toZ s := by
    intro p q r s w
    rw [run_sub]
    constructor
    · rintro ⟨u, v, hu, hv, hw⟩
      rw [(C146_integers p q u).2.2.1] at hu
      rw [(C146_integers r s v).2.2.1] at hv
      rw [arith_debug (LawfulWord.sub u v), hu, hv] at hw
      exact ⟨hu ▸ fits_toZ u, hv ▸ fits_toZ v, hw⟩
    · rintro ⟨h1, h2, hw⟩
      obtain ⟨u, hu⟩ := LawfulWord.onto _ h1.1 h1.2
      obtain ⟨v, hv⟩ := LawfulWord.onto _ h2.1 h2.2
      exact ⟨u, v, (C146_integers p q u).2.2.1.2 hu, (C146_integers r s v).2.2.1.2 hv, by
        rw [arith_debug (LawfulWord.sub u v), hu, hv, hw]⟩
  have hsplit : Returns (GVec.cross (ofVec .debug a) (ofVec .debug c)) w ↔
      (of .debug a.y * of .debug c.z - of .debug a.z * of .debug c.y).run = some w.x ∧
      (of .debug a.z * of .debug c.x - of .debug a.x * of .debug c.z).run = some w.y ∧
      (of .debug a.x * of .debug c.y - of .debug a.y * of .debug c.x).run = some w.z := by
    constructor
    · intro h; exact ⟨h 0, h 1, h 2⟩
    · rintro ⟨h0, h1, h2⟩ i
      fin_cases i
      · exact h0
      · exact h1
      · exact h2
  rw [hsplit, comp, comp, comp]
  have hall : (∀ i j : Fin 3, i ≠ j → Fits T (toZ (a.vec i) * toZ (c.vec j))) ↔
      (Fits T (toZ a.y * toZ c.z) ∧ Fits T (toZ a.z * toZ c.y)) ∧ (Fits T (toZ a.z * toZ c.x) ∧ Fits T (toZ a.x * toZ c.z)) ∧
      (Fits T (toZ a.x * toZ c.y) ∧ Fits T (toZ a.y * toZ c.x)) := by
    constructor
    · intro h
      exact ⟨⟨h 1 2 (by decide), h 2 1 (by decide)⟩, ⟨h 2 0 (by decide), h 0 2 (by decide)⟩, h 0 1 (by decide), h 1 0 (by decide)⟩
    · rintro ⟨⟨h1, h2⟩, ⟨h3, h4⟩, h5, h6⟩ i j hij
      fin_cases i <;> fin_cases j <;> first | exact absurd rfl hij | assumption
  rw [hall]
  tauto

/-- C146: `cross` in a release build always returns and is exact modulo the size of the type. -/
theorem C146_cross_release (a c : GVec T 3 U) :
    Returns (GVec.cross (ofVec .release a) (ofVec .release c)) (GVec.cross a c) ∧
      (hi T - lo T + 1) ∣ toZ (GVec.cross a c).x - (toZ a.y * toZ c.z - toZ a.z * toZ c.y) ∧
      (hi T - lo T + 1) ∣ toZ (GVec.cross a c).y - (toZ a.z * toZ c.x - toZ a.x * toZ c.z) ∧
      (hi T - lo T + 1) ∣ toZ (GVec.cross a c).z - (toZ a.x * toZ c.y - toZ a.y * toZ c.x) ∧
      ∀ w, Returns (GVec.cross (ofVec .debug a) (ofVec .debug c)) w →
        Returns (GVec.cross (ofVec .release a) (ofVec .release c)) w := by
  have comp : ∀ p q r s : T, (hi T - lo T + 1) ∣ toZ (p * q - r * s) - (toZ p * toZ q - toZ r * toZ s) := by
    intro p q r s
    have := dvd_sub (dvd_add (LawfulWord.sub (p * q) (r * s)) (LawfulWord.mul p q)) (LawfulWord.mul r s)
    refine dvd_move this ?_
    ring
  have hret : Returns (GVec.cross (ofVec .release a) (ofVec .release c)) (GVec.cross a c) := by
    intro i
    fin_cases i <;> rfl
  refine ⟨hret, comp _ _ _ _, comp _ _ _ _, comp _ _ _ _, fun w hw => ?_⟩
  obtain ⟨_, h0, h1, h2⟩ := (C146_cross_debug a c w).1 hw
  have e : GVec.cross a c = w := by
    apply GVec.ext
    funext i
    have e0 := word_exact (comp a.y c.z a.z c.y) (h0 ▸ fits_toZ w.x)
    have e1 := word_exact (comp a.z c.x a.x c.z) (h1 ▸ fits_toZ w.y)
    have e2 := word_exact (comp a.x c.y a.y c.x) (h2 ▸ fits_toZ w.z)
    fin_cases i
    · exact LawfulWord.inj _ _ (e0.trans h0.symm)
    · exact LawfulWord.inj _ _ (e1.trans h1.symm)
    · exact LawfulWord.inj _ _ (e2.trans h2.symm)
  exact e ▸ hret

end vectors

/-- C146: the product of integer matrices in both builds. -/
theorem C146_matrix (a c w : Mat4 T) :
    (ReturnsM (ofMat .debug a * ofMat .debug c) w ↔ ∀ i j,
      (∀ k, Fits T (toZ (a.idx i k) * toZ (c.idx k j))) ∧
        (∀ m ≤ 4, Fits T (prefixSum (fun k => toZ (a.idx i k) * toZ (c.idx k j)) m)) ∧
        toZ (w.idx i j) = ∑ k, toZ (a.idx i k) * toZ (c.idx k j)) ∧
      ReturnsM (ofMat .release a * ofMat .release c) (a * c) ∧
      (∀ i j, (hi T - lo T + 1) ∣ toZ ((a * c).idx i j) - ∑ k, toZ (a.idx i k) * toZ (c.idx k j)) ∧
      (ReturnsM (ofMat .debug a * ofMat .debug c) w → w = a * c) := by
  have h1 : ReturnsM (ofMat .debug a * ofMat .debug c) w ↔ ∀ i j,
      (∀ k, Fits T (toZ (a.idx i k) * toZ (c.idx k j))) ∧
        (∀ m ≤ 4, Fits T (prefixSum (fun k => toZ (a.idx i k) * toZ (c.idx k j)) m)) ∧
        toZ (w.idx i j) = ∑ k, toZ (a.idx i k) * toZ (c.idx k j) :=
    forall_congr' fun i => forall_congr' fun j =>
      sum_debug 4 _ _ (fun k z => (C146_integers (a.data i k) (c.data k j) z).2.2.1) (w.data i j)
  have h2 : ∀ i j, ((ofMat .release a * ofMat .release c).data i j).run = some ((a * c).data i j) ∧
      (hi T - lo T + 1) ∣ toZ ((a * c).data i j) - ∑ k, toZ (a.data i k) * toZ (c.data k j) := fun i j =>
    sum_release 4 (fun k => (ofMat .release a).data i k * (ofMat .release c).data k j)
      (fun k => a.data i k * c.data k j) (fun k => toZ (a.data i k) * toZ (c.data k j)) (fun k => rfl)
      (fun k => LawfulWord.mul _ _)
  refine ⟨h1, fun i j => (h2 i j).1, fun i j => (h2 i j).2, fun h => ?_⟩
  refine Mat4.ext (funext₂ fun i j => ?_)
  have he : toZ (w.data i j) = _ := ((h1.1 h) i j).2.2
  exact LawfulWord.inj _ _ (he.trans (word_exact (h2 i j).2 (he ▸ fits_toZ _)).symm)

end

/-- C146: the debug build of `dot` also panics on inner products that fit: (65536, 65536, 0)·(65536, -65536, 0) = 0 is
returned by a release build of `Vector3i` and panics in a debug build. -/
theorem C146_dot_spurious :
    let a : Vec Int32 3 := GVec.new3 65536 65536 0
    let c : Vec Int32 3 := GVec.new3 65536 (-65536) 0
    (∑ i, toZ (a.vec i) * toZ (c.vec i)) = 0 ∧ (GVec.dot (ofVec .debug a) (ofVec .debug c)).run = none ∧
      (GVec.dot (ofVec .release a) (ofVec .release c)).run = some 0 := by
  decide +kernel

/-- C146: a release build's square norm can be zero for a vector that is not, or negative. -/
theorem C146_square_norm_wraps :
    let a : Vec Int32 3 := GVec.new3 65536 0 0
    let c : Vec Int32 3 := GVec.new3 46341 0 0
    (GVec.squareNorm (ofVec .release a)).run = some 0 ∧ (GVec.squareNorm (ofVec .debug a)).run = none ∧
      (GVec.squareNorm (ofVec .release c)).run = some (-2147479015) ∧ (GVec.squareNorm (ofVec .debug c)).run = none := by
  decide +kernel

/-- A case with non-zero components in which nothing overflows, one with a panic, and divisions. -/
example : (GVec.dot (ofVec .debug (GVec.new3 3 (-4) 5 : Vec Int32 3)) (ofVec .debug (GVec.new3 7 8 9 : Vec Int32 3))).run = some 34 ∧
    (of .debug (200 : UInt8) + of .debug 100).run = none ∧ (of .release (200 : UInt8) + of .release 100).run = some 44 ∧
    (of .release (-7 : Int32) / of .release 2).run = some (-3) ∧ (of .release (-128 : Int8) / of .release (-1)).run = none := by
  decide +kernel

end Scarlet
