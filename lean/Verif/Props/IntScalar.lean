import Verif.Model.Scalar
import Mathlib.Tactic.Ring
import Mathlib.Tactic.NormNum
import Mathlib.Tactic.Linarith

/-! C98 (the eight integer scalar types). -/

set_option linter.unusedSectionVars false

namespace Scarlet

/-- What a user of an integer scalar type with values `lo..hi` relies on; `toZ` is the value. -/
structure IntScalarSpec (T : Type) [Scalar T] [Add T] (toZ : T → ℤ) (lo hi : ℤ) : Prop where
  range : ∀ x, lo ≤ toZ x ∧ toZ x ≤ hi
  lowest : toZ Scalar.lowest = lo
  highest : toZ Scalar.highest = hi
  zero : toZ Scalar.zero = 0
  one : toZ Scalar.one = 1
  two : toZ Scalar.two = 2
  eq : ∀ x y, Scalar.eq x y = true ↔ toZ x = toZ y
  isZero : ∀ x, Scalar.isZero x = true ↔ toZ x = 0
  isOne : ∀ x, Scalar.isOne x = true ↔ toZ x = 1
  lt : ∀ x y, Scalar.lt x y = true ↔ toZ x < toZ y
  le : ∀ x y, Scalar.le x y = true ↔ toZ x ≤ toZ y
  min : ∀ x y, toZ (Scalar.min x y) = Min.min (toZ x) (toZ y)
  max : ∀ x y, toZ (Scalar.max x y) = Max.max (toZ x) (toZ y)
  minMax : ∀ x y, (toZ (Scalar.minMax x y).1, toZ (Scalar.minMax x y).2) = (Min.min (toZ x) (toZ y), Max.max (toZ x) (toZ y))
  clamp : ∀ x l h, toZ l ≤ toZ h → toZ (Scalar.clamp x l h) = Max.max (toZ l) (Min.min (toZ h) (toZ x))
  inRange : ∀ x l h, Scalar.inRange x l h = true ↔ toZ l ≤ toZ x ∧ toZ x ≤ toZ h
  /-- the square is right modulo the size of the type, hence right whenever it is representable -/
  square : ∀ x, (hi - lo + 1) ∣ toZ (Scalar.square x) - toZ x ^ 2
  square_exact : ∀ x, toZ x ^ 2 ≤ hi → toZ (Scalar.square x) = toZ x ^ 2

/-- `partial_cmp` is the comparison of the values. -/
def CmpBy {T : Type} [Scalar T] (toZ : T → ℤ) : Prop :=
  ∀ a b : T, Scalar.pcmp a b = if toZ a < toZ b then some .lt else if toZ a = toZ b then some .eq else some .gt

section
variable {T : Type} [Scalar T] [Add T] {toZ : T → ℤ}

theorem lt_by (h : CmpBy toZ) (x y : T) : Scalar.lt x y = true ↔ toZ x < toZ y := by
  unfold Scalar.lt
  rw [h x y]
  by_cases h1 : toZ x < toZ y
  · simp [h1]
  · by_cases h2 : toZ x = toZ y <;> simp [h1, h2]
theorem gt_by (h : CmpBy toZ) (x y : T) : Scalar.gt x y = true ↔ toZ y < toZ x := by
  unfold Scalar.gt
  rw [h x y]
  by_cases h1 : toZ x < toZ y
  · simp [h1]; omega
  · by_cases h2 : toZ x = toZ y
    · simp [h2]
    · simp [h1, h2]; omega
theorem le_by (h : CmpBy toZ) (x y : T) : Scalar.le x y = true ↔ toZ x ≤ toZ y := by
  unfold Scalar.le
  rw [h x y]
  by_cases h1 : toZ x < toZ y
  · simp [h1]; omega
  · by_cases h2 : toZ x = toZ y
    · simp [h2]
    · simp [h1, h2]; omega
theorem ge_by (h : CmpBy toZ) (x y : T) : Scalar.ge x y = true ↔ toZ y ≤ toZ x := by
  unfold Scalar.ge
  rw [h x y]
  by_cases h1 : toZ x < toZ y
  · simp [h1]
  · by_cases h2 : toZ x = toZ y
    · simp [h2]
    · simp [h1, h2]; omega

theorem intScalar_of (lo hi : ℤ) (h : CmpBy toZ) (heq : ∀ x y : T, Scalar.eq x y = true ↔ toZ x = toZ y)
    (hmin : ∀ x y : T, Scalar.min x y = if Scalar.lt x y then x else y)
    (hmax : ∀ x y : T, Scalar.max x y = if Scalar.gt x y then x else y)
    (hr : ∀ x, lo ≤ toZ x ∧ toZ x ≤ hi) (h1 : toZ Scalar.lowest = lo) (h2 : toZ Scalar.highest = hi) (h3 : toZ Scalar.zero = 0)
    (h4 : toZ Scalar.one = 1) (h5 : toZ Scalar.two = 2) (h6 : ∀ x : T, (hi - lo + 1) ∣ toZ (Scalar.square x) - toZ x ^ 2)
    (hlo : lo ≤ 0) : IntScalarSpec T toZ lo hi where
  range := hr
  lowest := h1
  highest := h2
  zero := h3
  one := h4
  two := h5
  eq := heq
  isZero x := by unfold Scalar.isZero; rw [heq, h3]
  isOne x := by unfold Scalar.isOne; rw [heq, h4]
  lt := lt_by h
  le := le_by h
  min x y := by
    rw [hmin]
    split
    · rename_i a; rw [lt_by h] at a; omega
    · rename_i a; rw [lt_by h] at a; omega
  max x y := by
    rw [hmax]
    split
    · rename_i a; rw [gt_by h] at a; omega
    · rename_i a; rw [gt_by h] at a; omega
  minMax x y := by
    unfold Scalar.minMax
    split
    · rename_i a; rw [lt_by h] at a
      rw [Prod.mk.injEq]; dsimp only; omega
    · rename_i a; rw [lt_by h] at a
      rw [Prod.mk.injEq]; dsimp only; omega
  clamp x l u hlu := by
    unfold Scalar.clamp
    split
    · rename_i a; rw [lt_by h] at a; omega
    · rename_i a; rw [lt_by h] at a
      split
      · rename_i b; rw [gt_by h] at b; omega
      · rename_i b; rw [gt_by h] at b; omega
  inRange x l u := by
    unfold Scalar.inRange
    rw [Bool.and_eq_true, ge_by h, le_by h]
  square := h6
  square_exact x hx := by
    obtain ⟨k, hk⟩ := h6 x
    obtain ⟨a, b⟩ := hr (Scalar.square x)
    have hp : 0 ≤ toZ x ^ 2 := sq_nonneg _
    have : k = 0 := by
      by_contra hc
      rcases lt_or_gt_of_ne hc with c | c
      · nlinarith
      · nlinarith
    rw [this] at hk
    omega
end

theorem mod_dvd (n m : ℕ) : (m : ℤ) ∣ ((n * n % m : ℕ) : ℤ) - (n : ℤ) * n := by
  refine ⟨-(((n * n / m : ℕ)) : ℤ), ?_⟩
  have := Nat.mod_add_div (n * n) m
  have : ((n * n % m : ℕ) : ℤ) + m * ((n * n / m : ℕ) : ℤ) = (n : ℤ) * n := by exact_mod_cast this
  linarith

/-- C98: `u8`, `u16`, `u32`, `u64`. -/
theorem C98_unsigned :
    IntScalarSpec UInt8 (fun x => (x.toNat : ℤ)) 0 255 ∧ IntScalarSpec UInt16 (fun x => (x.toNat : ℤ)) 0 65535 ∧
    IntScalarSpec UInt32 (fun x => (x.toNat : ℤ)) 0 4294967295 ∧
    IntScalarSpec UInt64 (fun x => (x.toNat : ℤ)) 0 18446744073709551615 := by
  refine ⟨?_, ?_, ?_, ?_⟩
  · refine intScalar_of _ _ ?_ ?_ (fun _ _ => rfl) (fun _ _ => rfl) ?_ rfl rfl rfl rfl rfl ?_ (by norm_num)
    · intro a b; change ordCmp a b = _; unfold ordCmp
      simp only [UInt8.lt_iff_toNat_lt, ← UInt8.toNat_inj, Nat.cast_lt, Nat.cast_inj]
    · intro a b; change (a == b) = true ↔ _; rw [beq_iff_eq, ← UInt8.toNat_inj, Nat.cast_inj]
    · intro x; have := x.toNat_lt; constructor <;> omega
    · intro x; change _ ∣ (((x * x).toNat : ℤ)) - _
      rw [UInt8.toNat_mul, sq]
      exact mod_dvd _ _
  · refine intScalar_of _ _ ?_ ?_ (fun _ _ => rfl) (fun _ _ => rfl) ?_ rfl rfl rfl rfl rfl ?_ (by norm_num)
    · intro a b; change ordCmp a b = _; unfold ordCmp
      simp only [UInt16.lt_iff_toNat_lt, ← UInt16.toNat_inj, Nat.cast_lt, Nat.cast_inj]
    · intro a b; change (a == b) = true ↔ _; rw [beq_iff_eq, ← UInt16.toNat_inj, Nat.cast_inj]
    · intro x; have := x.toNat_lt; constructor <;> omega
    · intro x; change _ ∣ (((x * x).toNat : ℤ)) - _
      rw [UInt16.toNat_mul, sq]
      exact mod_dvd _ _
  · refine intScalar_of _ _ ?_ ?_ (fun _ _ => rfl) (fun _ _ => rfl) ?_ rfl rfl rfl rfl rfl ?_ (by norm_num)
    · intro a b; change ordCmp a b = _; unfold ordCmp
      simp only [UInt32.lt_iff_toNat_lt, ← UInt32.toNat_inj, Nat.cast_lt, Nat.cast_inj]
    · intro a b; change (a == b) = true ↔ _; rw [beq_iff_eq, ← UInt32.toNat_inj, Nat.cast_inj]
    · intro x; have := x.toNat_lt; constructor <;> omega
    · intro x; change _ ∣ (((x * x).toNat : ℤ)) - _
      rw [UInt32.toNat_mul, sq]
      exact mod_dvd _ _
  · refine intScalar_of _ _ ?_ ?_ (fun _ _ => rfl) (fun _ _ => rfl) ?_ rfl rfl rfl rfl rfl ?_ (by norm_num)
    · intro a b; change ordCmp a b = _; unfold ordCmp
      simp only [UInt64.lt_iff_toNat_lt, ← UInt64.toNat_inj, Nat.cast_lt, Nat.cast_inj]
    · intro a b; change (a == b) = true ↔ _; rw [beq_iff_eq, ← UInt64.toNat_inj, Nat.cast_inj]
    · intro x; have := x.toNat_lt; constructor <;> omega
    · intro x; change _ ∣ (((x * x).toNat : ℤ)) - _
      rw [UInt64.toNat_mul, sq]
      exact mod_dvd _ _

/-- C98: `i8`, `i16`, `i32`, `i64`. -/
theorem C98_signed :
    IntScalarSpec Int8 Int8.toInt (-128) 127 ∧ IntScalarSpec Int16 Int16.toInt (-32768) 32767 ∧
    IntScalarSpec Int32 Int32.toInt (-2147483648) 2147483647 ∧
    IntScalarSpec Int64 Int64.toInt (-9223372036854775808) 9223372036854775807 := by
  refine ⟨?_, ?_, ?_, ?_⟩
  · refine intScalar_of _ _ ?_ ?_ (fun _ _ => rfl) (fun _ _ => rfl) ?_ rfl rfl rfl rfl rfl ?_ (by norm_num)
    · intro a b; change ordCmp a b = _; unfold ordCmp; simp only [Int8.lt_iff_toInt_lt, Int8.toInt_inj]
    · intro a b; change (a == b) = true ↔ _; rw [beq_iff_eq, Int8.toInt_inj]
    · intro x; have := x.le_toInt; have := x.toInt_lt; constructor <;> omega
    · intro x; change _ ∣ (x * x).toInt - _
      rw [Int8.toInt_mul, sq]
      exact Int.dvd_bmod_sub_self
  · refine intScalar_of _ _ ?_ ?_ (fun _ _ => rfl) (fun _ _ => rfl) ?_ rfl rfl rfl rfl rfl ?_ (by norm_num)
    · intro a b; change ordCmp a b = _; unfold ordCmp; simp only [Int16.lt_iff_toInt_lt, Int16.toInt_inj]
    · intro a b; change (a == b) = true ↔ _; rw [beq_iff_eq, Int16.toInt_inj]
    · intro x; have := x.le_toInt; have := x.toInt_lt; constructor <;> omega
    · intro x; change _ ∣ (x * x).toInt - _
      rw [Int16.toInt_mul, sq]
      exact Int.dvd_bmod_sub_self
  · refine intScalar_of _ _ ?_ ?_ (fun _ _ => rfl) (fun _ _ => rfl) ?_ rfl rfl rfl rfl rfl ?_ (by norm_num)
    · intro a b; change ordCmp a b = _; unfold ordCmp; simp only [Int32.lt_iff_toInt_lt, Int32.toInt_inj]
    · intro a b; change (a == b) = true ↔ _; rw [beq_iff_eq, Int32.toInt_inj]
    · intro x; have := x.le_toInt; have := x.toInt_lt; constructor <;> omega
    · intro x; change _ ∣ (x * x).toInt - _
      rw [Int32.toInt_mul, sq]
      exact Int.dvd_bmod_sub_self
  · refine intScalar_of _ _ ?_ ?_ (fun _ _ => rfl) (fun _ _ => rfl) ?_ rfl rfl rfl rfl rfl ?_ (by norm_num)
    · intro a b; change ordCmp a b = _; unfold ordCmp; simp only [Int64.lt_iff_toInt_lt, Int64.toInt_inj]
    · intro a b; change (a == b) = true ↔ _; rw [beq_iff_eq, Int64.toInt_inj]
    · intro x; have := x.le_toInt; have := x.toInt_lt; constructor <;> omega
    · intro x; change _ ∣ (x * x).toInt - _
      rw [Int64.toInt_mul, sq]
      exact Int.dvd_bmod_sub_self

/-- The square does wrap around: 16 as a `u8` squares to 0; 11 as an `i8` squares to 121 exactly. -/
example : (Scalar.square (16 : UInt8)).toNat = 0 ∧ (Scalar.square (11 : Int8)).toInt = 121 := by decide
end Scarlet
