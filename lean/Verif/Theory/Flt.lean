import Verif.Float.Ops
import Verif.Model.Scalar

/-! Facts about the float model used by all float theorems: `next_up`/`next_down` as steps of the order key,
comparisons, constants. -/

namespace Scarlet
namespace Flt

variable {mw ew : Nat}

/-! ### next_up / next_down as sign/magnitude functions -/

/-- `next_up` in terms of sign and magnitude bits. -/
def nextUpG (x : Flt mw ew) : Flt mw ew :=
  if x.isNaN || (!x.sgn && decide (x.idx = infIdx mw ew)) then x
  else if x.idx = 0 then ofIdx mw ew false 1
  else if x.sgn then ofIdx mw ew true (x.idx - 1) else ofIdx mw ew false (x.idx + 1)

/-- `next_down` in terms of sign and magnitude bits. -/
def nextDownG (x : Flt mw ew) : Flt mw ew :=
  if x.isNaN || (x.sgn && decide (x.idx = infIdx mw ew)) then x
  else if x.idx = 0 then ofIdx mw ew true 1
  else if x.sgn then ofIdx mw ew true (x.idx + 1) else ofIdx mw ew false (x.idx - 1)

/-- The text of `next_up` for an arbitrary format. -/
def nextUpB (x : Flt mw ew) : Flt mw ew :=
  if x.isNaN || x.bits == BitVec.ofNat _ (infIdx mw ew) then x
  else
    let abs := x.bits &&& BitVec.ofNat _ (2 ^ (mw + ew) - 1)
    let nextBits := if abs == BitVec.ofNat _ 0 then BitVec.ofNat _ 1
      else if x.bits == abs then x.bits + BitVec.ofNat _ 1 else x.bits - BitVec.ofNat _ 1
    ⟨nextBits⟩

/-- The text of `next_down` for an arbitrary format. -/
def nextDownB (x : Flt mw ew) : Flt mw ew :=
  if x.isNaN || x.bits == BitVec.ofNat _ (2 ^ (mw + ew) + infIdx mw ew) then x
  else
    let abs := x.bits &&& BitVec.ofNat _ (2 ^ (mw + ew) - 1)
    let nextBits := if abs == BitVec.ofNat _ 0 then BitVec.ofNat _ (2 ^ (mw + ew) + 1)
      else if x.bits == abs then x.bits - BitVec.ofNat _ 1 else x.bits + BitVec.ofNat _ 1
    ⟨nextBits⟩

theorem bits_eq_ofNat_iff (x : Flt mw ew) (n : Nat) (hn : n < 2 * 2 ^ (mw + ew)) :
    (x.bits == BitVec.ofNat _ n) = decide (x.bits.toNat = n) := by
  rw [Bool.eq_iff_iff]
  simp only [beq_iff_eq, decide_eq_true_eq]
  constructor
  · intro h; rw [h, BitVec.toNat_ofNat, Nat.mod_eq_of_lt (by rw [pow_succ]; omega)]
  · intro h; apply BitVec.eq_of_toNat_eq
    rw [h, BitVec.toNat_ofNat, Nat.mod_eq_of_lt (by rw [pow_succ]; omega)]

theorem abs_toNat (x : Flt mw ew) : (x.bits &&& BitVec.ofNat _ (2 ^ (mw + ew) - 1)).toNat = x.idx := by
  have hp := Nat.two_pow_pos (mw + ew)
  rw [BitVec.toNat_and, BitVec.toNat_ofNat, Nat.mod_eq_of_lt (by rw [pow_succ]; omega),
    Nat.and_two_pow_sub_one_eq_mod]
  rfl

theorem one_lt_pow [h : Fmt mw ew] : 4 * 8 ≤ 2 ^ (mw + ew) := by
  rw [pow_add]
  exact Nat.mul_le_mul (four_le_pow (ew := ew)) (Nat.pow_le_pow_right (n := 2) (i := 3) (by decide) h.hew)

theorem idx_of_notNaN_lt {x : Flt mw ew} (h : x.isNaN = false) : x.idx ≤ infIdx mw ew := notNaN_iff.1 h

theorem nextUpB_eq [h : Fmt mw ew] (x : Flt mw ew) : nextUpB x = nextUpG x := by
  have hp := one_lt_pow (mw := mw) (ew := ew)
  have hI := infIdx_lt mw ew
  have hx := toNat_eq x
  have hi := idx_lt x
  unfold nextUpB nextUpG
  have e1 : (x.bits == BitVec.ofNat _ (infIdx mw ew)) = (!x.sgn && decide (x.idx = infIdx mw ew)) := by
    rw [bits_eq_ofNat_iff _ _ (by omega), hx]
    cases x.sgn
    · simp
    · simp; omega
  rw [e1]
  split
  · rfl
  · rename_i hcond
    have e2 : (x.bits &&& BitVec.ofNat _ (2 ^ (mw + ew) - 1) == BitVec.ofNat _ 0) = decide (x.idx = 0) := by
      rw [Bool.eq_iff_iff]
      simp only [beq_iff_eq, decide_eq_true_eq, ← BitVec.toNat_inj, abs_toNat]
      simp
    have e3 : (x.bits == x.bits &&& BitVec.ofNat _ (2 ^ (mw + ew) - 1)) = !x.sgn := by
      rw [Bool.eq_iff_iff]
      simp only [beq_iff_eq, ← BitVec.toNat_inj, abs_toNat, hx]
      cases x.sgn
      · simp
      · simp
    simp only [e2, e3]
    by_cases h0 : x.idx = 0
    · simp only [h0, decide_true, if_true]
      rfl
    · simp only [h0, decide_false, Bool.false_eq_true, if_false]
      cases hs : x.sgn
      · simp only [Bool.not_false, if_true, Bool.false_eq_true, if_false]
        rw [hs] at hx hcond
        simp only [Bool.or_eq_true, isNaN_iff, Bool.not_false, Bool.true_and, decide_eq_true_eq, not_or, not_lt] at hcond
        unfold ofIdx
        congr 1
        apply BitVec.eq_of_toNat_eq
        rw [BitVec.toNat_add, BitVec.toNat_ofNat, BitVec.toNat_ofNat, hx]
        simp
      · simp only [Bool.not_true, if_true, Bool.false_eq_true, if_false]
        rw [hs] at hx
        simp only [if_true] at hx
        unfold ofIdx
        congr 1
        apply BitVec.eq_of_toNat_eq
        rw [BitVec.toNat_sub, BitVec.toNat_ofNat, BitVec.toNat_ofNat, hx]
        simp only [if_true]
        rw [Nat.mod_eq_of_lt (a := 1) (by rw [pow_succ]; omega), pow_succ]
        rw [show 2 ^ (mw + ew) * 2 - 1 + (2 ^ (mw + ew) + x.idx)
          = (2 ^ (mw + ew) + (x.idx - 1)) + 2 ^ (mw + ew) * 2 by omega, Nat.add_mod_right]

theorem nextDownB_eq [h : Fmt mw ew] (x : Flt mw ew) : nextDownB x = nextDownG x := by
  have hp := one_lt_pow (mw := mw) (ew := ew)
  have hI := infIdx_lt mw ew
  have hx := toNat_eq x
  have hi := idx_lt x
  unfold nextDownB nextDownG
  have e1 : (x.bits == BitVec.ofNat _ (2 ^ (mw + ew) + infIdx mw ew)) = (x.sgn && decide (x.idx = infIdx mw ew)) := by
    rw [bits_eq_ofNat_iff _ _ (by omega), hx]
    cases x.sgn
    · simp; omega
    · simp
  rw [e1]
  split
  · rfl
  · rename_i hcond
    have e2 : (x.bits &&& BitVec.ofNat _ (2 ^ (mw + ew) - 1) == BitVec.ofNat _ 0) = decide (x.idx = 0) := by
      rw [Bool.eq_iff_iff]
      simp only [beq_iff_eq, decide_eq_true_eq, ← BitVec.toNat_inj, abs_toNat]
      simp
    have e3 : (x.bits == x.bits &&& BitVec.ofNat _ (2 ^ (mw + ew) - 1)) = !x.sgn := by
      rw [Bool.eq_iff_iff]
      simp only [beq_iff_eq, ← BitVec.toNat_inj, abs_toNat, hx]
      cases x.sgn
      · simp
      · simp
    simp only [e2, e3]
    by_cases h0 : x.idx = 0
    · simp only [h0, decide_true, if_true]
      rfl
    · simp only [h0, decide_false, Bool.false_eq_true, if_false]
      cases hs : x.sgn
      · simp only [Bool.not_false, if_true, Bool.false_eq_true, if_false]
        rw [hs] at hx
        simp only [Bool.false_eq_true, if_false, Nat.zero_add] at hx
        unfold ofIdx
        congr 1
        apply BitVec.eq_of_toNat_eq
        rw [BitVec.toNat_sub, BitVec.toNat_ofNat, BitVec.toNat_ofNat, hx]
        simp only [Bool.false_eq_true, if_false, Nat.zero_add]
        rw [Nat.mod_eq_of_lt (a := 1) (by rw [pow_succ]; omega), pow_succ]
        rw [show 2 ^ (mw + ew) * 2 - 1 + x.idx
          = (x.idx - 1) + 2 ^ (mw + ew) * 2 by omega, Nat.add_mod_right]
      · simp only [Bool.not_true, if_true, Bool.false_eq_true, if_false]
        rw [hs] at hx
        unfold ofIdx
        congr 1
        apply BitVec.eq_of_toNat_eq
        rw [BitVec.toNat_add, BitVec.toNat_ofNat, BitVec.toNat_ofNat, hx]
        simp [Nat.add_assoc]

/-! ### effect on the key -/

theorem nextUpG_nan {x : Flt mw ew} (h : x.isNaN = true) : nextUpG x = x := by simp [nextUpG, h]
theorem nextDownG_nan {x : Flt mw ew} (h : x.isNaN = true) : nextDownG x = x := by simp [nextDownG, h]

theorem nextUpG_spec [hf : Fmt mw ew] {x : Flt mw ew} (h : x.isNaN = false) :
    (nextUpG x).isNaN = false ∧ (nextUpG x).key = min (x.key + 1) (kInf mw ew) := by
  have hI := infIdx_lt mw ew
  have h2 := two_lt_infIdx (mw := mw) (ew := ew)
  have hle := notNaN_iff.1 h
  unfold nextUpG
  rw [h]
  simp only [Bool.false_or]
  split
  · rename_i hc
    simp only [Bool.and_eq_true, Bool.not_eq_true', decide_eq_true_eq] at hc
    refine ⟨h, ?_⟩
    unfold key kInf; rw [hc.1, hc.2]; simp
  · rename_i hc
    simp only [Bool.and_eq_true, Bool.not_eq_true', decide_eq_true_eq, not_and] at hc
    split
    · rename_i h0
      refine ⟨by rw [notNaN_iff, idx_ofIdx (by omega)]; omega, ?_⟩
      unfold key kInf; rw [sgn_ofIdx (by omega), idx_ofIdx (by omega), h0]; simp; omega
    · rename_i h0
      split
      · rename_i hs
        refine ⟨by rw [notNaN_iff, idx_ofIdx (by omega)]; omega, ?_⟩
        unfold key kInf; rw [sgn_ofIdx (by omega), idx_ofIdx (by omega), hs]
        simp only [if_true]; omega
      · rename_i hs
        have hs' : x.sgn = false := by simpa using hs
        have := hc hs'
        refine ⟨by rw [notNaN_iff, idx_ofIdx (by omega)]; omega, ?_⟩
        unfold key kInf; rw [sgn_ofIdx (by omega), idx_ofIdx (by omega), hs']
        simp only [Bool.false_eq_true, if_false]; omega

theorem neg_ofIdx {s : Bool} {i : Nat} (h : i < 2 ^ (mw + ew)) : (ofIdx mw ew s i).neg = ofIdx mw ew (!s) i :=
  ext_sgn_idx (by rw [sgn_neg, sgn_ofIdx h, sgn_ofIdx h]) (by rw [idx_neg, idx_ofIdx h, idx_ofIdx h])

/-- `next_down` mirrors `next_up`, bit for bit. -/
theorem nextDownG_neg [hf : Fmt mw ew] (x : Flt mw ew) : nextDownG x.neg = (nextUpG x).neg := by
  have h2 := two_lt_infIdx (mw := mw) (ew := ew)
  have hI := infIdx_lt mw ew
  unfold nextDownG nextUpG
  rw [isNaN_neg, sgn_neg, idx_neg]
  split
  · rfl
  · rename_i hc
    simp only [Bool.or_eq_true, isNaN_iff, Bool.and_eq_true, Bool.not_eq_true', decide_eq_true_eq, not_or,
      not_lt, not_and] at hc
    split
    · rw [neg_ofIdx (by omega)]; rfl
    · cases hs : x.sgn
      · have := hc.2 hs
        simp only [Bool.not_false, if_true, Bool.false_eq_true, if_false]
        rw [neg_ofIdx (by omega)]; rfl
      · simp only [Bool.not_true, if_true, Bool.false_eq_true, if_false]
        rw [neg_ofIdx (by omega)]; rfl

theorem nextDownG_spec [hf : Fmt mw ew] {x : Flt mw ew} (h : x.isNaN = false) :
    (nextDownG x).isNaN = false ∧ (nextDownG x).key = max (x.key - 1) (-kInf mw ew) := by
  have h1 := nextUpG_spec (x := x.neg) (by simpa using h)
  have h2 : nextDownG x = (nextUpG x.neg).neg := by rw [← nextDownG_neg, neg_neg]
  rw [h2, isNaN_neg, key_neg, h1.2, key_neg]
  exact ⟨h1.1, by omega⟩

end Flt

/-- A float format whose `impl GFloat` has the right `next_up`, `next_down` and positive tolerances. -/
class LawfulFlt (mw ew : Nat) [FltImpl mw ew] : Prop extends Fmt mw ew where
  nextUp_eq : ∀ x : Flt mw ew, FltImpl.nextUp x = Flt.nextUpG x
  nextDown_eq : ∀ x : Flt mw ew, FltImpl.nextDown x = Flt.nextDownG x
  absEps_fin : (FltImpl.absEpsilon : Flt mw ew).isFin = true
  absEps_pos : 0 < (FltImpl.absEpsilon : Flt mw ew).key
  relEps_fin : (FltImpl.relEpsilon : Flt mw ew).isFin = true
  relEps_pos : 0 < (FltImpl.relEpsilon : Flt mw ew).key

theorem F32.nextUp_eqB (x : F32) : F32.nextUp x = Flt.nextUpB x := rfl
theorem F32.nextDown_eqB (x : F32) : F32.nextDown x = Flt.nextDownB x := rfl
theorem F64.nextUp_eqB (x : F64) : F64.nextUp x = Flt.nextUpB x := rfl
theorem F64.nextDown_eqB (x : F64) : F64.nextDown x = Flt.nextDownB x := rfl

instance : LawfulFlt 23 8 where
  nextUp_eq x := (F32.nextUp_eqB x).trans (Flt.nextUpB_eq x)
  nextDown_eq x := (F32.nextDown_eqB x).trans (Flt.nextDownB_eq x)
  absEps_fin := by decide +kernel
  absEps_pos := by decide +kernel
  relEps_fin := by decide +kernel
  relEps_pos := by decide +kernel

instance : LawfulFlt 52 11 where
  nextUp_eq x := (F64.nextUp_eqB x).trans (Flt.nextUpB_eq x)
  nextDown_eq x := (F64.nextDown_eqB x).trans (Flt.nextDownB_eq x)
  absEps_fin := by decide +kernel
  absEps_pos := by decide +kernel
  relEps_fin := by decide +kernel
  relEps_pos := by decide +kernel

namespace Flt
variable {mw ew : Nat}

/-! ### comparisons of the `Scalar` instance -/

theorem slt_iff {x y : Flt mw ew} : Scalar.lt x y = true ↔ x.isNaN = false ∧ y.isNaN = false ∧ x.key < y.key := by
  simp only [Scalar.lt, Scalar.pcmp, pcmp]
  by_cases h : x.isNaN || y.isNaN
  · rw [if_pos h]
    simp only [Bool.or_eq_true] at h
    rcases h with h | h <;> simp [h]
  · simp only [Bool.or_eq_true, not_or, Bool.not_eq_true] at h
    rw [h.1, h.2]
    simp only [Bool.or_self, Bool.false_eq_true, if_false, true_and]
    split
    · simp_all
    · split <;> simp_all

theorem sgt_iff {x y : Flt mw ew} : Scalar.gt x y = true ↔ x.isNaN = false ∧ y.isNaN = false ∧ y.key < x.key := by
  simp only [Scalar.gt, Scalar.pcmp, pcmp]
  by_cases h : x.isNaN || y.isNaN
  · rw [if_pos h]
    simp only [Bool.or_eq_true] at h
    rcases h with h | h <;> simp [h]
  · simp only [Bool.or_eq_true, not_or, Bool.not_eq_true] at h
    rw [h.1, h.2]
    simp only [Bool.or_self, Bool.false_eq_true, if_false, true_and]
    split
    · rename_i h1; simp; omega
    · split
      · rename_i h1 h2; simp; omega
      · rename_i h1 h2; simp; omega

theorem sle_iff {x y : Flt mw ew} : Scalar.le x y = true ↔ x.isNaN = false ∧ y.isNaN = false ∧ x.key ≤ y.key := by
  simp only [Scalar.le, Scalar.pcmp, pcmp]
  by_cases h : x.isNaN || y.isNaN
  · rw [if_pos h]
    simp only [Bool.or_eq_true] at h
    rcases h with h | h <;> simp [h]
  · simp only [Bool.or_eq_true, not_or, Bool.not_eq_true] at h
    rw [h.1, h.2]
    simp only [Bool.or_self, Bool.false_eq_true, if_false, true_and]
    split
    · rename_i h1; simp; omega
    · split
      · rename_i h1 h2; simp; omega
      · rename_i h1 h2; simp; omega

theorem sge_iff {x y : Flt mw ew} : Scalar.ge x y = true ↔ x.isNaN = false ∧ y.isNaN = false ∧ y.key ≤ x.key := by
  simp only [Scalar.ge, Scalar.pcmp, pcmp]
  by_cases h : x.isNaN || y.isNaN
  · rw [if_pos h]
    simp only [Bool.or_eq_true] at h
    rcases h with h | h <;> simp [h]
  · simp only [Bool.or_eq_true, not_or, Bool.not_eq_true] at h
    rw [h.1, h.2]
    simp only [Bool.or_self, Bool.false_eq_true, if_false, true_and]
    split
    · rename_i h1; simp; omega
    · split
      · rename_i h1 h2; simp; omega
      · rename_i h1 h2; simp; omega

theorem seq_iff {x y : Flt mw ew} : Scalar.eq x y = true ↔ x.isNaN = false ∧ y.isNaN = false ∧ x.key = y.key :=
  feq_iff

theorem smin_def (x y : Flt mw ew) : Scalar.min x y = if Scalar.lt x y then x else y := rfl
theorem smax_def (x y : Flt mw ew) : Scalar.max x y = if Scalar.gt x y then x else y := rfl

/-! ### constants -/

theorem key_szero : (Scalar.zero : Flt mw ew).key = 0 := key_zero false
theorem isFin_szero [Fmt mw ew] : (Scalar.zero : Flt mw ew).isFin = true := isFin_zero false
theorem toReal_szero : (Scalar.zero : Flt mw ew).toReal = 0 := toReal_eq_zero_iff.2 key_szero

theorem key_maxFin [Fmt mw ew] (s : Bool) :
    (maxFin mw ew s).key = if s then -(kInf mw ew - 1) else kInf mw ew - 1 := by
  have h := infIdx_lt mw ew
  have h2 := two_lt_infIdx (mw := mw) (ew := ew)
  unfold maxFin key
  rw [sgn_ofIdx (by omega), idx_ofIdx (by omega)]; unfold kInf
  push_cast [Nat.cast_sub (show 1 ≤ infIdx mw ew by omega)]
  rfl

theorem isFin_maxFin [Fmt mw ew] (s : Bool) : (maxFin mw ew s).isFin = true := by
  have h := infIdx_lt mw ew
  have h2 := two_lt_infIdx (mw := mw) (ew := ew)
  rw [isFin_iff]; unfold maxFin; rw [idx_ofIdx (by omega)]; omega

end Flt
end Scarlet
