import Verif.Float.Ops
import Mathlib.Data.EReal.Operations

/-! Specification vocabulary for floats: the extended real number a non-NaN float denotes, and what it means for a
float to bound a real number from below or above.  Nothing here mentions the order key or rounding. -/

namespace Scarlet
namespace Flt
variable {mw ew : Nat}

/-- The extended real denoted by a (non-NaN) float. -/
noncomputable def val (x : Flt mw ew) : EReal :=
  if x.isInf then (if x.sgn then ⊥ else ⊤) else (x.toReal : EReal)

/-- `l` is a lower bound of the real `r` (so `l` is not NaN). -/
def LowerOf (l : Flt mw ew) (r : ℝ) : Prop := l.isNaN = false ∧ l.val ≤ (r : EReal)

/-- `u` is an upper bound of the real `r`. -/
def UpperOf (u : Flt mw ew) (r : ℝ) : Prop := u.isNaN = false ∧ (r : EReal) ≤ u.val

/-- `lo ≤ r ≤ hi`. -/
def Between (lo : Flt mw ew) (r : ℝ) (hi : Flt mw ew) : Prop := LowerOf lo r ∧ UpperOf hi r

/-! ### relation with keys -/

theorem val_of_isFin {x : Flt mw ew} (h : x.isFin = true) : x.val = (x.toReal : EReal) := by
  unfold val; rw [notInf_of_isFin h]; rfl

theorem isFin_or_isInf {x : Flt mw ew} (h : x.isNaN = false) : x.isFin = true ∨ x.isInf = true := by
  rw [isFin_iff, isInf_iff]; rw [notNaN_iff] at h; omega

theorem val_bot_iff [Fmt mw ew] {x : Flt mw ew} (h : x.isNaN = false) : x.val = ⊥ ↔ x.key = -kInf mw ew := by
  have hp := kInf_pos (mw := mw) (ew := ew)
  rcases isFin_or_isInf h with hf | hf
  · rw [val_of_isFin hf]
    rw [isFin_iff_key] at hf
    constructor
    · intro h; exact absurd h (EReal.coe_ne_bot _)
    · intro h; omega
  · unfold val; rw [if_pos hf]
    rw [isInf_iff] at hf
    unfold key; rw [hf]; unfold kInf at *
    cases x.sgn
    · simp; omega
    · simp

theorem val_top_iff [Fmt mw ew] {x : Flt mw ew} (h : x.isNaN = false) : x.val = ⊤ ↔ x.key = kInf mw ew := by
  have hp := kInf_pos (mw := mw) (ew := ew)
  rcases isFin_or_isInf h with hf | hf
  · rw [val_of_isFin hf]
    rw [isFin_iff_key] at hf
    constructor
    · intro h; exact absurd h (EReal.coe_ne_top _)
    · intro h; omega
  · unfold val; rw [if_pos hf]
    rw [isInf_iff] at hf
    unfold key; rw [hf]; unfold kInf at *
    cases x.sgn
    · simp
    · simp; omega

theorem key_cases {x : Flt mw ew} (h : x.isNaN = false) :
    x.key = -kInf mw ew ∨ x.key = kInf mw ew ∨ x.isFin = true := by
  rw [isFin_iff_key]
  have := key_bounds h
  omega

theorem val_le_iff [Fmt mw ew] {x y : Flt mw ew} (hx : x.isNaN = false) (hy : y.isNaN = false) :
    x.val ≤ y.val ↔ x.key ≤ y.key := by
  have bx := key_bounds hx
  have bY := key_bounds hy
  have hp := kInf_pos (mw := mw) (ew := ew)
  rcases key_cases hx with h | h | h
  · rw [(val_bot_iff hx).2 h]; simp only [bot_le, true_iff]; omega
  · rw [(val_top_iff hx).2 h, top_le_iff, val_top_iff hy]; omega
  · rcases key_cases hy with h' | h' | h'
    · rw [(val_bot_iff hy).2 h', le_bot_iff, val_bot_iff hx]; omega
    · rw [(val_top_iff hy).2 h']; simp only [le_top, true_iff]; omega
    · rw [val_of_isFin h, val_of_isFin h', EReal.coe_le_coe_iff, toReal_le_iff]

theorem val_lt_iff [Fmt mw ew] {x y : Flt mw ew} (hx : x.isNaN = false) (hy : y.isNaN = false) :
    x.val < y.val ↔ x.key < y.key := by
  rw [← not_le, val_le_iff hy hx, not_le]

theorem val_eq_iff [Fmt mw ew] {x y : Flt mw ew} (hx : x.isNaN = false) (hy : y.isNaN = false) :
    x.val = y.val ↔ x.key = y.key := by
  rw [le_antisymm_iff, val_le_iff hx hy, val_le_iff hy hx, le_antisymm_iff]

theorem lowerOf_iff [Fmt mw ew] {l : Flt mw ew} {r : ℝ} :
    LowerOf l r ↔ l.isNaN = false ∧ (l.key = -kInf mw ew ∨ (l.isFin = true ∧ l.toReal ≤ r)) := by
  unfold LowerOf
  constructor
  · rintro ⟨hn, h⟩
    refine ⟨hn, ?_⟩
    rcases key_cases hn with h1 | h1 | h1
    · exact Or.inl h1
    · rw [(val_top_iff hn).2 h1, top_le_iff] at h; exact absurd h (EReal.coe_ne_top _)
    · rw [val_of_isFin h1, EReal.coe_le_coe_iff] at h; exact Or.inr ⟨h1, h⟩
  · rintro ⟨hn, h⟩
    refine ⟨hn, ?_⟩
    rcases h with h | ⟨h1, h⟩
    · rw [(val_bot_iff hn).2 h]; exact bot_le
    · rw [val_of_isFin h1, EReal.coe_le_coe_iff]; exact h

theorem upperOf_iff [Fmt mw ew] {u : Flt mw ew} {r : ℝ} :
    UpperOf u r ↔ u.isNaN = false ∧ (u.key = kInf mw ew ∨ (u.isFin = true ∧ r ≤ u.toReal)) := by
  unfold UpperOf
  constructor
  · rintro ⟨hn, h⟩
    refine ⟨hn, ?_⟩
    rcases key_cases hn with h1 | h1 | h1
    · rw [(val_bot_iff hn).2 h1, le_bot_iff] at h; exact absurd h (EReal.coe_ne_bot _)
    · exact Or.inl h1
    · rw [val_of_isFin h1, EReal.coe_le_coe_iff] at h; exact Or.inr ⟨h1, h⟩
  · rintro ⟨hn, h⟩
    refine ⟨hn, ?_⟩
    rcases h with h | ⟨h1, h⟩
    · rw [(val_top_iff hn).2 h]; exact le_top
    · rw [val_of_isFin h1, EReal.coe_le_coe_iff]; exact h

theorem lowerOf_fin {l : Flt mw ew} {r : ℝ} (h : l.isFin = true) : LowerOf l r ↔ l.toReal ≤ r := by
  unfold LowerOf; rw [val_of_isFin h, EReal.coe_le_coe_iff]
  exact ⟨fun h => h.2, fun h1 => ⟨notNaN_of_isFin h, h1⟩⟩

theorem upperOf_fin {u : Flt mw ew} {r : ℝ} (h : u.isFin = true) : UpperOf u r ↔ r ≤ u.toReal := by
  unfold UpperOf; rw [val_of_isFin h, EReal.coe_le_coe_iff]
  exact ⟨fun h => h.2, fun h1 => ⟨notNaN_of_isFin h, h1⟩⟩

/-- The code's `<` is the order of the denoted extended reals. -/
theorem lt_iff_val [Fmt mw ew] {x y : Flt mw ew} :
    x.lt y = true ↔ x.isNaN = false ∧ y.isNaN = false ∧ x.val < y.val := by
  rw [lt_iff]
  constructor
  · rintro ⟨h1, h2, h3⟩; exact ⟨h1, h2, (val_lt_iff h1 h2).2 h3⟩
  · rintro ⟨h1, h2, h3⟩; exact ⟨h1, h2, (val_lt_iff h1 h2).1 h3⟩

end Flt
end Scarlet
