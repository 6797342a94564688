import Verif.Props.NormExact

/-! C164: on floats, `norm` is monotone in every component, and when it is zero. -/

set_option linter.unusedSectionVars false

namespace Scarlet
open Flt

section flt
variable {mw ew : Nat} [FltImpl mw ew] [LawfulFlt mw ew]

/-- squaring, infinities included -/
theorem sq_full {x : Flt mw ew} (hx : x.isNaN = false) :
    (Scalar.square x : Flt mw ew).isNaN = false ∧ 0 ≤ (Scalar.square x : Flt mw ew).key ∧
    (x.isInf = true → (Scalar.square x : Flt mw ew).key = kInf mw ew) := by
  have hK := kInf_pos (mw := mw) (ew := ew)
  rcases isFin_or_isInf hx with h | h
  · have := sq_nn h
    refine ⟨this.1, this.2, fun hi => ?_⟩
    have a := isFin_iff_key.1 h
    rcases isInf_iff_key.1 hi with e | e <;> omega
  · have hk : x.key ≠ 0 := by rcases isInf_iff_key.1 h with e | e <;> omega
    have m := (mul_inf hx hx (Or.inl h)).2 ⟨hk, hk⟩
    rw [if_pos Iff.rfl] at m
    refine ⟨m.1, ?_, fun _ => m.2⟩
    show 0 ≤ (x * x).key
    omega

theorem sq_mono {x y : Flt mw ew} (hx : x.isNaN = false) (hy : y.isNaN = false) (h : |x.key| ≤ |y.key|) :
    (Scalar.square x : Flt mw ew).key ≤ (Scalar.square y : Flt mw ew).key := by
  have hK := kInf_pos (mw := mw) (ew := ew)
  have qx := sq_full hx
  have qy := sq_full hy
  have bx := key_bounds hx
  rcases isFin_or_isInf hy with fy | iy
  · have ky := isFin_iff_key.1 fy
    have fx : x.isFin = true := isFin_iff_key.2 (by
      rcases abs_cases x.key with a | a <;> rcases abs_cases y.key with b | b <;> omega)
    have mx := (mul_fin fx fx).2
    have my := (mul_fin fy fy).2
    rw [← mul_def] at mx my
    show (x * x).key ≤ (y * y).key
    rw [mx, my]
    refine rndK_mono mw ew ?_
    have : |x.toReal| ≤ |y.toReal| := by
      rw [← toReal_iabs, ← toReal_iabs]; exact toReal_le_iff.2 (by rw [key_iabs, key_iabs]; exact h)
    rw [← abs_mul_abs_self x.toReal, ← abs_mul_abs_self y.toReal]
    exact mul_self_le_mul_self (abs_nonneg _) this
  · have := key_bounds qx.1
    rw [qy.2.2 iy]; omega

theorem add_nn_mono {a b c d : Flt mw ew} (ha : a.isNaN = false) (hb : b.isNaN = false) (hc : c.isNaN = false)
    (hd : d.isNaN = false) (ka : 0 ≤ a.key) (kb : 0 ≤ b.key) (h1 : a.key ≤ c.key) (h2 : b.key ≤ d.key) :
    (a + b).key ≤ (c + d).key := by
  have hK := kInf_pos (mw := mw) (ew := ew)
  have n1 := add_nn ha hb ka kb
  have n2 := add_nn hc hd (ka.trans h1) (kb.trans h2)
  have b1 := key_bounds n1.1
  have b2 := key_bounds n2.1
  have bc := key_bounds hc
  have bd := key_bounds hd
  by_cases ic : c.key = kInf mw ew
  · omega
  by_cases id : d.key = kInf mw ew
  · omega
  have F : ∀ {x : Flt mw ew}, 0 ≤ x.key → x.key < kInf mw ew → x.isFin = true := fun h h' => isFin_iff_key.2 ⟨by omega, h'⟩
  have s1 := (add_fin (F ka (by omega)) (F kb (by omega))).2
  have s2 := (add_fin (F (ka.trans h1) (by omega)) (F (kb.trans h2) (by omega))).2
  rw [← add_def] at s1 s2
  rw [s1, s2]
  exact rndK_mono mw ew (add_le_add (toReal_le_iff.2 h1) (toReal_le_iff.2 h2))

theorem sum_mono : ∀ {n : Nat} {f g : Fin n → Flt mw ew}, (∀ i, (f i).isNaN = false ∧ 0 ≤ (f i).key) →
    (∀ i, (g i).isNaN = false ∧ 0 ≤ (g i).key) → (∀ i, (f i).key ≤ (g i).key) → (sumLoop n f).key ≤ (sumLoop n g).key
  | 0, _, _, _, _, _ => le_rfl
  | n + 1, f, g, hf, hg, h => by
    have a := sum_nn (f := fun i : _root_.Fin n => f i.castSucc) fun i => hf _
    have b := sum_nn (f := fun i : _root_.Fin n => g i.castSucc) fun i => hg _
    exact add_nn_mono a.1 (hf _).1 b.1 (hg _).1 a.2.1 (hf _).2
      (sum_mono (f := fun i : _root_.Fin n => f i.castSucc) (g := fun i : _root_.Fin n => g i.castSucc)
        (fun i => hf _) (fun i => hg _) fun i => h _) (h _)

variable {n : Nat} {U V : Marker}

/-- **C164**: if no component of `v` is larger in magnitude than that of `w`, then `norm(v) <= norm(w)` as floats;
components may be infinite. -/
theorem C164_mono {v : GVec (Flt mw ew) n U} {w : GVec (Flt mw ew) n V}
    (h : ∀ i, Scalar.le (Inherent.abs (v.vec i)) (Inherent.abs (w.vec i)) = true) :
    Scalar.le v.norm w.norm = true ∧ Scalar.le v.squareNorm w.squareNorm = true := by
  have h' : ∀ i, (v.vec i).isNaN = false ∧ (w.vec i).isNaN = false ∧ |(v.vec i).key| ≤ |(w.vec i).key| := fun i => by
    have := sle_iff.1 (h i)
    change (v.vec i).iabs.isNaN = false ∧ (w.vec i).iabs.isNaN = false ∧ (v.vec i).iabs.key ≤ (w.vec i).iabs.key at this
    rwa [isNaN_iabs, isNaN_iabs, key_iabs, key_iabs] at this
  have hv : ∀ i, (Scalar.square (v.vec i) : Flt mw ew).isNaN = false ∧ 0 ≤ (Scalar.square (v.vec i) : Flt mw ew).key :=
    fun i => let q := sq_full (h' i).1; ⟨q.1, q.2.1⟩
  have hw : ∀ i, (Scalar.square (w.vec i) : Flt mw ew).isNaN = false ∧ 0 ≤ (Scalar.square (w.vec i) : Flt mw ew).key :=
    fun i => let q := sq_full (h' i).2.1; ⟨q.1, q.2.1⟩
  have m := sum_mono hv hw fun i => sq_mono (h' i).1 (h' i).2.1 (h' i).2.2
  have a := sum_nn hv
  have b := sum_nn hw
  have s := sqrt_key_mono a.1 b.1 a.2.1 m
  exact ⟨sle_iff.2 s, sle_iff.2 ⟨a.1, b.1, m⟩⟩

/-- **C164**: the norm does not see the signs of the components. -/
theorem C164_signs {v : GVec (Flt mw ew) n U} {w : GVec (Flt mw ew) n V}
    (h : ∀ i, Scalar.eq (Inherent.abs (v.vec i)) (Inherent.abs (w.vec i)) = true) :
    Scalar.eq v.norm w.norm = true := by
  have h1 : ∀ i, Scalar.le (Inherent.abs (v.vec i)) (Inherent.abs (w.vec i)) = true := fun i => by
    have := seq_iff.1 (h i); exact sle_iff.2 ⟨this.1, this.2.1, this.2.2.le⟩
  have h2 : ∀ i, Scalar.le (Inherent.abs (w.vec i)) (Inherent.abs (v.vec i)) = true := fun i => by
    have := seq_iff.1 (h i); exact sle_iff.2 ⟨this.2.1, this.1, this.2.2.ge⟩
  have a := sle_iff.1 (C164_mono h1).1
  have b := sle_iff.1 (C164_mono h2).1
  exact seq_iff.2 ⟨a.1, a.2.1, le_antisymm a.2.2 b.2.2⟩

/-- **C164**: a further component never makes the norm smaller. -/
theorem C164_extend {v : GVec (Flt mw ew) (n + 1) U} (h : ∀ i, (v.vec i).isNaN = false) :
    Scalar.le (⟨fun i => v.vec i.castSucc⟩ : GVec (Flt mw ew) n U).norm v.norm = true := by
  have hv : ∀ i, (Scalar.square (v.vec i) : Flt mw ew).isNaN = false ∧ 0 ≤ (Scalar.square (v.vec i) : Flt mw ew).key :=
    fun i => let q := sq_full (h i); ⟨q.1, q.2.1⟩
  have a := sum_nn (f := fun i : _root_.Fin n => (Scalar.square (v.vec i.castSucc) : Flt mw ew)) fun i => hv _
  have q := hv (Fin.last n)
  have s := add_nn a.1 q.1 a.2.1 q.2
  exact sle_iff.2 (sqrt_key_mono a.1 s.1 a.2.1 s.2.1)

/-- **C164**: with two components their order does not matter. -/
theorem C164_swap2 {x y : Flt mw ew} (hx : x.isNaN = false) (hy : y.isNaN = false) :
    Scalar.eq (GVec.new2 x y : Vec (Flt mw ew) 2).norm (GVec.new2 y x : Vec (Flt mw ew) 2).norm = true := by
  have z := isFin_szero (mw := mw) (ew := ew)
  have qx := sq_full hx
  have qy := sq_full hy
  have z1 := notNaN_of_isFin z
  have zk := key_szero (mw := mw) (ew := ew)
  -- the leading zero of the loop does nothing
  have zero_add_key : ∀ {a : Flt mw ew}, a.isNaN = false → 0 ≤ a.key → (Scalar.zero + a).key = a.key := by
    intro a ha k
    have hK := kInf_pos (mw := mw) (ew := ew)
    have b := key_bounds ha
    by_cases i : a.key = kInf mw ew
    · have := add_top_right z1 ha i (by omega); omega
    · have := (add_fin z (isFin_iff_key.2 ⟨by omega, by omega⟩ : a.isFin = true)).2
      rw [← add_def, toReal_szero, zero_add, rndK_toReal ha] at this
      exact this
  have n1 := add_nn z1 qx.1 zk.ge qx.2.1
  have n2 := add_nn z1 qy.1 zk.ge qy.2.1
  have k1 := zero_add_key qx.1 qx.2.1
  have k2 := zero_add_key qy.1 qy.2.1
  have q1 := qx.2.1
  have q2 := qy.2.1
  have m1 := add_nn n1.1 qy.1 (by omega) qy.2.1
  have m2 := add_nn n2.1 qx.1 (by omega) qx.2.1
  have comm : ∀ a b : Flt mw ew, a.isNaN = false → b.isNaN = false → 0 ≤ a.key → 0 ≤ b.key → (a + b).key = (b + a).key := by
    intro a b ha hb ka kb
    have hK := kInf_pos (mw := mw) (ew := ew)
    have ba := key_bounds ha
    have bb := key_bounds hb
    have n := add_nn ha hb ka kb
    have n' := add_nn hb ha kb ka
    have c := key_bounds n.1
    have c' := key_bounds n'.1
    by_cases ia : a.key = kInf mw ew
    · omega
    by_cases ib : b.key = kInf mw ew
    · omega
    have fa : a.isFin = true := isFin_iff_key.2 ⟨by omega, by omega⟩
    have fb : b.isFin = true := isFin_iff_key.2 ⟨by omega, by omega⟩
    have s1 := (add_fin fa fb).2
    have s2 := (add_fin fb fa).2
    rw [← add_def] at s1 s2
    rw [s1, s2, add_comm]
  have e1 := add_nn_mono n1.1 qy.1 qx.1 qy.1 (by omega) q2 k1.le le_rfl
  have e2 := add_nn_mono qx.1 qy.1 n1.1 qy.1 q1 q2 k1.ge le_rfl
  have e3 := add_nn_mono n2.1 qx.1 qy.1 qx.1 (by omega) q1 k2.le le_rfl
  have e4 := add_nn_mono qy.1 qx.1 n2.1 qx.1 q2 q1 k2.ge le_rfl
  have e5 := comm _ _ qx.1 qy.1 q1 q2
  have s1 := sqrt_key_mono m1.1 m2.1 (by omega) (by omega)
  have s2 := sqrt_key_mono m2.1 m1.1 (by omega) (by omega)
  exact seq_iff.2 ⟨s1.1, s1.2.1, le_antisymm s1.2.2 s2.2.2⟩

/-- rounding gives zero exactly up to half the smallest subnormal -/
theorem rndK_eq_zero_iff {r : ℝ} (h0 : 0 ≤ r) : rndK mw ew r = 0 ↔ r ≤ etaRnd mw ew := by
  have hF : Fmt mw ew := inferInstance
  have hmw := hF.hmw
  have two : 2 ≤ 2 ^ mw := by
    have : 2 ^ 1 ≤ 2 ^ mw := Nat.pow_le_pow_right (by norm_num) (by omega)
    simpa using this
  have m0 : magN mw 0 = 0 := magN_zero mw
  have m1 : magN mw 1 = 1 := magN_of_lt (by omega)
  have hp : (0 : ℝ) < 2 ^ fK mw ew := by positivity
  have hinf : 0 < infIdx mw ew := by
    have := kInf_pos (mw := mw) (ew := ew); unfold kInf at this; omega
  have key : rndK mw ew r = 0 ↔ rndIdx mw (r * 2 ^ fK mw ew) = 0 := by
    unfold rndK kInf
    rw [rndZ_of_nonneg (by positivity)]; omega
  have e : r ≤ etaRnd mw ew ↔ 2 * (r * 2 ^ fK mw ew) ≤ 1 := by
    unfold etaRnd
    rw [le_div_iff₀ (by positivity), pow_succ]
    constructor <;> intro h <;> linarith
  rw [key, e]
  constructor
  · intro h
    by_contra hc
    have n := (rndIdx_nearest mw (show 0 ≤ r * 2 ^ fK mw ew by positivity) 1).1
    rw [h, m0, m1] at n
    push_cast at n
    rw [sub_zero, abs_of_nonneg (by positivity)] at n
    rcases abs_cases (r * 2 ^ fK mw ew - 1) with a | a <;> linarith
  · intro h
    have fl : ⌊r * 2 ^ fK mw ew⌋₊ = 0 := by
      rw [Nat.floor_eq_zero]; linarith
    have fi : floorIdx mw 0 = 0 := floorIdx_unique m0.le (by rw [zero_add, m1]; omega)
    unfold rndIdx
    simp only [fl, fi]
    rw [m0, zero_add, m1]
    push_cast
    split
    · rfl
    · rw [if_neg (by linarith)]

/-- **C164**: when the norm is zero: exactly if the square of every component is at most half the smallest positive
float — not only for the zero vector. -/
theorem C164_zero_iff (hm : 10 ≤ mw) (hw : mw + 3 ≤ 2 ^ (ew - 1)) {v : GVec (Flt mw ew) n U} (hf : ∀ i, (v.vec i).isFin = true) :
    Scalar.eq v.norm Scalar.zero = true ↔ ∀ i, (v.vec i).toReal ^ 2 ≤ 1 / 2 * (GFloat.nextUp (Scalar.zero : Flt mw ew)).toReal := by
  have hK := kInf_pos (mw := mw) (ew := ew)
  have z1 := notNaN_of_isFin (isFin_szero (mw := mw) (ew := ew))
  have tiny : 1 / 2 * (GFloat.nextUp (Scalar.zero : Flt mw ew)).toReal = etaRnd mw ew := by
    have k := (nextUp_key z1).2
    have hF : Fmt mw ew := inferInstance
    rw [key_szero] at k
    have k' : (GFloat.nextUp (Scalar.zero : Flt mw ew)).key = ((1 : ℕ) : ℤ) := by rw [k]; push_cast; omega
    have two : 2 ≤ 2 ^ mw := by
      have : 2 ^ 1 ≤ 2 ^ mw := Nat.pow_le_pow_right (by norm_num) (by omega)
      simpa using this
    rw [toReal_eq_key, k', valZ_nat, magN_of_lt (by omega)]
    unfold etaRnd; rw [pow_succ]; push_cast; field_simp
  have sq0 : ∀ i, (Scalar.square (v.vec i) : Flt mw ew).key = 0 ↔ (v.vec i).toReal ^ 2 ≤ etaRnd mw ew := fun i => by
    have m := (mul_fin (hf i) (hf i)).2
    rw [← mul_def] at m
    change (v.vec i * v.vec i).key = 0 ↔ _
    rw [m, rndK_eq_zero_iff (mul_self_nonneg _), sq]
  rw [tiny]
  have hv := fun i => sq_nn (hf i)
  have a := sum_nn hv
  have a' : v.squareNorm.isNaN = false ∧ 0 ≤ v.squareNorm.key ∧ ∀ i, (Scalar.square (v.vec i) : Flt mw ew).key ≤ v.squareNorm.key := a
  have root : Scalar.eq v.norm Scalar.zero = true ↔ v.squareNorm.key = 0 := by
    constructor
    · intro h
      by_contra hc
      have hpos : 0 < v.squareNorm.key := by omega
      have hz := (seq_iff.1 h).2.2
      rw [key_szero] at hz
      change (GFloat.sqrt v.squareNorm).key = 0 at hz
      rcases isFin_or_isInf a'.1 with f | i
      · have s := sqrt_idx hm hw f hpos
        have p := Nat.two_pow_pos mw
        rw [s.2.1] at hz; omega
      · have e : v.squareNorm.key = kInf mw ew := by
          rcases isInf_iff_key.1 i with e | e <;> omega
        have := (sqrt_inf a'.1 e).2
        rw [sqrt_def] at hz; omega
    · intro h
      have f : v.squareNorm.isFin = true := isFin_of_key_zero h
      have s := sqrt_fin f (by omega)
      rw [toReal_eq_zero_iff.2 h, Real.sqrt_zero, rndK_zero] at s
      exact seq_iff.2 ⟨s.1, z1, by rw [key_szero]; exact s.2⟩
  rw [root]
  constructor
  · intro h i
    rw [← sq0]
    have := a'.2.2 i
    have := (hv i).2
    omega
  · intro h
    exact (sum_axis (f := fun i => Scalar.square (v.vec i)) (c := 0)
      (fun i => isFin_of_key_zero ((sq0 i).2 (h i))) (Or.inl ⟨fun i => (sq0 i).2 (h i), rfl⟩)).2

end flt

/-! ### what does not hold -/

/-- **C164**, two laws of the real norm that fail on `f32`: the norm depends on the order of three components, and the
triangle inequality fails by one float. -/
theorem C164_laws_refuted :
    Scalar.eq (GVec.new3 (F32.lit 302) (F32.lit 12492) (F32.lit 7098) : Vec F32 3).norm
      (GVec.new3 (F32.lit 7098) (F32.lit 302) (F32.lit 12492) : Vec F32 3).norm = false ∧
    Scalar.gt ((GVec.new2 (F32.lit 2338) (F32.lit 1801) : Vec F32 2) + GVec.new2 (F32.lit 3486) (F32.lit 2687)).norm
      ((GVec.new2 (F32.lit 2338) (F32.lit 1801) : Vec F32 2).norm + (GVec.new2 (F32.lit 3486) (F32.lit 2687) : Vec F32 2).norm) = true := by
  decide +kernel

example : Scalar.le (GVec.new2 (F32.lit 3) (-(F32.lit 5)) : Vec F32 2).norm (GVec.new2 (-(F32.lit 3)) (F32.lit 6) : Vec F32 2).norm = true :=
  (C164_mono (by decide +kernel)).1

example : Scalar.eq (GVec.new2 (F32.lit 3) (-(F32.lit 5)) : Vec F32 2).norm (GVec.new2 (-(F32.lit 3)) (F32.lit 5) : Vec F32 2).norm = true :=
  C164_signs (by decide +kernel)

example : Scalar.le (⟨fun i => (GVec.new3 (F32.lit 3) (F32.lit 5) (F32.lit 7) : Vec F32 3).vec i.castSucc⟩ : Vec F32 2).norm
    (GVec.new3 (F32.lit 3) (F32.lit 5) (F32.lit 7) : Vec F32 3).norm = true :=
  C164_extend (by decide +kernel)

example : Scalar.eq (GVec.new2 (F32.lit 3) (F32.lit 5) : Vec F32 2).norm (GVec.new2 (F32.lit 5) (F32.lit 3) : Vec F32 2).norm = true :=
  C164_swap2 (by decide +kernel) (by decide +kernel)

/-- a vector that is not zero and whose norm is: its components meet the condition of `C164_zero_iff` -/
example : ∀ i, ((GVec.new2 f32Tiny f32Tiny : Vec F32 2).vec i).toReal ^ 2 ≤
    1 / 2 * (GFloat.nextUp (Scalar.zero : F32)).toReal :=
  (C164_zero_iff (by norm_num) (by norm_num) (by decide +kernel)).1 (by decide +kernel)

/-- the tiny vector of C162 satisfies the condition of `C164_zero_iff`, a larger one does not -/
example : Scalar.eq (GVec.new2 f32Tiny f32Tiny : Vec F32 2).norm Scalar.zero = true ∧
    Scalar.eq (GVec.new2 f32Tiny f32Small : Vec F32 2).norm Scalar.zero = false := by decide +kernel

end Scarlet
