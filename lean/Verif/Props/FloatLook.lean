import Verif.Props.FloatRot

/-! C107: `look_at` on floats. -/

set_option linter.unusedSectionVars false

namespace Scarlet
open Flt GVec

/-! ### real vectors -/

/-- the length of a real vector -/
noncomputable def len3 (a : _root_.Fin 3 → ℝ) : ℝ := Real.sqrt (∑ j, a j ^ 2)

/-- the real vector `a` divided by its length -/
noncomputable def unit3 (a : _root_.Fin 3 → ℝ) : _root_.Fin 3 → ℝ := fun i => a i / len3 a

theorem len3_nonneg (a : _root_.Fin 3 → ℝ) : 0 ≤ len3 a := Real.sqrt_nonneg _

theorem len3_sq (a : _root_.Fin 3 → ℝ) : len3 a ^ 2 = a 0 ^ 2 + a 1 ^ 2 + a 2 ^ 2 := by
  unfold len3
  rw [Real.sq_sqrt (Finset.sum_nonneg fun i _ => sq_nonneg _), Fin.sum_univ_three]

theorem abs_le_len3 (a : _root_.Fin 3 → ℝ) (i : _root_.Fin 3) : |a i| ≤ len3 a :=
  Real.abs_le_sqrt (Finset.single_le_sum (f := fun j => a j ^ 2) (fun j _ => sq_nonneg _) (Finset.mem_univ i))

theorem sum_abs_le_len3 (a : _root_.Fin 3 → ℝ) : |a 0| + |a 1| + |a 2| ≤ 1.7321 * len3 a := by
  apply le_of_sq_le _ (mul_nonneg (by norm_num) (len3_nonneg a))
  have := len3_sq a
  rw [mul_pow, this]
  nlinarith [sq_abs (a 0), sq_abs (a 1), sq_abs (a 2), sq_nonneg (|a 0| - |a 1|), sq_nonneg (|a 1| - |a 2|),
    sq_nonneg (|a 0| - |a 2|), sq_nonneg (a 0), sq_nonneg (a 1), sq_nonneg (a 2)]

/-- lengths of close vectors are close -/
theorem len3_close {a b : _root_.Fin 3 → ℝ} {e : ℝ} (h : ∀ i, |a i - b i| ≤ e) : |len3 a - len3 b| ≤ 1.7321 * e := by
  have e0 : 0 ≤ e := (abs_nonneg _).trans (h 0)
  have A0 := len3_nonneg a
  have B0 := len3_nonneg b
  rcases (add_nonneg A0 B0).eq_or_lt with hz | hz
  · have : len3 a = 0 := by linarith
    have : len3 b = 0 := by linarith
    rw [‹len3 a = 0›, ‹len3 b = 0›]; simp; positivity
  have key : |len3 a - len3 b| * (len3 a + len3 b) ≤ 1.7321 * e * (len3 a + len3 b) := by
    rw [← abs_of_nonneg (add_nonneg A0 B0), ← abs_mul, abs_of_nonneg (add_nonneg A0 B0)]
    have e1 : (len3 a - len3 b) * (len3 a + len3 b) = (a 0 - b 0) * (a 0 + b 0) + (a 1 - b 1) * (a 1 + b 1) +
        (a 2 - b 2) * (a 2 + b 2) := by
      have := len3_sq a; have := len3_sq b
      linear_combination len3_sq a - len3_sq b
    rw [e1]
    have t : ∀ i, |(a i - b i) * (a i + b i)| ≤ e * (|a i| + |b i|) := fun i => by
      rw [abs_mul]
      exact mul_le_mul (h i) (abs_add_le _ _) (abs_nonneg _) e0
    have s1 := abs_add_three ((a 0 - b 0) * (a 0 + b 0)) ((a 1 - b 1) * (a 1 + b 1)) ((a 2 - b 2) * (a 2 + b 2))
    have s2 := mul_le_mul_of_nonneg_left (sum_abs_le_len3 a) e0
    have s3 := mul_le_mul_of_nonneg_left (sum_abs_le_len3 b) e0
    linarith [t 0, t 1, t 2]
  exact le_of_mul_le_mul_right key hz

theorem unit_split {a b : _root_.Fin 3 → ℝ} {e d : ℝ} (h : ∀ i, |a i - b i| ≤ e) (hd : |len3 a - len3 b| ≤ d)
    (ha : 0 < len3 a) (hb : 0 < len3 b) (i : _root_.Fin 3) : |unit3 a i - unit3 b i| ≤ (e + d) / len3 b := by
  unfold unit3
  have e1 : a i / len3 a - b i / len3 b = ((a i - b i) + (a i / len3 a) * (len3 b - len3 a)) / len3 b := by
    field_simp; ring
  rw [e1, abs_div, abs_of_pos hb]
  refine div_le_div_of_nonneg_right ?_ hb.le
  refine (abs_add_le _ _).trans (add_le_add (h i) ?_)
  rw [abs_mul, abs_sub_comm (len3 b)]
  have h1 : |a i / len3 a| ≤ 1 := by
    rw [abs_div, abs_of_pos ha, div_le_one ha]; exact abs_le_len3 a i
  calc |a i / len3 a| * |len3 a - len3 b| ≤ 1 * d := mul_le_mul h1 hd (abs_nonneg _) zero_le_one
    _ = d := one_mul d

/-- normalizing close vectors -/
theorem unit3_close {a b : _root_.Fin 3 → ℝ} {e : ℝ} (h : ∀ i, |a i - b i| ≤ e) (ha : 0 < len3 a) (hb : 0 < len3 b)
    (i : _root_.Fin 3) : |unit3 a i - unit3 b i| ≤ 2.7321 * e / len3 b := by
  have := unit_split h (len3_close h) ha hb i
  rwa [show e + 1.7321 * e = 2.7321 * e by ring] at this

/-- normalizing vectors whose components have a small relative error -/
theorem unit3_rel {a b : _root_.Fin 3 → ℝ} {u : ℝ} (hu : 0 ≤ u) (h : ∀ i, |a i - b i| ≤ u * |b i|) (ha : 0 < len3 a)
    (hb : 0 < len3 b) (i : _root_.Fin 3) : |unit3 a i - unit3 b i| ≤ 2 * u := by
  have hl : |len3 a - len3 b| ≤ u * len3 b := by
    have k : ∀ i, |a i| ≤ (1 + u) * |b i| := fun i => by
      have := abs_add_le (a i - b i) (b i); rw [sub_add_cancel] at this; linarith [h i]
    have k' : ∀ i, (1 - u) * |b i| ≤ |a i| := fun i => by
      have := abs_sub_abs_le_abs_sub (b i) (a i); rw [abs_sub_comm] at this; linarith [h i]
    rw [_root_.abs_le]
    constructor
    · by_cases h1 : u ≤ 1
      · have : (1 - u) * len3 b ≤ len3 a := by
          apply le_of_sq_le _ ha.le
          rw [mul_pow, len3_sq, len3_sq]
          have q : ∀ i, (1 - u) ^ 2 * b i ^ 2 ≤ a i ^ 2 := fun i => by
            rw [← sq_abs (b i), ← sq_abs (a i), ← mul_pow]
            exact pow_le_pow_left₀ (mul_nonneg (by linarith) (abs_nonneg _)) (k' i) 2
          linarith [q 0, q 1, q 2]
        linarith
      · nlinarith
    · have : len3 a ≤ (1 + u) * len3 b := by
        apply le_of_sq_le _ (by positivity)
        rw [mul_pow, len3_sq, len3_sq]
        have q : ∀ i, a i ^ 2 ≤ (1 + u) ^ 2 * b i ^ 2 := fun i => by
          rw [← sq_abs (b i), ← sq_abs (a i), ← mul_pow]
          exact pow_le_pow_left₀ (abs_nonneg _) (k i) 2
        linarith [q 0, q 1, q 2]
      linarith
  have := unit_split (e := u * len3 b) (fun i => (h i).trans (mul_le_mul_of_nonneg_left (abs_le_len3 b i) hu)) hl ha hb i
  rwa [show u * len3 b + u * len3 b = 2 * u * len3 b by ring, mul_div_cancel_right₀ _ hb.ne'] at this

theorem unit3_sq {a : _root_.Fin 3 → ℝ} (h : 0 < len3 a) : unit3 a 0 ^ 2 + unit3 a 1 ^ 2 + unit3 a 2 ^ 2 = 1 := by
  unfold unit3
  rw [div_pow, div_pow, div_pow, ← add_div, ← add_div, div_eq_one_iff_eq (pow_pos h 2).ne', len3_sq]

theorem unit3_abs (a : _root_.Fin 3 → ℝ) (i : _root_.Fin 3) : |unit3 a i| ≤ 1 := by
  unfold unit3
  rw [abs_div, abs_of_nonneg (len3_nonneg a)]
  exact div_le_one_of_le₀ (abs_le_len3 a i) (len3_nonneg a)

theorem cross_abs {A B : _root_.Fin 3 → ℝ} (hA : A 0 ^ 2 + A 1 ^ 2 + A 2 ^ 2 = 1) (hB : B 0 ^ 2 + B 1 ^ 2 + B 2 ^ 2 = 1) :
    len3 (crossProduct A B) ≤ 1 := by
  apply le_of_sq_le _ zero_le_one
  rw [len3_sq, cross_apply]
  change (A 1 * B 2 - A 2 * B 1) ^ 2 + (A 2 * B 0 - A 0 * B 2) ^ 2 + (A 0 * B 1 - A 1 * B 0) ^ 2 ≤ 1 ^ 2
  have : (A 1 * B 2 - A 2 * B 1) ^ 2 + (A 2 * B 0 - A 0 * B 2) ^ 2 + (A 0 * B 1 - A 1 * B 0) ^ 2 =
      (A 0 ^ 2 + A 1 ^ 2 + A 2 ^ 2) * (B 0 ^ 2 + B 1 ^ 2 + B 2 ^ 2) - (A 0 * B 0 + A 1 * B 1 + A 2 * B 2) ^ 2 := by ring
  rw [this, hA, hB]
  nlinarith [sq_nonneg (A 0 * B 0 + A 1 * B 1 + A 2 * B 2)]

/-! ### floats -/

variable {mw ew : Nat} [FltImpl mw ew] [LawfulFlt mw ew]

theorem cross_comp_core {u η a b c d A B C D k l p q z : ℝ} (hu : 0 < u) (hu1 : u ≤ 1 / 1024) (he : 0 ≤ η) (heu : η ≤ u / 1024)
    (ha : |a - A| ≤ k * u) (hb : |b - B| ≤ l * u) (hc : |c - C| ≤ k * u) (hd : |d - D| ≤ l * u)
    (hA : |A| ≤ 1) (hC : |C| ≤ 1) (hb1 : |b| ≤ 1.01) (hd1 : |d| ≤ 1.01) (hk : 0 ≤ k) (hk8 : k ≤ 8)
    (hp : |p - a * b| ≤ u * |a * b| + η) (hq : |q - c * d| ≤ u * |c * d| + η) (hz : |z - (p - q)| ≤ u * |p - q|) :
    |z - (A * B - C * D)| ≤ (2 * l + 2.02 * k + 5) * u := by
  have one : ∀ {a b A B p : ℝ}, |a - A| ≤ k * u → |b - B| ≤ l * u → |A| ≤ 1 → |b| ≤ 1.01 → |p - a * b| ≤ u * |a * b| + η →
      |p - A * B| ≤ (l + 1.01 * k + 1.03) * u ∧ |p| ≤ 1.03 := by
    intro a b A B p ha hb hA hb1 hp
    have k1 : k * u ≤ 8 / 1024 := by
      have := mul_le_mul hk8 hu1 hu.le (by norm_num); linarith
    have a1 : |a| ≤ 1.008 := by
      have := abs_add_le (a - A) A; rw [sub_add_cancel] at this; linarith
    have ab : |a * b| ≤ 1.0181 := by
      rw [abs_mul]; exact (mul_le_mul a1 hb1 (abs_nonneg _) (by norm_num)).trans (by norm_num)
    have e1 : |a * b - A * B| ≤ l * u + 1.01 * (k * u) := by
      rw [show a * b - A * B = A * (b - B) + (a - A) * b by ring]
      refine (abs_add_le _ _).trans ?_
      rw [abs_mul, abs_mul]
      have m1 := mul_le_mul hA hb (abs_nonneg _) zero_le_one
      have m2 := mul_le_mul ha hb1 (abs_nonneg _) (by positivity)
      linarith
    have e2 := mul_le_mul_of_nonneg_left ab hu.le
    constructor
    · have := abs_sub_le p (a * b) (A * B)
      linarith
    · have := abs_add_le (p - a * b) (a * b); rw [sub_add_cancel] at this
      linarith
  obtain ⟨p1, p2⟩ := one ha hb hA hb1 hp
  obtain ⟨q1, q2⟩ := one hc hd hC hd1 hq
  have pq : |p - q| ≤ 2.06 := by have := abs_sub p q; linarith
  have e1 := mul_le_mul_of_nonneg_left pq hu.le
  have e2 : |(p - q) - (A * B - C * D)| ≤ 2 * ((l + 1.01 * k + 1.03) * u) := by
    rw [show (p - q) - (A * B - C * D) = (p - A * B) - (q - C * D) by ring]
    have := abs_sub (p - A * B) (q - C * D); linarith
  have e3 := abs_sub_le z (p - q) (A * B - C * D)
  linarith

/-- the cross product of two nearly known vectors -/
theorem near_cross (hm : 9 ≤ mw) (hw : mw + 3 ≤ 2 ^ (ew - 1)) {a b : Vec (Flt mw ew) 3} {A B : _root_.Fin 3 → ℝ} {k l : ℝ}
    (ha : ∀ i, Near (a.vec i) (A i) k) (hb : ∀ i, Near (b.vec i) (B i) l) (hA : ∀ i, |A i| ≤ 1)
    (hb1 : ∀ i, |(b.vec i).toReal| ≤ 1.01) (hk : 0 ≤ k) (hk8 : k ≤ 8) (i : _root_.Fin 3) :
    Near ((a.cross b).vec i) (crossProduct A B i) (2 * l + 2.02 * k + 5) ∧ |((a.cross b).vec i).toReal| ≤ 2.07 := by
  have u0 := uRnd_pos (mw := mw)
  have u1 := uRnd_small hm
  have e0 := etaRnd_pos (mw := mw) (ew := ew)
  have eu : etaRnd mw ew ≤ uRnd mw / 1024 := by
    have h5 := eta_le_sq (mw := mw) (ew := ew) hw
    have h6 := mul_le_mul_of_nonneg_left u1 u0.le
    rw [sq] at h5; linarith
  obtain ⟨f4, v4⟩ := four_spec (mw := mw) (ew := ew)
  have a1 : ∀ i, |(a.vec i).toReal| ≤ 1.008 := fun i => by
    have := (ha i).abs_le (hA i)
    have k1 := mul_le_mul hk8 u1 u0.le (by norm_num)
    linarith
  have prod : ∀ i j, (a.vec i * b.vec j).isFin = true ∧ |(a.vec i * b.vec j).toReal| ≤ 1.03 := fun i j => by
    have ab : |(a.vec i).toReal * (b.vec j).toReal| ≤ 1.0181 := by
      rw [abs_mul]; exact (mul_le_mul (a1 i) (hb1 j) (abs_nonneg _) (by norm_num)).trans (by norm_num)
    have f : (a.vec i * b.vec j).isFin = true :=
      fin_below f4 (mul_fin (ha i).1 (hb j).1).2 (by rw [v4]; linarith)
    refine ⟨f, ?_⟩
    have e := mul_err' f
    have := abs_add_le ((a.vec i * b.vec j).toReal - (a.vec i).toReal * (b.vec j).toReal) ((a.vec i).toReal * (b.vec j).toReal)
    rw [sub_add_cancel] at this
    have := mul_le_mul_of_nonneg_left ab u0.le
    linarith
  have comp : ∀ i j, Near (a.vec i * b.vec j - a.vec j * b.vec i) (A i * B j - A j * B i) (2 * l + 2.02 * k + 5) ∧
      |(a.vec i * b.vec j - a.vec j * b.vec i).toReal| ≤ 2.07 := fun i j => by
    obtain ⟨fp, bp⟩ := prod i j
    obtain ⟨fq, bq⟩ := prod j i
    have d : |(a.vec i * b.vec j).toReal - (a.vec j * b.vec i).toReal| ≤ 2.06 := by
      have := abs_sub (a.vec i * b.vec j).toReal (a.vec j * b.vec i).toReal; linarith
    have fz : (a.vec i * b.vec j - a.vec j * b.vec i).isFin = true :=
      fin_below f4 (sub_fin fp fq).2 (by rw [v4]; linarith)
    have es := sub_err fp fq fz
    refine ⟨⟨fz, cross_comp_core u0 u1 e0.le eu (ha i).2 (hb j).2 (ha j).2 (hb i).2 (hA i) (hA j) (hb1 j) (hb1 i) hk hk8
      (mul_err' fp) (mul_err' fq) es⟩, ?_⟩
    have := abs_add_le ((a.vec i * b.vec j - a.vec j * b.vec i).toReal - ((a.vec i * b.vec j).toReal - (a.vec j * b.vec i).toReal))
      ((a.vec i * b.vec j).toReal - (a.vec j * b.vec i).toReal)
    rw [sub_add_cancel] at this
    have := mul_le_mul_of_nonneg_left d u0.le
    linarith
  rw [cross_apply]
  fin_cases i
  · exact comp 1 2
  · exact comp 2 0
  · exact comp 0 1

theorem eta_le_cube (hw : 2 * mw + 4 ≤ 2 ^ (ew - 1)) : etaRnd mw ew ≤ uRnd mw ^ 3 := by
  unfold uRnd etaRnd
  rw [div_pow, one_pow, ← pow_mul]
  refine one_div_le_one_div_of_le (by positivity) (pow_le_pow_right₀ (by norm_num) ?_)
  unfold fK; omega

/-- the real coordinates of a float vector -/
noncomputable def coords {U : Marker} (v : GVec (Flt mw ew) 3 U) : _root_.Fin 3 → ℝ := fun i => (v.vec i).toReal

/-- the exact viewing axis: from the target to the camera -/
noncomputable def viewZ (pos target : Point (Flt mw ew) 3) : _root_.Fin 3 → ℝ :=
  unit3 fun i => (pos.vec i).toReal - (target.vec i).toReal
/-- `up` and the viewing axis span a plane; this vector is orthogonal to it, and its length is the sine of their angle -/
noncomputable def sideR (pos target : Point (Flt mw ew) 3) (up : Vec (Flt mw ew) 3) : _root_.Fin 3 → ℝ :=
  crossProduct (unit3 (coords up)) (viewZ pos target)
/-- the exact camera x axis -/
noncomputable def viewX (pos target : Point (Flt mw ew) 3) (up : Vec (Flt mw ew) 3) : _root_.Fin 3 → ℝ :=
  unit3 (sideR pos target up)
/-- the exact camera y axis -/
noncomputable def viewY (pos target : Point (Flt mw ew) 3) (up : Vec (Flt mw ew) 3) : _root_.Fin 3 → ℝ :=
  crossProduct (viewZ pos target) (viewX pos target up)

/-- what a camera needs for an accurate `look_at`: the squared lengths of `up` and of `pos - target` neither overflow nor
underflow, and the sine of the angle between `up` and the viewing direction is at least `128u` -/
structure LookRegular (pos target : Point (Flt mw ew) 3) (up : Vec (Flt mw ew) 3) : Prop where
  posFin : ∀ i, (pos.vec i).isFin = true
  targetFin : ∀ i, (target.vec i).isFin = true
  upFin : up.squareNorm.isFin = true
  upBig : 3 * etaRnd mw ew ≤ uRnd mw * ∑ i, (up.vec i).toReal ^ 2
  dirFin : (pos - target : Vec (Flt mw ew) 3).squareNorm.isFin = true
  dirBig : 4 * etaRnd mw ew ≤ uRnd mw * ∑ i, ((pos.vec i).toReal - (target.vec i).toReal) ^ 2
  angle : 128 * uRnd mw ≤ len3 (sideR pos target up)

theorem len3_pos_of_big {a : _root_.Fin 3 → ℝ} {k : ℝ} (hk : 0 < k) (h : k * etaRnd mw ew ≤ uRnd mw * ∑ i, a i ^ 2) : 0 < len3 a := by
  refine Real.sqrt_pos.2 ?_
  have := etaRnd_pos (mw := mw) (ew := ew)
  have u0 := uRnd_pos (mw := mw)
  by_contra hc
  have : uRnd mw * ∑ i, a i ^ 2 ≤ 0 := mul_nonpos_of_nonneg_of_nonpos u0.le (not_lt.1 hc)
  have : 0 < k * etaRnd mw ew := by positivity
  linarith

variable {pos target : Point (Flt mw ew) 3} {up : Vec (Flt mw ew) 3}

/-- the z axis: normalizing the rounded difference -/
theorem near_viewZ (hm : 9 ≤ mw) (h : LookRegular pos target up) (i : _root_.Fin 3) :
    Near ((pos - target : Vec (Flt mw ew) 3).normalize.vec i) (viewZ pos target i) 7 := by
  have u0 := uRnd_pos (mw := mw)
  have u1 := uRnd_small hm
  have e0 := etaRnd_pos (mw := mw) (ew := ew)
  have df : ∀ i, (pos.vec i - target.vec i).isFin = true := fun i => (isFin_of_mul (sumLoop_fin h.dirFin i)).1
  have er : ∀ i, |(pos.vec i - target.vec i).toReal - ((pos.vec i).toReal - (target.vec i).toReal)| ≤
      uRnd mw * |(pos.vec i).toReal - (target.vec i).toReal| := fun i => sub_err (h.posFin i) (h.targetFin i) (df i)
  have big : 3 * etaRnd mw ew ≤ uRnd mw * ∑ i, ((pos - target : Vec (Flt mw ew) 3).vec i).toReal ^ 2 := by
    have q : ∀ i, 3 / 4 * ((pos.vec i).toReal - (target.vec i).toReal) ^ 2 ≤ ((pos - target : Vec (Flt mw ew) 3).vec i).toReal ^ 2 := fun i => by
      rw [vec_psub]
      have hx := er i
      generalize (pos.vec i - target.vec i).toReal = x at hx
      generalize (pos.vec i).toReal - (target.vec i).toReal = d at hx
      have h1 : 0.99 * |d| ≤ |x| := by
        have := abs_sub_abs_le_abs_sub d x; rw [abs_sub_comm] at this
        have := mul_le_mul_of_nonneg_right u1 (abs_nonneg d)
        have := abs_nonneg d
        linarith
      rw [← sq_abs d, ← sq_abs x]
      have := pow_le_pow_left₀ (by positivity) h1 2
      nlinarith [sq_nonneg |d|]
    have := Finset.sum_le_sum fun i (_ : i ∈ Finset.univ) => q i
    rw [← Finset.mul_sum] at this
    have := mul_le_mul_of_nonneg_left this u0.le
    have := h.dirBig
    linarith
  obtain ⟨f, e⟩ := C84_normalize_partial hm (pos - target : Vec (Flt mw ew) 3) h.dirFin big i
  refine ⟨f, ?_⟩
  have r := unit3_rel (a := fun i => ((pos - target : Vec (Flt mw ew) 3).vec i).toReal)
    (b := fun i => (pos.vec i).toReal - (target.vec i).toReal) u0.le er (len3_pos_of_big (by norm_num) big)
    (len3_pos_of_big (by norm_num) h.dirBig) i
  have := abs_sub_le ((pos - target : Vec (Flt mw ew) 3).normalize.vec i).toReal
    (unit3 (fun i => ((pos - target : Vec (Flt mw ew) 3).vec i).toReal) i) (viewZ pos target i)
  have e' : |((pos - target : Vec (Flt mw ew) 3).normalize.vec i).toReal -
    unit3 (fun i => ((pos - target : Vec (Flt mw ew) 3).vec i).toReal) i| ≤ 5 * uRnd mw := e
  have r' : |unit3 (fun i => ((pos - target : Vec (Flt mw ew) 3).vec i).toReal) i - viewZ pos target i| ≤ 2 * uRnd mw := r
  linarith

theorem near_up (hm : 9 ≤ mw) (h : LookRegular pos target up) (i : _root_.Fin 3) :
    Near (up.normalize.vec i) (unit3 (coords up) i) 5 := C84_normalize_partial hm up h.upFin h.upBig i

theorem viewZ_unit (h : LookRegular pos target up) : viewZ pos target 0 ^ 2 + viewZ pos target 1 ^ 2 + viewZ pos target 2 ^ 2 = 1 :=
  unit3_sq (len3_pos_of_big (by norm_num) h.dirBig)

theorem up_unit (h : LookRegular pos target up) :
    unit3 (coords up) 0 ^ 2 + unit3 (coords up) 1 ^ 2 + unit3 (coords up) 2 ^ 2 = 1 :=
  unit3_sq (len3_pos_of_big (by norm_num) h.upBig)

theorem near_side (hm : 9 ≤ mw) (hw : mw + 3 ≤ 2 ^ (ew - 1)) (h : LookRegular pos target up) (i : _root_.Fin 3) :
    Near ((up.normalize.cross (pos - target : Vec (Flt mw ew) 3).normalize).vec i) (sideR pos target up i) 30 := by
  refine (near_cross hm hw (near_up hm h) (near_viewZ hm h) (unit3_abs _) (fun i => ?_) (by norm_num) (by norm_num) i).1.mono
    (by norm_num)
  have := (near_viewZ hm h i).abs_le (unit3_abs _ i)
  have := uRnd_small hm
  linarith

/-- the x axis -/
theorem near_viewX (hm : 9 ≤ mw) (hw : 2 * mw + 4 ≤ 2 ^ (ew - 1)) (h : LookRegular pos target up) (i : _root_.Fin 3) :
    Near ((up.normalize.cross (pos - target : Vec (Flt mw ew) 3).normalize).normalize.vec i) (viewX pos target up i)
      (88 / len3 (sideR pos target up)) ∧
    |((up.normalize.cross (pos - target : Vec (Flt mw ew) 3).normalize).normalize.vec i).toReal| ≤ 1.01 := by
  have hw' : mw + 3 ≤ 2 ^ (ew - 1) := by omega
  have u0 := uRnd_pos (mw := mw)
  have u1 := uRnd_small hm
  have e0 := etaRnd_pos (mw := mw) (ew := ew)
  have nc := near_side hm hw' h
  have s1 : len3 (sideR pos target up) ≤ 1 := cross_abs (up_unit h) (viewZ_unit h)
  have s0 := h.angle
  have C1 : ∀ i, |sideR pos target up i| ≤ 1 := fun i => (abs_le_len3 _ i).trans s1
  have C2 : ∀ i, |sideR pos target up i * sideR pos target up i| ≤ 1 := fun i => by
    rw [abs_mul]; exact (mul_le_mul (C1 i) (C1 i) (abs_nonneg _) zero_le_one).trans (by norm_num)
  unfold viewX
  generalize up.normalize.cross (pos - target : Vec (Flt mw ew) 3).normalize = c at *
  generalize sideR pos target up = C at *
  have hsq := len3_sq C
  have hsq1 : len3 C ^ 2 ≤ 1 := pow_le_one₀ (len3_nonneg C) s1
  have q : ∀ i, Near (c.vec i * c.vec i) (C i * C i) 63 := fun i =>
    near_mul hm hw' (nc i) (nc i) (C1 i) (C1 i) (C2 i) (by norm_num) (by norm_num) (by norm_num) (by norm_num)
  have p01 : |C 0 * C 0 + C 1 * C 1| ≤ 1 := by
    rw [abs_of_nonneg (add_nonneg (mul_self_nonneg _) (mul_self_nonneg _))]; nlinarith [sq_nonneg (C 2)]
  have p012 : |C 0 * C 0 + C 1 * C 1 + C 2 * C 2| ≤ 1 := by
    rw [abs_of_nonneg (add_nonneg (add_nonneg (mul_self_nonneg _) (mul_self_nonneg _)) (mul_self_nonneg _))]; nlinarith
  have fS : c.squareNorm.isFin = true := by
    have z0 : Near (Scalar.zero + c.vec 0 * c.vec 0) (C 0 * C 0) 63 := near_zero_add near_zero (q 0)
    have h01 : Near (Scalar.zero + c.vec 0 * c.vec 0 + c.vec 1 * c.vec 1) (C 0 * C 0 + C 1 * C 1) 128 :=
      near_add hm z0 (q 1) p01 (by norm_num) (by norm_num) (by norm_num) (by norm_num)
    have h012 : Near (Scalar.zero + c.vec 0 * c.vec 0 + c.vec 1 * c.vec 1 + c.vec 2 * c.vec 2) (C 0 * C 0 + C 1 * C 1 + C 2 * C 2) 193 :=
      near_add hm h01 (q 2) p012 (by norm_num) (by norm_num) (by norm_num) (by norm_num)
    exact h012.1
  have hl := _root_.abs_le.1 (len3_close fun i => (nc i).2)
  have hl2 : 64 * uRnd mw ≤ len3 (fun i => (c.vec i).toReal) := by
    have : len3 (fun i => (c.vec i).toReal) = len3 fun x => (c.vec x).toReal := rfl
    linarith [hl.1]
  have big : 3 * etaRnd mw ew ≤ uRnd mw * ∑ i, (c.vec i).toReal ^ 2 := by
    have h1 := pow_le_pow_left₀ (by positivity) hl2 2
    have h2 : len3 (fun i => (c.vec i).toReal) ^ 2 = ∑ i, (c.vec i).toReal ^ 2 :=
      Real.sq_sqrt (Finset.sum_nonneg fun i _ => sq_nonneg _)
    rw [h2] at h1
    have h3 := mul_le_mul_of_nonneg_left h1 u0.le
    have h4 := eta_le_cube (mw := mw) (ew := ew) hw
    have h5 : 0 < uRnd mw ^ 3 := by positivity
    have h6 : uRnd mw * (64 * uRnd mw) ^ 2 = 4096 * uRnd mw ^ 3 := by ring
    rw [h6] at h3
    linarith
  obtain ⟨f, e⟩ := C84_normalize_partial hm c fS big i
  have e' : |(c.normalize.vec i).toReal - unit3 (fun i => (c.vec i).toReal) i| ≤ 5 * uRnd mw := e
  have sp : 0 < len3 C := lt_of_lt_of_le (by positivity) s0
  refine ⟨⟨f, ?_⟩, ?_⟩
  · have r := unit3_close (fun i => (nc i).2) (lt_of_lt_of_le (by positivity) hl2) sp i
    have t := abs_sub_le (c.normalize.vec i).toReal (unit3 (fun i => (c.vec i).toReal) i) (unit3 C i)
    have h5 : 5 * uRnd mw ≤ 5 * uRnd mw / len3 C := by rw [le_div_iff₀ sp]; nlinarith
    have : 2.7321 * (30 * uRnd mw) / len3 C + 5 * uRnd mw / len3 C ≤ 88 / len3 C * uRnd mw := by
      rw [← add_div, div_mul_eq_mul_div]
      refine div_le_div_of_nonneg_right ?_ sp.le
      linarith
    linarith
  · have := unit3_abs (fun i => (c.vec i).toReal) i
    have := abs_add_le ((c.normalize.vec i).toReal - unit3 (fun i => (c.vec i).toReal) i) (unit3 (fun i => (c.vec i).toReal) i)
    rw [sub_add_cancel] at this
    linarith

/-- the y axis -/
theorem near_viewY (hm : 9 ≤ mw) (hw : 2 * mw + 4 ≤ 2 ^ (ew - 1)) (h : LookRegular pos target up) (i : _root_.Fin 3) :
    Near (((pos - target : Vec (Flt mw ew) 3).normalize.cross
      (up.normalize.cross (pos - target : Vec (Flt mw ew) 3).normalize).normalize).vec i) (viewY pos target up i)
      (196 / len3 (sideR pos target up)) ∧
    |(((pos - target : Vec (Flt mw ew) 3).normalize.cross
      (up.normalize.cross (pos - target : Vec (Flt mw ew) 3).normalize).normalize).vec i).toReal| ≤ 2.07 := by
  have hw' : mw + 3 ≤ 2 ^ (ew - 1) := by omega
  have s1 : len3 (sideR pos target up) ≤ 1 := cross_abs (up_unit h) (viewZ_unit h)
  have sp : 0 < len3 (sideR pos target up) := lt_of_lt_of_le (by have := uRnd_pos (mw := mw); positivity) h.angle
  obtain ⟨n, b⟩ := near_cross hm hw' (near_viewZ hm h) (fun i => (near_viewX hm hw h i).1) (unit3_abs _)
    (fun i => (near_viewX hm hw h i).2) (by norm_num) (by norm_num) i
  refine ⟨n.mono ?_, b⟩
  have : 1 ≤ 1 / len3 (sideR pos target up) := by rw [le_div_iff₀ sp]; linarith
  rw [show 88 / len3 (sideR pos target up) = 88 * (1 / len3 (sideR pos target up)) by ring,
    show 196 / len3 (sideR pos target up) = 196 * (1 / len3 (sideR pos target up)) by ring]
  linarith

/-- the exact camera frame, as rows -/
noncomputable def frameR (pos target : Point (Flt mw ew) 3) (up : Vec (Flt mw ew) 3) : _root_.Fin 3 → _root_.Fin 3 → ℝ :=
  ![viewX pos target up, viewY pos target up, viewZ pos target]

theorem viewX_unit (h : LookRegular pos target up) :
    viewX pos target up 0 ^ 2 + viewX pos target up 1 ^ 2 + viewX pos target up 2 ^ 2 = 1 :=
  unit3_sq (lt_of_lt_of_le (by have := uRnd_pos (mw := mw); positivity) h.angle)

theorem frame_real {X Y Z : _root_.Fin 3 → ℝ} (hx : X 0 ^ 2 + X 1 ^ 2 + X 2 ^ 2 = 1) (hz : Z 0 ^ 2 + Z 1 ^ 2 + Z 2 ^ 2 = 1)
    (xz : X 0 * Z 0 + X 1 * Z 1 + X 2 * Z 2 = 0) (y0 : Y 0 = Z 1 * X 2 - Z 2 * X 1) (y1 : Y 1 = Z 2 * X 0 - Z 0 * X 2)
    (y2 : Y 2 = Z 0 * X 1 - Z 1 * X 0) :
    (∀ i j, (![X, Y, Z] : _root_.Fin 3 → _root_.Fin 3 → ℝ) i ⬝ᵥ (![X, Y, Z] : _root_.Fin 3 → _root_.Fin 3 → ℝ) j = if i = j then 1 else 0) ∧
    crossProduct X Y = Z := by
  have d : ∀ A B : _root_.Fin 3 → ℝ, A ⬝ᵥ B = A 0 * B 0 + A 1 * B 1 + A 2 * B 2 := fun A B => by
    rw [dotProduct, Fin.sum_univ_three]
  have xx : X ⬝ᵥ X = 1 := by rw [d]; linarith
  have zz : Z ⬝ᵥ Z = 1 := by rw [d]; linarith
  have xz' : X ⬝ᵥ Z = 0 := by rw [d]; linarith
  have xy : X ⬝ᵥ Y = 0 := by rw [d, y0, y1, y2]; ring
  have yz : Y ⬝ᵥ Z = 0 := by rw [d, y0, y1, y2]; ring
  have yy : Y ⬝ᵥ Y = 1 := by
    rw [d, y0, y1, y2]
    linear_combination (Z 0 ^ 2 + Z 1 ^ 2 + Z 2 ^ 2) * hx + hz - (X 0 * Z 0 + X 1 * Z 1 + X 2 * Z 2) * xz
  refine ⟨fun i j => ?_, ?_⟩
  · fin_cases i <;> fin_cases j
    · exact xx
    · exact xy
    · exact xz'
    · exact (dotProduct_comm _ _).trans xy
    · exact yy
    · exact yz
    · exact (dotProduct_comm _ _).trans xz'
    · exact (dotProduct_comm _ _).trans yz
    · exact zz
  · rw [cross_apply, y0, y1, y2]
    funext i
    fin_cases i
    · change X 1 * (Z 0 * X 1 - Z 1 * X 0) - X 2 * (Z 2 * X 0 - Z 0 * X 2) = Z 0
      linear_combination Z 0 * hx - X 0 * xz
    · change X 2 * (Z 1 * X 2 - Z 2 * X 1) - X 0 * (Z 0 * X 1 - Z 1 * X 0) = Z 1
      linear_combination Z 1 * hx - X 1 * xz
    · change X 0 * (Z 2 * X 0 - Z 0 * X 2) - X 1 * (Z 1 * X 2 - Z 2 * X 1) = Z 2
      linear_combination Z 2 * hx - X 2 * xz

/-- C107: the frame the other statements compare with is the right-handed orthonormal frame whose third axis points from
the target to the camera and whose first axis is orthogonal to `up`, the second being on the side of `up`. -/
theorem C107_frame (h : LookRegular pos target up) :
    (∀ i j, frameR pos target up i ⬝ᵥ frameR pos target up j = if i = j then 1 else 0) ∧
    crossProduct (frameR pos target up 0) (frameR pos target up 1) = frameR pos target up 2 ∧
    (∃ k > 0, ∀ i, (pos.vec i).toReal - (target.vec i).toReal = k * frameR pos target up 2 i) ∧
    (frameR pos target up 0 ⬝ᵥ fun i => (up.vec i).toReal) = 0 ∧
    0 < frameR pos target up 1 ⬝ᵥ fun i => (up.vec i).toReal := by
  have hz := viewZ_unit h
  have hx := viewX_unit h
  have lu : 0 < len3 (coords up) := len3_pos_of_big (by norm_num) h.upBig
  have ld : 0 < len3 fun i => (pos.vec i).toReal - (target.vec i).toReal := len3_pos_of_big (by norm_num) h.dirBig
  have ls : 0 < len3 (sideR pos target up) := lt_of_lt_of_le (by have := uRnd_pos (mw := mw); positivity) h.angle
  have hxs : ∀ i, viewX pos target up i * len3 (sideR pos target up) = sideR pos target up i := fun i =>
    div_mul_cancel₀ _ ls.ne'
  have hus : ∀ i, unit3 (coords up) i * len3 (coords up) = (up.vec i).toReal := fun i => div_mul_cancel₀ _ lu.ne'
  have s0 : sideR pos target up 0 = unit3 (coords up) 1 * viewZ pos target 2 - unit3 (coords up) 2 * viewZ pos target 1 := by
    unfold sideR; rw [cross_apply]; rfl
  have s1 : sideR pos target up 1 = unit3 (coords up) 2 * viewZ pos target 0 - unit3 (coords up) 0 * viewZ pos target 2 := by
    unfold sideR; rw [cross_apply]; rfl
  have s2 : sideR pos target up 2 = unit3 (coords up) 0 * viewZ pos target 1 - unit3 (coords up) 1 * viewZ pos target 0 := by
    unfold sideR; rw [cross_apply]; rfl
  have y0 : viewY pos target up 0 = viewZ pos target 1 * viewX pos target up 2 - viewZ pos target 2 * viewX pos target up 1 := by
    unfold viewY; rw [cross_apply]; rfl
  have y1 : viewY pos target up 1 = viewZ pos target 2 * viewX pos target up 0 - viewZ pos target 0 * viewX pos target up 2 := by
    unfold viewY; rw [cross_apply]; rfl
  have y2 : viewY pos target up 2 = viewZ pos target 0 * viewX pos target up 1 - viewZ pos target 1 * viewX pos target up 0 := by
    unfold viewY; rw [cross_apply]; rfl
  have hS := len3_sq (sideR pos target up)
  have xz : viewX pos target up 0 * viewZ pos target 0 + viewX pos target up 1 * viewZ pos target 1 +
      viewX pos target up 2 * viewZ pos target 2 = 0 := by
    have : (viewX pos target up 0 * viewZ pos target 0 + viewX pos target up 1 * viewZ pos target 1 +
      viewX pos target up 2 * viewZ pos target 2) * len3 (sideR pos target up) = 0 := by
      have e : (viewX pos target up 0 * viewZ pos target 0 + viewX pos target up 1 * viewZ pos target 1 +
        viewX pos target up 2 * viewZ pos target 2) * len3 (sideR pos target up) =
        viewX pos target up 0 * len3 (sideR pos target up) * viewZ pos target 0 +
        viewX pos target up 1 * len3 (sideR pos target up) * viewZ pos target 1 +
        viewX pos target up 2 * len3 (sideR pos target up) * viewZ pos target 2 := by ring
      rw [e, hxs, hxs, hxs, s0, s1, s2]; ring
    exact (mul_eq_zero.1 this).resolve_right ls.ne'
  have xu : viewX pos target up 0 * unit3 (coords up) 0 + viewX pos target up 1 * unit3 (coords up) 1 +
      viewX pos target up 2 * unit3 (coords up) 2 = 0 := by
    have : (viewX pos target up 0 * unit3 (coords up) 0 + viewX pos target up 1 * unit3 (coords up) 1 +
      viewX pos target up 2 * unit3 (coords up) 2) * len3 (sideR pos target up) = 0 := by
      have e : (viewX pos target up 0 * unit3 (coords up) 0 + viewX pos target up 1 * unit3 (coords up) 1 +
        viewX pos target up 2 * unit3 (coords up) 2) * len3 (sideR pos target up) =
        viewX pos target up 0 * len3 (sideR pos target up) * unit3 (coords up) 0 +
        viewX pos target up 1 * len3 (sideR pos target up) * unit3 (coords up) 1 +
        viewX pos target up 2 * len3 (sideR pos target up) * unit3 (coords up) 2 := by ring
      rw [e, hxs, hxs, hxs, s0, s1, s2]; ring
    exact (mul_eq_zero.1 this).resolve_right ls.ne'
  have yu : viewY pos target up 0 * unit3 (coords up) 0 + viewY pos target up 1 * unit3 (coords up) 1 +
      viewY pos target up 2 * unit3 (coords up) 2 = len3 (sideR pos target up) := by
    have h0 := hxs 0; have h1 := hxs 1; have h2 := hxs 2
    rw [s0] at h0; rw [s1] at h1; rw [s2] at h2
    rw [y0, y1, y2]
    linear_combination (viewX pos target up 0) * (- h0) + (viewX pos target up 1) * (- h1) + (viewX pos target up 2) * (- h2) +
      len3 (sideR pos target up) * hx
  obtain ⟨o, c⟩ := frame_real hx hz xz y0 y1 y2
  refine ⟨o, c, ⟨_, ld, fun i => ?_⟩, ?_, ?_⟩
  · exact (mul_div_cancel₀ _ ld.ne').symm
  · rw [dotProduct, Fin.sum_univ_three, ← hus 0, ← hus 1, ← hus 2]
    change viewX pos target up 0 * _ + viewX pos target up 1 * _ + viewX pos target up 2 * _ = 0
    linear_combination len3 (coords up) * xu
  · rw [dotProduct, Fin.sum_univ_three, ← hus 0, ← hus 1, ← hus 2]
    change 0 < viewY pos target up 0 * _ + viewY pos target up 1 * _ + viewY pos target up 2 * _
    have : 0 < len3 (coords up) * len3 (sideR pos target up) := mul_pos lu ls
    rw [← yu] at this
    linarith

/-- one row of an affine map whose entries are within `ε` of known ones -/
theorem look_row_core {u η z t ε : ℝ} (hu : 0 < u) (hu1 : u ≤ 1 / 1024) (he : 0 < η) {m r p : _root_.Fin 3 → ℝ}
    (hm : ∀ j, |m j - r j| ≤ ε) (hb : ∀ j, |m j| ≤ 2.07)
    (hz : |z - (∑ j, m j * p j + t)| ≤ ((1 + u) ^ 4 - 1) * (∑ j, |m j| * |p j| + |t|) + 4 * η * (1 + u) ^ 3) :
    |z - (∑ j, r j * p j + t)| ≤ (ε + 9 * u) * ∑ j, |p j| + 4.1 * u * |t| + 5 * η := by
  have husq : u ^ 2 ≤ 1 / 1024 * u := by rw [sq]; exact mul_le_mul_of_nonneg_right hu1 hu.le
  have p3 : (1 + u) ^ 3 ≤ 1.01 := by
    have := pow_le_pow_left₀ (show 0 ≤ 1 + u by linarith) (show 1 + u ≤ 1 + 1 / 1024 by linarith) 3
    exact this.trans (by norm_num)
  have p4 : (1 + u) ^ 4 - 1 ≤ 4.1 * u := by
    have h3 : u ^ 3 ≤ 1 / 1024 * (1 / 1024 * u) := by
      rw [show u ^ 3 = u * u ^ 2 by ring]
      exact mul_le_mul hu1 husq (by positivity) (by norm_num)
    have h4 : u ^ 4 ≤ 1 / 1024 * (1 / 1024 * (1 / 1024 * u)) := by
      rw [show u ^ 4 = u * u ^ 3 by ring]
      exact mul_le_mul hu1 h3 (by positivity) (by norm_num)
    have : (1 + u) ^ 4 - 1 = 4 * u + 6 * u ^ 2 + 4 * u ^ 3 + u ^ 4 := by ring
    linarith
  have P0 : 0 ≤ ∑ j, |p j| := Finset.sum_nonneg fun j _ => abs_nonneg _
  have s1 : ∑ j, |m j| * |p j| ≤ 2.07 * ∑ j, |p j| := by
    rw [Finset.mul_sum]
    exact Finset.sum_le_sum fun j _ => mul_le_mul_of_nonneg_right (hb j) (abs_nonneg _)
  have s2 : |∑ j, m j * p j - ∑ j, r j * p j| ≤ ε * ∑ j, |p j| := by
    rw [← Finset.sum_sub_distrib, Finset.mul_sum]
    refine (Finset.abs_sum_le_sum_abs _ _).trans (Finset.sum_le_sum fun j _ => ?_)
    rw [← sub_mul, abs_mul]
    exact mul_le_mul_of_nonneg_right (hm j) (abs_nonneg _)
  have s3 := mul_le_mul p4 (add_le_add_left s1 |t|) (add_nonneg (Finset.sum_nonneg fun j _ => by positivity) (abs_nonneg t)) (by positivity)
  have s4 := mul_le_mul_of_nonneg_left p3 (by linarith : 0 ≤ 4 * η)
  have s5 := abs_sub_le z (∑ j, m j * p j + t) (∑ j, r j * p j + t)
  rw [add_sub_add_right_eq_sub] at s5
  have s6 : 0 ≤ u * ∑ j, |p j| := by positivity
  have s7 : 4.1 * u * (2.07 * ∑ j, |p j| + |t|) = 8.487 * (u * ∑ j, |p j|) + 4.1 * u * |t| := by ring
  rw [s7] at s3
  have s8 : (ε + 9 * u) * ∑ j, |p j| = ε * ∑ j, |p j| + 9 * (u * ∑ j, |p j|) := by ring
  rw [s8]
  linarith

theorem look_row {U : Marker} (hm : 9 ≤ mw) {m : Mat4 (Flt mw ew)} {w ε : ℝ} {p q : GVec (Flt mw ew) 3 U} {i : _root_.Fin 3}
    {R : _root_.Fin 3 → ℝ} (hr : ∀ j : _root_.Fin 3, |(m.data i.castSucc j.castSucc).toReal - R j| ≤ ε)
    (hb : ∀ j : _root_.Fin 3, |(m.data i.castSucc j.castSucc).toReal| ≤ 2.07)
    (h : |homR w q i.castSucc - ∑ j, matR m i.castSucc j * homR w p j| ≤
      ((1 + uRnd mw) ^ 4 - 1) * ∑ j, |matR m i.castSucc j| * |homR w p j| + 4 * etaRnd mw ew * (1 + uRnd mw) ^ 3) :
    |(q.vec i).toReal - (∑ j, R j * (p.vec j).toReal + (m.data i.castSucc 3).toReal * w)| ≤
      (ε + 9 * uRnd mw) * ∑ j, |(p.vec j).toReal| + 4.1 * uRnd mw * |(m.data i.castSucc 3).toReal * w| + 5 * etaRnd mw ew := by
  refine look_row_core (m := fun j => (m.data i.castSucc j.castSucc).toReal) uRnd_pos (uRnd_small hm) etaRnd_pos hr hb ?_
  rw [Fin.sum_univ_castSucc (n := 3) (f := fun j => matR m i.castSucc j * homR w p j),
    Fin.sum_univ_castSucc (n := 3) (f := fun j => |matR m i.castSucc j| * |homR w p j|)] at h
  simp only [homR_cs] at h
  rw [abs_mul]
  exact h

/-- the computed translation column -/
theorem look_trans_core {u η t ε : ℝ} (hu : 0 < u) (hu1 : u ≤ 1 / 1024) (he : 0 < η) {m r p : _root_.Fin 3 → ℝ}
    (hm : ∀ j, |m j - r j| ≤ ε) (hb : ∀ j, |m j| ≤ 2.07)
    (hz : |t - ∑ j, m j * p j| ≤ ((1 + u) ^ 3 - 1) * ∑ j, |m j * p j| + 3 * η * (1 + u) ^ 2) :
    |t - ∑ j, r j * p j| ≤ (ε + 6.3 * u) * ∑ j, |p j| + 4 * η ∧ |t| ≤ 2.1 * ∑ j, |p j| + 4 * η := by
  have husq : u ^ 2 ≤ 1 / 1024 * u := by rw [sq]; exact mul_le_mul_of_nonneg_right hu1 hu.le
  have p2 : (1 + u) ^ 2 ≤ 1.01 := by
    have := pow_le_pow_left₀ (show 0 ≤ 1 + u by linarith) (show 1 + u ≤ 1 + 1 / 1024 by linarith) 2
    exact this.trans (by norm_num)
  have p3 : (1 + u) ^ 3 - 1 ≤ 3.01 * u := by
    have h3 : u ^ 3 ≤ 1 / 1024 * (1 / 1024 * u) := by
      rw [show u ^ 3 = u * u ^ 2 by ring]
      exact mul_le_mul hu1 husq (by positivity) (by norm_num)
    have : (1 + u) ^ 3 - 1 = 3 * u + 3 * u ^ 2 + u ^ 3 := by ring
    linarith
  have P0 : 0 ≤ ∑ j, |p j| := Finset.sum_nonneg fun j _ => abs_nonneg _
  have s1 : ∑ j, |m j * p j| ≤ 2.07 * ∑ j, |p j| := by
    rw [Finset.mul_sum]
    refine Finset.sum_le_sum fun j _ => ?_
    rw [abs_mul]
    exact mul_le_mul_of_nonneg_right (hb j) (abs_nonneg _)
  have s2 : |∑ j, m j * p j - ∑ j, r j * p j| ≤ ε * ∑ j, |p j| := by
    rw [← Finset.sum_sub_distrib, Finset.mul_sum]
    refine (Finset.abs_sum_le_sum_abs _ _).trans (Finset.sum_le_sum fun j _ => ?_)
    rw [← sub_mul, abs_mul]
    exact mul_le_mul_of_nonneg_right (hm j) (abs_nonneg _)
  have s3 := mul_le_mul p3 s1 (Finset.sum_nonneg fun j _ => by positivity) (by positivity)
  have s4 := mul_le_mul_of_nonneg_left p2 (by linarith : 0 ≤ 3 * η)
  have s6 : 0 ≤ u * ∑ j, |p j| := by positivity
  have s7 : 3.01 * u * (2.07 * ∑ j, |p j|) = 6.2307 * (u * ∑ j, |p j|) := by ring
  rw [s7] at s3
  constructor
  · have s5 := abs_sub_le t (∑ j, m j * p j) (∑ j, r j * p j)
    have s8 : (ε + 6.3 * u) * ∑ j, |p j| = ε * ∑ j, |p j| + 6.3 * (u * ∑ j, |p j|) := by ring
    rw [s8]; linarith
  · have s5 := abs_add_le (t - ∑ j, m j * p j) (∑ j, m j * p j)
    rw [sub_add_cancel] at s5
    have s8 := Finset.abs_sum_le_sum_abs (fun j => m j * p j) Finset.univ
    have s9 := mul_le_mul_of_nonneg_right hu1 P0
    linarith

theorem look_form (pos target : Point (Flt mw ew) 3) (up : Vec (Flt mw ew) 3) : ∃ x y z : Vec (Flt mw ew) 3,
    x = (up.normalize.cross (pos - target : Vec (Flt mw ew) 3).normalize).normalize ∧
    y = (pos - target : Vec (Flt mw ew) 3).normalize.cross
      (up.normalize.cross (pos - target : Vec (Flt mw ew) 3).normalize).normalize ∧
    z = (pos - target : Vec (Flt mw ew) 3).normalize ∧
    Transform.lookAt pos target up = Transform.initFromOrthogonalBasis pos x y z := ⟨_, _, _, rfl, rfl, rfl, rfl⟩

/-- the entries of the two stored matrices: near the exact frame, and bounded -/
theorem look_entries (hm : 9 ≤ mw) (hw : 2 * mw + 4 ≤ 2 ^ (ew - 1)) (h : LookRegular pos target up) :
    ∃ v : _root_.Fin 3 → Vec (Flt mw ew) 3,
      (∀ i j, ((v i).vec j).isFin = true ∧
        |((v i).vec j).toReal - frameR pos target up i j| ≤ 196 * (uRnd mw / len3 (sideR pos target up)) ∧
        |((v i).vec j).toReal| ≤ 2.07) ∧
      (Transform.lookAt pos target up).m.AffineF ∧ (Transform.lookAt pos target up).minv.AffineF ∧
      (∀ i j : _root_.Fin 3, (Transform.lookAt pos target up).m.data i.castSucc j.castSucc = (v i).vec j) ∧
      (∀ i j : _root_.Fin 3, (Transform.lookAt pos target up).minv.data i.castSucc j.castSucc = (v j).vec i) ∧
      (∀ i : _root_.Fin 3, (Transform.lookAt pos target up).m.data i.castSucc 3 = -(v i).dot pos) ∧
      (∀ i : _root_.Fin 3, (Transform.lookAt pos target up).minv.data i.castSucc 3 = pos.vec i) := by
  have nx := near_viewX hm hw h
  have ny := near_viewY hm hw h
  have nz := near_viewZ hm h
  have s1 : len3 (sideR pos target up) ≤ 1 := cross_abs (up_unit h) (viewZ_unit h)
  have sp : 0 < len3 (sideR pos target up) := lt_of_lt_of_le (by have := uRnd_pos (mw := mw); positivity) h.angle
  have u0 := uRnd_pos (mw := mw)
  have us : uRnd mw ≤ uRnd mw / len3 (sideR pos target up) := by rw [le_div_iff₀ sp]; nlinarith
  obtain ⟨x, y, z, ex, ey, ez, E⟩ := look_form pos target up
  rw [← ex] at nx
  rw [← ey] at ny
  rw [← ez] at nz
  rw [E]
  refine ⟨![x, y, z], fun i j => ?_, affineF_of rfl rfl rfl rfl, affineF_of rfl rfl rfl rfl, fun i j => ?_, fun i j => ?_,
    fun i => ?_, fun i => ?_⟩
  · have k : ∀ c : ℝ, c / len3 (sideR pos target up) * uRnd mw = c * (uRnd mw / len3 (sideR pos target up)) := fun c => by ring
    fin_cases i
    · obtain ⟨⟨f, e⟩, b⟩ := nx j
      rw [k] at e
      exact ⟨f, e.trans (by linarith), b.trans (by norm_num)⟩
    · obtain ⟨⟨f, e⟩, b⟩ := ny j
      rw [k] at e
      exact ⟨f, e, b⟩
    · obtain ⟨f, e⟩ := nz j
      have := (nz j).abs_le (unit3_abs _ j)
      have := uRnd_small hm
      exact ⟨f, e.trans (by linarith), by change |(z.vec j).toReal| ≤ 2.07; linarith⟩
  · fin_cases i <;> fin_cases j <;> rfl
  · fin_cases i <;> fin_cases j <;> rfl
  · fin_cases i <;> rfl
  · fin_cases i <;> rfl

/-- the size of the errors of `look_at`: `u` divided by the sine of the angle between `up` and the viewing direction -/
noncomputable def lookUnit (pos target : Point (Flt mw ew) 3) (up : Vec (Flt mw ew) 3) : ℝ :=
  uRnd mw / len3 (sideR pos target up)

/-- C107: vectors.  `look_at` turns a vector into its components in the exact camera frame, and `map_inverse` adds up the
axes with the given coefficients, both to within `205 u / sin(angle)` of the magnitudes involved. -/
theorem C107_vectors (hm : 9 ≤ mw) (hw : 2 * mw + 4 ≤ 2 ^ (ew - 1)) (h : LookRegular pos target up)
    {v w : Vec (Flt mw ew) 3} (hv : ∀ i, (v.vec i).isFin = true) (fw : ∀ i, (w.vec i).isFin = true) (i : _root_.Fin 3) :
    ((Transform.lookAt pos target up).mapVec v = some w →
      |(w.vec i).toReal - ∑ j, frameR pos target up i j * (v.vec j).toReal| ≤
        205 * lookUnit pos target up * ∑ j, |(v.vec j).toReal| + 5 * etaRnd mw ew) ∧
    ((Transform.lookAt pos target up).mapVecInv v = some w →
      |(w.vec i).toReal - ∑ j, frameR pos target up j i * (v.vec j).toReal| ≤
        205 * lookUnit pos target up * ∑ j, |(v.vec j).toReal| + 5 * etaRnd mw ew) := by
  obtain ⟨V, hV, A, A', em, ei, tm, ti⟩ := look_entries hm hw h
  have u0 := uRnd_pos (mw := mw)
  have s1 : len3 (sideR pos target up) ≤ 1 := cross_abs (up_unit h) (viewZ_unit h)
  have sp : 0 < len3 (sideR pos target up) := lt_of_lt_of_le (by positivity) h.angle
  have us : uRnd mw ≤ lookUnit pos target up := by unfold lookUnit; rw [le_div_iff₀ sp]; nlinarith
  have P0 : 0 ≤ ∑ j, |(v.vec j).toReal| := Finset.sum_nonneg fun j _ => abs_nonneg _
  change ∀ i j, _ ∧ |_| ≤ 196 * lookUnit pos target up ∧ _ at hV
  have fin : (196 * lookUnit pos target up + 9 * uRnd mw) * ∑ j, |(v.vec j).toReal| ≤
      205 * lookUnit pos target up * ∑ j, |(v.vec j).toReal| := mul_le_mul_of_nonneg_right (by linarith) P0
  generalize Transform.lookAt pos target up = t at *
  constructor
  · intro hq
    have := look_row hm (R := frameR pos target up i) (ε := 196 * lookUnit pos target up) (fun j => by rw [em]; exact (hV i j).2.1)
      (fun j => by rw [em]; exact (hV i j).2.2) (hom_vector A hv hq fw i.castSucc)
    simp only [mul_zero, add_zero, abs_zero] at this
    linarith
  · intro hq
    have := look_row hm (R := fun j => frameR pos target up j i) (ε := 196 * lookUnit pos target up)
      (fun j => by rw [ei]; exact (hV j i).2.1) (fun j => by rw [ei]; exact (hV j i).2.2) (hom_vector A' hv hq fw i.castSucc)
    simp only [mul_zero, add_zero, abs_zero] at this
    linarith

/-- C107: points.  `look_at` turns a point into the components of its displacement from the camera, in the exact camera
frame, and `map_inverse` takes camera coordinates to the point they denote, both to within `212 u / sin(angle)` of the
magnitudes involved.  `ht`: the stored translation does not overflow. -/
theorem C107_points (hm : 9 ≤ mw) (hw : 2 * mw + 4 ≤ 2 ^ (ew - 1)) (h : LookRegular pos target up)
    (ht : ∀ i : _root_.Fin 3, ((Transform.lookAt pos target up).m.data i.castSucc 3).isFin = true)
    {p q : Point (Flt mw ew) 3} (hp : ∀ i, (p.vec i).isFin = true) (fq : ∀ i, (q.vec i).isFin = true) (i : _root_.Fin 3) :
    ((Transform.lookAt pos target up).mapPoint p = some q →
      |(q.vec i).toReal - ∑ j, frameR pos target up i j * ((p.vec j).toReal - (pos.vec j).toReal)| ≤
        212 * lookUnit pos target up * (∑ j, |(p.vec j).toReal| + ∑ j, |(pos.vec j).toReal|) + 10 * etaRnd mw ew) ∧
    ((Transform.lookAt pos target up).mapPointInv p = some q →
      |(q.vec i).toReal - ((pos.vec i).toReal + ∑ j, frameR pos target up j i * (p.vec j).toReal)| ≤
        212 * lookUnit pos target up * (∑ j, |(p.vec j).toReal| + ∑ j, |(pos.vec j).toReal|) + 10 * etaRnd mw ew) := by
  obtain ⟨V, hV, A, A', em, ei, tm, ti⟩ := look_entries hm hw h
  have u0 := uRnd_pos (mw := mw)
  have u1 := uRnd_small hm
  have e0 := etaRnd_pos (mw := mw) (ew := ew)
  have s1 : len3 (sideR pos target up) ≤ 1 := cross_abs (up_unit h) (viewZ_unit h)
  have sp : 0 < len3 (sideR pos target up) := lt_of_lt_of_le (by positivity) h.angle
  have us : uRnd mw ≤ lookUnit pos target up := by unfold lookUnit; rw [le_div_iff₀ sp]; nlinarith
  have P0 : 0 ≤ ∑ j, |(p.vec j).toReal| := Finset.sum_nonneg fun j _ => abs_nonneg _
  have Q0 : 0 ≤ ∑ j, |(pos.vec j).toReal| := Finset.sum_nonneg fun j _ => abs_nonneg _
  change ∀ i j, _ ∧ |_| ≤ 196 * lookUnit pos target up ∧ _ at hV
  have f1 : (196 * lookUnit pos target up + 9 * uRnd mw) * ∑ j, |(p.vec j).toReal| ≤
      212 * lookUnit pos target up * ∑ j, |(p.vec j).toReal| := mul_le_mul_of_nonneg_right (by linarith) P0
  generalize Transform.lookAt pos target up = t at *
  constructor
  · intro hq
    have := look_row hm (R := frameR pos target up i) (ε := 196 * lookUnit pos target up) (fun j => by rw [em]; exact (hV i j).2.1)
      (fun j => by rw [em]; exact (hV i j).2.2) (hom_point A hp hq fq i.castSucc)
    have hd := ht i
    rw [tm, isFin_negop] at hd
    rw [tm, toReal_negop, mul_one, abs_neg] at this
    obtain ⟨t1, t2⟩ := look_trans_core (r := frameR pos target up i) (ε := 196 * lookUnit pos target up) u0 u1 e0
      (fun j => (hV i j).2.1) (fun j => (hV i j).2.2) (C83_dot (V i) pos hd).2
    generalize ((V i).dot pos).toReal = d at *
    have e1 : ∑ j, frameR pos target up i j * ((p.vec j).toReal - (pos.vec j).toReal) =
        ∑ j, frameR pos target up i j * (p.vec j).toReal - ∑ j, frameR pos target up i j * (pos.vec j).toReal := by
      rw [← Finset.sum_sub_distrib]; exact Finset.sum_congr rfl fun j _ => by ring
    rw [e1]
    generalize ∑ j, frameR pos target up i j * (p.vec j).toReal = a at *
    generalize ∑ j, frameR pos target up i j * (pos.vec j).toReal = b at *
    have e2 := abs_add_le ((q.vec i).toReal - (a + -d)) (-(d - b))
    rw [abs_neg, show (q.vec i).toReal - (a + -d) + -(d - b) = (q.vec i).toReal - (a - b) by ring] at e2
    have t3 := mul_le_mul_of_nonneg_left t2 (show 0 ≤ 4.1 * uRnd mw by positivity)
    have t4 := mul_le_mul_of_nonneg_right u1 e0.le
    have f2 : (196 * lookUnit pos target up + 6.3 * uRnd mw) * ∑ j, |(pos.vec j).toReal| + 4.1 * uRnd mw * (2.1 * ∑ j, |(pos.vec j).toReal|) ≤
        212 * lookUnit pos target up * ∑ j, |(pos.vec j).toReal| := by
      have := mul_le_mul_of_nonneg_right (show 196 * lookUnit pos target up + 6.3 * uRnd mw + 4.1 * uRnd mw * 2.1 ≤
        212 * lookUnit pos target up by linarith) Q0
      linarith
    linarith
  · intro hq
    have := look_row hm (R := fun j => frameR pos target up j i) (ε := 196 * lookUnit pos target up)
      (fun j => by rw [ei]; exact (hV j i).2.1) (fun j => by rw [ei]; exact (hV j i).2.2) (hom_point A' hp hq fq i.castSucc)
    rw [ti, mul_one] at this
    have t1 : |(pos.vec i).toReal| ≤ ∑ j, |(pos.vec j).toReal| :=
      Finset.single_le_sum (f := fun j => |(pos.vec j).toReal|) (fun j _ => abs_nonneg _) (Finset.mem_univ i)
    have t2 := mul_le_mul_of_nonneg_left t1 (show 0 ≤ 4.1 * uRnd mw by positivity)
    have t3 := mul_le_mul_of_nonneg_right us Q0
    have t4 := mul_nonneg (u0.le.trans us) Q0
    rw [add_comm (pos.vec i).toReal]
    linarith

/-- C107: the camera position goes to the origin and the target to the point of the negative z axis at its distance, to
within `212 u / sin(angle)` of the magnitudes involved. -/
theorem C107_target (hm : 9 ≤ mw) (hw : 2 * mw + 4 ≤ 2 ^ (ew - 1)) (h : LookRegular pos target up)
    (ht : ∀ i : _root_.Fin 3, ((Transform.lookAt pos target up).m.data i.castSucc 3).isFin = true) {q : Point (Flt mw ew) 3}
    (fq : ∀ i, (q.vec i).isFin = true) (i : _root_.Fin 3) :
    ((Transform.lookAt pos target up).mapPoint pos = some q →
      |(q.vec i).toReal| ≤ 424 * lookUnit pos target up * ∑ j, |(pos.vec j).toReal| + 10 * etaRnd mw ew) ∧
    ((Transform.lookAt pos target up).mapPoint target = some q →
      |(q.vec i).toReal - ![0, 0, -Real.sqrt (∑ j, ((target.vec j).toReal - (pos.vec j).toReal) ^ 2)] i| ≤
        212 * lookUnit pos target up * (∑ j, |(target.vec j).toReal| + ∑ j, |(pos.vec j).toReal|) + 10 * etaRnd mw ew) := by
  constructor
  · intro hq
    have := (C107_points hm hw h ht h.posFin fq i).1 hq
    simp only [sub_self, mul_zero, Finset.sum_const_zero, sub_zero] at this
    linarith
  · intro hq
    have := (C107_points hm hw h ht h.targetFin fq i).1 hq
    obtain ⟨o, -, ⟨k, k0, hk⟩, -, -⟩ := C107_frame h
    have e : ∑ j, frameR pos target up i j * ((target.vec j).toReal - (pos.vec j).toReal) =
        ![0, 0, -Real.sqrt (∑ j, ((target.vec j).toReal - (pos.vec j).toReal) ^ 2)] i := by
      have e1 : ∑ j, frameR pos target up i j * ((target.vec j).toReal - (pos.vec j).toReal) =
          -k * (frameR pos target up i ⬝ᵥ frameR pos target up 2) := by
        rw [dotProduct, Finset.mul_sum]
        refine Finset.sum_congr rfl fun j _ => ?_
        linear_combination (-frameR pos target up i j) * hk j
      have e2 : ∑ j, ((target.vec j).toReal - (pos.vec j).toReal) ^ 2 = k ^ 2 := by
        have e3 : ∑ j, ((target.vec j).toReal - (pos.vec j).toReal) ^ 2 =
            k ^ 2 * (frameR pos target up 2 ⬝ᵥ frameR pos target up 2) := by
          rw [dotProduct, Finset.mul_sum]
          refine Finset.sum_congr rfl fun j _ => ?_
          rw [← neg_sub, neg_sq, hk j]; ring
        rw [e3, o, if_pos rfl, mul_one]
      rw [e1, e2, Real.sqrt_sq k0.le, o]
      fin_cases i <;> simp
    rwa [e] at this

/-- The hypotheses of C107 are met on `f32` by a camera at (1,2,3) looking at the origin, with the y axis up. -/
example : 9 ≤ 23 ∧ 2 * 23 + 4 ≤ 2 ^ (8 - 1) ∧
    LookRegular (new3 (F32.lit 1) (F32.lit 2) (F32.lit 3)) (new3 (F32.lit 0) (F32.lit 0) (F32.lit 0))
      (new3 (F32.lit 0) (F32.lit 1) (F32.lit 0)) ∧
    ∀ i : _root_.Fin 3, ((Transform.lookAt (new3 (F32.lit 1) (F32.lit 2) (F32.lit 3)) (new3 (F32.lit 0) (F32.lit 0) (F32.lit 0))
      (new3 (F32.lit 0) (F32.lit 1) (F32.lit 0))).m.data i.castSucc 3).isFin = true := by
  obtain ⟨l1, l2, l3⟩ := toReal_lit_small
  have l0 : (F32.lit 0).toReal = 0 := toReal_szero
  refine ⟨by norm_num, by norm_num, ⟨by decide +kernel, by decide +kernel, by decide +kernel, ?_, by decide +kernel, ?_, ?_⟩,
    by decide +kernel⟩
  · rw [Fin.sum_univ_three]
    change _ ≤ uRnd 23 * ((F32.lit 0).toReal ^ 2 + (F32.lit 1).toReal ^ 2 + (F32.lit 0).toReal ^ 2)
    rw [l0, l1]
    unfold etaRnd uRnd fK
    norm_num
  · rw [Fin.sum_univ_three]
    change _ ≤ uRnd 23 * (((F32.lit 1).toReal - (F32.lit 0).toReal) ^ 2 + ((F32.lit 2).toReal - (F32.lit 0).toReal) ^ 2 +
      ((F32.lit 3).toReal - (F32.lit 0).toReal) ^ 2)
    rw [l0, l1, l2, l3]
    unfold etaRnd uRnd fK
    norm_num
  · refine le_trans ?_ (abs_le_len3 _ 0)
    have e : sideR (new3 (F32.lit 1) (F32.lit 2) (F32.lit 3)) (new3 (F32.lit 0) (F32.lit 0) (F32.lit 0))
      (new3 (F32.lit 0) (F32.lit 1) (F32.lit 0)) 0 = 3 / Real.sqrt 14 := by
      unfold sideR
      rw [cross_apply]
      change unit3 _ 1 * unit3 _ 2 - unit3 _ 2 * unit3 _ 1 = _
      unfold unit3 len3 coords
      simp only [Fin.sum_univ_three]
      change (F32.lit 1).toReal / Real.sqrt ((F32.lit 0).toReal ^ 2 + (F32.lit 1).toReal ^ 2 + (F32.lit 0).toReal ^ 2) *
        (((F32.lit 3).toReal - (F32.lit 0).toReal) / Real.sqrt (((F32.lit 1).toReal - (F32.lit 0).toReal) ^ 2 +
        ((F32.lit 2).toReal - (F32.lit 0).toReal) ^ 2 + ((F32.lit 3).toReal - (F32.lit 0).toReal) ^ 2)) -
        (F32.lit 0).toReal / _ * _ = _
      rw [l0, l1, l2, l3]
      norm_num
    rw [e, abs_of_nonneg (by positivity)]
    have h4 : Real.sqrt 14 ≤ 4 := by rw [Real.sqrt_le_left (by norm_num)]; norm_num
    have : 3 / 4 ≤ 3 / Real.sqrt 14 := div_le_div_of_nonneg_left (by norm_num) (by positivity) h4
    unfold uRnd
    refine le_trans ?_ this
    norm_num

end Scarlet
