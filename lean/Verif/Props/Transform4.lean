import Verif.Props.Transform3
import Verif.Theory.Trig

/-! C43 (panics of map: floats and intervals), C75 (interval points). -/

set_option linter.unusedSectionVars false

namespace Scarlet
open Matrix Flt Scarlet.Interval GVec

variable {mw ew : Nat} [FltImpl mw ew] [LawfulFlt mw ew]

/-! ### C43, floats -/

/-- Bottom row `0 0 0 1` of a float matrix (either sign of zero). -/
def Mat4.AffineF (m : Mat4 (Flt mw ew)) : Prop :=
  (∀ j : Fin 3, (m.data 3 j.castSucc).toReal = 0) ∧ (m.data 3 3).toReal = 1

theorem isFin_of_key_zero {x : Flt mw ew} (h : x.key = 0) : x.isFin = true := by
  rw [isFin_iff_key, h]; have := kInf_pos (mw := mw) (ew := ew); omega

theorem mul_zero_key {x z : Flt mw ew} (hx : x.isFin = true) (hz : z.toReal = 0) : (x * z).key = 0 := by
  have := mul_fin hx (isFin_of_key_zero (toReal_eq_zero_iff.1 hz))
  rw [hz, mul_zero, rndK_zero] at this
  exact this.2

theorem add_zero_key {x z : Flt mw ew} (hx : x.key = 0) (hz : z.key = 0) : (x + z).key = 0 := by
  have := add_fin (isFin_of_key_zero hx) (isFin_of_key_zero hz)
  rw [toReal_eq_zero_iff.2 hz, toReal_eq_zero_iff.2 hx, add_zero, rndK_zero] at this
  exact this.2

theorem bottom_zero {m : Mat4 (Flt mw ew)} (hm : m.AffineF) (a b c : Flt mw ew) (ha : a.isFin = true) (hb : b.isFin = true)
    (hc : c.isFin = true) : (a * m.idx 3 0 + b * m.idx 3 1 + c * m.idx 3 2).key = 0 :=
  add_zero_key (add_zero_key (mul_zero_key ha (hm.1 0)) (mul_zero_key hb (hm.1 1))) (mul_zero_key hc (hm.1 2))

/-- C43: with floats of any format, affine matrices never panic on points and vectors with finite coordinates, for any
rounding errors and even if the image overflows. -/
theorem C43_float (m : Mat4 (Flt mw ew)) (hm : m.AffineF) (p : Point (Flt mw ew) 3) (v : Vec (Flt mw ew) 3)
    (hp : ∀ i, (p.vec i).isFin = true) (hv : ∀ i, (v.vec i).isFin = true) : mapPt m p ≠ none ∧ mapVector m v ≠ none := by
  constructor
  · unfold mapPt
    rw [if_neg]
    · simp
    · rw [seq_iff]
      rintro ⟨-, -, h⟩
      have h0 := bottom_zero hm p.x p.y p.z (hp 0) (hp 1) (hp 2)
      have h1 : (m.idx 3 3).isFin = true ∨ (m.idx 3 3).isFin = false := by cases (m.idx 3 3).isFin <;> simp
      have e33 : (m.idx 3 3).toReal = 1 := hm.2
      rw [key_szero] at h
      have hk1 : (m.idx 3 3).key = (Scalar.one : Flt mw ew).key := toReal_eq_iff.1 (by rw [e33, sone_spec.2])
      have hf : (m.idx 3 3).isFin = true := by
        rw [isFin_iff_key, hk1, ← isFin_iff_key]; exact sone_spec.1
      have := add_fin (isFin_of_key_zero h0) hf
      rw [toReal_eq_zero_iff.2 h0, zero_add, rndK_toReal (notNaN_of_isFin hf)] at this
      have hz : (m.idx 3 3).key = 0 := this.2.symm.trans h
      rw [toReal_eq_zero_iff.2 hz] at e33
      norm_num at e33
  · unfold mapVector
    rw [if_pos]
    · simp
    · have h0 := bottom_zero hm v.x v.y v.z (hv 0) (hv 1) (hv 2)
      rw [seq_iff]
      exact ⟨notNaN_of_isFin (isFin_of_key_zero h0), szero_notNaN, h0.trans key_szero.symm⟩

/-- C43: the float matrices of `translate` and `scale` are affine whatever the (non-NaN or NaN) arguments, and products of
affine matrices with finite entries are affine, so all finite compositions are covered by `C43_float`. -/
theorem C43_float_affine (v : Vec (Flt mw ew) 3) :
    (Transform.translate v : Transform (Flt mw ew)).m.AffineF ∧ (Transform.scale v : Transform (Flt mw ew)).m.AffineF ∧
    ∀ a b : Mat4 (Flt mw ew), a.AffineF → b.AffineF → (∀ i j, (b.data i j).isFin = true) → (a * b).AffineF := by
  have z0 : (Scalar.zero : Flt mw ew).toReal = 0 := toReal_szero
  have z1 : (Scalar.one : Flt mw ew).toReal = 1 := sone_spec.2
  refine ⟨⟨?_, z1⟩, ⟨?_, z1⟩, ?_⟩
  · intro j; fin_cases j <;> exact z0
  · intro j; fin_cases j <;> exact z0
  · intro a b ha hb hf
    have one : ∀ x y : Flt mw ew, x.isFin = true → y.isFin = true → x.toReal = 1 → (x * y).key = y.key := by
      intro x y hx hy h
      have := mul_fin hx hy
      rw [h, one_mul, rndK_toReal (notNaN_of_isFin hy)] at this
      exact this.2
    have zl : ∀ x y : Flt mw ew, x.toReal = 0 → y.isFin = true → (x * y).key = 0 := by
      intro x y hx hy
      have := mul_fin (isFin_of_key_zero (toReal_eq_zero_iff.1 hx)) hy
      rw [hx, zero_mul, rndK_zero] at this
      exact this.2
    have hk1 : (a.data 3 3).key = (Scalar.one : Flt mw ew).key := toReal_eq_iff.1 (by rw [ha.2, z1])
    have hf33 : (a.data 3 3).isFin = true := by rw [isFin_iff_key, hk1, ← isFin_iff_key]; exact sone_spec.1
    have key : ∀ j : Fin 4, ((a * b).data 3 j).key = (b.data 3 j).key := by
      intro j
      have e : (a * b).data 3 j = Scalar.zero + a.data 3 0 * b.data 0 j + a.data 3 1 * b.data 1 j + a.data 3 2 * b.data 2 j
          + a.data 3 3 * b.data 3 j := rfl
      rw [e]
      have h0 := add_zero_key (add_zero_key (add_zero_key key_szero (zl _ _ (ha.1 0) (hf 0 j)))
        (zl _ _ (ha.1 1) (hf 1 j))) (zl _ _ (ha.1 2) (hf 2 j))
      have hp := one _ _ hf33 (hf 3 j) ha.2
      have hpf : (a.data 3 3 * b.data 3 j).isFin = true := by rw [isFin_iff_key, hp, ← isFin_iff_key]; exact hf 3 j
      have := add_fin (isFin_of_key_zero h0) hpf
      rw [toReal_eq_zero_iff.2 h0, zero_add, rndK_toReal (notNaN_of_isFin hpf)] at this
      exact this.2.trans hp
    exact ⟨fun j => (toReal_eq_iff.2 (key _)).trans (hb.1 j), (toReal_eq_iff.2 (key 3)).trans hb.2⟩

/-! ### C43, intervals -/

/-- A sum of two non-empty intervals is never equal (in the sense of the code) to zero: `Add` widens. -/
theorem add_neq_zero {A B : Interval (Flt mw ew)} {x y : ℝ} (hA : x ∈ A) (hB : y ∈ B) :
    Scalar.eq (A + B) (Scalar.zero : Interval (Flt mw ew)) = false := by
  rw [Bool.eq_false_iff]
  intro h
  rw [ieq_iff] at h
  obtain ⟨⟨-, -, h2⟩, -, h1⟩ := h
  have hz : (Scalar.zero : Interval (Flt mw ew)).inf.key = 0 := key_szero
  rw [hz] at h1
  rw [h1] at h2
  change (GFloat.nextDown (A.inf + B.inf)).key = 0 at h1
  change 0 = (GFloat.nextUp (A.sup + B.sup)).key at h2
  obtain ⟨a1, a2, -, -, a3, a4, a5⟩ := mem_facts hA
  obtain ⟨b1, b2, -, -, b3, b4, b5⟩ := mem_facts hB
  have hK := kInf_pos (mw := mw) (ew := ew)
  have lo : A.inf.isFin = true ∧ B.inf.isFin = true ∧ 0 < A.inf.toReal + B.inf.toReal := by
    rcases key_cases a1 with h | h | h
    · have := add_bot_left a1 b1 h b3
      have h' := (nextDown_key this.1).2
      rw [this.2] at h'; omega
    · exact absurd h a3
    · rcases key_cases b1 with h' | h' | h'
      · have := add_bot_right a1 b1 h' a3
        have h' := (nextDown_key this.1).2
        rw [this.2] at h'; omega
      · exact absurd h' b3
      · refine ⟨h, h', ?_⟩
        have := add_fin h h'
        have e := (nextDown_key this.1).2
        by_contra hn
        have hr := rndK_nonpos (mw := mw) (ew := ew) (not_lt.1 hn)
        rw [← this.2] at hr
        change (GFloat.nextDown (A.inf.add B.inf)).key = 0 at h1
        omega
  have hi : A.sup.isFin = true ∧ B.sup.isFin = true ∧ A.sup.toReal + B.sup.toReal < 0 := by
    rcases key_cases a2 with h | h | h
    · exact absurd h a4
    · have := add_top_left a2 b2 h b4
      have h' := (nextUp_key this.1).2
      rw [this.2] at h'; omega
    · rcases key_cases b2 with h' | h' | h'
      · exact absurd h' b4
      · have := add_top_right a2 b2 h' a4
        have h' := (nextUp_key this.1).2
        rw [this.2] at h'; omega
      · refine ⟨h, h', ?_⟩
        have := add_fin h h'
        have e := (nextUp_key this.1).2
        by_contra hn
        have hr := rndK_nonneg (mw := mw) (ew := ew) (not_lt.1 hn)
        rw [← this.2] at hr
        change 0 = (GFloat.nextUp (A.sup.add B.sup)).key at h2
        omega
  have e1 := toReal_le_iff.2 a5
  have e2 := toReal_le_iff.2 b5
  linarith [lo.2.2, hi.2.2]

theorem mulS_mem {A : Interval (Flt mw ew)} {t : Flt mw ew} {x : ℝ} (hx : x ∈ A) (hA : Interval.Finite A) (ht : t.isFin = true) :
    x * t.toReal ∈ A * t := C13_mul_scalar_partial A t x hx ht (Or.inl hA)

/-- One row of the matrix applied to an interval vector. -/
theorem row_mem (m : Mat4 (Flt mw ew)) (hm : ∀ i j, (m.data i j).isFin = true) {a b c : Interval (Flt mw ew)} {x y z : ℝ}
    (ha : x ∈ a) (hb : y ∈ b) (hc : z ∈ c) (fa : Interval.Finite a) (fb : Interval.Finite b) (fc : Interval.Finite c) (i : Fin 4) :
    x * (m.data i 0).toReal + y * (m.data i 1).toReal + z * (m.data i 2).toReal ∈ a * m.idx i 0 + b * m.idx i 1 + c * m.idx i 2 :=
  C11_add _ _ _ _ (C11_add _ _ _ _ (mulS_mem ha fa (hm i 0)) (mulS_mem hb fb (hm i 1))) (mulS_mem hc fc (hm i 2))

/-- C43, interval part: **false of the code**.  Mapping a (non-empty, finite) interval vector panics for *every* matrix
with finite entries, affine or not: the checked sum has been widened twice and never compares equal to zero. -/
theorem C43_interval_vector_panics (m : Mat4 (Flt mw ew)) (hm : ∀ i j, (m.data i j).isFin = true)
    (v : Vec (Interval (Flt mw ew)) 3) (x : Fin 3 → ℝ) (hx : v.Encl x) (hf : ∀ i, Interval.Finite (v.vec i)) :
    mapVector m v = none := by
  have e : Scalar.eq (v.x * m.idx 3 0 + v.y * m.idx 3 1 + v.z * m.idx 3 2) (Scalar.zero : Interval (Flt mw ew)) = false :=
    add_neq_zero (C11_add _ _ _ _ (mulS_mem (hx 0) (hf 0) (hm 3 0)) (mulS_mem (hx 1) (hf 1) (hm 3 1)))
      (mulS_mem (hx 2) (hf 2) (hm 3 2))
  unfold mapVector
  rw [e]
  rfl

/-- C43: the same for rays: `Transform::map` panics on every interval ray, in both directions. -/
theorem C43_interval_ray_panics (t : Transform (Flt mw ew)) (hm : ∀ i j, (t.m.data i j).isFin = true)
    (hn : ∀ i j, (t.minv.data i j).isFin = true)
    (r : Ray (Interval (Flt mw ew))) (x : Fin 3 → ℝ) (hx : r.direction.Encl x) (hf : ∀ i, Interval.Finite (r.direction.vec i)) :
    t.mapRay r = none ∧ t.mapRayInv r = none := by
  have h1 : t.mapVec r.direction = none := C43_interval_vector_panics t.m hm _ x hx hf
  have h2 : t.mapVecInv r.direction = none := C43_interval_vector_panics t.minv hn _ x hx hf
  unfold Transform.mapRay Transform.mapRayInv
  rw [h1, h2]
  constructor
  · cases t.mapPoint r.origin <;> rfl
  · cases t.mapPointInv r.origin <;> rfl

/-- C43 refuted: it is not true that interval vectors can be mapped by affine transforms. -/
theorem C43_refuted : ¬ ∀ (t : Transform F32) (v : Vec (Interval F32) 3), t.m.AffineF →
    (∀ i, Interval.Finite (v.vec i)) → (∃ x, v.Encl x) → t.mapVec v ≠ none := by
  intro h
  have hz : Interval.Finite (Scalar.zero : Interval F32) := ⟨isFin_szero, isFin_szero⟩
  have hm : (0:ℝ) ∈ (Scalar.zero : Interval F32) :=
    ⟨(lowerOf_fin isFin_szero).2 (by rw [toReal_szero]), (upperOf_fin isFin_szero).2 (by rw [toReal_szero])⟩
  have hf : ∀ i, Interval.Finite ((new3 Scalar.zero Scalar.zero Scalar.zero : Vec (Interval F32) 3).vec i) := by
    intro i; fin_cases i <;> exact hz
  have hx : (new3 Scalar.zero Scalar.zero Scalar.zero : Vec (Interval F32) 3).Encl (fun _ => 0) := by
    intro i; fin_cases i <;> exact hm
  refine h (Transform.translate (new3 Scalar.one Scalar.one Scalar.one)) _ (C43_float_affine _).1 hf ⟨_, hx⟩ ?_
  refine C43_interval_vector_panics _ ?_ _ _ hx hf
  have z0 : (Scalar.zero : F32).isFin = true := isFin_szero
  have z1 : (Scalar.one : F32).isFin = true := sone_spec.1
  intro i j
  fin_cases i <;> fin_cases j <;> first | exact z0 | exact z1

/-- C43: interval points never panic (the widened `w` never compares equal to zero), not even when `w` contains 0. -/
theorem C43_interval_point (m : Mat4 (Flt mw ew)) (hm : ∀ i j, (m.data i j).isFin = true)
    (p : Point (Interval (Flt mw ew)) 3) (x : Fin 3 → ℝ) (hx : p.Encl x) (hf : ∀ i, Interval.Finite (p.vec i)) :
    mapPt m p ≠ none := by
  unfold mapPt
  dsimp only
  have hs := row_mem m hm (hx 0) (hx 1) (hx 2) (hf 0) (hf 1) (hf 2) 3
  have e : Scalar.eq (p.x * m.idx 3 0 + p.y * m.idx 3 1 + p.z * m.idx 3 2 + m.idx 3 3) (Scalar.zero : Interval (Flt mw ew)) = false :=
    add_neq_zero (B := ⟨m.idx 3 3, m.idx 3 3⟩) hs ⟨LowerOf.of_fin (hm 3 3), UpperOf.of_fin (hm 3 3)⟩
  rw [e]
  simp

/-! ### C75 -/

/-- The exact image of a real point under a float matrix. -/
noncomputable def realImage (m : Mat4 (Flt mw ew)) (x : Fin 3 → ℝ) (i : Fin 4) : ℝ :=
  (∑ j : Fin 3, (m.data i j.castSucc).toReal * x j) + (m.data i 3).toReal

/-- C75: mapping an interval point with a float matrix succeeds, and the result contains the exact image of every real point
of the input box that has an image (homogeneous `w ≠ 0`).  All entries finite; no bound on overflow of intermediate
results. -/
theorem C75_mapPoint (m : Mat4 (Flt mw ew)) (hm : ∀ i j, (m.data i j).isFin = true)
    (p : Point (Interval (Flt mw ew)) 3) (hf : ∀ i, Interval.Finite (p.vec i)) (x0 : Fin 3 → ℝ) (hx0 : p.Encl x0) :
    ∃ q, mapPt m p = some q ∧ ∀ x : Fin 3 → ℝ, p.Encl x → realImage m x 3 ≠ 0 →
      q.Encl (fun i => realImage m x i.castSucc / realImage m x 3) := by
  obtain ⟨q, hq⟩ := Option.ne_none_iff_exists'.1 (C43_interval_point m hm p x0 hx0 hf)
  refine ⟨q, hq, fun x hx hw => ?_⟩
  unfold mapPt at hq
  dsimp only at hq
  split at hq
  · cases hq
  rw [Option.some.injEq] at hq
  have hrow : ∀ i : Fin 4, realImage m x i ∈ p.x * m.idx i 0 + p.y * m.idx i 1 + p.z * m.idx i 2 + m.idx i 3 := by
    intro i
    have := C11_add_scalar _ (m.data i 3) _ (row_mem m hm (hx 0) (hx 1) (hx 2) (hf 0) (hf 1) (hf 2) i) (hm i 3)
    rw [show realImage m x i = x 0 * (m.data i 0).toReal + x 1 * (m.data i 1).toReal + x 2 * (m.data i 2).toReal
      + (m.data i 3).toReal from by
        unfold realImage; rw [Fin.sum_univ_three]
        change (m.data i 0).toReal * x 0 + (m.data i 1).toReal * x 1 + (m.data i 2).toReal * x 2 + _ = _
        ring]
    exact this
  rw [← hq]
  intro i
  fin_cases i
  · exact C14_div _ _ _ _ (hrow 0) (hrow 3) hw
  · exact C14_div _ _ _ _ (hrow 1) (hrow 3) hw
  · exact C14_div _ _ _ _ (hrow 2) (hrow 3) hw

/-- The hypotheses of C75 and of the interval part of C43 are met: a translation and the box `[-1,2] × [-3,1] × [-1,2]`. -/
example : (∀ i j, ((Transform.translate (new3 (F32.lit 3) (F32.lit 2) (F32.lit 1)) : Transform F32).m.data i j).isFin = true) ∧
    (∀ i, Interval.Finite ((new3 exA exB exA : Point (Interval F32) 3).vec i)) ∧
    (new3 exA exB exA : Point (Interval F32) 3).Encl ![0, 0, 0] := by
  have z : ∀ A : Interval F32, A.inf.isFin = true → A.sup.isFin = true → A.inf.key ≤ 0 → 0 ≤ A.sup.key → (0:ℝ) ∈ A := by
    intro A h1 h2 h3 h4
    refine ⟨(lowerOf_fin h1).2 ?_, (upperOf_fin h2).2 ?_⟩
    · rw [← toReal_szero (mw := 23) (ew := 8)]; exact toReal_le_iff.2 (by rw [key_szero]; exact h3)
    · rw [← toReal_szero (mw := 23) (ew := 8)]; exact toReal_le_iff.2 (by rw [key_szero]; exact h4)
  have zA : (0:ℝ) ∈ exA := z exA (by decide +kernel) (by decide +kernel) (by decide +kernel) (by decide +kernel)
  have zB : (0:ℝ) ∈ exB := z exB (by decide +kernel) (by decide +kernel) (by decide +kernel) (by decide +kernel)
  refine ⟨by decide +kernel, ?_, ?_⟩
  · intro i
    have a : Interval.Finite exA := ⟨by decide +kernel, by decide +kernel⟩
    have b : Interval.Finite exB := ⟨by decide +kernel, by decide +kernel⟩
    fin_cases i
    exacts [a, b, a]
  · intro i
    fin_cases i
    exacts [zA, zB, zA]

end Scarlet
