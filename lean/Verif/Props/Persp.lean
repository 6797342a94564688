import Verif.Props.LookAt

/-!
C139: `perspective` is determined by what it does to the eight corners of the viewing frustum; every transform keeps
straight lines straight; `perspective` keeps segments, and the order of points by depth.
-/

namespace Scarlet
open Matrix GVec

/-- `t` takes the corners of the viewing frustum to the corners of the box `[-1,1] × [-1,1] × [0,1]`. -/
def FrustumToBox (t : Transform ℝ) (fov near far : ℝ) : Prop :=
  ∀ sx sy : ℝ, (sx = 1 ∨ sx = -1) → (sy = 1 ∨ sy = -1) →
    t.mapPoint (new3 (sx * (near * Real.tan (fov / 2))) (sy * (near * Real.tan (fov / 2))) (-near)) = some (new3 sx sy 0) ∧
    t.mapPoint (new3 (sx * (far * Real.tan (fov / 2))) (sy * (far * Real.tan (fov / 2))) (-far)) = some (new3 sx sy 1)

/-- What a corner says about the matrix. -/
theorem corner_eqs {m : Mat4 ℝ} {x y z a b c : ℝ} (h : mapPt m (new3 x y z : Point ℝ 3) = some (new3 a b c)) :
    ∃ w, w ≠ 0 ∧ w = x * m.data 3 0 + y * m.data 3 1 + z * m.data 3 2 + m.data 3 3 ∧
      x * m.data 0 0 + y * m.data 0 1 + z * m.data 0 2 + m.data 0 3 = w * a ∧
      x * m.data 1 0 + y * m.data 1 1 + z * m.data 1 2 + m.data 1 3 = w * b ∧
      x * m.data 2 0 + y * m.data 2 1 + z * m.data 2 2 + m.data 2 3 = w * c := by
  obtain ⟨hw, e⟩ := mapPt_some_iff.1 h
  have q : ∀ i, (m.toMatrix *ᵥ homP (new3 x y z : Point ℝ 3)) i = _ := fun i => congrFun e i
  refine ⟨_, hw, ?_, ?_, ?_, ?_⟩
  · rw [hom_apply]; rfl
  · have := q 0; rw [hom_apply] at this; exact this
  · have := q 1; rw [hom_apply] at this; exact this
  · have := q 2; rw [hom_apply] at this; exact this

/-- What the four corners of one face of the frustum say about the matrix. -/
theorem face_eqs {m : Mat4 ℝ} {N z d : ℝ} (hN : N ≠ 0)
    (h : ∀ sx sy : ℝ, (sx = 1 ∨ sx = -1) → (sy = 1 ∨ sy = -1) →
      mapPt m (new3 (sx * N) (sy * N) z : Point ℝ 3) = some (new3 sx sy d)) :
    m.data 0 1 = 0 ∧ m.data 1 0 = 0 ∧ m.data 2 0 = 0 ∧ m.data 2 1 = 0 ∧ m.data 3 0 = 0 ∧ m.data 3 1 = 0 ∧
    z * m.data 3 2 + m.data 3 3 ≠ 0 ∧ N * m.data 0 0 = z * m.data 3 2 + m.data 3 3 ∧ N * m.data 1 1 = z * m.data 3 2 + m.data 3 3 ∧
    z * m.data 0 2 + m.data 0 3 = 0 ∧ z * m.data 1 2 + m.data 1 3 = 0 ∧
    z * m.data 2 2 + m.data 2 3 = d * (z * m.data 3 2 + m.data 3 3) := by
  obtain ⟨w1, n1, e1, x1, y1, z1⟩ := corner_eqs (h 1 1 (Or.inl rfl) (Or.inl rfl))
  obtain ⟨w2, n2, e2, x2, y2, z2⟩ := corner_eqs (h 1 (-1) (Or.inl rfl) (Or.inr rfl))
  obtain ⟨w3, n3, e3, x3, y3, z3⟩ := corner_eqs (h (-1) 1 (Or.inr rfl) (Or.inl rfl))
  obtain ⟨w4, n4, e4, x4, y4, z4⟩ := corner_eqs (h (-1) (-1) (Or.inr rfl) (Or.inr rfl))
  have c01 : m.data 0 1 = 0 := mul_left_cancel₀ hN (by rw [mul_zero]; linear_combination (x1 - x2 + x3 - x4 + e1 - e2 - e3 + e4) / 4)
  have c10 : m.data 1 0 = 0 := mul_left_cancel₀ hN (by rw [mul_zero]; linear_combination (y1 + y2 - y3 - y4 + e1 - e2 - e3 + e4) / 4)
  have c31 : m.data 3 1 = 0 := mul_left_cancel₀ hN (by rw [mul_zero]; linear_combination -(x1 - x2 - x3 + x4 + e1 - e2 + e3 - e4) / 4)
  have c30 : m.data 3 0 = 0 := mul_left_cancel₀ hN (by rw [mul_zero]; linear_combination -(y1 - y2 - y3 + y4 + e1 + e2 - e3 - e4) / 4)
  rw [c30, c31] at e1 e2 e3 e4
  have v1 : w1 = z * m.data 3 2 + m.data 3 3 := by rw [e1]; ring
  have v2 : w2 = z * m.data 3 2 + m.data 3 3 := by rw [e2]; ring
  have v3 : w3 = z * m.data 3 2 + m.data 3 3 := by rw [e3]; ring
  have v4 : w4 = z * m.data 3 2 + m.data 3 3 := by rw [e4]; ring
  have c20 : m.data 2 0 = 0 := mul_left_cancel₀ hN (by rw [mul_zero]; linear_combination (z1 + z2 - z3 - z4 + d * (v1 + v2 - v3 - v4)) / 4)
  have c21 : m.data 2 1 = 0 := mul_left_cancel₀ hN (by rw [mul_zero]; linear_combination (z1 - z2 + z3 - z4 + d * (v1 - v2 + v3 - v4)) / 4)
  refine ⟨c01, c10, c20, c21, c30, c31, v1 ▸ n1, ?_, ?_, ?_, ?_, ?_⟩
  · linear_combination (x1 + x2 - x3 - x4 + v1 + v2 + v3 + v4) / 4
  · linear_combination (y1 - y2 + y3 - y4 + v1 + v2 + v3 + v4) / 4
  · linear_combination (x1 + x2 + x3 + x4 + v1 + v2 - v3 - v4) / 4
  · linear_combination (y1 + y2 + y3 + y4 + v1 - v2 + v3 - v4) / 4
  · linear_combination (z1 + z2 + z3 + z4 + d * (v1 + v2 + v3 + v4)) / 4

/-- Matrices that differ by a nonzero factor map points alike. -/
theorem mapPt_smul {m n : Mat4 ℝ} {g : ℝ} (hg : g ≠ 0) (h : ∀ i j, m.data i j = g * n.data i j) (p : Point ℝ 3) :
    mapPt m p = mapPt n p := by
  have e : ∀ i, (m.toMatrix *ᵥ homP p) i = g * (n.toMatrix *ᵥ homP p) i := by
    intro i; rw [hom_apply, hom_apply, h, h, h, h]; ring
  have iff : ∀ q, mapPt m p = some q ↔ mapPt n p = some q := by
    intro q
    rw [mapPt_some_iff, mapPt_some_iff, e 3]
    refine and_congr ⟨right_ne_zero_of_mul, mul_ne_zero hg⟩ ?_
    constructor
    · intro hh; funext i
      have := congrFun hh i
      rw [e i] at this
      refine mul_left_cancel₀ hg ?_
      rw [this]
      change g * _ * _ = g * (_ * _); ring
    · intro hh; funext i
      rw [e i]
      conv_lhs => rw [congrFun hh i]
      change g * (_ * _) = g * _ * _; ring
  cases hn : mapPt n p with
  | none =>
    cases hm : mapPt m p with
    | none => rfl
    | some q => rw [(iff q).1 hm] at hn; exact absurd hn (by simp)
  | some q => exact (iff q).2 hn

/-- C139: a transform that takes the eight corners of the viewing frustum to the corners of the box maps every point,
inside and outside of the frustum, as `perspective` does, and panics on the same points. -/
theorem C139_unique (fov near far : ℝ) (h1 : 0 < fov) (h2 : fov < Real.pi) (h3 : 0 < near) (h4 : near < far) (t : Transform ℝ) :
    FrustumToBox t fov near far ↔ ∀ p, t.mapPoint p = (Transform.perspective fov near far).mapPoint p := by
  have ht : 0 < Real.tan (fov / 2) := by have := tan_half_pos h1 h2; rwa [show fov / 2 = fov * (1 / 2) by ring]
  have hd : far - near ≠ 0 := by linarith
  have hfar : 0 < far := by linarith
  constructor
  · intro h
    have hn := face_eqs (m := t.m) (mul_pos h3 ht).ne' (fun sx sy hx hy => (h sx sy hx hy).1)
    have hf := face_eqs (m := t.m) (mul_pos hfar ht).ne' (fun sx sy hx hy => (h sx sy hx hy).2)
    obtain ⟨c01, c10, c20, c21, c30, c31, hw, a1, b1, x1, y1, z1⟩ := hn
    obtain ⟨-, -, -, -, -, -, -, a2, b2, x2, y2, z2⟩ := hf
    set T := Real.tan (fov / 2) with hT
    set g := t.m.data 3 2 with hg
    have k33 : t.m.data 3 3 = 0 := mul_left_cancel₀ hd (by rw [mul_zero]; linear_combination near * a2 - far * a1)
    have k00 : t.m.data 0 0 = g * -(1 / T) := by
      have : (far - near) * (T * t.m.data 0 0 + g) = 0 := by linear_combination a2 - a1
      have := (mul_eq_zero.1 this).resolve_left hd
      field_simp; linarith
    have k11 : t.m.data 1 1 = g * -(1 / T) := by
      have : (far - near) * (T * t.m.data 1 1 + g) = 0 := by linear_combination b2 - b1
      have := (mul_eq_zero.1 this).resolve_left hd
      field_simp; linarith
    have k02 : t.m.data 0 2 = 0 := mul_left_cancel₀ hd (by rw [mul_zero]; linear_combination x1 - x2)
    have k03 : t.m.data 0 3 = 0 := by rw [k02] at x1; linarith
    have k12 : t.m.data 1 2 = 0 := mul_left_cancel₀ hd (by rw [mul_zero]; linear_combination y1 - y2)
    have k13 : t.m.data 1 3 = 0 := by rw [k12] at y1; linarith
    rw [k33] at z1 z2 hw
    have k22 : t.m.data 2 2 = g * (far / (far - near)) := by
      field_simp; linear_combination z1 - z2
    have k23 : t.m.data 2 3 = g * (far * near / (far - near)) := by
      rw [k22] at z1
      have : t.m.data 2 3 = near * (g * (far / (far - near))) := by linarith
      rw [this]; ring
    have g0 : g ≠ 0 := by intro h0; rw [h0] at hw; exact hw (by ring)
    intro p
    refine mapPt_smul g0 (fun i j => ?_) p
    rw [perspective_m, show fov * (1 / 2) = fov / 2 by ring, ← hT]
    have z : ∀ {x : ℝ}, x = 0 → x = g * 0 := fun h => by rw [h, mul_zero]
    fin_cases i <;> fin_cases j
    · exact k00
    · exact z c01
    · exact z k02
    · exact z k03
    · exact z c10
    · exact k11
    · exact z k12
    · exact z k13
    · exact z c20
    · exact z c21
    · exact k22
    · exact k23
    · exact z c30
    · exact z c31
    · exact (mul_one g).symm
    · exact z k33
  · intro h sx sy hx hy
    rw [h, h, C39_formula fov near far h1 h2 h4 _ (by change -near < 0; linarith),
      C39_formula fov near far h1 h2 h4 _ (by change -far < 0; linarith)]
    have hn := h3.ne'
    have hf := hfar.ne'
    have ht' := ht.ne'
    constructor
    · congr 1
      change new3 (sx * (near * Real.tan (fov / 2)) / (- -near * Real.tan (fov / 2))) (sy * (near * Real.tan (fov / 2)) / (- -near * Real.tan (fov / 2)))
        (far * (-near + near) / ((far - near) * -near)) = new3 sx sy 0
      congr 1
      · field_simp
      · field_simp
      · rw [neg_add_cancel, mul_zero, zero_div]
    · congr 1
      change new3 (sx * (far * Real.tan (fov / 2)) / (- -far * Real.tan (fov / 2))) (sy * (far * Real.tan (fov / 2)) / (- -far * Real.tan (fov / 2)))
        (far * (-far + near) / ((far - near) * -far)) = new3 sx sy 1
      congr 1
      · field_simp
      · field_simp
      · field_simp; ring

/-- `r` is on the line through `p` and `q`, at parameter `s`. -/
def OnLine (p q r : Point ℝ 3) (s : ℝ) : Prop := ∀ i, r.vec i = p.vec i + s * (q.vec i - p.vec i)

/-- The divisor `w` of a mapped point. -/
noncomputable def wOf (t : Transform ℝ) (p : Point ℝ 3) : ℝ := (t.m.toMatrix *ᵥ homP p) 3

theorem line_image {t : Transform ℝ} {p q r p' q' r' : Point ℝ 3} {s : ℝ} (h : OnLine p q r s) (hp : t.mapPoint p = some p')
    (hq : t.mapPoint q = some q') (hr : t.mapPoint r = some r') :
    wOf t r = (1 - s) * wOf t p + s * wOf t q ∧ wOf t r ≠ 0 ∧ OnLine p' q' r' (s * wOf t q / wOf t r) := by
  obtain ⟨-, ep⟩ := mapPt_some_iff.1 hp
  obtain ⟨-, eq⟩ := mapPt_some_iff.1 hq
  obtain ⟨wr, er⟩ := mapPt_some_iff.1 hr
  have hx : r.x = p.x + s * (q.x - p.x) := h 0
  have hy : r.y = p.y + s * (q.y - p.y) := h 1
  have hz : r.z = p.z + s * (q.z - p.z) := h 2
  have lin : ∀ i, (t.m.toMatrix *ᵥ homP r) i = (1 - s) * (t.m.toMatrix *ᵥ homP p) i + s * (t.m.toMatrix *ᵥ homP q) i := by
    intro i; rw [hom_apply, hom_apply, hom_apply, hx, hy, hz]; ring
  have hw : wOf t r = (1 - s) * wOf t p + s * wOf t q := lin 3
  refine ⟨hw, wr, fun i => ?_⟩
  have e : wOf t r * r'.vec i = (1 - s) * (wOf t p * p'.vec i) + s * (wOf t q * q'.vec i) := by
    have a : ∀ {x x' : Point ℝ 3}, t.m.toMatrix *ᵥ homP x = (t.m.toMatrix *ᵥ homP x) 3 • homP x' →
        (t.m.toMatrix *ᵥ homP x) i.castSucc = wOf t x * x'.vec i := by
      intro x x' hh
      have := congrFun hh i.castSucc
      rw [this]
      fin_cases i <;> rfl
    rw [← a ep, ← a eq, ← a er, lin]
  have w0 : wOf t r ≠ 0 := wr
  refine mul_left_cancel₀ w0 ?_
  rw [e]
  have : wOf t r * (p'.vec i + s * wOf t q / wOf t r * (q'.vec i - p'.vec i)) =
      wOf t r * p'.vec i + s * wOf t q * (q'.vec i - p'.vec i) := by field_simp
  rw [this, hw]; ring

/-- C139: every transform keeps straight lines straight, wherever it does not panic. -/
theorem C139_lines (t : Transform ℝ) (p q r p' q' r' : Point ℝ 3) (s : ℝ) (h : OnLine p q r s) (hp : t.mapPoint p = some p')
    (hq : t.mapPoint q = some q') (hr : t.mapPoint r = some r') : ∃ s', OnLine p' q' r' s' :=
  ⟨_, (line_image h hp hq hr).2.2⟩

theorem perspective_w (fov near far : ℝ) (p : Point ℝ 3) : wOf (Transform.perspective fov near far) p = p.z := by
  unfold wOf
  rw [hom_apply, perspective_m]
  change p.x * 0 + p.y * 0 + p.z * 1 + 0 = p.z
  ring

/-- C139: seen in perspective, a point between two points in front of the camera is between their images, and strictly
between when it was. -/
theorem C139_segments (fov near far : ℝ) (h1 : 0 < fov) (h2 : fov < Real.pi) (h4 : near < far) (p q r : Point ℝ 3) (s : ℝ)
    (hp : p.z < 0) (hq : q.z < 0) (h : OnLine p q r s) (s0 : 0 ≤ s) (s1 : s ≤ 1) :
    ∃ p' q' r' s', (Transform.perspective fov near far).mapPoint p = some p' ∧ (Transform.perspective fov near far).mapPoint q = some q' ∧
      (Transform.perspective fov near far).mapPoint r = some r' ∧ OnLine p' q' r' s' ∧ 0 ≤ s' ∧ s' ≤ 1 ∧ (s' = 0 ↔ s = 0) ∧ (s' = 1 ↔ s = 1) := by
  have hz : r.z = p.z + s * (q.z - p.z) := h 2
  have hr : r.z < 0 := by
    rcases lt_or_eq_of_le s0 with h0 | h0
    · have h5 : s * q.z < 0 := mul_neg_of_pos_of_neg h0 hq
      have h6 : (1 - s) * p.z ≤ 0 := mul_nonpos_of_nonneg_of_nonpos (by linarith) hp.le
      rw [hz]; linarith
    · rw [hz, ← h0]; linarith
  have fp := C39_formula fov near far h1 h2 h4 p hp
  have fq := C39_formula fov near far h1 h2 h4 q hq
  have fr := C39_formula fov near far h1 h2 h4 r hr
  obtain ⟨-, -, hl⟩ := line_image h fp fq fr
  rw [perspective_w, perspective_w] at hl
  refine ⟨_, _, _, _, fp, fq, fr, hl, ?_, ?_, ?_, ?_⟩
  · exact div_nonneg_of_nonpos (mul_nonpos_of_nonneg_of_nonpos s0 hq.le) hr.le
  · rw [div_le_one_of_neg hr, hz]
    have h6 : (1 - s) * p.z ≤ 0 := mul_nonpos_of_nonneg_of_nonpos (by linarith) hp.le
    linarith
  · rw [div_eq_zero_iff, mul_eq_zero]
    exact ⟨fun h => (h.resolve_right hr.ne).resolve_right hq.ne, fun h => Or.inl (Or.inl h)⟩
  · rw [div_eq_one_iff_eq hr.ne, hz]
    constructor
    · intro h
      have : (1 - s) * p.z = 0 := by linarith
      rcases mul_eq_zero.1 this with h | h
      · linarith
      · exact absurd h hp.ne
    · rintro rfl; ring

/-- C139: seen in perspective, of two points in front of the camera the farther one has the greater depth; points on one
line of sight have the same picture position; and the picture position does not depend on `near` and `far`. -/
theorem C139_depth (fov near far : ℝ) (h1 : 0 < fov) (h2 : fov < Real.pi) (h3 : 0 < near) (h4 : near < far) (p q : Point ℝ 3)
    (hp : p.z < 0) (hq : q.z < 0) :
    ∃ p' q', (Transform.perspective fov near far).mapPoint p = some p' ∧ (Transform.perspective fov near far).mapPoint q = some q' ∧
      (p'.z < q'.z ↔ q.z < p.z) ∧
      ((p'.x = q'.x ∧ p'.y = q'.y) ↔ ∃ k : ℝ, 0 < k ∧ ∀ i, q.vec i = k * p.vec i) ∧
      ∀ near₂ far₂ : ℝ, near₂ < far₂ → ∃ p₂, (Transform.perspective fov near₂ far₂).mapPoint p = some p₂ ∧ p₂.x = p'.x ∧ p₂.y = p'.y := by
  have ht : 0 < Real.tan (fov / 2) := by have := tan_half_pos h1 h2; rwa [show fov / 2 = fov * (1 / 2) by ring]
  have hd : 0 < far - near := by linarith
  have hfar : 0 < far := by linarith
  refine ⟨_, _, C39_formula fov near far h1 h2 h4 p hp, C39_formula fov near far h1 h2 h4 q hq, ?_, ?_, ?_⟩
  · change far * (p.z + near) / ((far - near) * p.z) < far * (q.z + near) / ((far - near) * q.z) ↔ _
    have e : ∀ z : ℝ, z < 0 → far * (z + near) / ((far - near) * z) = far / (far - near) + far * near / (far - near) * (1 / z) := by
      intro z hz
      have := hz.ne
      have := hd.ne'
      field_simp
    rw [e p.z hp, e q.z hq]
    have hc : 0 < far * near / (far - near) := by positivity
    rw [add_lt_add_iff_left, mul_lt_mul_iff_right₀ hc, one_div_lt_one_div_of_neg hp hq]
  · change (p.x / (-p.z * Real.tan (fov / 2)) = q.x / (-q.z * Real.tan (fov / 2)) ∧
      p.y / (-p.z * Real.tan (fov / 2)) = q.y / (-q.z * Real.tan (fov / 2))) ↔ _
    have np : -p.z * Real.tan (fov / 2) ≠ 0 := mul_ne_zero (by linarith) ht.ne'
    have nq : -q.z * Real.tan (fov / 2) ≠ 0 := mul_ne_zero (by linarith) ht.ne'
    rw [div_eq_div_iff np nq, div_eq_div_iff np nq]
    constructor
    · rintro ⟨hx, hy⟩
      have hx' : q.x * p.z = q.z * p.x := mul_left_cancel₀ ht.ne' (by linear_combination hx)
      have hy' : q.y * p.z = q.z * p.y := mul_left_cancel₀ ht.ne' (by linear_combination hy)
      refine ⟨q.z / p.z, div_pos_of_neg_of_neg hq hp, fun i => ?_⟩
      fin_cases i
      · change q.x = q.z / p.z * p.x; rw [div_mul_eq_mul_div, eq_div_iff hp.ne]; exact hx'
      · change q.y = q.z / p.z * p.y; rw [div_mul_eq_mul_div, eq_div_iff hp.ne]; exact hy'
      · change q.z = q.z / p.z * p.z; rw [div_mul_cancel₀ _ hp.ne]
    · rintro ⟨k, -, hk⟩
      have hx : q.x = k * p.x := hk 0
      have hy : q.y = k * p.y := hk 1
      have hz : q.z = k * p.z := hk 2
      rw [hx, hy, hz]
      exact ⟨by ring, by ring⟩
  · intro near₂ far₂ h
    exact ⟨_, C39_formula fov near₂ far₂ h1 h2 h p hp, rfl, rfl⟩

/-- The hypotheses hold of, for example, a field of view of 90 degrees and the planes at 1 and 100. -/
example : FrustumToBox (.perspective (Real.pi / 2) 1 100) (Real.pi / 2) 1 100 ∧
    (Transform.perspective (Real.pi / 2) 1 100 : Transform ℝ).mapPoint (new3 1 (-1) (-1)) = some (new3 1 (-1) 0) := by
  have hpi := Real.pi_pos
  have h := (C139_unique (Real.pi / 2) 1 100 (by linarith) (by linarith) one_pos (by norm_num) _).2 fun _ => rfl
  refine ⟨h, ?_⟩
  have := (h 1 (-1) (Or.inl rfl) (Or.inr rfl)).1
  rw [show Real.pi / 2 / 2 = Real.pi / 4 by ring, Real.tan_pi_div_four, mul_one, mul_one, mul_one] at this
  exact this

end Scarlet
