import Verif.Props.SphereUV
import Verif.Props.FloatCross
import Mathlib.Analysis.InnerProductSpace.PiL2

/-! C125: the shading normal and the tangents of a sphere hit on `f32`. -/

set_option linter.unusedSectionVars false

namespace Scarlet
open Flt GVec

/-! ### the error analysis, on reals -/

theorem prod_err {a b A B α β MA MB : ℝ} (ha : |a - A| ≤ α) (hb : |b - B| ≤ β) (hA : |A| ≤ MA) (hB : |B| ≤ MB) :
    |a * b - A * B| ≤ MA * β + α * MB + α * β := by
  have hα := (abs_nonneg _).trans ha
  have hβ := (abs_nonneg _).trans hb
  have hMA := (abs_nonneg _).trans hA
  have e : a * b - A * B = A * (b - B) + (a - A) * B + (a - A) * (b - B) := by ring
  rw [e]
  refine (abs_add_le _ _).trans (add_le_add ((abs_add_le _ _).trans (add_le_add ?_ ?_)) ?_) <;> rw [abs_mul]
  · exact mul_le_mul hA hb (abs_nonneg _) hMA
  · exact mul_le_mul ha hB (abs_nonneg _) hα
  · exact mul_le_mul ha hb (abs_nonneg _) hα

/-- the sine of the polar angle -/
theorem shade_sin {R z ρ δ e C S : ℝ} (hR : 0 < R) (hρ : 0 < ρ) (hz : 0 ≤ z) (hz1 : z ≤ 1.02 * R) (hδ : |ρ ^ 2 + z ^ 2 - R ^ 2| ≤ δ * R ^ 2)
    (hc : |C - z / R| ≤ e) (hCS : S ^ 2 + C ^ 2 = 1) (hS : 0 ≤ S) : |R * S - ρ| ≤ (2.05 * e + δ) * (R ^ 2 / ρ) := by
  have e0 := (abs_nonneg _).trans hc
  have hC : |C| ≤ 1 := by rw [_root_.abs_le]; constructor <;> nlinarith
  have h1 : |z - R * C| ≤ e * R := by
    have := scale_abs hR hc
    rwa [abs_sub_comm] at this
  have h2 : |z + R * C| ≤ 2.02 * R := by
    have h3 := abs_add_le z (R * C)
    rw [abs_mul, abs_of_pos hR, abs_of_nonneg hz] at h3
    nlinarith
  have h3 : |(R * S) ^ 2 - ρ ^ 2| ≤ (2.05 * e + δ) * R ^ 2 := by
    have e1 : (R * S) ^ 2 - ρ ^ 2 = (z - R * C) * (z + R * C) - (ρ ^ 2 + z ^ 2 - R ^ 2) := by
      have : S ^ 2 = 1 - C ^ 2 := by linarith
      rw [mul_pow, this]; ring
    rw [e1]
    have h4 := abs_sub ((z - R * C) * (z + R * C)) (ρ ^ 2 + z ^ 2 - R ^ 2)
    rw [abs_mul] at h4
    have h5 := mul_le_mul h1 h2 (abs_nonneg _) (by positivity)
    nlinarith [mul_nonneg e0 (sq_nonneg R)]
  have h4 : |R * S - ρ| * ρ ≤ |(R * S) ^ 2 - ρ ^ 2| := by
    have : (R * S) ^ 2 - ρ ^ 2 = (R * S - ρ) * (R * S + ρ) := by ring
    rw [this, abs_mul, abs_of_pos (by positivity : 0 < R * S + ρ)]
    exact mul_le_mul_of_nonneg_left (by nlinarith [mul_nonneg hR.le hS]) (abs_nonneg _)
  rw [← mul_div_assoc, le_div_iff₀ hρ]
  exact h4.trans h3

/-- the components of `dpdv` in the xy plane -/
theorem shade_flat {u η z R l c C m V L : ℝ} (hu : 0 < u) (hu1 : u ≤ 1 / 1024) (hR : 0 < R) (hz : 0 ≤ z) (hz1 : z ≤ 1.0102 * R)
    (hl : 0 < l) (hL : |L| = l) (hη0 : 0 < η) (hη : η ≤ 2.05 * u * R) (hηl : η ≤ 1.02 * (u * l * R)) (hC : |C| ≤ 1) (hc : |c - C| ≤ 9 * u)
    (hm : |m - z * c| ≤ u * |z * c| + η) (hV : |V - m * L| ≤ u * |m * L| + η) :
    |V - L * (z * C)| ≤ l * (14.6 * u * R) := by
  have c1 : |c| ≤ 1 + 9 * u := by
    have := abs_add_le (c - C) C; rw [sub_add_cancel] at this; linarith
  have uR : 0 < u * R := mul_pos hu hR
  have a1 : |z * c| ≤ 1.0192 * R := by
    rw [abs_mul, abs_of_nonneg hz]
    have : z * |c| ≤ (1.0102 * R) * (1 + 9 * u) := mul_le_mul hz1 c1 (abs_nonneg _) (by linarith)
    nlinarith
  have a2 : |z * c - z * C| ≤ 9.092 * (u * R) := by
    rw [← mul_sub, abs_mul, abs_of_nonneg hz]
    have : z * |c - C| ≤ (1.0102 * R) * (9 * u) := mul_le_mul hz1 hc (abs_nonneg _) (by linarith)
    nlinarith
  have a3 : |m - z * C| ≤ 12.17 * (u * R) := by
    have := abs_sub_le m (z * c) (z * C)
    nlinarith [mul_le_mul_of_nonneg_left a1 hu.le]
  have a4 : |m| ≤ 1.0242 * R := by
    have h := abs_sub_abs_le_abs_sub m (z * c)
    have : u * R ≤ 1 / 1024 * R := mul_le_mul_of_nonneg_right hu1 hR.le
    nlinarith [mul_le_mul_of_nonneg_left a1 hu.le]
  have a5 : |m * L| ≤ 1.0242 * (l * R) := by
    rw [abs_mul, hL]; nlinarith [mul_le_mul_of_nonneg_right a4 hl.le]
  have a6 : |m * L - L * (z * C)| ≤ 12.17 * (u * R) * l := by
    rw [show m * L - L * (z * C) = (m - z * C) * L by ring, abs_mul, hL]
    exact mul_le_mul_of_nonneg_right a3 hl.le
  have := abs_sub_le V (m * L) (L * (z * C))
  nlinarith [mul_le_mul_of_nonneg_left a5 hu.le, mul_pos uR hl]

/-- the z component of `dpdv` -/
theorem shade_steep {u η R l ρ δ t S s m V L : ℝ} (hu : 0 < u) (hu1 : u ≤ 1 / 1024) (hR : 0 < R) (hδ0 : 0 ≤ δ) (ht : R ≤ 1.0102 * t)
    (hl : 0 < l) (hL : |L| = l) (hη0 : 0 < η) (hη : η ≤ 2.05 * u * R) (hηl : η ≤ 1.02 * (u * l * R)) (hS : |S| ≤ 1) (hs : |s - S| ≤ 2.1 * u)
    (hRS : |R * S - ρ| ≤ (8.9 * u + 2.03 * δ) * t)
    (hm : |m - (-R) * s| ≤ u * |(-R) * s| + η) (hV : |V - m * L| ≤ u * |m * L| + η) :
    |V - -(L * ρ)| ≤ l * ((17 * u + 2.1 * δ) * t) := by
  have s1 : |s| ≤ 1.0021 := by
    have := abs_add_le (s - S) S; rw [sub_add_cancel] at this; linarith
  have uR : 0 < u * R := mul_pos hu hR
  have a1 : |(-R) * s| ≤ 1.0021 * R := by
    rw [abs_mul, abs_neg, abs_of_pos hR]; nlinarith
  have a2 : |(-R) * s - (-ρ)| ≤ 2.1 * (u * R) + (8.9 * u + 2.03 * δ) * t := by
    have e : (-R) * s - (-ρ) = -(R * (s - S)) - (R * S - ρ) := by ring
    rw [e]
    have h := abs_sub (-(R * (s - S))) (R * S - ρ)
    rw [abs_neg, abs_mul, abs_of_pos hR] at h
    nlinarith
  have a3 : |m - (-ρ)| ≤ 5.16 * (u * R) + (8.9 * u + 2.03 * δ) * t := by
    have := abs_sub_le m ((-R) * s) (-ρ)
    nlinarith [mul_le_mul_of_nonneg_left a1 hu.le]
  have a4 : |m| ≤ 1.0052 * R := by
    have h := abs_sub_abs_le_abs_sub m ((-R) * s)
    have : u * R ≤ 1 / 1024 * R := mul_le_mul_of_nonneg_right hu1 hR.le
    nlinarith [mul_le_mul_of_nonneg_left a1 hu.le]
  have a5 : |m * L| ≤ 1.0052 * (l * R) := by
    rw [abs_mul, hL]; nlinarith [mul_le_mul_of_nonneg_right a4 hl.le]
  have a6 : |m * L - -(L * ρ)| ≤ (5.16 * (u * R) + (8.9 * u + 2.03 * δ) * t) * l := by
    rw [show m * L - -(L * ρ) = (m - (-ρ)) * L by ring, abs_mul, hL]
    exact mul_le_mul_of_nonneg_right a3 hl.le
  have h := abs_sub_le V (m * L) (-(L * ρ))
  have t0 : 0 < t := by nlinarith
  have b1 : u * R * l ≤ 1.0102 * (u * t * l) := by
    have := mul_le_mul_of_nonneg_left ht (mul_pos hu hl).le
    nlinarith
  have b2 : 0 ≤ δ * t * l := by positivity
  have b3 : 0 ≤ u * t * l := by positivity
  nlinarith [mul_le_mul_of_nonneg_left a5 hu.le]

/-- a horizontal component of the cross product -/
theorem shade_cross_xy {u η K l ρ R t δ a x U V X : ℝ} (hu : 0 < u) (hu1 : u ≤ 1 / 1024) (hK : 0 < K) (hl : 0 < l) (hρ : 0 < ρ) (hR : 0 < R)
    (hδ0 : 0 ≤ δ) (ht : R ≤ 1.0102 * t) (hρR : ρ ≤ 1.0102 * R) (hη : η ≤ u * (K * l * ρ * R)) (hx : |x| ≤ ρ)
    (ha : |a| = l * ρ)
    (hU : |U - x * K| ≤ 2 * (u * ρ * K)) (hV : |V - a| ≤ l * ((17 * u + 2.1 * δ) * t))
    (hX : |X - U * V| ≤ 2.01 * (u * |U * V|) + 2.01 * η) : |X - x * K * a| ≤ K * l * ρ * ((40 * u + 2.2 * δ) * t) := by
  have t0 : 0 < t := by linarith
  obtain ⟨G, hG⟩ : ∃ G, G = (17 * u + 2.1 * δ) * t := ⟨_, rfl⟩
  have G0 : 0 ≤ G := by rw [hG]; positivity
  rw [← hG] at hV
  have hxK : |x * K| ≤ ρ * K := by rw [abs_mul, abs_of_pos hK]; exact mul_le_mul_of_nonneg_right hx hK.le
  have p := prod_err hU hV hxK ha.le
  have hAB : |x * K * a| ≤ ρ * K * (l * ρ) := by
    rw [abs_mul (x * K), ha]; exact mul_le_mul_of_nonneg_right hxK (by positivity)
  have hUV : |U * V| ≤ |x * K * a| + |U * V - x * K * a| := by
    have := abs_sub_abs_le_abs_sub (U * V) (x * K * a); linarith
  have h := abs_sub_le X (U * V) (x * K * a)
  have w0 : 0 < K * l * ρ := by positivity
  have p' : |U * V - x * K * a| ≤ K * l * ρ * (G + 2 * u * ρ + 2 * u * G) := by
    refine p.trans (le_of_eq ?_); ring
  have hUV' : |U * V| ≤ K * l * ρ * (ρ + G + 2 * u * ρ + 2 * u * G) := by
    have : ρ * K * (l * ρ) = K * l * ρ * ρ := by ring
    rw [this] at hAB
    linarith
  have f : |X - x * K * a| ≤ K * l * ρ * (2.01 * u * (ρ + G + 2 * u * ρ + 2 * u * G) + 2.01 * (u * R) + (G + 2 * u * ρ + 2 * u * G)) := by
    have h1 := mul_le_mul_of_nonneg_left hUV' hu.le
    clear p hUV hxK hAB hU hV ha
    generalize K * l * ρ = w at *
    linarith
  refine f.trans ?_
  clear p hUV hxK hAB hU hV ha f p' hUV' h hX
  refine mul_le_mul_of_nonneg_left ?_ w0.le
  have uu : u * ρ ≤ 1.021 * (u * t) := by
    have := mul_le_mul_of_nonneg_left (show ρ ≤ 1.021 * t by linarith) hu.le
    linarith
  have uR : u * R ≤ 1.0102 * (u * t) := by
    have := mul_le_mul_of_nonneg_left ht hu.le
    linarith
  have uG : u * G ≤ 1 / 1024 * G := mul_le_mul_of_nonneg_right hu1 G0
  have ut : 0 ≤ u * t := by positivity
  have dt : 0 ≤ δ * t := by positivity
  have c1 : u * (ρ + G + 2 * u * ρ + 2 * u * G) ≤ 1.01 * (u * ρ) + 1.01 * (u * G) := by
    have k1 : u * (u * ρ) ≤ 1 / 1024 * (u * ρ) := mul_le_mul_of_nonneg_right hu1 (by positivity)
    have k2 : u * (u * G) ≤ 1 / 1024 * (u * G) := mul_le_mul_of_nonneg_right hu1 (by positivity)
    have k3 : 0 ≤ u * ρ := by positivity
    have k4 : 0 ≤ u * G := by positivity
    linarith
  have hGe : G = 17 * (u * t) + 2.1 * (δ * t) := by rw [hG]; ring
  linarith

/-- the vertical component of the cross product -/
theorem shade_cross_z {u η K l ρ R t δ z x y U1 U2 V1 V2 X L : ℝ} (hu : 0 < u) (hu1 : u ≤ 1 / 1024) (hK : 0 < K) (hl : 0 < l) (hL : L = -l)
    (hρ : 0 < ρ) (hR : 0 < R)
    (hδ0 : 0 ≤ δ) (ht : R ≤ 1.0102 * t) (hη : η ≤ u * (K * l * ρ * R)) (hρ2 : ρ ^ 2 = x ^ 2 + y ^ 2)
    (hz : 0 ≤ z) (hz1 : z ≤ 1.0102 * R)
    (hU1 : |U1 - (-y) * K| ≤ 2 * (u * ρ * K)) (hU2 : |U2 - x * K| ≤ 2 * (u * ρ * K))
    (hV1 : |V1 - L * (z * (x / ρ))| ≤ l * (14.6 * u * R)) (hV2 : |V2 - L * (z * (y / ρ))| ≤ l * (14.6 * u * R))
    (hX : |X - (U1 * V2 - U2 * V1)| ≤ 2.01 * (u * (|U1 * V2| + |U2 * V1|)) + 2.01 * η) :
    |X - K * l * ρ * z| ≤ K * l * ρ * ((40 * u + 2.2 * δ) * t) := by
  have t0 : 0 < t := by nlinarith
  have hx : |x| ≤ ρ := abs_le_of_sq_le_sq (by nlinarith [sq_nonneg y]) hρ.le
  have hy : |y| ≤ ρ := abs_le_of_sq_le_sq (by nlinarith [sq_nonneg x]) hρ.le
  have hxK : |x * K| ≤ ρ * K := by rw [abs_mul, abs_of_pos hK]; exact mul_le_mul_of_nonneg_right hx hK.le
  have hyK : |(-y) * K| ≤ ρ * K := by rw [abs_mul, abs_neg, abs_of_pos hK]; exact mul_le_mul_of_nonneg_right hy hK.le
  have hB : ∀ w, |w| ≤ ρ → |L * (z * (w / ρ))| ≤ l * (1.0102 * R) := by
    intro w hw
    rw [abs_mul, hL, abs_neg, abs_of_pos hl, abs_mul, abs_of_nonneg hz, abs_div, abs_of_pos hρ]
    have : |w| / ρ ≤ 1 := (div_le_one hρ).2 hw
    have : z * (|w| / ρ) ≤ z * 1 := mul_le_mul_of_nonneg_left this hz
    exact mul_le_mul_of_nonneg_left (by linarith) hl.le
  have p1 := prod_err hU1 hV2 hyK (hB y hy)
  have p2 := prod_err hU2 hV1 hxK (hB x hx)
  have w0 : 0 < K * l * ρ := by positivity
  have uR : 0 < u * R := by positivity
  have e1 : ρ * K * (l * (14.6 * u * R)) + 2 * (u * ρ * K) * (l * (1.0102 * R)) + 2 * (u * ρ * K) * (l * (14.6 * u * R)) ≤
      K * l * ρ * (16.66 * (u * R)) := by
    have h1 : K * l * ρ * ((u * R) * u) ≤ K * l * ρ * ((u * R) * (1 / 1024)) := by gcongr
    have h2 := mul_pos w0 uR
    linarith
  have q1 := p1.trans e1
  have q2 := p2.trans e1
  have wu : K * l * ρ * (u * R) ≤ K * l * ρ * (1 / 1024 * R) := by gcongr
  have m1 : |(-y) * K * (L * (z * (y / ρ)))| ≤ ρ * K * (l * (1.0102 * R)) := by
    rw [abs_mul ((-y) * K)]; exact mul_le_mul hyK (hB y hy) (abs_nonneg _) (by positivity)
  have m2 : |x * K * (L * (z * (x / ρ)))| ≤ ρ * K * (l * (1.0102 * R)) := by
    rw [abs_mul (x * K)]; exact mul_le_mul hxK (hB x hx) (abs_nonneg _) (by positivity)
  have ex : K * l * ρ * z = (-y) * K * (L * (z * (y / ρ))) - x * K * (L * (z * (x / ρ))) := by
    have : (-y) * K * (L * (z * (y / ρ))) - x * K * (L * (z * (x / ρ))) = -(L * K * z * (x ^ 2 + y ^ 2) / ρ) := by ring
    rw [this, ← hρ2, hL]
    field_simp
  clear p1 p2 e1 hU1 hU2 hV1 hV2 hB hxK hyK hx hy
  generalize (-y) * K * (L * (z * (y / ρ))) = A1 at *
  generalize x * K * (L * (z * (x / ρ))) = A2 at *
  have wR := mul_pos w0 hR
  have n1 : |U1 * V2| ≤ K * l * ρ * (1.03 * R) := by
    have h := abs_sub_abs_le_abs_sub (U1 * V2) A1
    linarith
  have n2 : |U2 * V1| ≤ K * l * ρ * (1.03 * R) := by
    have h := abs_sub_abs_le_abs_sub (U2 * V1) A2
    linarith
  have h1 := abs_sub_le X (U1 * V2 - U2 * V1) (K * l * ρ * z)
  have h2 : |U1 * V2 - U2 * V1 - K * l * ρ * z| ≤ 2 * (K * l * ρ * (16.66 * (u * R))) := by
    rw [ex, show U1 * V2 - U2 * V1 - (A1 - A2) = (U1 * V2 - A1) - (U2 * V1 - A2) by ring]
    exact (abs_sub _ _).trans (by linarith)
  have h3 : |X - K * l * ρ * z| ≤ K * l * ρ * (39.5 * (u * R)) := by
    have k1 : u * (|U1 * V2| + |U2 * V1|) ≤ u * (2 * (K * l * ρ * (1.03 * R))) := mul_le_mul_of_nonneg_left (by linarith) hu.le
    have k2 := mul_pos w0 uR
    linarith
  refine h3.trans (mul_le_mul_of_nonneg_left ?_ w0.le)
  have k1 : u * R ≤ 1.0102 * (u * t) := by
    have := mul_le_mul_of_nonneg_left ht hu.le
    linarith
  have k2 : 0 ≤ δ * t := by positivity
  have k3 : 0 ≤ u * t := by positivity
  linarith

theorem sqrt_sum_sub (a b : _root_.Fin 3 → ℝ) :
    |Real.sqrt (∑ i, a i ^ 2) - Real.sqrt (∑ i, b i ^ 2)| ≤ Real.sqrt (∑ i, (a i - b i) ^ 2) := by
  have h := abs_norm_sub_norm_le (WithLp.toLp 2 a : EuclideanSpace ℝ (_root_.Fin 3)) (WithLp.toLp 2 b)
  simpa only [EuclideanSpace.norm_eq, Real.norm_eq_abs, sq_abs, WithLp.ofLp_sub, Pi.sub_apply, PiLp.sub_apply] using h

/-- normalizing a vector near a multiple of `p` -/
theorem shade_unit {p X : _root_.Fin 3 → ℝ} {w g N : ℝ} (hw : 0 < w) (hN : N = Real.sqrt (∑ i, p i ^ 2)) (hN0 : 0 < N)
    (hX : ∀ i, |X i - w * p i| ≤ w * g) (hg : 3.47 * g ≤ N) :
    w * N / 2 ≤ Real.sqrt (∑ i, X i ^ 2) ∧ ∀ i, |X i / Real.sqrt (∑ j, X j ^ 2) - p i / N| ≤ 2.733 * g / N := by
  have g0 : 0 ≤ g := by
    have := (abs_nonneg _).trans (hX 0)
    exact nonneg_of_mul_nonneg_right this hw
  have h1 := sqrt_sum_sub X (fun i => w * p i)
  have e1 : Real.sqrt (∑ i, (w * p i) ^ 2) = w * N := by
    rw [hN]
    simp only [mul_pow]
    rw [← Finset.mul_sum, Real.sqrt_mul (sq_nonneg _), Real.sqrt_sq hw.le]
  have e2 : Real.sqrt (∑ i, (X i - w * p i) ^ 2) ≤ 1.733 * (w * g) := by
    refine Real.sqrt_le_iff.2 ⟨by positivity, ?_⟩
    have : ∀ i, (X i - w * p i) ^ 2 ≤ (w * g) ^ 2 := fun i => sq_le_sq' (by linarith [(_root_.abs_le.1 (hX i)).1]) (_root_.abs_le.1 (hX i)).2
    rw [Fin.sum_univ_three]
    nlinarith [this 0, this 1, this 2]
  rw [e1] at h1
  have h2 := h1.trans e2
  have wN : 0 < w * N := mul_pos hw hN0
  have hS : w * N / 2 ≤ Real.sqrt (∑ i, X i ^ 2) := by
    have := (_root_.abs_le.1 h2).1
    have := mul_le_mul_of_nonneg_left hg hw.le
    linarith
  refine ⟨hS, fun i => ?_⟩
  generalize hSe : Real.sqrt (∑ i, X i ^ 2) = S at *
  have S0 : 0 < S := by linarith
  have Xi : |X i| ≤ S := by
    rw [← hSe]
    refine Real.abs_le_sqrt ?_
    exact Finset.single_le_sum (f := fun i => X i ^ 2) (fun _ _ => sq_nonneg _) (Finset.mem_univ i)
  have e3 : X i / S - p i / N = (X i - w * p i) / (w * N) + X i / S * ((w * N - S) / (w * N)) := by
    field_simp
    ring
  rw [e3]
  refine (abs_add_le _ _).trans ?_
  rw [abs_mul, abs_div, abs_div, abs_div, abs_of_pos wN, abs_of_pos S0]
  have a1 : |X i - w * p i| / (w * N) ≤ g / N := by
    rw [div_le_div_iff₀ wN hN0]
    have := mul_le_mul_of_nonneg_right (hX i) hN0.le
    linarith
  have a2 : |w * N - S| / (w * N) ≤ 1.733 * g / N := by
    rw [div_le_div_iff₀ wN hN0, abs_sub_comm]
    have := mul_le_mul_of_nonneg_right h2 hN0.le
    linarith
  have a3 : |X i| / S ≤ 1 := (div_le_one S0).2 Xi
  have a4 : |X i| / S * (|w * N - S| / (w * N)) ≤ 1 * (1.733 * g / N) := mul_le_mul a3 a2 (by positivity) (by norm_num)
  have : 2.733 * g / N = g / N + 1.733 * g / N := by ring
  linarith

/-! ### on floats -/

section
variable [Libm 23 8] [LawfulLibm 23 8] {radius zMin zMax phiMax : F32}

/-- what `intersect` returns: tangents and normal -/
theorem shade_form {s : Sphere F32} {ray : Ray F32} {r : IntersectionResult F32} (h : s.intersect ray = some r) :
    r.surfaceInteraction.dpdu = GVec.new3 (-r.surfaceInteraction.p.y) r.surfaceInteraction.p.x Scalar.zero * (s.phiMax + GFloat.pi) ∧
    r.surfaceInteraction.dpdv = GVec.new3
      (r.surfaceInteraction.p.z * Libm.cos (Libm.atan2 r.surfaceInteraction.p.y r.surfaceInteraction.p.x))
      (r.surfaceInteraction.p.z * Libm.sin (Libm.atan2 r.surfaceInteraction.p.y r.surfaceInteraction.p.x))
      (-s.radius * Libm.sin (Libm.acos (Inherent.clamp (r.surfaceInteraction.p.z / s.radius) Scalar.zero Scalar.one))) *
      (s.thetaMax - s.thetaMin) ∧
    r.surfaceInteraction.n.vec = (r.surfaceInteraction.dpdu.cross r.surfaceInteraction.dpdv).normalize.vec := by
  obtain ⟨hit, he, rfl⟩ := Option.map_eq_some_iff.1 h
  obtain ⟨t, ht⟩ := intersectRay_some he
  obtain ⟨-, -, -, rfl⟩ := getIntersection_some ht
  exact ⟨rfl, rfl, rfl⟩

/-- the azimuth computed by the platform -/
theorem shade_azimuth (ha : Atan2Lawful) {x y : F32} (hx : x.isFin = true) (hy : y.isFin = true) {ρ : ℝ}
    (hρ : ρ = Real.sqrt (x.toReal ^ 2 + y.toReal ^ 2)) (h0 : 0 < ρ) :
    |(Libm.cos (Libm.atan2 y x)).toReal - x.toReal / ρ| ≤ 9 * uRnd 23 ∧
    |(Libm.sin (Libm.atan2 y x)).toReal - y.toReal / ρ| ≤ 9 * uRnd 23 := by
  obtain ⟨Φ, ⟨-, ex, ey⟩, e⟩ := ha.accurate y x hy hx
  obtain ⟨ns, nc⟩ := near_trig (mw := 23) (ew := 8) (by norm_num) (by norm_num) (ha.fin y x hy hx)
  rw [← hρ] at ex ey
  have c1 : x.toReal / ρ = Real.cos Φ := by rw [div_eq_iff h0.ne']; linarith
  have s1 : y.toReal / ρ = Real.sin Φ := by rw [div_eq_iff h0.ne']; linarith
  have u0 := uRnd_pos (mw := 23)
  rw [c1, s1]
  constructor
  · have h1 := abs_sub_le (Libm.cos (Libm.atan2 y x)).toReal (Real.cos (Libm.atan2 y x).toReal) (Real.cos Φ)
    have h2 := Real.abs_cos_sub_cos_le (Libm.atan2 y x).toReal Φ
    linarith [nc.2]
  · have h1 := abs_sub_le (Libm.sin (Libm.atan2 y x)).toReal (Real.sin (Libm.atan2 y x).toReal) (Real.sin Φ)
    have h2 := Real.abs_sin_sub_sin_le (Libm.atan2 y x).toReal Φ
    linarith [ns.2]

/-- the polar angle computed from the height, also a little above the sphere -/
theorem shade_polar {z R : F32} (hz : z.isFin = true) (hR : R.isFin = true) (hR0 : 0 < R.toReal) (h0 : 0 ≤ z.toReal) {δ : ℝ}
    (hδ0 : 0 ≤ δ) (h1 : z.toReal / R.toReal ≤ 1 + δ / 2) :
    (Libm.acos (Inherent.clamp (z / R) Scalar.zero Scalar.one : F32)).isFin = true ∧
    |Real.cos (Libm.acos (Inherent.clamp (z / R) Scalar.zero Scalar.one : F32)).toReal - z.toReal / R.toReal| ≤ 4.3 * uRnd 23 + δ / 2 ∧
    0 ≤ Real.sin (Libm.acos (Inherent.clamp (z / R) Scalar.zero Scalar.one : F32)).toReal := by
  have u0 := uRnd_pos (mw := 23)
  have e0 := etaRnd_pos (mw := 23) (ew := 8)
  have et := eta_tiny
  have R0 : R.key ≠ 0 := fun h' => hR0.ne' (toReal_eq_zero_iff.2 h')
  have q2 : (z / R).isNaN = false ∧ (z / R).key = rndK 23 8 (z.toReal / R.toReal) := div_fin hz hR R0
  obtain ⟨cf, c0, c1, ck, ce⟩ := clamp01 (x := z / R) q2.1
  have Q0 : 0 ≤ z.toReal / R.toReal := div_nonneg h0 hR0.le
  have hc : |(Inherent.clamp (z / R) Scalar.zero Scalar.one : F32).toReal - z.toReal / R.toReal| ≤ 1.001 * uRnd 23 + δ / 2 := by
    rcases le_or_gt (z.toReal / R.toReal) 1 with hq | hq
    · obtain ⟨qf, q0, q1⟩ := round_unit q2 Q0 hq
      rw [ce q0 q1]
      have qe := div_err hz hR hR0.ne' qf
      refine qe.trans (max_le (by linarith) ?_)
      rw [abs_of_nonneg Q0]
      nlinarith
    · have o := sone_spec (mw := 23) (ew := 8)
      have k1 : (Scalar.one : F32).key ≤ (z / R).key := by
        rw [q2.2, ← rndK_toReal (notNaN_of_isFin o.1), o.2]
        exact rndK_mono 23 8 hq.le
      have k0 : 0 ≤ (Scalar.one : F32).key := by decide +kernel
      have : (Inherent.clamp (z / R) Scalar.zero Scalar.one : F32).toReal = 1 := by
        rw [← o.2, toReal_eq_key, toReal_eq_key, ck, min_eq_right k1, max_eq_right k0]
      rw [this, abs_sub_comm, abs_of_nonneg (by linarith)]
      linarith
  generalize (Inherent.clamp (z / R) Scalar.zero Scalar.one : F32) = c at *
  obtain ⟨tf, te, t0, t1⟩ := acos_near cf c0 c1
  refine ⟨tf, ?_, Real.sin_nonneg_of_nonneg_of_le_pi t0 (by linarith [Real.pi_gt_d20])⟩
  have h2 := Real.abs_cos_sub_cos_le (Libm.acos c).toReal (Real.arccos c.toReal)
  rw [Real.cos_arccos (by linarith) c1] at h2
  have h3 := abs_sub_le (Real.cos (Libm.acos c).toReal) c.toReal (z.toReal / R.toReal)
  linarith

/-- the factor of `dpdv`: negative and at most 2 in size -/
theorem shade_theta (hd : AcosDecreasing) {s : Sphere F32} (hs : Sphere.new radius zMin zMax phiMax = some s)
    (hr : UVRegular radius zMin zMax phiMax) {ray : Ray F32} {r : IntersectionResult F32} (h : s.intersect ray = some r) :
    (s.thetaMax - s.thetaMin : F32).toReal < 0 ∧ -2 ≤ (s.thetaMax - s.thetaMin : F32).toReal ∧ (s.thetaMax - s.thetaMin : F32).isFin = true := by
  obtain ⟨rfl, zl, zh, -, -, -⟩ := uv_form hs h
  have us := uRnd_small (mw := 23) (by norm_num)
  have R0 : radius.key ≠ 0 := fun h' => hr.radiusPos.ne' (toReal_eq_zero_iff.2 h')
  have q1 := div_fin hr.zMinFin hr.radiusFin R0
  have q3 := div_fin hr.zMaxFin hr.radiusFin R0
  have m1 := rndK_mono 23 8 (div_le_div_of_nonneg_right (toReal_le_iff.2 (zl.2.2.trans zh.2.2)) hr.radiusPos.le)
  obtain ⟨cf1, c01, c11, ck1, -⟩ := clamp01 (x := zMin / radius) q1.1
  obtain ⟨cf3, c03, c13, ck3, -⟩ := clamp01 (x := zMax / radius) q3.1
  have e1 : (zMin / radius : F32).key = _ := q1.2
  have e3 : (zMax / radius : F32).key = _ := q3.2
  have d1 := hd _ _ cf1 cf3 c01 (toReal_le_iff.2 (by rw [ck1, ck3, e1, e3]; omega)) c13
  obtain ⟨tf1, -, t01, t11⟩ := acos_near cf1 c01 c11
  obtain ⟨tf3, -, t03, t13⟩ := acos_near cf3 c03 c13
  have ne := hr.theta
  change (Libm.acos (Inherent.clamp (zMax / radius) Scalar.zero Scalar.one : F32) -
        Libm.acos (Inherent.clamp (zMin / radius) Scalar.zero Scalar.one : F32)).toReal < 0 ∧
      -2 ≤ (Libm.acos (Inherent.clamp (zMax / radius) Scalar.zero Scalar.one : F32) -
        Libm.acos (Inherent.clamp (zMin / radius) Scalar.zero Scalar.one : F32)).toReal ∧
      (Libm.acos (Inherent.clamp (zMax / radius) Scalar.zero Scalar.one : F32) -
        Libm.acos (Inherent.clamp (zMin / radius) Scalar.zero Scalar.one : F32)).isFin = true
  generalize (Libm.acos (Inherent.clamp (zMin / radius) Scalar.zero Scalar.one : F32)) = θm at *
  generalize (Libm.acos (Inherent.clamp (zMax / radius) Scalar.zero Scalar.one : F32)) = θM at *
  have f2 : (F32.lit 2).isFin = true := by decide +kernel
  have l2 := toReal_lit_small.2.1
  have B := rounded_bound (sub_fin tf3 tf1) f2 (by rw [l2, _root_.abs_le]; constructor <;> linarith)
  refine ⟨?_, by have := (_root_.abs_le.1 B.2).1; rwa [l2] at this, B.1⟩
  have e := sub_err tf3 tf1 B.1
  have hn : θM.toReal - θm.toReal < 0 := by
    rcases lt_or_eq_of_le d1 with h' | h'
    · linarith
    · exact absurd h'.symm ne
  rw [abs_of_neg hn] at e
  have := (_root_.abs_le.1 e).2
  nlinarith

/-- What is assumed of a hit for its shading frame to be meaningful: finite coordinates in the upper half, on the sphere up to `δ`
(relative to `R²`; C102 gives `δ`), away from the pole by `ρ`, no overflow and no underflow. -/
structure ShadeRegular (s : Sphere F32) (r : IntersectionResult F32) (δ ρ : ℝ) : Prop where
  xFin : r.surfaceInteraction.p.x.isFin = true
  yFin : r.surfaceInteraction.p.y.isFin = true
  zFin : r.surfaceInteraction.p.z.isFin = true
  upper : 0 ≤ r.surfaceInteraction.p.z.toReal
  rho : ρ = Real.sqrt (r.surfaceInteraction.p.x.toReal ^ 2 + r.surfaceInteraction.p.y.toReal ^ 2)
  onSphere : |r.surfaceInteraction.p.x.toReal ^ 2 + r.surfaceInteraction.p.y.toReal ^ 2 + r.surfaceInteraction.p.z.toReal ^ 2 -
    s.radius.toReal ^ 2| ≤ δ * s.radius.toReal ^ 2
  away : (150 * uRnd 23 + 50 * δ) * s.radius.toReal ≤ ρ
  tinyU : etaRnd 23 8 ≤ uRnd 23 * (s.phiMax + GFloat.pi : F32).toReal * ρ
  tinyV : etaRnd 23 8 ≤ uRnd 23 * |(s.thetaMax - s.thetaMin : F32).toReal| * ρ
  tinyN : 13 * etaRnd 23 8 ≤ uRnd 23 * ((s.phiMax + GFloat.pi : F32).toReal * |(s.thetaMax - s.thetaMin : F32).toReal| * ρ *
    s.radius.toReal) ^ 2
  noOverflow : (r.surfaceInteraction.dpdu.cross r.surfaceInteraction.dpdv).squareNorm.isFin = true

/-- plane facts shared by the theorems below -/
theorem shade_sizes {R z ρ δ u q : ℝ} (hu : 0 < u) (hR : 0 < R) (hz : 0 ≤ z) (h2 : ρ ^ 2 = q) (hρ0 : 0 ≤ ρ)
    (hδ : |q + z ^ 2 - R ^ 2| ≤ δ * R ^ 2) (ha : (150 * u + 50 * δ) * R ≤ ρ) :
    0 ≤ δ ∧ 49 * δ ≤ 1 ∧ 0 < ρ ∧ ρ ≤ 1.0102 * R ∧ z ≤ 1.0102 * R ∧ R ≤ 1.0102 * (R ^ 2 / ρ) ∧ z / R ≤ 1 + δ / 2 := by
  have R2 : 0 < R ^ 2 := by positivity
  have δ0 : 0 ≤ δ := nonneg_of_mul_nonneg_left ((abs_nonneg _).trans hδ) R2
  have uR := mul_pos hu hR
  have δR := mul_nonneg δ0 hR.le
  have ρ0 : 0 < ρ := by nlinarith
  have up := (_root_.abs_le.1 hδ).2
  have ρu : ρ ^ 2 ≤ (1 + δ) * R ^ 2 := by nlinarith [sq_nonneg z]
  have ρ1 : ρ ≤ (1 + δ / 2) * R := abs_le_of_sq_le_sq' (by nlinarith [sq_nonneg (δ * R)]) (by nlinarith) |>.2
  have z1 : z ≤ (1 + δ / 2) * R := abs_le_of_sq_le_sq' (by nlinarith [sq_nonneg (δ * R)]) (by nlinarith) |>.2
  have δ1 : 49 * δ ≤ 1 := by
    by_contra hc
    push Not at hc
    have := mul_lt_mul_of_pos_right hc hR
    nlinarith
  have ρ2 : ρ ≤ 1.0102 * R := abs_le_of_sq_le_sq' (by nlinarith) (by nlinarith) |>.2
  refine ⟨δ0, δ1, ρ0, ρ2, abs_le_of_sq_le_sq' (by nlinarith) (by nlinarith) |>.2, ?_, ?_⟩
  · rw [mul_div_assoc', le_div_iff₀ ρ0]
    nlinarith
  · rw [div_le_iff₀ hR]; exact z1

end
end Scarlet
