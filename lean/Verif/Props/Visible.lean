import Verif.Props.Camera5
import Verif.Props.Primitive
import Verif.Props.Sphere2

/-! C130 (what is in view is rendered: from a world point to its film point, and from there back to the point). -/

set_option linter.unusedSectionVars false

namespace Scarlet
open GVec Real

/-! ### Specification -/

/-- The distance of a point from the origin. -/
noncomputable def dist0 (P : Point ℝ 3) : ℝ := √(P.x ^ 2 + P.y ^ 2 + P.z ^ 2)

/-- The film point that should show the camera space point `P`: the pinhole projection, upright, where half the width of the
film stands for the slope `tan (fov / 2) / 4` and the height for the width divided by the aspect ratio. -/
noncomputable def filmOf (fov ar : ℝ) (P : Point ℝ 3) : Point ℝ 2 :=
  new2 (1 / 2 - 2 * (P.x / P.z) / tan (fov / 2)) (1 / 2 - 2 * ar * (P.y / P.z) / tan (fov / 2))

/-- Film points are the points of the unit square. -/
def OnFilm (p : Point ℝ 2) : Prop := 0 ≤ p.x ∧ p.x ≤ 1 ∧ 0 ≤ p.y ∧ p.y ≤ 1

/-- The field of view: the pyramid in front of the camera. -/
def InView (fov ar : ℝ) (P : Point ℝ 3) : Prop :=
  P.z < 0 ∧ |P.x| ≤ tan (fov / 2) / 4 * |P.z| ∧ |P.y| ≤ tan (fov / 2) / (4 * ar) * |P.z|

/-- Film point `p` shows the world point `W`: the ray through the lens centre meets it after the parameter `t`. -/
def Shows (cam : ThinLensCamera ℝ) (p : Point ℝ 2) (W : Point ℝ 3) (t : ℝ) : Prop :=
  ∃ r, cam.generateRay ⟨p, new2 (1 / 2) (1 / 2)⟩ = some r ∧ 0 < t ∧ r.eval t = W

/-! ### Camera space -/

section
variable (view : Transform ℝ) (o fov f lr ar : ℝ)

private theorem centre_origin (p : Point ℝ 2) :
    ((ThinLensCamera.new view o fov f lr ar).cameraRay ⟨p, new2 (1 / 2) (1 / 2)⟩).origin = new3 0 0 0 := by
  rw [cameraRay_origin]
  dsimp only
  rw [concentric_centre, x_new2, y_new2, zero_mul]

private theorem centre_eval (p : Point ℝ 2) (t : ℝ) :
    let r := (ThinLensCamera.new view o fov f lr ar).cameraRay ⟨p, new2 (1 / 2) (1 / 2)⟩
    (r.eval t).x = r.direction.x * t ∧ (r.eval t).y = r.direction.y * t ∧ (r.eval t).z = r.direction.z * t := by
  intro r
  have ho : r.origin = new3 0 0 0 := centre_origin view o fov f lr ar p
  have e : r.eval t = r.origin + r.direction * t := rfl
  rw [e, ho]
  refine ⟨?_, ?_, ?_⟩
  · rw [x_padd, x_smul, x_new3, zero_add]
  · rw [y_padd, y_smul, y_new3, zero_add]
  · rw [z_padd, z_smul, z_new3, zero_add]

private theorem centre_unit (p : Point ℝ 2) (hf : 0 < f) (h2 : 2 * f < o) :
    let d := ((ThinLensCamera.new view o fov f lr ar).cameraRay ⟨p, new2 (1 / 2) (1 / 2)⟩).direction
    d.x ^ 2 + d.y ^ 2 + d.z ^ 2 = 1 := by
  intro d
  obtain ⟨e1, e2⟩ := C73_new view o fov f lr ar hf.ne' (by linarith : (0:ℝ) < o).ne' (by linarith : f < o).ne' h2.ne'
  have h : d.norm = 1 := C73_unit_partial _ _ e1 e2
  rw [norm_real, Real.sqrt_eq_one, squareNorm3] at h
  linarith

/-- The lens centre's ray through `p` passes `P` exactly if `p` is the projection of `P`. -/
private theorem camera_pixel (p : Point ℝ 2) (P : Point ℝ 3) (t : ℝ) (hf : 0 < f) (h2 : 2 * f < o) (h0 : 0 < fov)
    (h1 : fov < π) (ha : 0 < ar) (ht : 0 < t) :
    ((ThinLensCamera.new view o fov f lr ar).cameraRay ⟨p, new2 (1 / 2) (1 / 2)⟩).eval t = P ↔
      P.z < 0 ∧ p = filmOf fov ar P ∧ t = dist0 P := by
  obtain ⟨ex, ey, ez⟩ := centre_eval view o fov f lr ar p t
  obtain ⟨hx, hy⟩ := C97_slopes view o fov f lr ar p
  obtain ⟨hz, -, -⟩ := C97_upright view o fov f lr ar p hf h2 h0 h1 ha
  have hu := centre_unit view o fov f lr ar p hf h2
  have htan : 0 < tan (fov / 2) := tan_pos_of_pos_of_lt_pi_div_two (by linarith) (by linarith)
  dsimp only at ex ey ez hu
  generalize ((ThinLensCamera.new view o fov f lr ar).cameraRay ⟨p, new2 (1 / 2) (1 / 2)⟩) = r at *
  unfold filmOf dist0
  generalize tan (fov / 2) = k at *
  have hk : k ≠ 0 := htan.ne'
  have har : ar ≠ 0 := ha.ne'
  constructor
  · rintro rfl
    rw [ex, ey, ez]
    have hzt : r.direction.z * t ≠ 0 := (mul_neg_of_neg_of_pos hz ht).ne
    have hz0 : r.direction.z ≠ 0 := hz.ne
    refine ⟨mul_neg_of_neg_of_pos hz ht, ext2 ?_ ?_, ?_⟩
    · rw [x_new2, hx]; field_simp; ring
    · rw [y_new2, hy]; field_simp; ring
    · rw [show (r.direction.x * t) ^ 2 + (r.direction.y * t) ^ 2 + (r.direction.z * t) ^ 2 = t ^ 2 by
        linear_combination t ^ 2 * hu, Real.sqrt_sq ht.le]
  · rintro ⟨hP, rfl, et⟩
    rw [x_new2] at hx
    rw [y_new2] at hy
    have hP0 : P.z ≠ 0 := hP.ne
    have qx : r.direction.x * P.z = P.x * r.direction.z := by rw [hx]; field_simp; ring
    have qy : r.direction.y * P.z = P.y * r.direction.z := by rw [hy]; field_simp; ring
    have sq : t ^ 2 = P.x ^ 2 + P.y ^ 2 + P.z ^ 2 := by rw [et, Real.sq_sqrt (by positivity)]
    have hs : (r.direction.z * t) ^ 2 = P.z ^ 2 := by
      have : P.z ^ 2 * (r.direction.x ^ 2 + r.direction.y ^ 2 + r.direction.z ^ 2) =
          r.direction.z ^ 2 * (P.x ^ 2 + P.y ^ 2 + P.z ^ 2) := by
        linear_combination (r.direction.x * P.z + P.x * r.direction.z) * qx +
          (r.direction.y * P.z + P.y * r.direction.z) * qy
      rw [hu] at this
      rw [mul_pow, sq]; linarith
    have e3 : r.direction.z * t = P.z := by
      rcases sq_eq_sq_iff_eq_or_eq_neg.1 hs with h | h
      · exact h
      · have := mul_neg_of_neg_of_pos hz ht
        linarith
    have hz0 : r.direction.z ≠ 0 := hz.ne
    refine ext3 ?_ ?_ (ez.trans e3)
    · rw [ex]; exact mul_right_cancel₀ hz0 (by rw [← qx, ← e3]; ring)
    · rw [ey]; exact mul_right_cancel₀ hz0 (by rw [← qy, ← e3]; ring)

theorem dist0_pos {P : Point ℝ 3} (h : P.z < 0) : 0 < dist0 P :=
  Real.sqrt_pos.2 (by have := pow_pos (neg_pos.2 h) 2; nlinarith [sq_nonneg P.x, sq_nonneg P.y])

/-! ### C130 -/

/-- C130: every world point in front of the camera is shown by exactly one film point, at its distance from the lens centre
(in camera space), and that film point is the pinhole projection; points beside or behind the camera are shown by none. -/
theorem C130_pixel (hv : view.Reachable) (hva : view.m.Affine) (hf : 0 < f) (h2 : 2 * f < o) (h0 : 0 < fov) (h1 : fov < π)
    (ha : 0 < ar) (W P : Point ℝ 3) (hP : view.mapPoint W = some P) (p : Point ℝ 2) (t : ℝ) :
    Shows (.new view o fov f lr ar) p W t ↔ P.z < 0 ∧ p = filmOf fov ar P ∧ t = dist0 P := by
  obtain ⟨s, hs, -, hk⟩ := C42_map_inverse view (C42_affine_inverse view hv hva)
    ((ThinLensCamera.new view o fov f lr ar).cameraRay ⟨p, new2 (1 / 2) (1 / 2)⟩)
  have hg : (ThinLensCamera.new view o fov f lr ar).generateRay ⟨p, new2 (1 / 2) (1 / 2)⟩ = some s := hs
  have hback := C35_point view hv W P hP
  have key : s.eval t = W ↔ ((ThinLensCamera.new view o fov f lr ar).cameraRay ⟨p, new2 (1 / 2) (1 / 2)⟩).eval t = P := by
    constructor
    · rintro rfl
      have := C35_point' view hv _ _ (hk t)
      rw [hP] at this
      exact (Option.some.inj this).symm
    · intro e
      have := hk t
      rw [e, hback] at this
      exact (Option.some.inj this).symm
  constructor
  · rintro ⟨r, hr, ht, e⟩
    rw [hg] at hr
    cases hr
    exact (camera_pixel view o fov f lr ar p P t hf h2 h0 h1 ha ht).1 (key.1 e)
  · rintro ⟨hz, e1, e2⟩
    have ht : 0 < t := e2 ▸ dist0_pos hz
    exact ⟨s, hg, ht, key.2 ((camera_pixel view o fov f lr ar p P t hf h2 h0 h1 ha ht).2 ⟨hz, e1, e2⟩)⟩

/-- C130: the film point lies on the film exactly if the point is in the field of view. -/
theorem C130_film (h0 : 0 < fov) (h1 : fov < π) (ha : 0 < ar) (P : Point ℝ 3) (hz : P.z < 0) :
    OnFilm (filmOf fov ar P) ↔ InView fov ar P := by
  have htan : 0 < tan (fov / 2) := tan_pos_of_pos_of_lt_pi_div_two (by linarith) (by linarith)
  unfold OnFilm InView filmOf
  rw [x_new2, y_new2]
  generalize tan (fov / 2) = k at *
  obtain ⟨w, hw, ew⟩ : ∃ w : ℝ, 0 < w ∧ P.z = -w := ⟨-P.z, by linarith, by ring⟩
  rw [ew, abs_neg, abs_of_pos hw, _root_.abs_le, _root_.abs_le]
  have qx : 2 * (P.x / -w) / k = -(2 * P.x / (w * k)) := by field_simp
  have qy : 2 * ar * (P.y / -w) / k = -(2 * ar * P.y / (w * k)) := by field_simp
  have hwk : 0 < w * k := mul_pos hw htan
  rw [qx, qy]
  have a1 : ∀ u : ℝ, 0 ≤ 1 / 2 - -(u / (w * k)) ↔ -(w * k) ≤ 2 * u := by
    intro u
    rw [show (1 / 2 - -(u / (w * k)) : ℝ) = (w * k + 2 * u) / (2 * (w * k)) by field_simp; ring,
      le_div_iff₀ (by positivity)]
    constructor <;> intro h <;> linarith
  have a2 : ∀ u : ℝ, 1 / 2 - -(u / (w * k)) ≤ 1 ↔ 2 * u ≤ w * k := by
    intro u
    rw [show (1 / 2 - -(u / (w * k)) : ℝ) = (w * k + 2 * u) / (2 * (w * k)) by field_simp; ring,
      div_le_iff₀ (by positivity)]
    constructor <;> intro h <;> linarith
  rw [a1, a2, a1, a2]
  have b : k / (4 * ar) * w = w * k / 4 / ar := by field_simp
  rw [b, ← neg_div, div_le_iff₀ ha, le_div_iff₀ ha]
  constructor
  · rintro ⟨h1, h2, h3, h4⟩
    exact ⟨by linarith, ⟨by linarith, by linarith⟩, by linarith, by linarith⟩
  · rintro ⟨-, ⟨h1, h2⟩, h3, h4⟩
    exact ⟨by linarith, by linarith, by linarith, by linarith⟩

/-- The point of the segment from `E` to `W` at the fraction `l`. -/
def between (E W : Point ℝ 3) (l : ℝ) : Point ℝ 3 :=
  new3 (E.x + l * (W.x - E.x)) (E.y + l * (W.y - E.y)) (E.z + l * (W.z - E.z))

/-- The world point `W` lies on the partial sphere `s` placed by `place`. -/
def OnPlaced (s : Sphere ℝ) (place : Transform ℝ) (W : Point ℝ 3) : Prop :=
  ∃ q, place.mapPointInv W = some q ∧ s.OnSurface q

theorem ray_between {r : Ray ℝ} {E W : Point ℝ 3} {t : ℝ} (h0 : r.eval 0 = E) (ht : r.eval t = W) (l : ℝ) :
    r.eval (l * t) = between E W l := by
  subst h0 ht
  refine ext3 ?_ ?_ ?_
  · change r.origin.x + r.direction.x * (l * t) = r.origin.x + r.direction.x * 0 + l * ((r.origin.x + r.direction.x * t) - (r.origin.x + r.direction.x * 0))
    ring
  · change r.origin.y + r.direction.y * (l * t) = r.origin.y + r.direction.y * 0 + l * ((r.origin.y + r.direction.y * t) - (r.origin.y + r.direction.y * 0))
    ring
  · change r.origin.z + r.direction.z * (l * t) = r.origin.z + r.direction.z * 0 + l * ((r.origin.z + r.direction.z * t) - (r.origin.z + r.direction.z * 0))
    ring

/-- C130: rendering a placed partial sphere: `W` is a point of the surface
in front of the camera, no farther than `Float::highest()`, and the lens centre `E` is not on the sphere carrying the
surface.  Then the ray of `W`'s film point reports a hit, on the surface, on the segment from the lens centre to `W`; and the
hit is `W` itself exactly if no other point of the surface is on that segment. -/
theorem C130_sphere (hv : view.Reachable) (hva : view.m.Affine) (hf : 0 < f) (h2 : 2 * f < o) (h0 : 0 < fov) (h1 : fov < π)
    (ha : 0 < ar) (s : Sphere ℝ) (place : Transform ℝ) (hp : place.Reachable) (hpa : place.m.Affine)
    (W P E e : Point ℝ 3) (hP : view.mapPoint W = some P) (hz : P.z < 0) (hmax : dist0 P ≤ maxR)
    (hE : view.mapPoint E = some (new3 0 0 0)) (he : place.mapPointInv E = some e)
    (hoff : e.x ^ 2 + e.y ^ 2 + e.z ^ 2 ≠ s.radius ^ 2) (hW : OnPlaced s place W) :
    ∃ r res l, (ThinLensCamera.new view o fov f lr ar).generateRay ⟨filmOf fov ar P, new2 (1 / 2) (1 / 2)⟩ = some r ∧
      (s.prim.transformed place).intersect r = some (some res) ∧
      0 < l ∧ l ≤ 1 ∧ r.eval res.tRay = between E W l ∧ OnPlaced s place (between E W l) ∧
      (r.eval res.tRay = W ↔ ∀ l', 0 < l' → l' < 1 → ¬ OnPlaced s place (between E W l')) := by
  obtain ⟨r, hr, ht, hrW⟩ := (C130_pixel view o fov f lr ar hv hva hf h2 h0 h1 ha W P hP (filmOf fov ar P) (dist0 P)).2
    ⟨hz, rfl, rfl⟩
  have hr0 : r.eval 0 = E := by
    obtain ⟨s', hs, -, hk⟩ := C42_map_inverse view (C42_affine_inverse view hv hva)
      ((ThinLensCamera.new view o fov f lr ar).cameraRay ⟨filmOf fov ar P, new2 (1 / 2) (1 / 2)⟩)
    have : some s' = some r := hs.symm.trans hr
    cases this
    have h := hk 0
    have e0 : ((ThinLensCamera.new view o fov f lr ar).cameraRay ⟨filmOf fov ar P, new2 (1 / 2) (1 / 2)⟩).eval 0 = new3 0 0 0 := by
      obtain ⟨q1, q2, q3⟩ := centre_eval view o fov f lr ar (filmOf fov ar P) 0
      exact ext3 (by rw [q1, mul_zero, x_new3]) (by rw [q2, mul_zero, y_new3]) (by rw [q3, mul_zero, z_new3])
    rw [e0, C35_point view hv E _ hE] at h
    exact (Option.some.inj h).symm
  have htm : r.tmax = maxR := by
    obtain ⟨s', hs, hm, -⟩ := C42_map_inverse view (C42_affine_inverse view hv hva)
      ((ThinLensCamera.new view o fov f lr ar).cameraRay ⟨filmOf fov ar P, new2 (1 / 2) (1 / 2)⟩)
    have : some s' = some r := hs.symm.trans hr
    cases this
    exact hm
  obtain ⟨obj, hi, -, hom, hok⟩ := C66_t_ray s.prim place (C42_affine_inverse place hp hpa) r
  have hob0 : obj.eval 0 = e := by
    have := hok 0
    rw [hr0, he] at this
    exact (Option.some.inj this).symm
  have hon : ∀ k, OnPlaced s place (r.eval k) ↔ s.OnSurface (obj.eval k) := by
    intro k
    constructor
    · rintro ⟨q, hq, hs⟩
      rw [hok k] at hq
      cases hq
      exact hs
    · intro h
      exact ⟨_, hok k, h⟩
  have hsurf : s.OnSurface (obj.eval (dist0 P)) := (hon _).1 (by rw [hrW]; exact hW)
  have hoo : obj.origin = e := by
    rw [← hob0]
    refine ext3 ?_ ?_ ?_
    · change obj.origin.x = obj.origin.x + obj.direction.x * 0; ring
    · change obj.origin.y = obj.origin.y + obj.direction.y * 0; ring
    · change obj.origin.z = obj.origin.z + obj.direction.z * 0; ring
  have hreg : s.Regular obj := by
    refine ⟨?_, fun h => hoff (by rw [← hoo]; exact h.2)⟩
    by_contra hc
    push Not at hc
    apply hoff
    have ee : obj.eval (dist0 P) = e := by
      rw [← hoo]
      refine ext3 ?_ ?_ ?_
      · change obj.origin.x + obj.direction.vec 0 * _ = _; rw [hc 0]; ring
      · change obj.origin.y + obj.direction.vec 1 * _ = _; rw [hc 1]; ring
      · change obj.origin.z + obj.direction.vec 2 * _ = _; rw [hc 2]; ring
    rw [ee] at hsurf
    exact hsurf.1
  have hhit : s.HitAt obj (dist0 P) := ⟨ht.le, by rw [hom, htm]; exact hmax, hsurf⟩
  obtain ⟨res, hres⟩ := Option.isSome_iff_exists.1 ((C57_complete s obj hreg).2 ⟨_, hhit⟩)
  have hfirst := C57_first s obj hreg res hres
  obtain ⟨hat, -, -⟩ := C56_on_sphere s obj hreg res hres
  have htr : 0 < res.tRay := by
    refine lt_of_le_of_ne hat.1 fun h => hoff ?_
    have := hat.2.2.1
    rw [← h, hob0] at this
    exact this
  have hl : res.tRay / dist0 P * dist0 P = res.tRay := div_mul_cancel₀ _ ht.ne'
  have hbet := ray_between hr0 hrW (res.tRay / dist0 P)
  rw [hl] at hbet
  refine ⟨r, res, res.tRay / dist0 P, hr, ?_, div_pos htr ht, (div_le_one ht).2 (hfirst _ hhit), hbet, ?_, ?_⟩
  · rw [hi]
    change some (s.intersect obj) = _
    rw [hres]
  · rw [← hbet, hon]
    exact hat.2.2
  · constructor
    · intro hW' l' h0' h1' hon'
      rw [← ray_between hr0 hrW l', hon] at hon'
      have hlt : l' * dist0 P < dist0 P := by nlinarith
      have hle := hfirst (l' * dist0 P) ⟨(mul_pos h0' ht).le, by rw [hom, htm]; linarith, hon'⟩
      have hlt' : res.tRay < dist0 P := by linarith
      -- two parameters of one ray at the same point
      have ss : Shows (.new view o fov f lr ar) (filmOf fov ar P) W res.tRay := ⟨r, hr, htr, hW'⟩
      have := ((C130_pixel view o fov f lr ar hv hva hf h2 h0 h1 ha W P hP _ _).1 ss).2.2
      linarith
    · intro hno
      rcases lt_or_eq_of_le (hfirst _ hhit) with h | h
      · exact absurd ((hon res.tRay).2 hat.2.2) (by
          rw [hbet]; exact hno _ (div_pos htr ht) ((div_lt_one ht).2 h))
      · rw [h, hrW]

/-- C130: lists of primitives show the surface as well: if the placed sphere is one of them, the search along the ray of `W`'s
film point does not come back empty, and the any-hit query answers yes unless a member panics. -/
theorem C130_list (hv : view.Reachable) (hva : view.m.Affine) (hf : 0 < f) (h2 : 2 * f < o) (h0 : 0 < fov) (h1 : fov < π)
    (ha : 0 < ar) (s : Sphere ℝ) (place : Transform ℝ) (hp : place.Reachable) (hpa : place.m.Affine)
    (W P E e : Point ℝ 3) (hP : view.mapPoint W = some P) (hz : P.z < 0) (hmax : dist0 P ≤ maxR)
    (hE : view.mapPoint E = some (new3 0 0 0)) (he : place.mapPointInv E = some e)
    (hoff : e.x ^ 2 + e.y ^ 2 + e.z ^ 2 ≠ s.radius ^ 2) (hW : OnPlaced s place W)
    (ps : List (Primitive ℝ)) (hm : s.prim.transformed place ∈ ps) :
    ∃ r, (ThinLensCamera.new view o fov f lr ar).generateRay ⟨filmOf fov ar P, new2 (1 / 2) (1 / 2)⟩ = some r ∧
      (PrimitiveList.prim ps).intersect r ≠ some none ∧
      ((∀ p ∈ ps, p.doIntersect r ≠ none) → (PrimitiveList.prim ps).doIntersect r = some true) := by
  obtain ⟨r, res, l, hr, hi, -⟩ := C130_sphere view o fov f lr ar hv hva hf h2 h0 h1 ha s place hp hpa W P E e hP hz hmax hE he
    hoff hW
  refine ⟨r, hr, fun hc => ?_, fun hn => ?_⟩
  · have := (C63_intersect ps r).1 hc _ hm
    rw [hi] at this
    cases this
  · obtain ⟨b, hb, hbt⟩ := C63_doIntersect ps r hn
    rw [hb, hbt.2 ⟨_, hm, ?_⟩]
    change (place.mapRayInv r).bind (fun q => some (s.doIntersect q)) = some true
    have hi' : (place.mapRayInv r).bind (fun q => some (s.intersect q)) = some (some res) := hi
    cases hq : place.mapRayInv r with
    | none => rw [hq] at hi'; cases hi'
    | some q =>
      rw [hq] at hi'
      have hi'' : s.intersect q = some res := Option.some.inj hi'
      change some (s.doIntersect q) = _
      rw [C58_sphere, hi'']
      rfl

/-- C130: the camera looks at its target: with `look_at` as the view transform the target is shown by the middle of the film,
and by no other film point, at its distance from the position. -/
theorem C130_target (pos target : Point ℝ 3) (up : Vec ℝ 3) (h : LookAtOk pos target up) (hf : 0 < f) (h2 : 2 * f < o)
    (h0 : 0 < fov) (h1 : fov < π) (ha : 0 < ar) (p : Point ℝ 2) (t : ℝ) :
    Shows (.new (.lookAt pos target up) o fov f lr ar) p target t ↔
      p = new2 (1 / 2) (1 / 2) ∧ t = √(∑ i, (target.vec i - pos.vec i) ^ 2) := by
  have hd := (ne_zero_of_cross (lookAtOk_iff.1 h)).2
  have hdist : Real.sqrt (∑ i, (target.vec i - pos.vec i) ^ 2) = (pos - target : Vec ℝ 3).norm := by
    rw [norm_real, squareNorm_real]
    congr 1
    refine Finset.sum_congr rfl fun i _ => ?_
    change _ = (pos.vec i - target.vec i) * (pos.vec i - target.vec i)
    ring
  have hpos : 0 < √(∑ i, (target.vec i - pos.vec i) ^ 2) := by rw [hdist]; exact norm_pos hd
  rw [C130_pixel _ o fov f lr ar (.lookAt pos target up h) (lookAt_rigid h).affine hf h2 h0 h1 ha target _
    (C38_target pos target up h)]
  generalize √(∑ i, (target.vec i - pos.vec i) ^ 2) = D at *
  unfold filmOf dist0
  rw [x_new3, y_new3, z_new3, show (0 : ℝ) ^ 2 + 0 ^ 2 + (-D) ^ 2 = D ^ 2 by ring, Real.sqrt_sq hpos.le]
  simp [hpos]
end

/-! ### Non-vacuity -/

theorem translate_point (u : Vec ℝ 3) (p : Point ℝ 3) :
    (Transform.translate u : Transform ℝ).mapPoint p = some (new3 (p.x + u.x) (p.y + u.y) (p.z + u.z)) ∧
    (Transform.translate u : Transform ℝ).mapPointInv p = some (new3 (p.x - u.x) (p.y - u.y) (p.z - u.z)) := by
  constructor
  · refine (mapPt_affine (m := (Transform.translate u : Transform ℝ).m) ⟨rfl, rfl, rfl, rfl⟩ p).trans (congrArg some ?_)
    refine ext3 ?_ ?_ ?_
    · change ∑ j : Fin 3, (Transform.translate u : Transform ℝ).m.lin 0 j * p.vec j + u.x = p.x + u.x
      rw [Fin.sum_univ_three]
      change (1 : ℝ) * p.x + 0 * p.y + 0 * p.z + u.x = _; ring
    · change ∑ j : Fin 3, (Transform.translate u : Transform ℝ).m.lin 1 j * p.vec j + u.y = p.y + u.y
      rw [Fin.sum_univ_three]
      change (0 : ℝ) * p.x + 1 * p.y + 0 * p.z + u.y = _; ring
    · change ∑ j : Fin 3, (Transform.translate u : Transform ℝ).m.lin 2 j * p.vec j + u.z = p.z + u.z
      rw [Fin.sum_univ_three]
      change (0 : ℝ) * p.x + 0 * p.y + 1 * p.z + u.z = _; ring
  · refine (mapPt_affine (m := (Transform.translate u : Transform ℝ).minv) ⟨rfl, rfl, rfl, rfl⟩ p).trans (congrArg some ?_)
    refine ext3 ?_ ?_ ?_
    · change ∑ j : Fin 3, (Transform.translate u : Transform ℝ).minv.lin 0 j * p.vec j + -u.x = p.x - u.x
      rw [Fin.sum_univ_three]
      change (1 : ℝ) * p.x + 0 * p.y + 0 * p.z + -u.x = _; ring
    · change ∑ j : Fin 3, (Transform.translate u : Transform ℝ).minv.lin 1 j * p.vec j + -u.y = p.y - u.y
      rw [Fin.sum_univ_three]
      change (0 : ℝ) * p.x + 1 * p.y + 0 * p.z + -u.y = _; ring
    · change ∑ j : Fin 3, (Transform.translate u : Transform ℝ).minv.lin 2 j * p.vec j + -u.z = p.z - u.z
      rw [Fin.sum_univ_three]
      change (0 : ℝ) * p.x + 0 * p.y + 1 * p.z + -u.z = _; ring

private theorem maxR_fin : (Flt.maxFin 23 8 false).isFin = true ∧ (F32.lit 6).isFin = true ∧
    (F32.lit 6).key ≤ (Flt.maxFin 23 8 false).key := by decide +kernel

private theorem six_le_maxR : (6 : ℝ) ≤ maxR := by
  have e : (F32.lit 6).toReal = 6 := by rw [toReal_lit (by norm_num)]; norm_num
  rw [← e]
  exact (Flt.toReal_le_iff).2 maxR_fin.2.2

/-- Non-vacuity of the hypotheses of C130: a camera one unit above the origin that looks along `-z` (the view transform moves
the scene down by one) and the unit sphere with centre `(0, 1, -5)`; the near pole `(0, 1, -4)` is rendered, the far pole
`(0, 1, -6)` is hidden behind it. -/
example : let view : Transform ℝ := .translate (new3 0 (-1) 0)
    let place : Transform ℝ := .translate (new3 0 1 (-5))
    view.Reachable ∧ view.m.Affine ∧ place.Reachable ∧ place.m.Affine ∧
    view.mapPoint (new3 0 1 (-4)) = some (new3 0 0 (-4)) ∧ view.mapPoint (new3 0 1 (-6)) = some (new3 0 0 (-6)) ∧
    dist0 (new3 0 0 (-4)) ≤ maxR ∧ dist0 (new3 0 0 (-6)) ≤ maxR ∧
    view.mapPoint (new3 0 1 0) = some (new3 0 0 0) ∧ place.mapPointInv (new3 0 1 0) = some (new3 0 0 5) ∧
    OnPlaced unitS place (new3 0 1 (-4)) ∧ OnPlaced unitS place (new3 0 1 (-6)) ∧
    (∀ l, 0 < l → l < 1 → ¬ OnPlaced unitS place (between (new3 0 1 0) (new3 0 1 (-4)) l)) ∧
    OnPlaced unitS place (between (new3 0 1 0) (new3 0 1 (-6)) (2 / 3)) := by
  intro view place
  have hd : ∀ d : ℝ, 0 ≤ d → dist0 (new3 0 0 (-d)) = d := by
    intro d h
    unfold dist0
    rw [x_new3, y_new3, z_new3, show (0 : ℝ) ^ 2 + 0 ^ 2 + (-d) ^ 2 = d ^ 2 by ring, Real.sqrt_sq h]
  have hpl : ∀ a : ℝ, OnPlaced unitS place (new3 0 1 a) ↔ (a + 5) ^ 2 = 1 := by
    intro a
    have e := (translate_point (new3 0 1 (-5)) (new3 0 1 a)).2
    simp only [x_new3, y_new3, z_new3, sub_self, sub_neg_eq_add] at e
    have h0 : Complex.arg ⟨0, 0⟩ ≤ π := Complex.arg_le_pi _
    constructor
    · rintro ⟨q, hq, h⟩
      rw [e] at hq
      cases hq
      have := h.1
      simp only [x_new3, y_new3, z_new3] at this
      change (0 : ℝ) ^ 2 + 0 ^ 2 + (a + 5) ^ 2 = 1 ^ 2 at this
      linarith
    · intro h
      refine ⟨_, e, ?_, ?_, ?_, ?_⟩
      · change (0 : ℝ) ^ 2 + 0 ^ 2 + (a + 5) ^ 2 = 1 ^ 2
        linarith
      · change (-1 : ℝ) ≤ a + 5
        nlinarith
      · change a + 5 ≤ (1 : ℝ)
        nlinarith
      · exact Complex.arg_le_pi _
  have hv : ∀ a : ℝ, view.mapPoint (new3 0 1 a) = some (new3 0 0 a) := by
    intro a
    have e := (translate_point (new3 0 (-1) 0) (new3 0 1 a)).1
    simp only [x_new3, y_new3, z_new3, add_zero, add_neg_cancel] at e
    exact e
  have hb : ∀ a l : ℝ, between (new3 0 1 0) (new3 0 1 a) l = new3 0 1 (l * a) := by
    intro a l
    unfold between
    simp only [x_new3, y_new3, z_new3]
    congr 1 <;> ring
  refine ⟨.translate _, ⟨rfl, rfl, rfl, rfl⟩, .translate _, ⟨rfl, rfl, rfl, rfl⟩, hv _, hv _, ?_, ?_, hv 0, ?_, ?_, ?_, ?_, ?_⟩
  · rw [hd 4 (by norm_num)]; linarith [six_le_maxR]
  · rw [hd 6 (by norm_num)]; exact six_le_maxR
  · have e := (translate_point (new3 0 1 (-5)) (new3 0 1 0)).2
    simp only [x_new3, y_new3, z_new3, sub_self, sub_neg_eq_add, zero_add] at e
    exact e
  · rw [hpl]; norm_num
  · rw [hpl]; norm_num
  · intro l h0 h1 h
    rw [hb, hpl] at h
    nlinarith
  · rw [hb, hpl]; norm_num

end Scarlet
