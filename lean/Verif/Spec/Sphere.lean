import Verif.Theory.Mat
import Verif.Model.Sphere
import Mathlib.MeasureTheory.Integral.IntervalIntegral.Basic

/-!
Specification vocabulary for the partial sphere of sphere.rs, in terms of Mathlib: the point set, the documented
parameterization (sphere.rs:13-20, `phi` scaled by `u` and `theta` by `v`) and the surface area as an integral.
-/

namespace Scarlet.Sphere

/-- `p` lies on the part of the sphere of radius `r` about the origin with `z` in `[z_min, z_max]` and azimuth at most
`phi_max`. -/
def OnSurface (s : Sphere ℝ) (p : Point ℝ 3) : Prop :=
  p.x ^ 2 + p.y ^ 2 + p.z ^ 2 = s.radius ^ 2 ∧ s.zMin ≤ p.z ∧ p.z ≤ s.zMax ∧ Complex.arg ⟨p.x, p.y⟩ ≤ s.phiMax

/-- The ray meets the partial sphere at parameter `t`. -/
def HitAt (s : Sphere ℝ) (ray : Ray ℝ) (t : ℝ) : Prop := 0 ≤ t ∧ t ≤ ray.tmax ∧ s.OnSurface (ray.eval t)

/-- The azimuth at parameter `u` and the polar angle at parameter `v`. -/
noncomputable def phiAt (s : Sphere ℝ) (u : ℝ) : ℝ := u * (s.phiMax + Real.pi) - Real.pi
noncomputable def thetaAt (s : Sphere ℝ) (v : ℝ) : ℝ := v * (s.thetaMax - s.thetaMin) + s.thetaMin

/-- The documented parameterization. -/
noncomputable def param (s : Sphere ℝ) (u v : ℝ) : Fin 3 → ℝ :=
  ![s.radius * Real.sin (s.thetaAt v) * Real.cos (s.phiAt u),
    s.radius * Real.sin (s.thetaAt v) * Real.sin (s.phiAt u),
    s.radius * Real.cos (s.thetaAt v)]

/-- Surface area of the part of the sphere of radius `r` with `z` in `[z_min, z_max]` and azimuth in `[-π, phi_max]`:
the integral of the area element `r² sin θ` over the polar angles between those of `z_max` and `z_min` and the azimuths. -/
noncomputable def trueArea (s : Sphere ℝ) : ℝ :=
  ∫ _ in (-Real.pi)..s.phiMax,
    ∫ θ in Real.arccos (s.zMax / s.radius)..Real.arccos (s.zMin / s.radius), s.radius ^ 2 * Real.sin θ

end Scarlet.Sphere
