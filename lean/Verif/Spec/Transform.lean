import Verif.Model.Transform
import Verif.Theory.Mat
import Mathlib.Data.Matrix.Mul

/-!
Specification vocabulary for transforms, in terms of Mathlib's matrices acting on homogeneous coordinates.
-/

namespace Scarlet
open Matrix

/-- Homogeneous coordinates of a point. -/
def homP (p : Point ℝ 3) : Fin 4 → ℝ := ![p.x, p.y, p.z, 1]
/-- Homogeneous coordinates of a vector. -/
def homV (v : Vec ℝ 3) : Fin 4 → ℝ := ![v.x, v.y, v.z, 0]

namespace Mat4

/-- The bottom row is `0 0 0 1`. -/
def Affine (m : Mat4 ℝ) : Prop := m.data 3 0 = 0 ∧ m.data 3 1 = 0 ∧ m.data 3 2 = 0 ∧ m.data 3 3 = 1

/-- The upper left 3x3 part. -/
def lin (m : Mat4 ℝ) : Matrix (Fin 3) (Fin 3) ℝ := of fun i j => m.data i.castSucc j.castSucc

/-- The translation part. -/
def trans (m : Mat4 ℝ) : Fin 3 → ℝ := fun i => m.data i.castSucc 3

end Mat4

/-- The transform carries its own inverse. -/
def Transform.Carries (t : Transform ℝ) : Prop :=
  t.m.toMatrix * t.minv.toMatrix = 1 ∧ t.minv.toMatrix * t.m.toMatrix = 1

/-- Non-degenerate arguments of `look_at`: the view direction and `up` are not parallel (in particular nonzero). -/
def LookAtOk (pos target : Point ℝ 3) (up : Vec ℝ 3) : Prop :=
  crossProduct up.vec (fun i => pos.vec i - target.vec i) ≠ 0

/-- The transforms a program can build from the public constructors and operations. -/
inductive Transform.Reachable : Transform ℝ → Prop
  | identity : Reachable Transform.identity
  | translate (v : Vec ℝ 3) : Reachable (.translate v)
  | scale (v : Vec ℝ 3) (h : ∀ i, v.vec i ≠ 0) : Reachable (.scale v)
  | rotateX (a : ℝ) : Reachable (.rotateX a)
  | rotateY (a : ℝ) : Reachable (.rotateY a)
  | rotateZ (a : ℝ) : Reachable (.rotateZ a)
  | rotate (v : Vec ℝ 3) (a : ℝ) (h : ∃ i, v.vec i ≠ 0) : Reachable (.rotate v a)
  | lookAt (pos target : Point ℝ 3) (up : Vec ℝ 3) (h : LookAtOk pos target up) : Reachable (.lookAt pos target up)
  | perspective (fov near far : ℝ) (h1 : 0 < fov) (h2 : fov < Real.pi) (h3 : 0 < near) (h4 : near < far) :
      Reachable (.perspective fov near far)
  | mul (a b : Transform ℝ) (ha : Reachable a) (hb : Reachable b) : Reachable (a * b)
  | inverse (a : Transform ℝ) (ha : Reachable a) : Reachable a.inverse

end Scarlet
