import Verif.Model.Transform

/-!
Model of `/repo/src/cameras/camera.rs` and `/repo/src/cameras/thin_lens.rs`, generic in the scalar type
(Rust: `Float = f32`).  `abs` is the inherent `f32::abs`.
-/

namespace Scarlet
variable {T : Type} [Add T] [Sub T] [Mul T] [Div T] [Neg T] [Scalar T] [GFloat T] [GTrig T] [Inherent T]

/-- `struct CameraSample` (camera.rs:9-14, 20-24) -/
structure CameraSample (T : Type) where
  pFilm : Point T 2
  pLens : Point T 2

/-- camera.rs:70-75; `Float::from_f64(2.0)` -/
def uniformSampleDisk (p : Point T 2) : Point T 2 :=
  let r := GFloat.sqrt p.y
  let theta := GFloat.fromF64 (F64.lit 2) * GFloat.pi * p.x
  let (s, c) := GTrig.sinCos theta
  GVec.new2 (r * c) (r * s)

/-- camera.rs:101-116; `Float::from_f32(2.0)` -/
def concentricSampleDisk (p : Point T 2) : Point T 2 :=
  let x := Scalar.one - GFloat.fromF32 (F32.lit 2) * p.x
  let y := Scalar.one - GFloat.fromF32 (F32.lit 2) * p.y
  if Scalar.isZero x && Scalar.isZero y then GVec.new2 Scalar.zero Scalar.zero
  else
    let (r, theta) :=
      if Scalar.gt (Inherent.abs x) (Inherent.abs y) then (x, GFloat.fracPi4 * y / x)
      else (y, GFloat.fracPi2 - x / y * GFloat.fracPi4)
    GVec.new2 (r * GTrig.cos theta) (r * GTrig.sin theta)

/-- `struct ThinLensCamera` (thin_lens.rs:32-45) -/
structure ThinLensCamera (T : Type) where
  view : Transform T
  focalDistance : T
  lensRadius : T
  filmDistance : T
  filmWidth : T
  filmHeight : T

namespace ThinLensCamera

/-- thin_lens.rs:48-70 -/
def new (view : Transform T) (focalDistance fov focalLength lensRadius aspectRatio : T) : ThinLensCamera T :=
  let filmDistance := focalDistance * focalLength / (focalDistance - focalLength)
  let filmWidth := GFloat.half * GTrig.tan (fov * GFloat.half) * filmDistance
  let filmHeight := filmWidth / aspectRatio
  { view, focalDistance, lensRadius, filmDistance, filmWidth, filmHeight }

/-- The camera-space ray of `generate_ray` (thin_lens.rs:74-106), before `self.view.map_inverse` -/
def cameraRay (cam : ThinLensCamera T) (sample : CameraSample T) : Ray T :=
  let pLensXY := concentricSampleDisk sample.pLens * cam.lensRadius
  let pLens : Point T 3 := GVec.new3 pLensXY.x pLensXY.y Scalar.zero
  let pFilm : Point T 3 := GVec.new3
    (GFloat.half * cam.filmWidth - sample.pFilm.x * cam.filmWidth)
    (GFloat.half * cam.filmHeight - sample.pFilm.y * cam.filmHeight)
    cam.filmDistance
  let filmToLens : Ray T :=
    ⟨pFilm, (GVec.new3 Scalar.zero Scalar.zero Scalar.zero : Point T 3) - pFilm, Scalar.zero⟩
  let t := -cam.focalDistance / filmToLens.direction.z
  let pAtFocalPlane := filmToLens.eval t
  ⟨pLens, (pAtFocalPlane - pLens).normalize, Scalar.highest⟩

/-- `generate_ray` (thin_lens.rs:73-107); `none` if `map_inverse` panics -/
def generateRay (cam : ThinLensCamera T) (sample : CameraSample T) : Option (Ray T) :=
  cam.view.mapRayInv (cam.cameraRay sample)

end ThinLensCamera
end Scarlet
