import Verif.Model.Bbox

/-!
Model of `/repo/src/geometry/sphere.rs`, generic in the scalar type (Rust: `Float = f32`).  `Float::clamp` is the
inherent `f32::clamp`; `in_range`, `is_nonnegative`, `min_max`, `square` are trait methods.
-/

namespace Scarlet

/-- `struct Sphere` (sphere.rs:22-30) -/
structure Sphere (T : Type) where
  radius : T
  zMin : T
  zMax : T
  thetaMin : T
  thetaMax : T
  phiMax : T

/-- `struct SphereIntersectionParams` (sphere.rs:32-37) -/
structure SphereHit (T : Type) where
  tRay : T
  p : Point T 3
  phi : T

variable {T : Type}

/-- `solve_quadratic` (sphere.rs:171-191) -/
def solveQuadratic [Add T] [Sub T] [Mul T] [Div T] [Neg T] [Scalar T] [GFloat T] (a b c : T) : Option (T × T) :=
  let d := Scalar.square b - a * c * GFloat.fromI64 4
  if Scalar.isNonnegative d then
    let sqrtD := GFloat.sqrt d
    if Scalar.isNonnegative b then
      some (Scalar.minMax (-(b + sqrtD) * GFloat.half / a) (-(c + c) / (b + sqrtD)))
    else
      some (Scalar.minMax ((-b + sqrtD) * GFloat.half / a) ((c + c) / (-b + sqrtD)))
  else none

namespace Sphere

/-- `Bounded3 for Sphere` (sphere.rs:39-46) -/
def bbox [Neg T] [Inherent T] (s : Sphere T) : Bbox T :=
  Bbox.new (GVec.new3 (-s.radius) (-s.radius) s.zMin) (GVec.new3 s.radius s.radius s.zMax)

/-- `Sphere::new` (sphere.rs:49-63); `none` if the assertion `z_min < z_max` fails -/
def new [Div T] [Scalar T] [Inherent T] [GTrig T] (radius zMin zMax phiMax : T) : Option (Sphere T) :=
  if Scalar.lt zMin zMax then
    some { radius, zMin, zMax,
           thetaMin := GTrig.acos (Inherent.clamp (zMin / radius) Scalar.zero Scalar.one),
           thetaMax := GTrig.acos (Inherent.clamp (zMax / radius) Scalar.zero Scalar.one),
           phiMax }
  else none

section
variable [Add T] [Sub T] [Mul T] [Div T] [Neg T] [Scalar T] [GFloat T] [GTrig T] [Inherent T]

/-- the closure `get_intersection` (sphere.rs:81-105) -/
def getIntersection (s : Sphere T) (ray : Ray T) (t : T) : Option (SphereHit T) :=
  if !Scalar.inRange t Scalar.zero ray.tmax then none
  else
    let hitPoint := ray.eval t
    if !Scalar.inRange hitPoint.z s.zMin s.zMax then none
    else
      let phi := GTrig.atan2 hitPoint.y hitPoint.x
      if Scalar.gt phi s.phiMax then none
      else some { tRay := t, p := hitPoint, phi := phi }

/-- sphere.rs:68-111 -/
def intersectRay (s : Sphere T) (ray : Ray T) : Option (SphereHit T) :=
  let a := ray.direction.squareNorm
  let b := (GVec.conv .vector ray.origin).dot ray.direction * GFloat.fromI64 2
  let c := (GVec.conv .vector ray.origin).squareNorm - Scalar.square s.radius
  match solveQuadratic a b c with
  | none => none
  | some (t0, t1) =>
    match getIntersection s ray t0 with
    | none => getIntersection s ray t1
    | some i => some i

/-- sphere.rs:112-115 -/
def area (s : Sphere T) : T := s.phiMax * s.radius * (s.zMax - s.zMin)

/-- sphere.rs:119-121 -/
def doIntersect (s : Sphere T) (ray : Ray T) : Bool := (s.intersectRay ray).isSome

/-- sphere.rs:125-166: the surface interaction computed from the parameters of a hit -/
def interaction (s : Sphere T) (h : SphereHit T) : IntersectionResult T :=
  let tRay := h.tRay
  let p := h.p
  let phi := h.phi
  let theta := GTrig.acos (Inherent.clamp (p.z / s.radius) Scalar.zero Scalar.one)
  let sinTheta := GTrig.sin theta
  let (sinPhi, cosPhi) := GTrig.sinCos phi
  let phiMaxPlusPi := s.phiMax + GFloat.pi
  let thetaMaxMinusThetaMin := s.thetaMax - s.thetaMin
  let u := (phi + GFloat.pi) / phiMaxPlusPi
  let v := (theta - s.thetaMin) / thetaMaxMinusThetaMin
  let dpdu : Vec T 3 := GVec.new3 (-p.y) p.x Scalar.zero * phiMaxPlusPi
  let dpdv : Vec T 3 := GVec.new3 (p.z * cosPhi) (p.z * sinPhi) (-s.radius * sinTheta) * thetaMaxMinusThetaMin
  { surfaceInteraction := SurfaceInteraction.new p (GVec.new2 u v) dpdu dpdv, tRay := tRay }

/-- sphere.rs:122-167 -/
def intersect (s : Sphere T) (ray : Ray T) : Option (IntersectionResult T) := (s.intersectRay ray).map s.interaction

end
end Sphere
end Scarlet
