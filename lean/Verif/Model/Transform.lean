import Verif.Model.Vector

/-!
Model of `/repo/src/math/transform.rs`, `/repo/src/math/transform_inverse_impl.rs` and `/repo/src/geometry/ray.rs`.

* `[[T; 4]; 4]` is `Fin 4 → Fin 4 → T`.
* `assert!`/`assert_eq!` panics are `none` in `Option`.
* The trait `TransformMap<X>` has one pair of functions per implementation: `mapVec`/`mapVecInv`,
  `mapPoint`/`mapPointInv`, `mapNormal`/`mapNormalInv`, `mapRay`/`mapRayInv` (`mapBbox` in `Bbox.lean`).
-/

namespace Scarlet

/-- `struct Matrix4x4<T>` (transform.rs:10-13) -/
@[ext] structure Mat4 (T : Type) where
  data : Fin 4 → Fin 4 → T

namespace Mat4
variable {T : Type}

/-- matrix literal -/
def mk4 (a b c d e f g h i j k l m n o p : T) : Mat4 T :=
  ⟨![![a, b, c, d], ![e, f, g, h], ![i, j, k, l], ![m, n, o, p]]⟩

section
variable [Scalar T]
local notation "𝟘" => (Scalar.zero : T)
local notation "𝟙" => (Scalar.one : T)

/-- transform.rs:26-35 (also `Default` 15-19 and `new` 22-24) -/
def identity : Mat4 T :=
  mk4 𝟙 𝟘 𝟘 𝟘
      𝟘 𝟙 𝟘 𝟘
      𝟘 𝟘 𝟙 𝟘
      𝟘 𝟘 𝟘 𝟙
/-- transform.rs:37-46 -/
def zero : Mat4 T :=
  mk4 𝟘 𝟘 𝟘 𝟘
      𝟘 𝟘 𝟘 𝟘
      𝟘 𝟘 𝟘 𝟘
      𝟘 𝟘 𝟘 𝟘
end

/-- transform.rs:48-58 -/
def transpose (a : Mat4 T) : Mat4 T :=
  let d := a.data
  mk4 (d 0 0) (d 1 0) (d 2 0) (d 3 0)
      (d 0 1) (d 1 1) (d 2 1) (d 3 1)
      (d 0 2) (d 1 2) (d 2 2) (d 3 2)
      (d 0 3) (d 1 3) (d 2 3) (d 3 3)

/-- transform.rs:60-62; also `Index<usize>` (119-125) -/
def row (a : Mat4 T) (r : Fin 4) : Fin 4 → T := a.data r
/-- transform.rs:64-71 -/
def col (a : Mat4 T) (c : Fin 4) : Fin 4 → T := ![a.data 0 c, a.data 1 c, a.data 2 c, a.data 3 c]
/-- transform.rs:72-79 -/
def rowVec (a : Mat4 T) (r : Fin 4) : Vec T 4 := GVec.new4 (a.data r 0) (a.data r 1) (a.data r 2) (a.data r 3)
/-- transform.rs:81-88 -/
def colVec (a : Mat4 T) (c : Fin 4) : Vec T 4 := GVec.new4 (a.data 0 c) (a.data 1 c) (a.data 2 c) (a.data 3 c)
/-- `Index<(usize, usize)>` (transform.rs:110-117) -/
def idx (a : Mat4 T) (i j : Fin 4) : T := a.data i j

/-- `AlmostEqual` (transform.rs:91-102) -/
def almostEq [AlmostEqual T T] (a b : Mat4 T) : Bool :=
  (List.finRange 4).all fun i => (List.finRange 4).all fun j => AlmostEqual.almostEq (a.data i j) (b.data i j)

/-- `PartialEq` (derived, transform.rs:10) -/
def eq [Scalar T] (a b : Mat4 T) : Bool :=
  (List.finRange 4).all fun i => (List.finRange 4).all fun j => Scalar.eq (a.data i j) (b.data i j)

/-- transform.rs:139-152 -/
instance [Mul T] : HMul (Mat4 T) T (Mat4 T) where
  hMul a r :=
    let d := a.data
    mk4 (r * d 0 0) (r * d 0 1) (r * d 0 2) (r * d 0 3)
        (r * d 1 0) (r * d 1 1) (r * d 1 2) (r * d 1 3)
        (r * d 2 0) (r * d 2 1) (r * d 2 2) (r * d 2 3)
        (r * d 3 0) (r * d 3 1) (r * d 3 2) (r * d 3 3)

/-- transform.rs:154-167 (the three nested loops start from the zero matrix and accumulate over `k`) -/
instance [Add T] [Mul T] [Scalar T] : Mul (Mat4 T) where
  mul a b := ⟨fun i j => sumLoop 4 fun k => a.data i k * b.data k j⟩

/-- `inverse_impl` (transform_inverse_impl.rs:3-91), called by `Invertible for Matrix4x4` (transform.rs:458-462) -/
def inverse [Add T] [Sub T] [Mul T] [Div T] [Neg T] [Scalar T] (a : Mat4 T) : Mat4 T :=
  let data := a.data
  let d00 := data 1 1 * (data 2 2 * data 3 3 - data 2 3 * data 3 2)
        - data 1 2 * (data 2 1 * data 3 3 - data 2 3 * data 3 1)
        + data 1 3 * (data 2 1 * data 3 2 - data 2 2 * data 3 1)
  let d01 := data 1 0 * (data 2 2 * data 3 3 - data 2 3 * data 3 2)
        - data 1 2 * (data 2 0 * data 3 3 - data 2 3 * data 3 0)
        + data 1 3 * (data 2 0 * data 3 2 - data 2 2 * data 3 0)
  let d02 := data 1 0 * (data 2 1 * data 3 3 - data 2 3 * data 3 1)
        - data 1 1 * (data 2 0 * data 3 3 - data 2 3 * data 3 0)
        + data 1 3 * (data 2 0 * data 3 1 - data 2 1 * data 3 0)
  let d03 := data 1 0 * (data 2 1 * data 3 2 - data 2 2 * data 3 1)
        - data 1 1 * (data 2 0 * data 3 2 - data 2 2 * data 3 0)
        + data 1 2 * (data 2 0 * data 3 1 - data 2 1 * data 3 0)
  let d10 := data 0 1 * (data 2 2 * data 3 3 - data 2 3 * data 3 2)
        - data 0 2 * (data 2 1 * data 3 3 - data 2 3 * data 3 1)
        + data 0 3 * (data 2 1 * data 3 2 - data 2 2 * data 3 1)
  let d11 := data 0 0 * (data 2 2 * data 3 3 - data 2 3 * data 3 2)
        - data 0 2 * (data 2 0 * data 3 3 - data 2 3 * data 3 0)
        + data 0 3 * (data 2 0 * data 3 2 - data 2 2 * data 3 0)
  let d12 := data 0 0 * (data 2 1 * data 3 3 - data 2 3 * data 3 1)
        - data 0 1 * (data 2 0 * data 3 3 - data 2 3 * data 3 0)
        + data 0 3 * (data 2 0 * data 3 1 - data 2 1 * data 3 0)
  let d13 := data 0 0 * (data 2 1 * data 3 2 - data 2 2 * data 3 1)
        - data 0 1 * (data 2 0 * data 3 2 - data 2 2 * data 3 0)
        + data 0 2 * (data 2 0 * data 3 1 - data 2 1 * data 3 0)
  let d20 := data 0 1 * (data 1 2 * data 3 3 - data 1 3 * data 3 2)
        - data 0 2 * (data 1 1 * data 3 3 - data 1 3 * data 3 1)
        + data 0 3 * (data 1 1 * data 3 2 - data 1 2 * data 3 1)
  let d21 := data 0 0 * (data 1 2 * data 3 3 - data 1 3 * data 3 2)
        - data 0 2 * (data 1 0 * data 3 3 - data 1 3 * data 3 0)
        + data 0 3 * (data 1 0 * data 3 2 - data 1 2 * data 3 0)
  let d22 := data 0 0 * (data 1 1 * data 3 3 - data 1 3 * data 3 1)
        - data 0 1 * (data 1 0 * data 3 3 - data 1 3 * data 3 0)
        + data 0 3 * (data 1 0 * data 3 1 - data 1 1 * data 3 0)
  let d23 := data 0 0 * (data 1 1 * data 3 2 - data 1 2 * data 3 1)
        - data 0 1 * (data 1 0 * data 3 2 - data 1 2 * data 3 0)
        + data 0 2 * (data 1 0 * data 3 1 - data 1 1 * data 3 0)
  let d30 := data 0 1 * (data 1 2 * data 2 3 - data 1 3 * data 2 2)
        - data 0 2 * (data 1 1 * data 2 3 - data 1 3 * data 2 1)
        + data 0 3 * (data 1 1 * data 2 2 - data 1 2 * data 2 1)
  let d31 := data 0 0 * (data 1 2 * data 2 3 - data 1 3 * data 2 2)
        - data 0 2 * (data 1 0 * data 2 3 - data 1 3 * data 2 0)
        + data 0 3 * (data 1 0 * data 2 2 - data 1 2 * data 2 0)
  let d32 := data 0 0 * (data 1 1 * data 2 3 - data 1 3 * data 2 1)
        - data 0 1 * (data 1 0 * data 2 3 - data 1 3 * data 2 0)
        + data 0 3 * (data 1 0 * data 2 1 - data 1 1 * data 2 0)
  let d33 := data 0 0 * (data 1 1 * data 2 2 - data 1 2 * data 2 1)
        - data 0 1 * (data 1 0 * data 2 2 - data 1 2 * data 2 0)
        + data 0 2 * (data 1 0 * data 2 1 - data 1 1 * data 2 0)
  let det := data 0 0 * d00 - data 0 1 * d01 + data 0 2 * d02 - data 0 3 * d03
  let detInv := Scalar.one / det
  mk4 (d00 * detInv) (-d10 * detInv) (d20 * detInv) (-d30 * detInv)
      (-d01 * detInv) (d11 * detInv) (-d21 * detInv) (d31 * detInv)
      (d02 * detInv) (-d12 * detInv) (d22 * detInv) (-d32 * detInv)
      (-d03 * detInv) (d13 * detInv) (-d23 * detInv) (d33 * detInv)

end Mat4

section maps
variable {T U : Type}

/-- `map_vector` (transform.rs:499-513) -/
def mapVector [HMul U T U] [Add U] [Scalar U] (m : Mat4 T) (v : Vec U 3) : Option (Vec U 3) :=
  if Scalar.eq (v.x * m.idx 3 0 + v.y * m.idx 3 1 + v.z * m.idx 3 2) Scalar.zero then
    some (GVec.new3
      (v.x * m.idx 0 0 + v.y * m.idx 0 1 + v.z * m.idx 0 2)
      (v.x * m.idx 1 0 + v.y * m.idx 1 1 + v.z * m.idx 1 2)
      (v.x * m.idx 2 0 + v.y * m.idx 2 1 + v.z * m.idx 2 2))
  else none

/-- `map_point` (transform.rs:531-543).  `w != U::zero()` is the negation of `==`. -/
def mapPt [HMul U T U] [HAdd U T U] [Add U] [Div U] [Scalar U] (m : Mat4 T) (p : Point U 3) : Option (Point U 3) :=
  let w := p.x * m.idx 3 0 + p.y * m.idx 3 1 + p.z * m.idx 3 2 + m.idx 3 3
  if Scalar.eq w Scalar.zero then none
  else some (GVec.new3
    ((p.x * m.idx 0 0 + p.y * m.idx 0 1 + p.z * m.idx 0 2 + m.idx 0 3) / w)
    ((p.x * m.idx 1 0 + p.y * m.idx 1 1 + p.z * m.idx 1 2 + m.idx 1 3) / w)
    ((p.x * m.idx 2 0 + p.y * m.idx 2 1 + p.z * m.idx 2 2 + m.idx 2 3) / w))

/-- `map_normal` (transform.rs:561-572) -/
def mapNrm [HMul U T U] [Add U] [Mul U] (minv : Mat4 T) (n : Normal U 3) : Normal U 3 :=
  GVec.new3
    (n.x * minv.idx 0 0 + n.y * minv.idx 1 0 + n.z * minv.idx 2 0 * n.z)
    (n.x * minv.idx 0 1 + n.y * minv.idx 1 1 + n.z * minv.idx 2 1 * n.z)
    (n.x * minv.idx 0 2 + n.y * minv.idx 1 2 + n.z * minv.idx 2 2 * n.z)

end maps

/-- `struct Transform<T>` (transform.rs:169-173) -/
@[ext] structure Transform (T : Type) where
  m : Mat4 T
  minv : Mat4 T

/-- `struct Ray<T>` (ray.rs:11-16) -/
@[ext] structure Ray (T : Type) where
  origin : Point T 3
  direction : Vec T 3
  tmax : T

/-- `Ray::eval` (ray.rs:28-31) -/
def Ray.eval {T : Type} [Add T] [Mul T] (r : Ray T) (t : T) : Point T 3 := r.origin + r.direction * t

namespace Transform
variable {T : Type}

section
variable [Scalar T]
local notation "𝟘" => (Scalar.zero : T)
local notation "𝟙" => (Scalar.one : T)

/-- transform.rs:180-185 -/
def identity : Transform T := ⟨Mat4.identity, Mat4.identity⟩

/-- transform.rs:187-211 -/
def initFromOrthogonalBasis [Add T] [Mul T] [Neg T] (pos : Point T 3) (x y z : Vec T 3) : Transform T :=
  ⟨Mat4.mk4 x.x x.y x.z (-x.dot pos)
            y.x y.y y.z (-y.dot pos)
            z.x z.y z.z (-z.dot pos)
            𝟘 𝟘 𝟘 𝟙,
   Mat4.mk4 x.x y.x z.x pos.x
            x.y y.y z.y pos.y
            x.z y.z z.z pos.z
            𝟘 𝟘 𝟘 𝟙⟩

/-- transform.rs:213-232 -/
def translate [Neg T] (v : Vec T 3) : Transform T :=
  ⟨Mat4.mk4 𝟙 𝟘 𝟘 v.x
            𝟘 𝟙 𝟘 v.y
            𝟘 𝟘 𝟙 v.z
            𝟘 𝟘 𝟘 𝟙,
   Mat4.mk4 𝟙 𝟘 𝟘 (-v.x)
            𝟘 𝟙 𝟘 (-v.y)
            𝟘 𝟘 𝟙 (-v.z)
            𝟘 𝟘 𝟘 𝟙⟩

/-- transform.rs:234-253 -/
def scale [Div T] (v : Vec T 3) : Transform T :=
  ⟨Mat4.mk4 v.x 𝟘 𝟘 𝟘
            𝟘 v.y 𝟘 𝟘
            𝟘 𝟘 v.z 𝟘
            𝟘 𝟘 𝟘 𝟙,
   Mat4.mk4 (𝟙 / v.x) 𝟘 𝟘 𝟘
            𝟘 (𝟙 / v.y) 𝟘 𝟘
            𝟘 𝟘 (𝟙 / v.z) 𝟘
            𝟘 𝟘 𝟘 𝟙⟩

/-- transform.rs:257-277 -/
def rotateX [Neg T] [GTrig T] (angle : T) : Transform T :=
  let (s, c) := GTrig.sinCos angle
  ⟨Mat4.mk4 𝟙 𝟘 𝟘 𝟘
            𝟘 c (-s) 𝟘
            𝟘 s c 𝟘
            𝟘 𝟘 𝟘 𝟙,
   Mat4.mk4 𝟙 𝟘 𝟘 𝟘
            𝟘 c s 𝟘
            𝟘 (-s) c 𝟘
            𝟘 𝟘 𝟘 𝟙⟩

/-- transform.rs:281-301 -/
def rotateY [Neg T] [GTrig T] (angle : T) : Transform T :=
  let (s, c) := GTrig.sinCos angle
  ⟨Mat4.mk4 c 𝟘 s 𝟘
            𝟘 𝟙 𝟘 𝟘
            (-s) 𝟘 c 𝟘
            𝟘 𝟘 𝟘 𝟙,
   Mat4.mk4 c 𝟘 (-s) 𝟘
            𝟘 𝟙 𝟘 𝟘
            s 𝟘 c 𝟘
            𝟘 𝟘 𝟘 𝟙⟩

/-- transform.rs:305-325 -/
def rotateZ [Neg T] [GTrig T] (angle : T) : Transform T :=
  let (s, c) := GTrig.sinCos angle
  ⟨Mat4.mk4 c (-s) 𝟘 𝟘
            s c 𝟘 𝟘
            𝟘 𝟘 𝟙 𝟘
            𝟘 𝟘 𝟘 𝟙,
   Mat4.mk4 c s 𝟘 𝟘
            (-s) c 𝟘 𝟘
            𝟘 𝟘 𝟙 𝟘
            𝟘 𝟘 𝟘 𝟙⟩

/-- transform.rs:329-356 -/
def rotate [Add T] [Sub T] [Mul T] [Div T] [GFloat T] [GTrig T] (vec : Vec T 3) (angle : T) : Transform T :=
  let u := vec.normalize
  let x : Vec T 3 := GVec.new3 𝟙 𝟘 𝟘
  let y : Vec T 3 := GVec.new3 𝟘 𝟙 𝟘
  let z : Vec T 3 := GVec.new3 𝟘 𝟘 𝟙
  let (s, c) := GTrig.sinCos angle
  let xRotated := x * c + u * (𝟙 - c) * (u.dot x) + u.cross x * s
  let yRotated := y * c + u * (𝟙 - c) * (u.dot y) + u.cross y * s
  let zRotated := z * c + u * (𝟙 - c) * (u.dot z) + u.cross z * s
  let mat := Mat4.mk4
    xRotated.x yRotated.x zRotated.x 𝟘
    xRotated.y yRotated.y zRotated.y 𝟘
    xRotated.z yRotated.z zRotated.z 𝟘
    𝟘 𝟘 𝟘 𝟙
  ⟨mat, mat.transpose⟩

/-- transform.rs:366-375 -/
def lookAt [Add T] [Sub T] [Mul T] [Div T] [Neg T] [GFloat T] (pos target : Point T 3) (up : Vec T 3) : Transform T :=
  let upU := up.normalize
  let zU := (pos - target).normalize
  let xU := (upU.cross zU).normalize
  let yU := zU.cross xU
  initFromOrthogonalBasis pos xU yU zU

/-- transform.rs:397-413 -/
def perspective [Add T] [Sub T] [Mul T] [Div T] [Neg T] [GFloat T] [GTrig T] (fov near far : T) : Transform T :=
  let e := GFloat.recip (GTrig.tan (fov * GFloat.half))
  let mat := Mat4.mk4
    (-e) 𝟘 𝟘 𝟘
    𝟘 (-e) 𝟘 𝟘
    𝟘 𝟘 (far / (far - near)) (far * near / (far - near))
    𝟘 𝟘 𝟙 𝟘
  ⟨mat, mat.inverse⟩

end

/-- transform.rs:415-417 -/
def matrix (t : Transform T) : Mat4 T := t.m
/-- transform.rs:419-421 -/
def inverseMatrix (t : Transform T) : Mat4 T := t.minv
/-- transform.rs:440-444 -/
def almostEq [AlmostEqual T T] (a b : Transform T) : Bool := a.m.almostEq b.m && a.minv.almostEq b.minv
/-- transform.rs:446-452 -/
instance [Add T] [Mul T] [Scalar T] : Mul (Transform T) := ⟨fun a b => ⟨a.m * b.m, b.minv * a.minv⟩⟩
/-- `Invertible for Transform` (transform.rs:464-468) -/
def inverse (t : Transform T) : Transform T := ⟨t.minv, t.m⟩

section map
variable {U : Type}
/-- transform.rs:490-492 -/
def mapVec [HMul U T U] [Add U] [Scalar U] (t : Transform T) (v : Vec U 3) : Option (Vec U 3) := mapVector t.m v
/-- transform.rs:494-496 -/
def mapVecInv [HMul U T U] [Add U] [Scalar U] (t : Transform T) (v : Vec U 3) : Option (Vec U 3) := mapVector t.minv v
/-- transform.rs:552-554 -/
def mapNormal [HMul U T U] [Add U] [Mul U] (t : Transform T) (n : Normal U 3) : Normal U 3 := mapNrm t.minv n
/-- transform.rs:556-558 -/
def mapNormalInv [HMul U T U] [Add U] [Mul U] (t : Transform T) (n : Normal U 3) : Normal U 3 := mapNrm t.m n

variable [HMul U T U] [HAdd U T U] [Add U] [Div U] [Scalar U]
/-- transform.rs:522-524 -/
def mapPoint (t : Transform T) (p : Point U 3) : Option (Point U 3) := mapPt t.m p
/-- transform.rs:526-528 -/
def mapPointInv (t : Transform T) (p : Point U 3) : Option (Point U 3) := mapPt t.minv p
/-- ray.rs:44-47 -/
def mapRay (t : Transform T) (r : Ray U) : Option (Ray U) := do
  let o ← t.mapPoint r.origin
  let d ← t.mapVec r.direction
  return ⟨o, d, r.tmax⟩
/-- ray.rs:49-56 -/
def mapRayInv (t : Transform T) (r : Ray U) : Option (Ray U) := do
  let o ← t.mapPointInv r.origin
  let d ← t.mapVecInv r.direction
  return ⟨o, d, r.tmax⟩
end map

end Transform
end Scarlet
