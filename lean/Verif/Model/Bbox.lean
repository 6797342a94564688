import Verif.Model.Transform

/-!
Model of `/repo/src/geometry/bbox.rs` and of the data types of `/repo/src/geometry/primitive.rs`.

The Rust code is for the concrete type `Float = f32`.  The model is generic in the scalar type `T` so that it can be
instantiated with every float format and with `ℝ`; wherever the Rust text calls a method that `f32` also has as an
inherent method (`min`, `max`, `abs`), Rust picks the inherent one and the model uses the class `Inherent`.
Methods called through generic code (`GenericVector::min`) are the trait ones (`Scalar.min`).
-/

namespace Scarlet

/-- `struct Bbox3` (bbox.rs:13-17) -/
@[ext] structure Bbox (T : Type) where
  pmin : Point T 3
  pmax : Point T 3

/-- `struct SurfaceInteraction` (primitive.rs:12-19) -/
structure SurfaceInteraction (T : Type) where
  p : Point T 3
  n : Normal T 3
  uv : Point T 2
  dpdu : Vec T 3
  dpdv : Vec T 3

/-- `SurfaceInteraction::new` (primitive.rs:50-60) -/
def SurfaceInteraction.new {T : Type} [Add T] [Sub T] [Mul T] [Div T] [Scalar T] [GFloat T]
    (p : Point T 3) (uv : Point T 2) (dpdu dpdv : Vec T 3) : SurfaceInteraction T :=
  { p := p, n := GVec.conv .normal (dpdu.cross dpdv).normalize, uv := uv, dpdu := dpdu, dpdv := dpdv }

/-- `struct IntersectionResult` (primitive.rs:21-25) -/
structure IntersectionResult (T : Type) where
  surfaceInteraction : SurfaceInteraction T
  tRay : T

namespace Bbox
variable {T : Type}

/-- `Bounded3` accessors for `Bbox3`, whose `bbox()` is itself (primitive.rs:27-48, bbox.rs:113-117) -/
def xmin (b : Bbox T) : T := b.pmin.x
def ymin (b : Bbox T) : T := b.pmin.y
def zmin (b : Bbox T) : T := b.pmin.z
def xmax (b : Bbox T) : T := b.pmax.x
def ymax (b : Bbox T) : T := b.pmax.y
def zmax (b : Bbox T) : T := b.pmax.z

/-- `Default` (bbox.rs:19-28) -/
def default [Scalar T] : Bbox T :=
  ⟨GVec.new3 Scalar.highest Scalar.highest Scalar.highest, GVec.new3 Scalar.lowest Scalar.lowest Scalar.lowest⟩

section
variable [Inherent T]
/-- bbox.rs:31-36 -/
def new (p1 p2 : Point T 3) : Bbox T :=
  ⟨GVec.new3 (Inherent.min p1.x p2.x) (Inherent.min p1.y p2.y) (Inherent.min p1.z p2.z),
   GVec.new3 (Inherent.max p1.x p2.x) (Inherent.max p1.y p2.y) (Inherent.max p1.z p2.z)⟩
/-- bbox.rs:38-51; also `Add` (119-125) and `AddAssign` (127-131) -/
def union (a b : Bbox T) : Bbox T :=
  ⟨GVec.new3 (Inherent.min a.xmin b.xmin) (Inherent.min a.ymin b.ymin) (Inherent.min a.zmin b.zmin),
   GVec.new3 (Inherent.max a.xmax b.xmax) (Inherent.max a.ymax b.ymax) (Inherent.max a.zmax b.zmax)⟩
/-- bbox.rs:53-66 -/
def intersect (a b : Bbox T) : Bbox T :=
  ⟨GVec.new3 (Inherent.max a.xmin b.xmin) (Inherent.max a.ymin b.ymin) (Inherent.max a.zmin b.zmin),
   GVec.new3 (Inherent.min a.xmax b.xmax) (Inherent.min a.ymax b.ymax) (Inherent.min a.zmax b.zmax)⟩

/-- bbox.rs:119-125 -/
instance : Add (Bbox T) := ⟨union⟩
end

section
variable [Scalar T]
/-- bbox.rs:68-75 -/
def overlaps (a b : Bbox T) : Bool :=
  Scalar.gt a.xmax b.xmin && Scalar.gt b.xmax a.xmin &&
  Scalar.gt a.ymax b.ymin && Scalar.gt b.ymax a.ymin &&
  Scalar.gt a.zmax b.zmin && Scalar.gt b.zmax a.zmin
/-- bbox.rs:77-84 -/
def inside (b : Bbox T) (p : Point T 3) : Bool :=
  Scalar.ge p.x b.xmin && Scalar.le p.x b.xmax &&
  Scalar.ge p.y b.ymin && Scalar.le p.y b.ymax &&
  Scalar.ge p.z b.zmin && Scalar.le p.z b.zmax
end

/-- bbox.rs:86-88 -/
def diagonal [Sub T] (b : Bbox T) : Vec T 3 := b.pmax - b.pmin
/-- bbox.rs:90-92 -/
def center [Add T] [Mul T] [GFloat T] (b : Bbox T) : Point T 3 := (b.pmax + b.pmin) * (GFloat.half : T)

/-- bbox.rs:94-110 -/
def maxExtent [Sub T] [Scalar T] (b : Bbox T) : (T × T) × Nat :=
  let xExtent := b.pmax.x - b.pmin.x
  let yExtent := b.pmax.y - b.pmin.y
  let zExtent := b.pmax.z - b.pmin.z
  if Scalar.gt xExtent yExtent then
    if Scalar.gt xExtent zExtent then ((b.pmin.x, b.pmax.x), 0)
    else ((b.pmin.z, b.pmax.z), 2)
  else if Scalar.gt yExtent zExtent then ((b.pmin.y, b.pmax.y), 1)
  else ((b.pmin.z, b.pmax.z), 2)

/-- bbox.rs:134-152 -/
def intersectRay [Sub T] [Div T] [Scalar T] [Inherent T] (b : Bbox T) (ray : Ray T) : Option (T × T) :=
  let tmin := (b.pmin - ray.origin) / ray.direction
  let tmax := (b.pmax - ray.origin) / ray.direction
  let t1 := tmin.min tmax
  let t2 := tmin.max tmax
  let tnear := Inherent.max (Inherent.max t1.x t1.y) t1.z
  let tfar := Inherent.min (Inherent.min t2.x t2.y) t2.z
  if Scalar.gt tnear ray.tmax || Scalar.lt tfar Scalar.zero || Scalar.gt tnear tfar then none
  else some (Inherent.max tnear Scalar.zero, Inherent.min tfar ray.tmax)

section
variable [Add T] [Sub T] [Mul T] [Div T] [Neg T] [Scalar T] [Inherent T]

/-- bbox.rs:156-158 -/
def doIntersect (b : Bbox T) (ray : Ray T) : Bool := (intersectRay b ray).isSome

/-- bbox.rs:166-173 -/
def faceDistances (b : Bbox T) (p : Point T 3) : Fin 6 → T :=
  ![Inherent.abs (p.x - b.xmin), Inherent.abs (p.x - b.xmax), Inherent.abs (p.y - b.ymin),
    Inherent.abs (p.y - b.ymax), Inherent.abs (p.z - b.zmin), Inherent.abs (p.z - b.zmax)]

/-- bbox.rs:175-180 -/
def minDistanceIdx (d : Fin 6 → T) : Fin 6 :=
  [1, 2, 3, 4, 5].foldl (fun best i => if Scalar.lt (d i) (d best) then i else best) 0

/-- bbox.rs:213-263; the last arm (`panic!()`) is unreachable and has no counterpart -/
def faceInteraction (b : Bbox T) (p : Point T 3) (i : Fin 6) : SurfaceInteraction T :=
  let uv := GVec.new2 Scalar.zero Scalar.zero
  let o : T := Scalar.one
  let z : T := Scalar.zero
  match i with
  | 0 => { p := GVec.new3 b.xmin p.y p.z, n := GVec.new3 (-o) z z, uv, dpdu := GVec.new3 z z (-o), dpdv := GVec.new3 z o z }
  | 1 => { p := GVec.new3 b.xmax p.y p.z, n := GVec.new3 o z z, uv, dpdu := GVec.new3 z z o, dpdv := GVec.new3 z o z }
  | 2 => { p := GVec.new3 p.x b.ymin p.z, n := GVec.new3 z (-o) z, uv, dpdu := GVec.new3 o z z, dpdv := GVec.new3 z z (-o) }
  | 3 => { p := GVec.new3 p.x b.ymax p.z, n := GVec.new3 z o z, uv, dpdu := GVec.new3 o z z, dpdv := GVec.new3 z z o }
  | 4 => { p := GVec.new3 p.x p.y b.zmin, n := GVec.new3 z z (-o), uv, dpdu := GVec.new3 o z z, dpdv := GVec.new3 z o z }
  | 5 => { p := GVec.new3 p.x p.y b.zmax, n := GVec.new3 z z o, uv, dpdu := GVec.new3 (-o) z z, dpdv := GVec.new3 z o z }

/-- bbox.rs:160-270 -/
def hit (b : Bbox T) (ray : Ray T) : Option (IntersectionResult T) :=
  (intersectRay b ray).map fun (tRay, _) =>
    let p := ray.eval tRay
    { surfaceInteraction := faceInteraction b p (minDistanceIdx (faceDistances b p)), tRay := tRay }

end

/-- One iteration of the loop body of `map_bbox` (bbox.rs:297-306).  The accumulators are indexed by `j`. -/
def mapBboxStep [Add T] [Mul T] [Scalar T] (m : Mat4 T) (bmin bmax : Fin 3 → T)
    (acc : (Fin 4 → T) × (Fin 4 → T)) (ij : Fin 3 × Fin 3) : (Fin 4 → T) × (Fin 4 → T) :=
  let i := ij.1.castSucc
  let j := ij.2.castSucc
  let a := m.data i j * bmin ij.2
  let b := m.data i j * bmax ij.2
  if Scalar.lt a b then (Function.update acc.1 j (acc.1 j + a), Function.update acc.2 j (acc.2 j + b))
  else (Function.update acc.1 j (acc.1 j + b), Function.update acc.2 j (acc.2 j + a))

/-- `map_bbox` (bbox.rs:285-314): for each `i`, for each `j` -/
def mapBbox [Add T] [Mul T] [Scalar T] [Inherent T] (m : Mat4 T) (b : Bbox T) : Bbox T :=
  let init := m.col 3
  let r := [(0, 0), (0, 1), (0, 2), (1, 0), (1, 1), (1, 2), (2, 0), (2, 1), (2, 2)].foldl
    (mapBboxStep m ![b.pmin.x, b.pmin.y, b.pmin.z] ![b.pmax.x, b.pmax.y, b.pmax.z]) (init, init)
  new (GVec.new3 (r.1 0) (r.1 1) (r.1 2)) (GVec.new3 (r.2 0) (r.2 1) (r.2 2))

end Bbox

/-- `TransformMap<Bbox3>::map` (bbox.rs:276-278) -/
def Transform.mapBox {T : Type} [Add T] [Mul T] [Scalar T] [Inherent T] (t : Transform T) (b : Bbox T) : Bbox T :=
  Bbox.mapBbox t.matrix b
/-- `TransformMap<Bbox3>::map_inverse` (bbox.rs:280-282) -/
def Transform.mapBoxInv {T : Type} [Add T] [Mul T] [Scalar T] [Inherent T] (t : Transform T) (b : Bbox T) : Bbox T :=
  Bbox.mapBbox t.inverseMatrix b

end Scarlet
