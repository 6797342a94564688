import Verif.Model.Sphere

/-!
Model of `/repo/src/geometry/primitive.rs` (traits `Bounded3`, `IntersectsRay`, `Primitive`, the wrappers
`TransformedPrimitive` and `PrimitiveList`).

A `dyn Primitive` is the record of its three methods.  A method that may panic (a transformed primitive asserts in
`map_point`/`map_vector`) returns `Option`, `none` being the panic; so `intersect` has type
`Ray T → Option (Option (IntersectionResult T))`.
-/

namespace Scarlet
variable {T : Type}

/-- `trait Primitive: IntersectsRay + Bounded3` (primitive.rs:27-29, 62-67) as a record of methods; `none` = panic -/
structure Primitive (T : Type) where
  bbox : Bbox T
  doIntersect : Ray T → Option Bool
  intersect : Ray T → Option (Option (IntersectionResult T))

section
variable [Add T] [Sub T] [Mul T] [Div T] [Neg T] [Scalar T] [Inherent T]

/-- `Primitive for Bbox3` (bbox.rs:113-117, 155-271, 316) -/
def Bbox.prim (b : Bbox T) : Primitive T :=
  { bbox := b, doIntersect := fun r => some (b.doIntersect r), intersect := fun r => some (b.hit r) }

/-- `Primitive for Sphere` (sphere.rs:39-46, 118-168, 193) -/
def Sphere.prim [GFloat T] [GTrig T] (s : Sphere T) : Primitive T :=
  { bbox := s.bbox, doIntersect := fun r => some (s.doIntersect r), intersect := fun r => some (s.intersect r) }

/-- `TransformedPrimitive<T>` (primitive.rs:80-120): `object_to_world = otow.map`,
`world_to_object = otow.map_inverse` -/
def Primitive.transformed (prim : Primitive T) (otow : Transform T) : Primitive T where
  bbox := otow.mapBox prim.bbox
  intersect ray := do
    let r ← otow.mapRayInv ray
    prim.intersect r
  doIntersect ray := do
    let r ← otow.mapRayInv ray
    prim.doIntersect r

end

/-- The loop of `PrimitiveList::intersect` (primitive.rs:150-160).  As in the Rust text, `ray_mut.tmax` is updated but
`ray` is what is passed on, so `ray_mut` never matters; it is kept in the state. -/
def PrimitiveList.intersectLoop (ray : Ray T) :
    List (Primitive T) → Option (IntersectionResult T) → Ray T → Option (Option (IntersectionResult T))
  | [], result, _ => some result
  | p :: ps, result, rayMut => do
    match ← p.intersect ray with
    | some ir => intersectLoop ray ps (some ir) { rayMut with tmax := ir.tRay }
    | none => intersectLoop ray ps result rayMut

/-- The loop of `PrimitiveList::do_intersect` (primitive.rs:161-168) -/
def PrimitiveList.doIntersectLoop (ray : Ray T) : List (Primitive T) → Option Bool
  | [] => some false
  | p :: ps => do
    if ← p.doIntersect ray then return true
    doIntersectLoop ray ps

/-- `PrimitiveList` (primitive.rs:122-169, 172) as a primitive; `bbox` (139-147) accumulates with `+=` from the default -/
def PrimitiveList.prim [Scalar T] [Inherent T] (ps : List (Primitive T)) : Primitive T where
  bbox := ps.foldl (fun b p => b + p.bbox) Bbox.default
  intersect ray := intersectLoop ray ps none ray
  doIntersect ray := doIntersectLoop ray ps

end Scarlet
