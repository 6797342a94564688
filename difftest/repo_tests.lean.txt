/-
The repository's unit tests, run on the model.  Run with
  cd lean && cp ../difftest/repo_tests.lean.txt /tmp/repo_tests.lean && lake env lean --run /tmp/repo_tests.lean
Deterministic tests are as in the repository.  Randomised ones use Lean's generator instead of the `rand` crate's, so
other inputs than the repository's fixed seeds, and other numbers of rounds; the field of view in `cameras` is at least
0.001 where the repository's range starts at 0.  libm is the C library's through Lean's `Float`/`Float32`.  These are tests of the model, not proofs; nothing rests on them.
-/
import Verif.Model.Primitive
import Verif.Model.Eq
open Scarlet Interval

def h64 (x : F64) : Float := Float.ofBits (UInt64.ofNat x.bits.toNat)
def s64 (x : Float) : F64 := ⟨BitVec.ofNat _ x.toBits.toNat⟩
def h32 (x : F32) : Float32 := Float32.ofBits (UInt32.ofNat x.bits.toNat)
def s32 (x : Float32) : F32 := ⟨BitVec.ofNat _ x.toBits.toNat⟩
instance : Libm 52 11 where
  sin x := s64 (h64 x).sin
  cos x := s64 (h64 x).cos
  tan x := s64 (h64 x).tan
  asin x := s64 (h64 x).asin
  acos x := s64 (h64 x).acos
  atan x := s64 (h64 x).atan
  atan2 y x := s64 (Float.atan2 (h64 y) (h64 x))
instance : Libm 23 8 where
  sin x := s32 (h32 x).sin
  cos x := s32 (h32 x).cos
  tan x := s32 (h32 x).tan
  asin x := s32 (h32 x).asin
  acos x := s32 (h32 x).acos
  atan x := s32 (h32 x).atan
  atan2 y x := s32 (Float32.atan2 (h32 y) (h32 x))

def l (x : Float) : F64 := s64 x
def v3 (x y z : F64) : Vec F64 3 := GVec.new3 x y z
def p3 (x y z : F64) : Point F64 3 := GVec.new3 x y z
def aeq {T : Type} [AlmostEqual T T] (a b : T) : Bool := AlmostEqual.almostEq a b

def unif (lo hi : Float) : IO Float := do
  let n ← IO.rand 0 (2 ^ 53)
  return lo + (hi - lo) * (n.toFloat / (2 ^ 53 : Nat).toFloat)
def unif32 (lo hi : Float) : IO F32 := return s32 (← unif lo hi).toFloat32

def check (name : String) (b : Bool) : IO Unit := do if !b then throw (IO.userError s!"FAILED {name}")
def get {α : Type} (o : Option α) : IO α := match o with
  | some a => return a
  | none => throw (IO.userError "panic")

def intervals : IO Unit := do
  -- spiral_test (interval.rs:448-470)
  let mut x : Interval F64 := from1 (l 1); let mut y : Interval F64 := from1 (l 0); let mut i := 0
  while i < 500 do
    i := i + 1
    let r := Interval.sqrt (from1 (GFloat.fromI64 i : F64))
    let x' := x - y / r
    let y' := y + x / r
    x := x'; y := y'
    if contains x (l 0) || contains y (l 0) then break
  check s!"spiral {i}" (i == 365)
  -- square_root_test (472-495)
  let mut a : Interval F64 := new (l 0.5) (l 1.5); i := 0
  while i < 500 do
    i := i + 1
    let b := Interval.sqrt a
    if isSame b a then break
    a := b
  a := a - from1 (l 1)
  check s!"square_root {i}" (i == 54)
  let bound := Float.ofScientific 3 false 0 / ((2:Float) ^ (52:Float))
  check "square_root bounds" (Scalar.lt a.sup (l bound) && Scalar.gt a.inf (l (-bound)))
  -- division_test (497-522)
  let mut d : Interval F64 := new (l (-1)) (l 1) / l (-2) + from1 (l 1)
  let mut e := -d
  check "division by zero" (isSame (new GFloat.negInfinity GFloat.infinity) (from1 (l 1) / from1 (l 0)))
  i := 0
  while i < 100 do
    i := i + 1
    let b := (from1 (l 1) / d + d) / l 4 + from1 (l 0.5)
    let a' := (from1 (l (-1)) / e - e * l 1) / l (-4) - from1 (l 0.5)
    if isSame b d && isSame a' e then break
    d := b; e := a'
  check s!"division {i}" (i == 54)

/-- interval_as_gfloat.rs:248-322, on `m` random intervals with `n` samples each (10000 and 2000 in the repository):
containment, strictness unless the bound is ±1, and `almost_eq` with the sampled range -/
def sinCos (m n : Nat) : IO (Nat × Nat) := do
  let mut strictBad := 0
  let mut closeBad := 0
  for _ in [0:m] do
    let inf := l (← unif (-1e10) 1e10)
    let sup := inf + l (← unif 0 3.141592653589793)
    let iv : Interval F64 := new inf sup
    let (s, c) := GTrig.sinCos iv
    let mut smin : F64 := GFloat.infinity; let mut smax : F64 := GFloat.negInfinity
    let mut cmin : F64 := GFloat.infinity; let mut cmax : F64 := GFloat.negInfinity
    for j in [0:n+1] do
      let t := Scalar.min (inf + (sup - inf) * l j.toFloat / l n.toFloat) sup
      let (st, ct) := GTrig.sinCos t
      check s!"sin {h64 inf} {h64 sup}" (contains s st)
      check s!"cos {h64 inf} {h64 sup}" (contains c ct)
      smin := Scalar.min smin st; smax := Scalar.max smax st
      cmin := Scalar.min cmin ct; cmax := Scalar.max cmax ct
    let lo (i : Interval F64) (e : F64) := if !Scalar.eq i.inf (l (-1)) then Scalar.lt i.inf e else Scalar.le i.inf e
    let hi (i : Interval F64) (e : F64) := if !Scalar.eq i.sup (l 1) then Scalar.gt i.sup e else Scalar.ge i.sup e
    if !(lo s smin && hi s smax && lo c cmin && hi c cmax) then
      strictBad := strictBad + 1
      IO.println s!"  strict {h64 inf} {h64 sup} sin [{h64 s.inf}, {h64 s.sup}] vs [{h64 smin}, {h64 smax}] cos [{h64 c.inf}, {h64 c.sup}] vs [{h64 cmin}, {h64 cmax}]"
    if !(aeq s (new smin smax) && aeq c (new cmin cmax)) then
      closeBad := closeBad + 1
  return (strictBad, closeBad)

/-- interval_as_gfloat.rs:325-347 -/
def atan2 : IO Unit := do
  for _ in [0:10000] do
    let y ← unif (-1000) 1000; let x ← unif (-1000) 1000
    let r : Interval F64 := GTrig.atan2 (from1 (l y)) (from1 (l x))
    check s!"atan2 {y} {x}" (almostEqS r (l (Float.atan2 y x)))

def vectors : IO Unit := do
  -- vector.rs:510-567
  check "point_diff" (GVec.eq (p3 (l 4) (l 5) (l 6) - p3 (l 1) (l 2) (l 3)) (v3 (l 3) (l 3) (l 3)))
  let a := v3 (l 1) (l 0) (l 0); let b := v3 (l 0) (l 1) (l 0); let c := v3 (l 0) (l 0) (l 1)
  check "cross" (GVec.eq (a.cross b) c && GVec.eq (b.cross c) a && GVec.eq (c.cross a) b
    && GVec.eq (b.cross a) (-c) && GVec.eq (c.cross b) (-a) && GVec.eq (a.cross c) (-b))
  let eq (x : F64) (y : Float) := Scalar.eq x (l y)
  check "dot" (eq (a.dot b) 0 && eq (b.dot c) 0 && eq (c.dot a) 0 && eq (a.dot a) 1 && eq (b.dot b) 1 && eq (c.dot c) 1)
  let p := v3 (l 1) (l 2) (l 3); let q := v3 (l 4) (l 5) (l 6); let r := v3 (l 7) (l 8) (l 9)
  check "dot2" (eq (p.dot q) 32 && eq (q.dot r) 122)
  for w in [v3 (l 1.3) (l 2.4) (l 3.6), v3 (l 4.6) (l 3.2) (l 9.98), v3 (l 0.1) (l 0.8) (l 0.03)] do
    check "normalize" (GFloat.fequals w.normalize.norm (l 1))

def mat {T : Type} (f : Nat → Nat → T) : Mat4 T := ⟨fun i j => f i j⟩
def mats : IO Unit := do
  -- transform.rs:582-637
  let m := mat fun i j => l (Float.ofScientific (10 * (i + 1) + (j + 1)) true 1)
  let mt := mat fun i j => l (Float.ofScientific (10 * (j + 1) + (i + 1)) true 1)
  check "transpose" (Mat4.eq m.transpose mt && Mat4.eq m.transpose.transpose m)
  let n := mat fun i j => l (4 * i + j + 1).toFloat
  check "mul_scalar" (Mat4.eq (n * l 2) (mat fun i j => l (2 * (4 * i + j + 1)).toFloat))
  let tab (t : List (List Int)) : Mat4 Int32 := mat fun i j => Int32.ofInt ((t[i]!)[j]!)
  let a := tab [[7, 14, 15, 6], [4, 8, 12, 3], [14, 21, 6, 9], [13, 7, 6, 4]]
  let b := tab [[5, 7, 14, 2], [8, 16, 4, 9], [13, 6, 8, 4], [6, 3, 2, 4]]
  let ab := tab [[378, 381, 286, 224], [258, 237, 190, 140], [370, 497, 346, 277], [223, 251, 266, 129]]
  check "mul" (Mat4.eq (a * b) ab)

def rotations : IO Unit := do
  -- transform.rs:639-669
  let x := v3 (l 1) (l 0) (l 0); let y := v3 (l 0) (l 1) (l 0); let z := v3 (l 0) (l 0) (l 1)
  let angle : F64 := GFloat.fracPi2
  let tx := Transform.rotateX angle; let ty := Transform.rotateY angle; let tz := Transform.rotateZ angle
  check "rotate axis eq" (Transform.eq tx (Transform.rotate x angle) && Transform.eq ty (Transform.rotate y angle)
    && Transform.eq tz (Transform.rotate z angle))
  let m (t : Transform F64) (v : Vec F64 3) := get (t.mapVec v)
  check "rotate axis" (GVec.almostEq (← m tx y) z && GVec.almostEq (← m tx z) (-y) && GVec.almostEq (← m ty x) (-z)
    && GVec.almostEq (← m ty z) x && GVec.almostEq (← m tz x) y && GVec.almostEq (← m tz y) (-x))
  for _ in [0:200] do
    -- transform.rs:671-786
    let angle := l (← unif (-3.141592653589793) 3.141592653589793)
    let rv : IO (Vec F64 3) := return v3 (l (← unif (-100) 100)) (l (← unif (-100) 100)) (l (← unif (-100) 100))
    let vec ← rv
    for (t, ax, k) in [(Transform.rotateX angle, x, (0 : Fin 3)), (Transform.rotateY angle, y, 1), (Transform.rotateZ angle, z, 2)] do
      check "rotate_xyz eq" (Transform.almostEq t (Transform.rotate ax angle))
      let r ← m t vec
      check "rotate_xyz comp" (Scalar.eq (r.vec k) (vec.vec k))
      let pr (v : Vec F64 3) : Vec F64 3 := ⟨fun i => if i = k then l 0 else v.vec i⟩
      let c := (pr vec).normalize.dot (pr r).normalize
      let s := ((pr vec).normalize.cross (pr r).normalize).dot ax
      check "rotate_xyz angle" (aeq (GTrig.atan2 s c) angle)
    -- transform.rs:788-842
    let ax := (← rv).normalize
    let t := Transform.rotate ax angle
    let r ← m t vec
    check "rotate_general dot" (aeq (vec.dot ax) (r.dot ax))
    let rem (v : Vec F64 3) : Vec F64 3 := v - ax * v.dot ax
    let c := (rem vec).normalize.dot (rem r).normalize
    let s := ((rem vec).normalize.cross (rem r).normalize).dot ax
    check "rotate_general angle" (aeq (GTrig.atan2 s c) angle)

def cameras : IO Unit := do
  let g : IO F64 := return l (← unif 0 1)
  for _ in [0:200] do
    -- transform.rs:869-909
    let eye := p3 (← g) (← g) (← g); let target := p3 (← g) (← g) (← g); let up := v3 (← g) (← g) (← g)
    let t := Transform.lookAt eye target up
    check "look_at eye" (GVec.almostEq (← get (t.mapPoint eye)) (p3 (l 0) (l 0) (l 0)))
    check "look_at dir" (GVec.almostEq (← get (t.mapVec (target - eye).normalize)) (v3 (l 0) (l 0) (l (-1))))
    let u ← get (t.mapVecInv (v3 (l 0) (l 1) (l 0)))
    let n := (eye - target).normalize
    check "look_at up" (GVec.almostEq u (up - n * up.dot n).normalize)
    -- transform.rs:912-953
    let fov := l (← unif 0.001 1.5707963267948966)
    let (near, far) := Scalar.minMax (l (← unif 0 100)) (l (← unif 0 100))
    let t := Transform.perspective fov near far
    let k := GTrig.tan (fov / l 2)
    for (d, z) in [(near, l 0), (far, l 1)] do
      for sx in [l 1, l (-1)] do for sy in [l 1, l (-1)] do
        let q ← get (t.mapPoint (p3 (sx * d * k) (sy * d * k) (-d)))
        check "perspective" (GVec.almostEq q (p3 sx sy z))

/-- bbox.rs:329-458 -/
def boxes : IO Nat := do
  let mut bad := 0
  for _ in [0:300] do
    let c := unif32 (-100) 100
    let b : Bbox F32 := Bbox.new (GVec.new3 (← c) (← c) (← c)) (GVec.new3 (← c) (← c) (← c))
    let corner (i : Nat) : Point F32 3 := GVec.new3 (if i % 2 == 0 then b.xmin else b.xmax)
      (if i / 2 % 2 == 0 then b.ymin else b.ymax) (if i / 4 == 0 then b.zmin else b.zmax)
    let faces := [(0, 1, 2), (4, 5, 6), (0, 1, 4), (2, 3, 6), (0, 2, 4), (1, 3, 5)]
    let i ← IO.rand 0 5; let j ← IO.rand 1 5
    let pick (f : Nat × Nat × Nat) : IO (Point F32 3) := do
      let t0 ← unif32 0 1; let t1 ← unif32 0 1
      return corner f.1 + (corner f.2.1 - corner f.1) * t0 + (corner f.2.2 - corner f.1) * t1
    let p0 ← pick (faces[i]!); let p1 ← pick (faces[(i + j) % 6]!)
    let dir := p1 - p0
    let t ← unif32 0 1
    let one : F32 := Scalar.one; let zero : F32 := Scalar.zero
    let two : F32 := Scalar.two
    let test (r : Ray F32) (lo hi : F32) : Bool := match b.intersectRay r with
      | some (x, y) => aeq x lo && aeq y hi
      | none => false
    let ok := test ⟨p0 - dir * t, dir, one + two * t⟩ t (one + t)
      && test ⟨p0 - dir * t, dir, one⟩ t one
      && test ⟨p0 + dir * t, dir, one⟩ zero (one - t)
      && test ⟨p0 + dir * t, p1 - (p0 + dir * t), one⟩ zero one
      && (b.intersectRay ⟨p1 + dir * s32 0.01, dir, one⟩).isNone
      && (b.intersectRay ⟨p0 - dir * s32 1.01, dir, one⟩).isNone
    if !ok then
      bad := bad + 1
      let f (x : F32) := (h32 x).toFloat
      let g (r : Ray F32) := (b.intersectRay r).map fun (x, y) => (f x, f y)
      IO.println s!"  box {f b.xmin} {f b.xmax} {f b.ymin} {f b.ymax} {f b.zmin} {f b.zmax} p0=({f p0.x},{f p0.y},{f p0.z}) p1=({f p1.x},{f p1.y},{f p1.z}) t={f t}"
      IO.println s!"    {g ⟨p0 - dir * t, dir, one + two * t⟩} want {f t},{1+f t}; {g ⟨p0 - dir * t, dir, one⟩}; {g ⟨p0 + dir * t, dir, one⟩}; {g ⟨p0 + dir * t, p1 - (p0 + dir * t), one⟩}; {g ⟨p1 + dir * s32 0.01, dir, one⟩}; {g ⟨p0 - dir * s32 1.01, dir, one⟩}"
  return bad

/-- sphere.rs:205-306, on `n` random spheres -/
def spheres (n : Nat) (verbose : Bool) : IO Nat := do
  let mut bad := 0
  let pi := 3.141592653589793
  for _ in [0:n] do
    let radius ← unif32 0 100
    let (zMin, zMax) := Scalar.minMax (← unif32 0 (h32 radius).toFloat) (← unif32 0 (h32 radius).toFloat)
    let phiMax ← unif32 (-pi) pi
    let some s := Sphere.new radius zMin zMax phiMax | throw (IO.userError "sphere")
    let pt : IO (Point F32 3 × Bool) := do
      let th ← unif32 0 pi; let ph ← unif32 (-pi) pi
      let p : Point F32 3 := GVec.new3 (radius * GTrig.sin th * GTrig.cos ph) (radius * GTrig.sin th * GTrig.sin ph) (radius * GTrig.cos th)
      return (p, Scalar.ge p.z zMin && Scalar.le p.z zMax && Scalar.le ph phiMax)
    let (p0, on0) ← pt; let (p1, on1) ← pt
    let dir := p1 - p0
    let one : F32 := Scalar.one; let two : F32 := Scalar.two
    let test (r : Ray F32) (e : Option F32) : Bool := match s.intersect r, e with
      | some h, some t => aeq h.tRay t
      | none, none => true
      | _, _ => false
    let t0 ← unif32 0 1; let t1 ← unif32 0 1; let t2 ← unif32 0 1; let t3 ← unif32 0 1
    let oks := [test ⟨p0 - dir * t0, dir, one⟩ (if on0 then some t0 else none),
      test ⟨p0 - dir * t1, dir, one + two * t1⟩ (if on0 then some t1 else if on1 then some (one + t1) else none),
      test ⟨p0 + dir * t2, dir, one⟩ (if on1 then some (one - t2) else none),
      test ⟨p0 + dir * t3, dir, one - t3 - s32 0.1⟩ none]
    if !oks.all id then
      bad := bad + 1
      if verbose then
        let f (x : F32) := (h32 x).toFloat
        let rel := f dir.norm / f radius
        IO.println s!"  sphere r={f radius} z=[{f zMin},{f zMax}] phiMax={f phiMax} z0={f p0.z} z1={f p1.z} on={on0},{on1} checks={oks} |dir|/r={rel}"
        IO.println s!"    got {((s.intersect ⟨p0 - dir * t0, dir, one⟩).map fun h => f h.tRay)} want {f t0}; {((s.intersect ⟨p0 - dir * t1, dir, one + two * t1⟩).map fun h => f h.tRay)} want {f t1} or {1+f t1}; {((s.intersect ⟨p0 + dir * t2, dir, one⟩).map fun h => f h.tRay)} want {1-f t2}; {((s.intersect ⟨p0 + dir * t3, dir, one - t3 - s32 0.1⟩).map fun h => f h.tRay)} want none"
  return bad

/-- transform.rs:844-867, on `n` random angles: how often the products are exactly the identity -/
def invertible (n : Nat) : IO Nat := do
  let mut good := 0
  for _ in [0:n] do
    let a := l (← unif 0 1)
    let ok (f : F64 → Transform F64) := Transform.eq (f a * f (-a)) Transform.identity && Transform.eq (f (-a) * f a) Transform.identity
    if ok Transform.rotateX && ok Transform.rotateY && ok Transform.rotateZ then good := good + 1
  return good

def main : IO Unit := do
  intervals; IO.println "interval.rs: ok"
  let (a, b) ← sinCos 30 2000
  IO.println s!"sin_cos: containment ok; of 30, strictness differs in {a}, almost_eq in {b}"
  atan2; IO.println "atan2: ok"
  vectors; IO.println "vector.rs: ok"
  mats; IO.println "matrices: ok"
  rotations; IO.println "rotations: ok"
  IO.println s!"rotate_invertible: exactly the identity for {← invertible 300} of 300 angles"
  cameras; IO.println "look_at, perspective: ok"
  IO.println s!"boxes: {← boxes} of 300 differ"
  IO.println s!"spheres: {← spheres 2500 true} of 2500 differ"
