import Verif.Model.Transform

/-!
The loops and the element access of `/repo/src/math/vector.rs` and `/repo/src/math/transform.rs` as they are written:
arrays with bounds-checked reads and writes by a `usize` index, and `for` loops that update the array in place.  A panic is
`none`.  `Props/Imperative.lean` proves that these never panic where they should not and agree with the definitions of
`Vector.lean` and `Transform.lean`, which are per component.

A `&mut T` returned by `index_mut`, `x_mut`, ... is modelled by what an assignment through it does to the vector.
`usize` is `Nat`.
-/

namespace Scarlet
namespace Imp
variable {T S : Type}

/-- bounds-checked `a[i]` on `[T; N]` -/
def rd {n : Nat} (a : Fin n → T) (i : Nat) : Option T := if h : i < n then some (a ⟨i, h⟩) else none
/-- bounds-checked `a[i] = t` on `[T; N]` -/
def wr {n : Nat} (a : Fin n → T) (i : Nat) (t : T) : Option (Fin n → T) :=
  if _ : i < n then some (fun j => if j.val = i then t else a j) else none

/-- `for i in 0..n { body }` on a mutable state -/
def forRange : (n : Nat) → (Nat → S → Option S) → S → Option S
  | 0, _, s => some s
  | n + 1, body, s => (forRange n body s).bind (body n)

/-- `for i in lo..lo+n { if !test(i) { return false; } } true` -/
def allRange (test : Nat → Option Bool) : (n lo : Nat) → Option Bool
  | 0, _ => some true
  | n + 1, lo => (test lo).bind fun b => if !b then some false else allRange test n (lo + 1)

/-- the loop `for i in 0..N { vec[i] = op(vec[i], rhs.vec[i]); }` -/
def zipLoop {n : Nat} (op : T → T → T) (vec rhs : Fin n → T) : Option (Fin n → T) :=
  forRange n (fun i v => (rd v i).bind fun x => (rd rhs i).bind fun y => wr v i (op x y)) vec
/-- the loop `for i in 0..N { vec[i] = f(vec[i]); }` -/
def mapLoop {n : Nat} (f : T → T) (vec : Fin n → T) : Option (Fin n → T) :=
  forRange n (fun i v => (rd v i).bind fun x => wr v i (f x)) vec

section vectors
variable {n : Nat} {U I : Marker}

/-- `From<[T; N]>` (vector.rs:373-379) -/
def fromArray (vec : Fin n → T) : GVec T n U := ⟨vec⟩

/-- `Index<usize>` (vector.rs:308-315) -/
def index (a : GVec T n U) (idx : Nat) : Option T := rd a.vec idx
/-- `IndexMut<usize>` (vector.rs:317-322): `a[idx] = t` -/
def indexMut (a : GVec T n U) (idx : Nat) (t : T) : Option (GVec T n U) := (wr a.vec idx t).map fromArray
/-- vector.rs:86-90; the `debug_assert!(N > 0)` fails exactly when the access does -/
def x (a : GVec T n U) : Option T := rd a.vec 0
/-- vector.rs:92-96 -/
def y (a : GVec T n U) : Option T := rd a.vec 1
/-- vector.rs:98-102 -/
def z (a : GVec T n U) : Option T := rd a.vec 2
/-- vector.rs:104-108 -/
def w (a : GVec T n U) : Option T := rd a.vec 3
/-- vector.rs:110-114: `*a.x_mut() = t` -/
def xMut (a : GVec T n U) (t : T) : Option (GVec T n U) := (wr a.vec 0 t).map fromArray
/-- vector.rs:116-120 -/
def yMut (a : GVec T n U) (t : T) : Option (GVec T n U) := (wr a.vec 1 t).map fromArray
/-- vector.rs:122-126 -/
def zMut (a : GVec T n U) (t : T) : Option (GVec T n U) := (wr a.vec 2 t).map fromArray
/-- vector.rs:128-132 -/
def wMut (a : GVec T n U) (t : T) : Option (GVec T n U) := (wr a.vec 3 t).map fromArray

/-- vector.rs:134-144 -/
def min [Scalar T] (a b : GVec T n U) : Option (GVec T n U) := (zipLoop Scalar.min a.vec b.vec).map fromArray
/-- vector.rs:146-156 -/
def max [Scalar T] (a b : GVec T n U) : Option (GVec T n U) := (zipLoop Scalar.max a.vec b.vec).map fromArray
/-- vector.rs:202-218 -/
def add [Add T] (a b : GVec T n U) : Option (GVec T n U) := (zipLoop (· + ·) a.vec b.vec).map fromArray
/-- vector.rs:220-236 -/
def mul [Mul T] (a b : GVec T n U) : Option (GVec T n U) := (zipLoop (· * ·) a.vec b.vec).map fromArray
/-- vector.rs:238-254 -/
def div [Div T] (a b : GVec T n U) : Option (GVec T n U) := (zipLoop (· / ·) a.vec b.vec).map fromArray
/-- vector.rs:256-265; the vector after `a += b` -/
def addAssign [Add T] (a b : GVec T n U) : Option (GVec T n U) := (zipLoop (· + ·) a.vec b.vec).map fun v => ⟨v⟩
/-- vector.rs:267-287 -/
def sub [Sub T] (a b : Vec T n) : Option (Vec T n) := (zipLoop (· - ·) a.vec b.vec).map fun v => ⟨v⟩
/-- vector.rs:289-298; the vector after `a -= b` -/
def subAssign [Sub T] (a b : Vec T n) : Option (Vec T n) := (zipLoop (· - ·) a.vec b.vec).map fun v => ⟨v⟩
/-- vector.rs:324-340 -/
def scale [Mul T] (a : GVec T n U) (t : T) : Option (GVec T n U) := (mapLoop (· * t) a.vec).map fromArray
/-- vector.rs:342-358 -/
def divScalar [Div T] (a : GVec T n U) (t : T) : Option (GVec T n U) := (mapLoop (· / t) a.vec).map fromArray
/-- vector.rs:360-371 -/
def dot [Add T] [Mul T] [Scalar T] (a : GVec T n U) (b : GVec T n I) : Option T :=
  forRange n (fun i res => (rd a.vec i).bind fun x => (rd b.vec i).bind fun y => some (res + x * y)) Scalar.zero
/-- vector.rs:443-452 -/
def squareNorm [Add T] [Scalar T] (a : GVec T n U) : Option T :=
  forRange n (fun i res => (rd a.vec i).bind fun x => some (res + Scalar.square x)) Scalar.zero
/-- vector.rs:180-189 -/
def almostEq [AlmostEqual T T] (a b : GVec T n U) : Option Bool :=
  allRange (fun i => (rd a.vec i).bind fun x => (rd b.vec i).bind fun y => some (AlmostEqual.almostEq x y)) n 0
end vectors

section matrices

/-- `From<[[T; 4]; 4]>` (transform.rs:104-108) -/
def matFrom (data : Fin 4 → Fin 4 → T) : Mat4 T := ⟨data⟩
/-- `Index<(usize, usize)>` (transform.rs:110-117) -/
def matIndex (m : Mat4 T) (i j : Nat) : Option T := (rd m.data i).bind fun r => rd r j
/-- `Index<usize>` (transform.rs:119-125), `row` (60-62) -/
def matRow (m : Mat4 T) (i : Nat) : Option (Fin 4 → T) := rd m.data i
/-- `col` (transform.rs:64-71) -/
def matCol (m : Mat4 T) (c : Nat) : Option (Fin 4 → T) :=
  (rd (m.data 0) c).bind fun a => (rd (m.data 1) c).bind fun b => (rd (m.data 2) c).bind fun d => (rd (m.data 3) c).bind fun e =>
    some ![a, b, d, e]
/-- `row_vec` (transform.rs:72-79) -/
def matRowVec (m : Mat4 T) (r : Nat) : Option (Vec T 4) :=
  (rd m.data r).bind fun a => some (GVec.new4 (a 0) (a 1) (a 2) (a 3))
/-- `col_vec` (transform.rs:81-88) -/
def matColVec (m : Mat4 T) (c : Nat) : Option (Vec T 4) :=
  (rd (m.data 0) c).bind fun a => (rd (m.data 1) c).bind fun b => (rd (m.data 2) c).bind fun d => (rd (m.data 3) c).bind fun e =>
    some (GVec.new4 a b d e)
/-- `IndexMut<(usize, usize)>` (transform.rs:127-131): `m[(i, j)] = t` -/
def matIndexMut (m : Mat4 T) (i j : Nat) (t : T) : Option (Mat4 T) :=
  (rd m.data i).bind fun r => (wr r j t).bind fun r' => (wr m.data i r').map matFrom
/-- `IndexMut<usize>` (transform.rs:133-137): `m[i] = r` -/
def matRowMut (m : Mat4 T) (i : Nat) (r : Fin 4 → T) : Option (Mat4 T) := (wr m.data i r).map matFrom

/-- `AlmostEqual` (transform.rs:91-102) -/
def matAlmostEq [AlmostEqual T T] (a b : Mat4 T) : Option Bool :=
  allRange (fun i => allRange (fun j => (matIndex a i j).bind fun x => (matIndex b i j).bind fun y =>
    some (AlmostEqual.almostEq x y)) 4 0) 4 0

/-- `Mul<Matrix4x4>` (transform.rs:154-167): three nested loops over a mutable result -/
def matMul [Add T] [Mul T] [Scalar T] (a b : Mat4 T) : Option (Mat4 T) :=
  forRange 4 (fun i => forRange 4 (fun j => forRange 4 (fun k res =>
    (matIndex a i k).bind fun x => (matIndex b k j).bind fun y => (matIndex res i j).bind fun old =>
      matIndexMut res i j (old + x * y)))) Mat4.zero
end matrices

end Imp
end Scarlet
