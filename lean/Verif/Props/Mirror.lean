import Verif.Props.ParallelBox
import Verif.Props.Sphere1
import Verif.Props.FloatVec
import Verif.Props.FloatXform
import Mathlib.Data.Fintype.Perm
import Mathlib.Data.Fintype.Basic

/-! C121: the box and sphere tests on floats do not prefer an axis or a direction: permuting the axes, or mirroring box or sphere and ray,
changes no result (up to the sign of zero), except for rays in the plane of a face of a box. -/

set_option linter.unusedSectionVars false

namespace Scarlet
open Flt GVec

/-! ### the number that a float denotes -/
section number
variable {mw ew : Nat} [FltImpl mw ew] [LawfulFlt mw ew]

/-- Specification: the extended real number that a float denotes; none for NaN. -/
noncomputable def Flt.number (x : Flt mw ew) : Option EReal := if x.isNaN then none else some x.val

/-- the same with the position in the order of the floats instead of the value -/
def Flt.pos (x : Flt mw ew) : Option ℤ := if x.isNaN then none else some x.key

theorem pos_nan {x : Flt mw ew} (h : x.isNaN = true) : x.pos = none := by unfold Flt.pos; rw [h]; rfl
theorem pos_num {x : Flt mw ew} (h : x.isNaN = false) : x.pos = some x.key := by unfold Flt.pos; rw [h]; rfl

theorem number_eq_iff {x y : Flt mw ew} : x.number = y.number ↔ x.pos = y.pos := by
  unfold Flt.number Flt.pos
  cases hx : x.isNaN <;> cases hy : y.isNaN <;> simp [val_eq_iff, hx, hy]

/-- maximum that ignores NaN -/
def omax : Option ℤ → Option ℤ → Option ℤ
  | none, b => b
  | a, none => a
  | some a, some b => some (Max.max a b)
/-- minimum that ignores NaN -/
def omin : Option ℤ → Option ℤ → Option ℤ
  | none, b => b
  | a, none => a
  | some a, some b => some (Min.min a b)
/-- comparison, false for NaN -/
def olt : Option ℤ → Option ℤ → Bool
  | some a, some b => decide (a < b)
  | _, _ => false

instance : Std.Commutative omax := ⟨fun a b => by
  cases a <;> cases b <;> simp [omax, max_comm]⟩
instance : Std.Associative omax := ⟨fun a b c => by
  cases a <;> cases b <;> cases c <;> simp [omax, max_assoc]⟩
instance : Std.Commutative omin := ⟨fun a b => by
  cases a <;> cases b <;> simp [omin, min_comm]⟩
instance : Std.Associative omin := ⟨fun a b c => by
  cases a <;> cases b <;> cases c <;> simp [omin, min_assoc]⟩

theorem pos_imax (x y : Flt mw ew) : (imax x y).pos = omax x.pos y.pos := by
  rcases imax_cases x y with ⟨h, e⟩ | ⟨h, e⟩ | ⟨h1, h2, h3, e⟩ | ⟨h1, h2, h3, e⟩ <;> rw [e]
  · rw [pos_nan h]; rfl
  · rw [pos_nan h]; cases x.pos <;> rfl
  · rw [pos_num h1, pos_num h2]; simp [omax, h3.le]
  · rw [pos_num h1, pos_num h2]; simp [omax, h3]

theorem pos_imin (x y : Flt mw ew) : (imin x y).pos = omin x.pos y.pos := by
  rcases imin_cases x y with ⟨h, e⟩ | ⟨h, e⟩ | ⟨h1, h2, h3, e⟩ | ⟨h1, h2, h3, e⟩ <;> rw [e]
  · rw [pos_nan h]; rfl
  · rw [pos_nan h]; cases x.pos <;> rfl
  · rw [pos_num h1, pos_num h2]; simp [omin, h3.le]
  · rw [pos_num h1, pos_num h2]; simp [omin, h3]

theorem slt_pos (x y : Flt mw ew) : Scalar.lt x y = olt x.pos y.pos := by
  rw [Bool.eq_iff_iff, slt_iff]
  cases hx : x.isNaN <;> cases hy : y.isNaN <;> simp [Flt.pos, olt, hx, hy]

theorem sgt_pos (x y : Flt mw ew) : Scalar.gt x y = olt y.pos x.pos := by
  rw [Bool.eq_iff_iff, sgt_iff]
  cases hx : x.isNaN <;> cases hy : y.isNaN <;> simp [Flt.pos, olt, hx, hy]

theorem pos_neg (x : Flt mw ew) : (-x).pos = x.pos.map (fun k => -k) := by
  unfold Flt.pos
  rw [isNaN_negop, key_negop]
  cases x.isNaN <;> rfl

theorem neg_neg_op (x : Flt mw ew) : - -x = x := Flt.neg_neg x

/-- subtraction of negated operands -/
theorem pos_neg_sub_neg (a b : Flt mw ew) : (-a - -b).pos = (-(a - b)).pos := by
  have e : -a - -b = b - a := by
    rw [Flt.sub_eq_add_neg, Flt.sub_eq_add_neg, neg_neg_op, Flt.add_comm']
  rw [e, pos_neg]
  obtain ⟨h1, h2⟩ := sub_swap a b
  cases h : (a - b).isNaN
  · rw [pos_num h, pos_num (h1 ▸ h), h2 h]; rfl
  · rw [pos_nan h, pos_nan (h1 ▸ h)]; rfl

theorem neg_div_neg (x y : Flt mw ew) : (-x) / (-y) = x / y := by
  rw [div_def, div_def, Flt.neg_def, Flt.neg_def]
  unfold Flt.div
  rw [isNaN_neg, isNaN_neg, isInf_neg, isInf_neg, isZero_neg, isZero_neg, sgn_neg, sgn_neg, idx_neg, idx_neg]
  have : ((!x.sgn) != !y.sgn) = (x.sgn != y.sgn) := by cases x.sgn <;> cases y.sgn <;> rfl
  rw [this]

theorem neg_mul_neg' (x y : Flt mw ew) : (-x) * (-y) = x * y := by
  rw [mul_def, mul_def, Flt.neg_def, Flt.neg_def]
  unfold Flt.mul
  rw [isNaN_neg, isNaN_neg, isInf_neg, isInf_neg, isZero_neg, isZero_neg, sgn_neg, sgn_neg, idx_neg, idx_neg]
  have : ((!x.sgn) != !y.sgn) = (x.sgn != y.sgn) := by cases x.sgn <;> cases y.sgn <;> rfl
  rw [this]

/-- the quotient of a zero -/
theorem pos_zero_div {x y : Flt mw ew} (hx : x.key = 0) : (x / y).pos = if y.isNaN ∨ y.key = 0 then none else some 0 := by
  have hp := kInf_pos (mw := mw) (ew := ew)
  have fx : x.isFin = true := isFin_iff_key.2 ⟨by omega, by omega⟩
  split
  · rename_i h
    rcases h with h | h
    · exact pos_nan (isNaN_div_of_right h)
    · exact pos_nan (div_zero_zero hx h)
  · rename_i h
    push Not at h
    obtain ⟨h1, h2⟩ := h
    rw [ne_eq, Bool.not_eq_true] at h1
    rcases isFin_or_isInf h1 with hf | hi
    · have h := div_fin fx hf h2
      rw [toReal_eq_zero_iff.2 hx, zero_div, rndK_zero] at h
      exact (pos_num h.1).trans (congrArg some h.2)
    · have h := div_by_inf fx hi
      exact (pos_num h.1).trans (congrArg some h.2)

/-- a quotient depends on the number that the numerator denotes only -/
theorem pos_div_congr {x x' y : Flt mw ew} (h : x.pos = x'.pos) : (x / y).pos = (x' / y).pos := by
  cases hx : x.isNaN
  · have hx' : x'.isNaN = false := by
      by_contra hc
      rw [Bool.not_eq_false] at hc
      rw [pos_num hx, pos_nan hc] at h
      cases h
    rw [pos_num hx, pos_num hx', Option.some.injEq] at h
    by_cases h0 : x.key = 0
    · rw [pos_zero_div h0, pos_zero_div (h ▸ h0)]
    · rw [eq_of_key_eq h h0]
  · have hx' : x'.isNaN = true := by
      by_contra hc
      rw [Bool.not_eq_true] at hc
      rw [pos_nan hx, pos_num hc] at h
      cases h
    rw [pos_nan (isNaN_div_of_left hx), pos_nan (isNaN_div_of_left hx')]

/-- the slab quotient of mirrored operands -/
theorem pos_quotient_mirror (a o d : Flt mw ew) : ((-a - -o) / -d).pos = ((a - o) / d).pos := by
  rw [pos_div_congr (pos_neg_sub_neg a o), neg_div_neg]
end number

/-! ### boxes -/
section box
variable {mw ew : Nat} [FltImpl mw ew] [LawfulFlt mw ew]

/-- Specification: the vector mirrored along axis `i`. -/
def mirrorVec {U : Marker} (i : _root_.Fin 3) (v : GVec (Flt mw ew) 3 U) : GVec (Flt mw ew) 3 U :=
  ⟨fun j => if j = i then -(v.vec j) else v.vec j⟩
/-- Specification: the ray mirrored along axis `i`. -/
def mirrorRay (i : _root_.Fin 3) (ray : Ray (Flt mw ew)) : Ray (Flt mw ew) :=
  ⟨mirrorVec i ray.origin, mirrorVec i ray.direction, ray.tmax⟩
/-- Specification: the box mirrored along axis `i`; its lower bound is minus the former upper bound. -/
def mirrorBox (i : _root_.Fin 3) (b : Bbox (Flt mw ew)) : Bbox (Flt mw ew) :=
  ⟨⟨fun j => if j = i then -(b.pmax.vec j) else b.pmin.vec j⟩, ⟨fun j => if j = i then -(b.pmin.vec j) else b.pmax.vec j⟩⟩
/-- Specification: the vector with its axes permuted. -/
def permVec {U : Marker} (σ : Equiv.Perm (_root_.Fin 3)) (v : GVec (Flt mw ew) 3 U) : GVec (Flt mw ew) 3 U := ⟨fun j => v.vec (σ j)⟩
/-- Specification: the ray with its axes permuted. -/
def permRay (σ : Equiv.Perm (_root_.Fin 3)) (ray : Ray (Flt mw ew)) : Ray (Flt mw ew) := ⟨permVec σ ray.origin, permVec σ ray.direction, ray.tmax⟩
/-- Specification: the box with its axes permuted. -/
def permBox (σ : Equiv.Perm (_root_.Fin 3)) (b : Bbox (Flt mw ew)) : Bbox (Flt mw ew) := ⟨permVec σ b.pmin, permVec σ b.pmax⟩

/-- the result of the slab test as a function of the positions of the slab bounds -/
def slabResult (n f : _root_.Fin 3 → Option ℤ) (tm z : Option ℤ) : Option (Option ℤ × Option ℤ) :=
  if olt tm (omax (omax (n 0) (n 1)) (n 2)) || olt (omin (omin (f 0) (f 1)) (f 2)) z ||
    olt (omin (omin (f 0) (f 1)) (f 2)) (omax (omax (n 0) (n 1)) (n 2)) then none
  else some (omax (omax (omax (n 0) (n 1)) (n 2)) z, omin (omin (omin (f 0) (f 1)) (f 2)) tm)

theorem intersectRay_pos (b : Bbox (Flt mw ew)) (ray : Ray (Flt mw ew)) :
    (b.intersectRay ray).map (fun r => (r.1.pos, r.2.pos)) =
      slabResult (fun i => (slab b ray i).1.pos) (fun i => (slab b ray i).2.pos) ray.tmax.pos (Scalar.zero : Flt mw ew).pos := by
  have e : b.intersectRay ray =
      if Scalar.gt (imax (imax (slab b ray 0).1 (slab b ray 1).1) (slab b ray 2).1) ray.tmax ||
        Scalar.lt (imin (imin (slab b ray 0).2 (slab b ray 1).2) (slab b ray 2).2) Scalar.zero ||
        Scalar.gt (imax (imax (slab b ray 0).1 (slab b ray 1).1) (slab b ray 2).1)
          (imin (imin (slab b ray 0).2 (slab b ray 1).2) (slab b ray 2).2) then none
      else some (imax (imax (imax (slab b ray 0).1 (slab b ray 1).1) (slab b ray 2).1) Scalar.zero,
        imin (imin (imin (slab b ray 0).2 (slab b ray 1).2) (slab b ray 2).2) ray.tmax) := rfl
  rw [e]
  unfold slabResult
  simp only [sgt_pos, slt_pos, pos_imax, pos_imin]
  split
  · rfl
  · simp only [Option.map_some, pos_imax, pos_imin]

theorem number_of_pos {a b : Option (Flt mw ew × Flt mw ew)}
    (h : a.map (fun r => (r.1.pos, r.2.pos)) = b.map (fun r => (r.1.pos, r.2.pos))) :
    a.map (fun r => (r.1.number, r.2.number)) = b.map (fun r => (r.1.number, r.2.number)) := by
  cases a <;> cases b <;> simp_all [number_eq_iff]

/-- C121: the slab test does not depend on the order of the axes, for all floats, NaN and infinities included. -/
theorem C121_box_permute (σ : Equiv.Perm (_root_.Fin 3)) (b : Bbox (Flt mw ew)) (ray : Ray (Flt mw ew)) :
    ((permBox σ b).intersectRay (permRay σ ray)).map (fun r => (r.1.number, r.2.number)) =
      (b.intersectRay ray).map (fun r => (r.1.number, r.2.number)) ∧
    (permBox σ b).doIntersect (permRay σ ray) = b.doIntersect ray := by
  have h : ((permBox σ b).intersectRay (permRay σ ray)).map (fun r => (r.1.pos, r.2.pos)) =
      (b.intersectRay ray).map (fun r => (r.1.pos, r.2.pos)) := by
    rw [intersectRay_pos, intersectRay_pos]
    change slabResult (fun i => (slab b ray (σ i)).1.pos) (fun i => (slab b ray (σ i)).2.pos) ray.tmax.pos _ = _
    change slabResult (fun i => (fun i => (slab b ray i).1.pos) (σ i)) (fun i => (fun i => (slab b ray i).2.pos) (σ i)) ray.tmax.pos _ = _
    generalize (fun i => (slab b ray i).1.pos) = n
    generalize (fun i => (slab b ray i).2.pos) = f
    have tri : ∀ σ : Equiv.Perm (_root_.Fin 3), (σ 0, σ 1, σ 2) ∈ [((0 : _root_.Fin 3), (1 : _root_.Fin 3), (2 : _root_.Fin 3)),
        (0, 2, 1), (1, 0, 2), (1, 2, 0), (2, 0, 1), (2, 1, 0)] := by decide
    have hn : omax (omax (n (σ 0)) (n (σ 1))) (n (σ 2)) = omax (omax (n 0) (n 1)) (n 2) := by
      have := tri σ
      simp only [List.mem_cons, Prod.mk.injEq, List.not_mem_nil, or_false] at this
      rcases this with ⟨a, b, c⟩ | ⟨a, b, c⟩ | ⟨a, b, c⟩ | ⟨a, b, c⟩ | ⟨a, b, c⟩ | ⟨a, b, c⟩ <;> rw [a, b, c] <;> ac_rfl
    have hf : omin (omin (f (σ 0)) (f (σ 1))) (f (σ 2)) = omin (omin (f 0) (f 1)) (f 2) := by
      have := tri σ
      simp only [List.mem_cons, Prod.mk.injEq, List.not_mem_nil, or_false] at this
      rcases this with ⟨a, b, c⟩ | ⟨a, b, c⟩ | ⟨a, b, c⟩ | ⟨a, b, c⟩ | ⟨a, b, c⟩ | ⟨a, b, c⟩ <;> rw [a, b, c] <;> ac_rfl
    unfold slabResult
    rw [hn, hf]
  refine ⟨number_of_pos h, ?_⟩
  have := congrArg Option.isSome h
  rwa [Option.isSome_map, Option.isSome_map] at this

/-- C121: the slab test does not change when box and ray are mirrored along an axis, for all floats, infinities included, unless a
slab quotient of that axis is NaN (the ray runs within the plane of a face, `0 / 0`). -/
theorem C121_box_mirror (i : _root_.Fin 3) (b : Bbox (Flt mw ew)) (ray : Ray (Flt mw ew))
    (h1 : ((b.pmin.vec i - ray.origin.vec i) / ray.direction.vec i).isNaN = false)
    (h2 : ((b.pmax.vec i - ray.origin.vec i) / ray.direction.vec i).isNaN = false) :
    ((mirrorBox i b).intersectRay (mirrorRay i ray)).map (fun r => (r.1.number, r.2.number)) =
      (b.intersectRay ray).map (fun r => (r.1.number, r.2.number)) ∧
    (mirrorBox i b).doIntersect (mirrorRay i ray) = b.doIntersect ray := by
  have key : ∀ j, (slab (mirrorBox i b) (mirrorRay i ray) j).1.pos = (slab b ray j).1.pos ∧
      (slab (mirrorBox i b) (mirrorRay i ray) j).2.pos = (slab b ray j).2.pos := by
    intro j
    by_cases hj : j = i
    · subst hj
      have e1 : (slab (mirrorBox j b) (mirrorRay j ray) j) =
        (Scalar.min ((-(b.pmax.vec j) - -(ray.origin.vec j)) / -(ray.direction.vec j)) ((-(b.pmin.vec j) - -(ray.origin.vec j)) / -(ray.direction.vec j)),
         Scalar.max ((-(b.pmax.vec j) - -(ray.origin.vec j)) / -(ray.direction.vec j)) ((-(b.pmin.vec j) - -(ray.origin.vec j)) / -(ray.direction.vec j))) := by
        simp [slab, mirrorBox, mirrorRay, mirrorVec]
      have p1 := pos_quotient_mirror (b.pmin.vec j) (ray.origin.vec j) (ray.direction.vec j)
      have p2 := pos_quotient_mirror (b.pmax.vec j) (ray.origin.vec j) (ray.direction.vec j)
      rw [e1]
      unfold slab
      generalize (-(b.pmax.vec j) - -(ray.origin.vec j)) / -(ray.direction.vec j) = q2' at *
      generalize (-(b.pmin.vec j) - -(ray.origin.vec j)) / -(ray.direction.vec j) = q1' at *
      generalize (b.pmax.vec j - ray.origin.vec j) / ray.direction.vec j = q2 at *
      generalize (b.pmin.vec j - ray.origin.vec j) / ray.direction.vec j = q1 at *
      have num : ∀ q q' : Flt mw ew, q.isNaN = false → q'.pos = q.pos → q'.isNaN = false ∧ q'.key = q.key := by
        intro q q' hq he
        rw [pos_num hq] at he
        cases hn : q'.isNaN
        · rw [pos_num hn, Option.some.injEq] at he
          exact ⟨rfl, he⟩
        · rw [pos_nan hn] at he
          cases he
      obtain ⟨n1, k1⟩ := num _ _ h1 p1
      obtain ⟨n2, k2⟩ := num _ _ h2 p2
      obtain ⟨a1, a2⟩ := smin_key n2 n1
      obtain ⟨a3, a4⟩ := smin_key h1 h2
      obtain ⟨b1, b2⟩ := smax_key n2 n1
      obtain ⟨b3, b4⟩ := smax_key h1 h2
      dsimp only
      rw [pos_num a1, pos_num a3, pos_num b1, pos_num b3, a2, a4, b2, b4, k1, k2, min_comm, max_comm]
      exact ⟨rfl, rfl⟩
    · have e1 : slab (mirrorBox i b) (mirrorRay i ray) j = slab b ray j := by
        simp [slab, mirrorBox, mirrorRay, mirrorVec, hj]
      rw [e1]
      exact ⟨rfl, rfl⟩
  have h : ((mirrorBox i b).intersectRay (mirrorRay i ray)).map (fun r => (r.1.pos, r.2.pos)) =
      (b.intersectRay ray).map (fun r => (r.1.pos, r.2.pos)) := by
    rw [intersectRay_pos, intersectRay_pos]
    simp only [key]
    rfl
  refine ⟨number_of_pos h, ?_⟩
  have := congrArg Option.isSome h
  rwa [Option.isSome_map, Option.isSome_map] at this

/-- C121 without the condition on the quotients is false of the code: the ray within the lower x face of the unit box is missed, and the
mirrored ray hits the mirrored box (`Scalar::min` and `max` return their second argument when one is NaN). -/
theorem C121_box_mirror_refuted :
    ¬ ∀ (i : _root_.Fin 3) (b : Bbox F32) (ray : Ray F32), (mirrorBox i b).doIntersect (mirrorRay i ray) = b.doIntersect ray := by
  intro h
  have := h 0 ⟨new3 (F32.lit 0) (F32.lit 0) (F32.lit 0), new3 (F32.lit 2) (F32.lit 2) (F32.lit 2)⟩
    ⟨new3 (F32.lit 0) (F32.lit 1) (-F32.lit 1), new3 (F32.lit 0) (F32.lit 0) (F32.lit 1), F32.lit 9⟩
  revert this
  decide +kernel

/-- The hypotheses of C121 for boxes hold for an oblique ray, which hits. -/
example : let b : Bbox F32 := ⟨new3 (F32.lit 0) (F32.lit 0) (F32.lit 0), new3 (F32.lit 2) (F32.lit 2) (F32.lit 2)⟩
    let ray : Ray F32 := ⟨new3 (-F32.lit 1) (F32.lit 1) (-F32.lit 1), new3 (F32.lit 1) (F32.lit 0) (F32.lit 1), F32.lit 9⟩
    (∀ i, ((b.pmin.vec i - ray.origin.vec i) / ray.direction.vec i).isNaN = false ∧
      ((b.pmax.vec i - ray.origin.vec i) / ray.direction.vec i).isNaN = false) ∧
    b.intersectRay ray = some (F32.lit 1, F32.lit 3) ∧
    (mirrorBox 0 b).intersectRay (mirrorRay 0 ray) = some (F32.lit 1, F32.lit 3) := by
  decide +kernel
end box

/-! ### spheres -/
section sphere
variable {mw ew : Nat} [FltImpl mw ew] [LawfulFlt mw ew]

theorem mirror_mul (i j : _root_.Fin 3) {U I : Marker} (v : GVec (Flt mw ew) 3 U) (w : GVec (Flt mw ew) 3 I) :
    (mirrorVec i v).vec j * (mirrorVec i w).vec j = v.vec j * w.vec j := by
  unfold mirrorVec
  dsimp only
  split
  · exact neg_mul_neg' _ _
  · rfl

/-- mirrored dot products and squared norms are the same bit for bit -/
theorem mirror_dot (i : _root_.Fin 3) {U I : Marker} (v : GVec (Flt mw ew) 3 U) (w : GVec (Flt mw ew) 3 I) :
    (mirrorVec i v).dot (mirrorVec i w) = v.dot w := sumLoop_congr fun j => mirror_mul i j v w

theorem mirror_squareNorm (i : _root_.Fin 3) {U : Marker} (v : GVec (Flt mw ew) 3 U) :
    (mirrorVec i v).squareNorm = v.squareNorm := sumLoop_congr fun j => mirror_mul i j v v

theorem neg_pack (s : Bool) (n : Nat) : (pack mw ew s n).neg = pack mw ew (!s) n :=
  neg_ofIdx (lt_of_le_of_lt (Nat.min_le_right _ _) (infIdx_lt mw ew))

theorem pos_of_eq_neg {x y : Flt mw ew} (h : x = y.neg) : x.pos = (-y).pos := by rw [h]; rfl

/-- a product with one factor negated -/
theorem pos_neg_mul (x y : Flt mw ew) : (-x * y).pos = (-(x * y)).pos := by
  have hs : ((!x.sgn) != y.sgn) = !(x.sgn != y.sgn) := by cases x.sgn <;> cases y.sgn <;> rfl
  cases hx : x.isNaN
  swap
  · rw [pos_nan (isNaN_mul_of_left ((isNaN_negop x).trans hx)), pos_nan ((isNaN_negop _).trans (isNaN_mul_of_left hx))]
  cases hy : y.isNaN
  swap
  · rw [pos_nan (isNaN_mul_of_right hy), pos_nan ((isNaN_negop _).trans (isNaN_mul_of_right hy))]
  rw [mul_def, mul_def, Flt.neg_def x]
  unfold Flt.mul
  rw [isNaN_neg, isInf_neg, isZero_neg, sgn_neg, idx_neg, hs, hx, hy]
  simp only [Bool.or_self, Bool.false_eq_true, if_false]
  split
  · split
    · rw [pos_nan isNaN_nan, pos_nan ((isNaN_negop _).trans isNaN_nan)]
    · exact pos_of_eq_neg (neg_ofIdx (infIdx_lt mw ew)).symm
  · exact pos_of_eq_neg (neg_pack _ _).symm

/-- a sum depends on the number that the second term denotes only -/
theorem pos_add_congr {x y y' : Flt mw ew} (h : y.pos = y'.pos) : (x + y).pos = (x + y').pos := by
  cases hx : x.isNaN
  swap
  · rw [pos_nan (isNaN_add_of_left hx), pos_nan (isNaN_add_of_left hx)]
  cases hy : y.isNaN
  · have hy' : y'.isNaN = false := by
      by_contra hc
      rw [Bool.not_eq_false] at hc
      rw [pos_num hy, pos_nan hc] at h
      cases h
    rw [pos_num hy, pos_num hy', Option.some.injEq] at h
    by_cases h0 : y.key = 0
    · have z : (Scalar.zero : Flt mw ew).isNaN = false := notNaN_of_isFin isFin_szero
      have s1 := add_zero_same (Same.refl hx) (⟨hy, z, h0.trans key_szero.symm⟩ : Same y Scalar.zero)
      have s2 := add_zero_same (Same.refl hx) (⟨hy', z, (h ▸ h0).trans key_szero.symm⟩ : Same y' Scalar.zero)
      rw [pos_num s1.1, pos_num s2.1, s1.2.2, s2.2.2]
    · rw [eq_of_key_eq h h0]
  · have hy' : y'.isNaN = true := by
      by_contra hc
      rw [Bool.not_eq_true] at hc
      rw [pos_nan hy, pos_num hc] at h
      cases h
    rw [pos_nan (isNaN_add_of_right hy), pos_nan (isNaN_add_of_right hy')]

/-- the point of the mirrored ray -/
theorem mirror_eval (i : _root_.Fin 3) (ray : Ray (Flt mw ew)) (t : Flt mw ew) :
    (∀ j, j ≠ i → ((mirrorRay i ray).eval t).vec j = (ray.eval t).vec j) ∧
    (((mirrorRay i ray).eval t).vec i).pos = (-((ray.eval t).vec i)).pos := by
  refine ⟨fun j hj => ?_, ?_⟩
  · change (if j = i then _ else _) + (if j = i then _ else _) * t = _
    rw [if_neg hj, if_neg hj]
    rfl
  · change ((if i = i then _ else _) + (if i = i then _ else _) * t : Flt mw ew).pos = _
    rw [if_pos rfl, if_pos rfl, pos_add_congr (pos_neg_mul _ _)]
    have e := pos_neg_sub_neg (ray.origin.vec i) (-(ray.direction.vec i * t))
    rw [neg_neg_op] at e
    rw [Flt.sub_eq_add_neg, Flt.sub_eq_add_neg, neg_neg_op] at e
    exact e

variable [Libm mw ew]

/-- Specification: the sphere mirrored along z. -/
def mirrorSphere (s : Sphere (Flt mw ew)) : Sphere (Flt mw ew) := { s with zMin := -s.zMax, zMax := -s.zMin }

theorem inRange_pos (x lo hi : Flt mw ew) : Scalar.inRange x lo hi = true ↔ ∃ a b c, x.pos = some a ∧ lo.pos = some b ∧ hi.pos = some c ∧ b ≤ a ∧ a ≤ c := by
  unfold Scalar.inRange
  rw [Bool.and_eq_true, sge_iff, sle_iff]
  constructor
  · rintro ⟨⟨h1, h2, h3⟩, -, h4, h5⟩
    exact ⟨_, _, _, pos_num h1, pos_num h2, pos_num h4, h3, h5⟩
  · rintro ⟨a, b, c, h1, h2, h3, h4, h5⟩
    have n : ∀ {y : Flt mw ew} {k}, y.pos = some k → y.isNaN = false ∧ y.key = k := by
      intro y k h
      cases hn : y.isNaN
      · rw [pos_num hn, Option.some.injEq] at h; exact ⟨rfl, h⟩
      · rw [pos_nan hn] at h; cases h
    obtain ⟨m1, m2⟩ := n h1
    obtain ⟨m3, m4⟩ := n h2
    obtain ⟨m5, m6⟩ := n h3
    exact ⟨⟨m1, m3, by omega⟩, m1, m5, by omega⟩

theorem inRange_mirror {x x' lo hi : Flt mw ew} (h : x'.pos = (-x).pos) : Scalar.inRange x' (-hi) (-lo) = Scalar.inRange x lo hi := by
  rw [Bool.eq_iff_iff, inRange_pos, inRange_pos, h, pos_neg, pos_neg, pos_neg]
  constructor
  · rintro ⟨a, b, c, h1, h2, h3, h4, h5⟩
    obtain ⟨a', e1, rfl⟩ := Option.map_eq_some_iff.1 h1
    obtain ⟨b', e2, rfl⟩ := Option.map_eq_some_iff.1 h2
    obtain ⟨c', e3, rfl⟩ := Option.map_eq_some_iff.1 h3
    exact ⟨a', c', b', e1, e3, e2, by omega, by omega⟩
  · rintro ⟨a, b, c, h1, h2, h3, h4, h5⟩
    exact ⟨-a, -c, -b, by rw [h1]; rfl, by rw [h3]; rfl, by rw [h2]; rfl, by omega, by omega⟩

/-- the quadratic of the mirrored ray is the same, bit for bit -/
theorem mirror_quadratic (i : _root_.Fin 3) (s s' : Sphere (Flt mw ew)) (hr : s'.radius = s.radius) (ray : Ray (Flt mw ew)) :
    solveQuadratic (mirrorRay i ray).direction.squareNorm ((GVec.conv .vector (mirrorRay i ray).origin).dot (mirrorRay i ray).direction * GFloat.fromI64 2)
      ((GVec.conv .vector (mirrorRay i ray).origin).squareNorm - Scalar.square s'.radius) =
    solveQuadratic ray.direction.squareNorm ((GVec.conv .vector ray.origin).dot ray.direction * GFloat.fromI64 2)
      ((GVec.conv .vector ray.origin).squareNorm - Scalar.square s.radius) := by
  have e1 : (mirrorRay i ray).direction.squareNorm = ray.direction.squareNorm := mirror_squareNorm i ray.direction
  have e2 : (GVec.conv .vector (mirrorRay i ray).origin).dot (mirrorRay i ray).direction = (GVec.conv .vector ray.origin).dot ray.direction :=
    mirror_dot i (GVec.conv .vector ray.origin) ray.direction
  have e3 : (GVec.conv .vector (mirrorRay i ray).origin).squareNorm = (GVec.conv .vector ray.origin).squareNorm :=
    mirror_squareNorm i (GVec.conv .vector ray.origin)
  rw [e1, e2, e3, hr]

/-- if both crossings are treated alike, the hits correspond -/
theorem mirror_hit (i : _root_.Fin 3) (s s' : Sphere (Flt mw ew)) (hr : s'.radius = s.radius) (ray : Ray (Flt mw ew))
    (hz : ∀ t, Scalar.inRange ((mirrorRay i ray).eval t).z s'.zMin s'.zMax = Scalar.inRange (ray.eval t).z s.zMin s.zMax)
    (hφ : ∀ t, Scalar.gt (Libm.atan2 ((mirrorRay i ray).eval t).y ((mirrorRay i ray).eval t).x) s'.phiMax =
      Scalar.gt (Libm.atan2 (ray.eval t).y (ray.eval t).x) s.phiMax) :
    (s'.intersectRay (mirrorRay i ray)).map (fun h => (h.tRay, h.p)) =
      (s.intersectRay ray).map (fun h => (h.tRay, (mirrorRay i ray).eval h.tRay)) ∧
    ∀ h, s.intersectRay ray = some h → h.p = ray.eval h.tRay := by
  have g : ∀ t, (s'.getIntersection (mirrorRay i ray) t).map (fun h => (h.tRay, h.p)) =
      (s.getIntersection ray t).map (fun h => (h.tRay, (mirrorRay i ray).eval h.tRay)) := by
    intro t
    have hφ' : Scalar.gt (GTrig.atan2 ((mirrorRay i ray).eval t).y ((mirrorRay i ray).eval t).x) s'.phiMax =
      Scalar.gt (GTrig.atan2 (ray.eval t).y (ray.eval t).x) s.phiMax := hφ t
    unfold Sphere.getIntersection
    change Option.map _ (if (!Scalar.inRange t Scalar.zero ray.tmax) = true then none else _) = _
    dsimp only
    rw [hz t, hφ']
    split
    · rfl
    split
    · rfl
    split
    · rfl
    · rfl
  refine ⟨?_, fun h hh => ?_⟩
  · unfold Sphere.intersectRay
    dsimp only
    rw [mirror_quadratic i s s' hr ray]
    split
    · rfl
    rename_i t0 t1 hq
    have g0 := g t0
    have g1 := g t1
    cases h0 : s.getIntersection ray t0 <;> rw [h0] at g0
    · rw [Option.map_eq_none_iff.1 g0]
      exact g1
    · obtain ⟨x, hx, hx'⟩ := Option.map_eq_some_iff.1 g0
      rw [hx]
      exact congrArg some hx'
  · unfold Sphere.intersectRay at hh
    dsimp only at hh
    split at hh
    · cases hh
    split at hh
    · obtain ⟨-, -, -, rfl⟩ := getIntersection_some hh
      rfl
    · rename_i hi
      cases hh
      obtain ⟨-, -, -, rfl⟩ := getIntersection_some hi
      rfl

/-- Specification: what it means that two hits correspond under mirroring along axis `i`: the same `t_ray` bit for bit, the other two
coordinates of the point bit for bit, and the mirrored coordinate up to the sign of zero. -/
def MirroredHit (i : _root_.Fin 3) (r r' : IntersectionResult (Flt mw ew)) : Prop :=
  r'.tRay = r.tRay ∧ (∀ j, j ≠ i → r'.surfaceInteraction.p.vec j = r.surfaceInteraction.p.vec j) ∧
    (r'.surfaceInteraction.p.vec i).number = (-(r.surfaceInteraction.p.vec i)).number

theorem mirror_intersect (i : _root_.Fin 3) (s s' : Sphere (Flt mw ew)) (ray : Ray (Flt mw ew))
    (h : (s'.intersectRay (mirrorRay i ray)).map (fun h => (h.tRay, h.p)) =
      (s.intersectRay ray).map (fun h => (h.tRay, (mirrorRay i ray).eval h.tRay)) ∧
      ∀ h, s.intersectRay ray = some h → h.p = ray.eval h.tRay) :
    Option.Rel (MirroredHit i) (s.intersect ray) (s'.intersect (mirrorRay i ray)) ∧
    s'.doIntersect (mirrorRay i ray) = s.doIntersect ray := by
  obtain ⟨h1, h2⟩ := h
  refine ⟨?_, ?_⟩
  · unfold Sphere.intersect
    cases e : s.intersectRay ray <;> rw [e] at h1
    · rw [Option.map_eq_none_iff.1 h1]
      exact .none
    · rename_i a
      obtain ⟨x, hx, hx'⟩ := Option.map_eq_some_iff.1 h1
      rw [hx]
      obtain ⟨q1, q2⟩ := Prod.mk.injEq _ _ _ _ ▸ hx'
      refine .some ⟨q1, ?_, ?_⟩
      · intro j hj
        change x.p.vec j = a.p.vec j
        rw [q2, h2 a e]
        exact (mirror_eval i ray a.tRay).1 j hj
      · rw [number_eq_iff]
        change (x.p.vec i).pos = (-(a.p.vec i)).pos
        rw [q2, h2 a e]
        exact (mirror_eval i ray a.tRay).2
  · have := congrArg Option.isSome h1
    rwa [Option.isSome_map, Option.isSome_map] at this

/-- C121: mirroring sphere and ray along z mirrors the hit, for all floats, NaN and infinities included; `t_ray` is the same bit for bit. -/
theorem C121_sphere_z (s : Sphere (Flt mw ew)) (ray : Ray (Flt mw ew)) :
    Option.Rel (MirroredHit 2) (s.intersect ray) ((mirrorSphere s).intersect (mirrorRay 2 ray)) ∧
    (mirrorSphere s).doIntersect (mirrorRay 2 ray) = s.doIntersect ray := by
  refine mirror_intersect 2 s _ ray (mirror_hit 2 s (mirrorSphere s) rfl ray (fun t => ?_) (fun t => ?_))
  · exact inRange_mirror (mirror_eval 2 ray t).2
  · obtain ⟨h, -⟩ := mirror_eval 2 ray t
    have hx : ((mirrorRay 2 ray).eval t).x = (ray.eval t).x := h 0 (by decide)
    have hy : ((mirrorRay 2 ray).eval t).y = (ray.eval t).y := h 1 (by decide)
    rw [hx, hy]
    rfl

/-- C121: mirroring the ray along x or y mirrors the hit, for a sphere that is not clipped by `phi_max`. -/
theorem C121_sphere_xy (i : _root_.Fin 3) (hi : i ≠ 2) (s : Sphere (Flt mw ew)) (ray : Ray (Flt mw ew))
    (hφ : ∀ y x : Flt mw ew, Scalar.gt (Libm.atan2 y x) s.phiMax = false) :
    Option.Rel (MirroredHit i) (s.intersect ray) (s.intersect (mirrorRay i ray)) ∧
    s.doIntersect (mirrorRay i ray) = s.doIntersect ray := by
  refine mirror_intersect i s _ ray (mirror_hit i s s rfl ray (fun t => ?_) (fun t => by rw [hφ, hφ]))
  have hz : ((mirrorRay i ray).eval t).z = (ray.eval t).z := (mirror_eval i ray t).1 2 (Ne.symm hi)
  rw [hz]

theorem gt_inf (x : Flt mw ew) : Scalar.gt x (Flt.inf mw ew false) = false := by
  rw [Bool.eq_false_iff]
  intro h
  obtain ⟨hn, -, hk⟩ := sgt_iff.1 h
  rw [key_inf] at hk
  have := key_bounds hn
  simp at hk
  omega

/-- The hypotheses of C121 for spheres hold for a sphere of radius 3 with `phi_max` infinite, which a ray hits at 2 (and the mirrored ray
too). -/
example [Libm 23 8] : let s : Sphere F32 := ⟨F32.lit 3, -F32.lit 4, F32.lit 4, F32.lit 0, F32.lit 0, Flt.inf 23 8 false⟩
    let ray : Ray F32 := ⟨new3 (-F32.lit 5) (F32.lit 0) (F32.lit 0), new3 (F32.lit 1) (F32.lit 0) (F32.lit 0), F32.lit 9⟩
    (∀ y x : F32, Scalar.gt (Libm.atan2 y x) s.phiMax = false) ∧ s.doIntersect ray = true ∧
    (s.intersect ray).map (fun r => r.tRay) = some (F32.lit 2) := by
  intro s ray
  have e3 : solveQuadratic ray.direction.squareNorm ((GVec.conv .vector ray.origin).dot ray.direction * GFloat.fromI64 2)
      ((GVec.conv .vector ray.origin).squareNorm - Scalar.square s.radius) = some (F32.lit 2, F32.lit 8) := by decide +kernel
  have g : s.intersectRay ray = some ⟨F32.lit 2, ray.eval (F32.lit 2), GTrig.atan2 (ray.eval (F32.lit 2)).y (ray.eval (F32.lit 2)).x⟩ := by
    unfold Sphere.intersectRay
    dsimp only
    rw [e3]
    dsimp only
    have c1 : Scalar.inRange (F32.lit 2) Scalar.zero ray.tmax = true := by decide +kernel
    have c2 : Scalar.inRange (ray.eval (F32.lit 2)).z s.zMin s.zMax = true := by decide +kernel
    have c3 : Scalar.gt (GTrig.atan2 (ray.eval (F32.lit 2)).y (ray.eval (F32.lit 2)).x) s.phiMax = false := gt_inf _
    unfold Sphere.getIntersection
    dsimp only
    rw [c1, c2, c3]
    rfl
  refine ⟨fun y x => gt_inf _, ?_, ?_⟩
  · unfold Sphere.doIntersect; rw [g]; rfl
  · unfold Sphere.intersect; rw [g]; rfl
end sphere
end Scarlet
