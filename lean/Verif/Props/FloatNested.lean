import Verif.Props.FloatObject
import Verif.Props.Primitive

/-! C126: hits and misses in nested scenes (lists and transformed primitives to any depth) on floats, up to rounding. -/

set_option linter.unusedSectionVars false

namespace Scarlet
open Flt GVec

/-! ### where a hit of a scene comes from -/

section origin
variable {T : Type} [Add T] [Sub T] [Mul T] [Div T] [Neg T] [Scalar T] [Inherent T]

/-- Specification: `q` is inside `p`, under the transforms `ts`, outermost first. -/
inductive Reaches : Primitive T → List (Transform T) → Primitive T → Prop
  | here (p) : Reaches p [] p
  | transformed (p t ts q) (h : Reaches p ts q) : Reaches (p.transformed t) (t :: ts) q
  | list (ps p ts q) (hp : p ∈ ps) (h : Reaches p ts q) : Reaches (PrimitiveList.prim ps) ts q

/-- Specification: `obj` is what `r` becomes when the inverses of `ts` are applied in turn. -/
def Chain : List (Transform T) → Ray T → Ray T → Prop
  | [], r, obj => r = obj
  | t :: ts, r, obj => ∃ s, t.mapRayInv r = some s ∧ Chain ts s obj

theorem chain_tmax (ts : List (Transform T)) (r obj : Ray T) (h : Chain ts r obj) : obj.tmax = r.tmax := by
  induction ts generalizing r with
  | nil => cases h; rfl
  | cons t ts ih =>
    obtain ⟨s, hs, h⟩ := h
    rw [ih s h]
    unfold Transform.mapRayInv at hs
    obtain ⟨a, -, hs⟩ := Option.bind_eq_some_iff.1 hs
    obtain ⟨b, -, hs⟩ := Option.bind_eq_some_iff.1 hs
    cases hs
    rfl

variable [GFloat T] [GTrig T]

/-- Specification: the primitives that contain no others. -/
def Leaf (B : Primitive T → Prop) (q : Primitive T) : Prop :=
  B q ∨ (∃ s : Sphere T, q = s.prim) ∨ ∃ b : Bbox T, q = b.prim

/-- what a list reports is what one of its members reports on the same ray (or what was found before) -/
theorem loop_member (r : Ray T) (ps : List (Primitive T)) (res0 : Option (IntersectionResult T)) (rm : Ray T) (res : IntersectionResult T)
    (h : PrimitiveList.intersectLoop r ps res0 rm = some (some res)) :
    res0 = some res ∨ ∃ p ∈ ps, p.intersect r = some (some res) := by
  induction ps generalizing res0 rm with
  | nil => exact Or.inl (Option.some.inj h)
  | cons p ps ih =>
    unfold PrimitiveList.intersectLoop at h
    obtain ⟨x, hx, h⟩ := Option.bind_eq_some_iff.1 h
    cases x with
    | none =>
      rcases ih _ _ h with k | ⟨q, hq, k⟩
      · exact Or.inl k
      · exact Or.inr ⟨q, List.mem_cons_of_mem _ hq, k⟩
    | some ir =>
      rcases ih _ _ h with k | ⟨q, hq, k⟩
      · exact Or.inr ⟨p, List.mem_cons_self, by rw [hx, k]⟩
      · exact Or.inr ⟨q, List.mem_cons_of_mem _ hq, k⟩

/-- C126: a hit of a scene of any depth is the hit of one of the shapes in it, on the ray that the inverses of the transforms around
that shape make of the given one; every scalar type. -/
theorem C126_origin (B : Primitive T → Prop) (p : Primitive T) (hp : Primitive.Scene B p) (r : Ray T) (res : IntersectionResult T)
    (h : p.intersect r = some (some res)) :
    ∃ ts q obj, Reaches p ts q ∧ Leaf B q ∧ Chain ts r obj ∧ q.intersect obj = some (some res) := by
  induction hp generalizing r with
  | base p hb => exact ⟨[], p, r, .here p, Or.inl hb, rfl, h⟩
  | sphere s => exact ⟨[], _, r, .here _, Or.inr (Or.inl ⟨s, rfl⟩), rfl, h⟩
  | bbox b => exact ⟨[], _, r, .here _, Or.inr (Or.inr ⟨b, rfl⟩), rfl, h⟩
  | transformed p t _ ih =>
    obtain ⟨s, hs, h⟩ := Option.bind_eq_some_iff.1 h
    obtain ⟨ts, q, obj, k1, k2, k3, k4⟩ := ih s h
    exact ⟨t :: ts, q, obj, .transformed _ _ _ _ k1, k2, ⟨s, hs, k3⟩, k4⟩
  | list ps _ ih =>
    rcases loop_member r ps none r res h with k | ⟨p, hp, k⟩
    · cases k
    · obtain ⟨ts, q, obj, k1, k2, k3, k4⟩ := ih p hp r k
      exact ⟨ts, q, obj, .list _ _ _ _ hp k1, k2, k3, k4⟩

/-- C126: a scene that reports no hit contains no shape that does: each shape in it gets the ray that the inverses of the transforms
around it make of the given one, and reports no hit; every scalar type. -/
theorem C126_none (p q : Primitive T) (ts : List (Transform T)) (hq : Reaches p ts q) (r : Ray T) (h : p.intersect r = some none) :
    ∃ obj, Chain ts r obj ∧ q.intersect obj = some none := by
  induction hq generalizing r with
  | here p => exact ⟨r, rfl, h⟩
  | transformed p t ts q _ ih =>
    obtain ⟨s, hs, h⟩ := Option.bind_eq_some_iff.1 h
    obtain ⟨obj, k1, k2⟩ := ih s h
    exact ⟨obj, ⟨s, hs, k1⟩, k2⟩
  | list ps p ts q hp _ ih => exact ih r ((C63_intersect ps r).1 h p hp)
end origin

/-! ### the error of a chain of maps -/

section core
variable {u : ℝ}

/-- one more map: `g` is the growth so far, `W` the size of the image of the padded size, `ω` the padding -/
theorem nested_step {g W ω e P X Y S : ℝ} (hu : 0 < u) (hg : 1 ≤ g) (hW : 0 ≤ W) (hω : 0 ≤ ω) (hS : S ≤ g * W) (hS0 : 0 ≤ S)
    (h1 : |P - X| ≤ 4.01 * (u * S) + 4.04 * (u * ω)) (h2 : |X - Y| ≤ (g - 1) * W)
    (h3 : e ≤ S + 4.01 * (u * S) + 4.04 * (u * ω)) :
    |P - Y| ≤ (g * (1 + 4.04 * u) - 1) * (W + ω) ∧ e ≤ g * (1 + 4.04 * u) * (W + ω) := by
  have k1 := mul_le_mul_of_nonneg_left hS hu.le
  have uω := mul_nonneg hu.le hω
  have k2 : u * ω ≤ u * (g * ω) := mul_le_mul_of_nonneg_left (by nlinarith) hu.le
  have k3 : 0 ≤ u * (g * W) := by positivity
  have k4 : 0 ≤ (g - 1) * ω := mul_nonneg (by linarith) hω
  constructor
  · have e1 : P - Y = (P - X) + (X - Y) := by ring
    rw [e1]
    refine (abs_add_le _ _).trans ?_
    linarith
  · linarith
end core

variable {mw ew : Nat} [FltImpl mw ew] [LawfulFlt mw ew]

/-- Specification: the exact image of the point `x` under the affine maps stored in the inverse matrices of `ts`, in turn. -/
noncomputable def pathPoint : List (Transform (Flt mw ew)) → (_root_.Fin 3 → ℝ) → _root_.Fin 3 → ℝ
  | [], x => x
  | t :: ts, x => pathPoint ts fun i => affR t.minv x 1 i.castSucc

/-- Specification: the size of the terms of that image, for a point with coordinates of size `w`; `ω` is added at every map, for
underflow. -/
noncomputable def pathSize (ω : ℝ) : List (Transform (Flt mw ew)) → (_root_.Fin 3 → ℝ) → _root_.Fin 3 → ℝ
  | [], w => w
  | t :: ts, w => pathSize ω ts fun i => affAbs t.minv w 1 i.castSucc + ω

/-- Specification: the exact point of the ray at `t`, and the sizes of its terms. -/
noncomputable def rayPoint (r : Ray (Flt mw ew)) (t : ℝ) (i : _root_.Fin 3) : ℝ := (r.origin.vec i).toReal + (r.direction.vec i).toReal * t
noncomputable def raySize (r : Ray (Flt mw ew)) (t : ℝ) (i : _root_.Fin 3) : ℝ := |(r.origin.vec i).toReal| + |(r.direction.vec i).toReal * t|

/-- Specification: the padding, one part in `1/u` of which is the largest error of underflow at `t`. -/
noncomputable def padding (mw ew : Nat) (t : ℝ) : ℝ := etaRnd mw ew * (1 + |t|) / uRnd mw

/-- Specification: nothing overflows along the chain, and the maps are affine. -/
def ChainFin : List (Transform (Flt mw ew)) → Ray (Flt mw ew) → Prop
  | [], r => (∀ i, (r.origin.vec i).isFin = true) ∧ ∀ i, (r.direction.vec i).isFin = true
  | t :: ts, r => ((∀ i, (r.origin.vec i).isFin = true) ∧ ∀ i, (r.direction.vec i).isFin = true) ∧ t.minv.AffineF ∧
      ∀ s, t.mapRayInv r = some s → ChainFin ts s

theorem ChainFin.head {ts : List (Transform (Flt mw ew))} {r : Ray (Flt mw ew)} (h : ChainFin ts r) :
    (∀ i, (r.origin.vec i).isFin = true) ∧ ∀ i, (r.direction.vec i).isFin = true := by
  cases ts with
  | nil => exact h
  | cons t ts => exact h.1

theorem affAbs_mono (m : Mat4 (Flt mw ew)) (S w : _root_.Fin 3 → ℝ) (g : ℝ) (hg : 1 ≤ g) (h0 : ∀ i, 0 ≤ S i)
    (h : ∀ i, S i ≤ g * w i) (i : _root_.Fin 4) : affAbs m S 1 i ≤ g * affAbs m w 1 i := by
  have key : ∀ j : _root_.Fin 3, ∀ a : ℝ, |S j * a| ≤ g * |w j * a| := by
    intro j a
    have hw : S j ≤ g * |w j| := (h j).trans (mul_le_mul_of_nonneg_left (le_abs_self _) (by linarith))
    rw [abs_mul, abs_mul, _root_.abs_of_nonneg (h0 j), ← mul_assoc]
    exact mul_le_mul_of_nonneg_right hw (abs_nonneg a)
  unfold affAbs
  have k0 := key 0 (m.data i 0).toReal
  have k1 := key 1 (m.data i 1).toReal
  have k2 := key 2 (m.data i 2).toReal
  have k3 : |1 * (m.data i 3).toReal| ≤ g * |1 * (m.data i 3).toReal| := le_mul_of_one_le_left (abs_nonneg _) hg
  linarith

theorem objSize_eq (m : Mat4 (Flt mw ew)) (r : Ray (Flt mw ew)) (t : ℝ) (i : _root_.Fin 3) :
    objSize m r t i = affAbs m (raySize r t) 1 i.castSucc := by
  have e : ∀ a b c : ℝ, |(|a| + |b|) * c| = |a * c| + |b * c| := by
    intro a b c
    rw [abs_mul, abs_mul, abs_mul, _root_.abs_of_nonneg (by positivity : 0 ≤ |a| + |b|)]
    ring
  unfold objSize affAbs raySize
  rw [e, e, e]
  simp only [zero_mul, abs_zero]
  ring

theorem affR_sub (m : Mat4 (Flt mw ew)) (x y D : _root_.Fin 3 → ℝ) (c : ℝ) (hc : 0 ≤ c) (h : ∀ i, |x i - y i| ≤ c * D i) (i : _root_.Fin 4) :
    |affR m x 1 i - affR m y 1 i| ≤ c * affAbs m D 1 i := by
  have key : ∀ j : _root_.Fin 3, ∀ a : ℝ, |(x j - y j) * a| ≤ c * |D j * a| := by
    intro j a
    rw [abs_mul, abs_mul, ← mul_assoc]
    refine mul_le_mul_of_nonneg_right ((h j).trans (mul_le_mul_of_nonneg_left (le_abs_self _) hc)) (abs_nonneg a)
  have k0 := key 0 (m.data i 0).toReal
  have k1 := key 1 (m.data i 1).toReal
  have k2 := key 2 (m.data i 2).toReal
  have k3 := mul_nonneg hc (abs_nonneg (1 * (m.data i 3).toReal))
  have e : affR m x 1 i - affR m y 1 i = (x 0 - y 0) * (m.data i 0).toReal + (x 1 - y 1) * (m.data i 1).toReal +
      (x 2 - y 2) * (m.data i 2).toReal := by unfold affR; ring
  rw [e]
  unfold affAbs
  have := abs_add_le ((x 0 - y 0) * (m.data i 0).toReal + (x 1 - y 1) * (m.data i 1).toReal) ((x 2 - y 2) * (m.data i 2).toReal)
  have := abs_add_le ((x 0 - y 0) * (m.data i 0).toReal) ((x 1 - y 1) * (m.data i 1).toReal)
  linarith

theorem affAbs_nonneg (m : Mat4 (Flt mw ew)) (x : _root_.Fin 3 → ℝ) (i : _root_.Fin 4) : 0 ≤ affAbs m x 1 i := by
  unfold affAbs; positivity

/-- the induction: `x` and `w` bound the ray reached so far -/
theorem chain_err (hw : 9 ≤ mw) (ts : List (Transform (Flt mw ew))) (r obj : Ray (Flt mw ew)) (hc : Chain ts r obj) (hf : ChainFin ts r)
    (t : ℝ) (x w : _root_.Fin 3 → ℝ) (g : ℝ) (hg : 1 ≤ g) (hx : ∀ i, |x i| ≤ w i) (h1 : ∀ i, |rayPoint r t i - x i| ≤ (g - 1) * w i)
    (h2 : ∀ i, raySize r t i ≤ g * w i) (i : _root_.Fin 3) :
    |pathPoint ts x i| ≤ pathSize (padding mw ew t) ts w i ∧
    |rayPoint obj t i - pathPoint ts x i| ≤ (g * (1 + 4.04 * uRnd mw) ^ ts.length - 1) * pathSize (padding mw ew t) ts w i ∧
    raySize obj t i ≤ g * (1 + 4.04 * uRnd mw) ^ ts.length * pathSize (padding mw ew t) ts w i := by
  have hu := uRnd_pos (mw := mw)
  have hη := etaRnd_pos (mw := mw) (ew := ew)
  have hω : 0 ≤ padding mw ew t := by unfold padding; positivity
  have eω : etaRnd mw ew * (1 + |t|) = uRnd mw * padding mw ew t := by unfold padding; field_simp
  induction ts generalizing r x w g with
  | nil =>
    cases hc
    simp only [List.length_nil, pow_zero, mul_one]
    exact ⟨hx i, h1 i, h2 i⟩
  | cons T ts ih =>
    obtain ⟨s, hs, hc⟩ := hc
    obtain ⟨⟨fp, fd⟩, hT, hf⟩ := hf
    have hf := hf s hs
    have w0 : ∀ i, 0 ≤ w i := fun i => (abs_nonneg _).trans (hx i)
    have st : ∀ i : _root_.Fin 3, |rayPoint s t i - affR T.minv x 1 i.castSucc| ≤
        (g * (1 + 4.04 * uRnd mw) - 1) * (affAbs T.minv w 1 i.castSucc + padding mw ew t) ∧
        raySize s t i ≤ g * (1 + 4.04 * uRnd mw) * (affAbs T.minv w 1 i.castSucc + padding mw ew t) := by
      intro i
      obtain ⟨-, k1, -, k2⟩ := object_axis hw T hT r s hs fp fd i (hf.head.1 i) (hf.head.2 i) t
      rw [eω, objSize_eq] at k1 k2
      exact nested_step hu hg (affAbs_nonneg _ _ _) hω
        (affAbs_mono T.minv (raySize r t) w g hg (fun i => by unfold raySize; positivity) h2 _) (affAbs_nonneg _ _ _) k1
        (affR_sub T.minv (rayPoint r t) x w (g - 1) (by linarith) h1 _) k2
    have hx' : ∀ i : _root_.Fin 3, |affR T.minv x 1 i.castSucc| ≤ affAbs T.minv w 1 i.castSucc + padding mw ew t := by
      intro i
      have a1 := affR_abs T.minv x 1 i.castSucc
      have a2 : affAbs T.minv x 1 i.castSucc ≤ affAbs T.minv w 1 i.castSucc := by
        have key : ∀ j : _root_.Fin 3, ∀ a : ℝ, |x j * a| ≤ |w j * a| := by
          intro j a
          rw [abs_mul, abs_mul, _root_.abs_of_nonneg (w0 j)]
          exact mul_le_mul_of_nonneg_right (hx j) (abs_nonneg a)
        unfold affAbs
        exact add_le_add (add_le_add (add_le_add (key 0 _) (key 1 _)) (key 2 _)) le_rfl
      linarith
    have := ih s hc hf (fun i => affR T.minv x 1 i.castSucc) (fun i => affAbs T.minv w 1 i.castSucc + padding mw ew t)
      (g * (1 + 4.04 * uRnd mw)) (by nlinarith) hx' (fun i => (st i).1) (fun i => (st i).2)
    rw [List.length_cons, show g * (1 + 4.04 * uRnd mw) ^ (ts.length + 1) = g * (1 + 4.04 * uRnd mw) * (1 + 4.04 * uRnd mw) ^ ts.length by ring]
    exact this

/-- C126: the ray that reaches a shape under `k` transforms, against the exact image of the exact world ray: the error of each
coordinate is at most `(1 + 4.04u)^k − 1` of its size. -/
theorem C126_chain (hw : 9 ≤ mw) (ts : List (Transform (Flt mw ew))) (r obj : Ray (Flt mw ew)) (hc : Chain ts r obj) (hf : ChainFin ts r)
    (t : ℝ) (i : _root_.Fin 3) :
    |pathPoint ts (rayPoint r t) i| ≤ pathSize (padding mw ew t) ts (raySize r t) i ∧
    |rayPoint obj t i - pathPoint ts (rayPoint r t) i| ≤
      ((1 + 4.04 * uRnd mw) ^ ts.length - 1) * pathSize (padding mw ew t) ts (raySize r t) i ∧
    raySize obj t i ≤ (1 + 4.04 * uRnd mw) ^ ts.length * pathSize (padding mw ew t) ts (raySize r t) i := by
  have := chain_err hw ts r obj hc hf t (rayPoint r t) (raySize r t) 1 le_rfl
    (fun i => by unfold rayPoint raySize; exact abs_add_le _ _) (fun i => by simp) (fun i => by rw [one_mul]) i
  rw [one_mul] at this
  exact this

/-! ### boxes -/

/-- Specification: how far the test of a nested box may move the planes of axis `i`. -/
noncomputable def pathMargin (b : Bbox (Flt mw ew)) (ts : List (Transform (Flt mw ew))) (r obj : Ray (Flt mw ew)) (t : ℝ) (i : _root_.Fin 3) : ℝ :=
  slabMargin b obj i + ((1 + 4.04 * uRnd mw) ^ ts.length - 1) * pathSize (padding mw ew t) ts (raySize r t) i

/-- C126: if the exact world ray, within its length, passes through the exact image of a box in the scene with its planes moved inwards
by the margin, then that box is hit. -/
theorem C126_box_hit (hw : 9 ≤ mw) (b : Bbox (Flt mw ew)) (ts : List (Transform (Flt mw ew))) (r obj : Ray (Flt mw ew)) (hc : Chain ts r obj)
    (hf : ChainFin ts r) (h : SlabFinite b obj) (hb : ∀ i, (b.pmin.vec i).toReal ≤ (b.pmax.vec i).toReal) (ht : r.tmax.isNaN = false)
    (t : ℝ) (h0 : 0 ≤ t) (h1 : (t : EReal) ≤ r.tmax.val)
    (hin : ∀ i, (b.pmin.vec i).toReal + pathMargin b ts r obj t i ≤ pathPoint ts (rayPoint r t) i ∧
      pathPoint ts (rayPoint r t) i ≤ (b.pmax.vec i).toReal - pathMargin b ts r obj t i) :
    ∃ res, b.prim.intersect obj = some (some res) := by
  have htm := chain_tmax ts r obj hc
  have key : (b.intersectRay obj).isSome = true := by
    refine C92_hit b obj h hb (by rw [htm]; exact ht) t h0 (by rw [htm]; exact h1) fun i => ?_
    have a := _root_.abs_le.1 (C126_chain hw ts r obj hc hf t i).2.1
    have := hin i
    unfold pathMargin at this
    unfold rayPoint at a this
    unfold exactAt
    constructor <;> linarith [a.1, a.2, this.1, this.2]
  obtain ⟨x, hx⟩ := Option.isSome_iff_exists.1 key
  unfold Bbox.prim Bbox.hit
  dsimp only
  rw [hx]
  exact ⟨_, rfl⟩

/-- C126: a scene that reports no hit has no box, at any depth, through which the exact world ray passes: not with the planes of the
box moved inwards by the margin. -/
theorem C126_box_miss (hw : 9 ≤ mw) [Libm mw ew] (p : Primitive (Flt mw ew)) (b : Bbox (Flt mw ew)) (ts : List (Transform (Flt mw ew)))
    (hq : Reaches p ts b.prim) (r : Ray (Flt mw ew)) (hp : p.intersect r = some none) (hf : ChainFin ts r)
    (h : ∀ obj, Chain ts r obj → SlabFinite b obj) (hb : ∀ i, (b.pmin.vec i).toReal ≤ (b.pmax.vec i).toReal) (ht : r.tmax.isNaN = false)
    (t : ℝ) (h0 : 0 ≤ t) (h1 : (t : EReal) ≤ r.tmax.val) :
    ∃ obj, Chain ts r obj ∧ ∃ i, pathPoint ts (rayPoint r t) i < (b.pmin.vec i).toReal + pathMargin b ts r obj t i ∨
      (b.pmax.vec i).toReal - pathMargin b ts r obj t i < pathPoint ts (rayPoint r t) i := by
  obtain ⟨obj, hc, hn⟩ := C126_none p _ ts hq r hp
  refine ⟨obj, hc, ?_⟩
  by_contra hcon
  push Not at hcon
  obtain ⟨res, hr⟩ := C126_box_hit hw b ts r obj hc hf (h obj hc) hb ht t h0 h1 hcon
  rw [hn] at hr
  cases hr

/-- C126: where a box in the scene reports a hit, the exact world ray is inside the exact image of the box with its planes moved
outwards by the margin. -/
theorem C126_box_range (hw : 9 ≤ mw) (b : Bbox (Flt mw ew)) (ts : List (Transform (Flt mw ew))) (r obj : Ray (Flt mw ew)) (hc : Chain ts r obj)
    (hf : ChainFin ts r) (h : SlabFinite b obj) (hb : ∀ i, (b.pmin.vec i).toReal ≤ (b.pmax.vec i).toReal) (ht : r.tmax.isNaN = false)
    (h0 : 0 ≤ r.tmax.val) (res : IntersectionResult (Flt mw ew)) (hr : b.prim.intersect obj = some (some res)) (i : _root_.Fin 3) :
    (b.pmin.vec i).toReal - pathMargin b ts r obj res.tRay.toReal i ≤ pathPoint ts (rayPoint r res.tRay.toReal) i ∧
      pathPoint ts (rayPoint r res.tRay.toReal) i ≤ (b.pmax.vec i).toReal + pathMargin b ts r obj res.tRay.toReal i := by
  have htm := chain_tmax ts r obj hc
  obtain ⟨t1, he⟩ : ∃ t1, b.intersectRay obj = some (res.tRay, t1) := by
    unfold Bbox.prim Bbox.hit at hr
    have hr := Option.some.inj hr
    cases hx : b.intersectRay obj with
    | none => rw [hx] at hr; cases hr
    | some x => rw [hx] at hr; cases hr; exact ⟨x.2, rfl⟩
  obtain ⟨⟨-, -, -, h01, -⟩, hin⟩ := C92_range b obj h hb (by rw [htm]; exact ht) (by rw [htm]; exact h0) _ _ he
  have a := _root_.abs_le.1 (C126_chain hw ts r obj hc hf res.tRay.toReal i).2.1
  have := hin res.tRay.toReal le_rfl h01 i
  unfold exactAt at this
  unfold pathMargin
  unfold rayPoint at a ⊢
  constructor <;> linarith [a.1, a.2, this.1, this.2]

/-! ### spheres -/

section core2
/-- squares of the coordinates, from the error of the coordinates -/
theorem nested_squares {g : ℝ} (P Q W o e : _root_.Fin 3 → ℝ) (hg : 1 ≤ g) (hP : ∀ i, |P i| ≤ W i) (hQ : ∀ i, |Q i - P i| ≤ (g - 1) * W i)
    (ho : ∀ i, |o i| + |e i| ≤ g * W i) :
    |∑ i, Q i ^ 2 - ∑ i, P i ^ 2| ≤ (g ^ 2 - 1) * ∑ i, W i ^ 2 ∧ ∑ i, o i ^ 2 + ∑ i, e i ^ 2 ≤ g ^ 2 * ∑ i, W i ^ 2 := by
  have W0 : ∀ i, 0 ≤ W i := fun i => (abs_nonneg _).trans (hP i)
  constructor
  · rw [← Finset.sum_sub_distrib, Finset.mul_sum]
    refine (Finset.abs_sum_le_sum_abs _ _).trans (Finset.sum_le_sum fun i _ => ?_)
    have e1 : Q i ^ 2 - P i ^ 2 = (Q i - P i) * (2 * P i + (Q i - P i)) := by ring
    have h1 : |2 * P i + (Q i - P i)| ≤ (g + 1) * W i := by
      refine (abs_add_le _ _).trans ?_
      rw [abs_mul, abs_two]
      linarith [hP i, hQ i]
    rw [e1, abs_mul]
    refine (mul_le_mul (hQ i) h1 (abs_nonneg _) (mul_nonneg (by linarith) (W0 i))).trans (le_of_eq (by ring))
  · rw [← Finset.sum_add_distrib, Finset.mul_sum]
    refine Finset.sum_le_sum fun i _ => ?_
    have h1 : o i ^ 2 + e i ^ 2 ≤ (|o i| + |e i|) ^ 2 := by
      rw [← sq_abs (o i), ← sq_abs (e i)]
      nlinarith [mul_nonneg (abs_nonneg (o i)) (abs_nonneg (e i))]
    have h2 := pow_le_pow_left₀ (by positivity) (ho i) 2
    rw [mul_pow] at h2
    exact h1.trans h2
end core2

variable [Libm mw ew]

/-- C126: what a sphere in the scene reports as a hit is on its exact image, up to rounding: at the reported `t_ray` the exact point of
the *world* ray, taken through the exact affine maps of the `k` transforms around the sphere, satisfies the equation of the sphere
to within `(1 + 64u)(1 + 4.04u)^2k − 1`, about `(64 + 8.08k)u`, of the squared sizes of the terms involved. -/
theorem C126_sphere (hm : 9 ≤ mw) (hw : mw + 3 ≤ 2 ^ (ew - 1)) (s : Sphere (Flt mw ew)) (ts : List (Transform (Flt mw ew)))
    (r obj : Ray (Flt mw ew)) (hc : Chain ts r obj) (hfin : ChainFin ts r) (hs : SphereRegular s obj)
    (hf : ∀ t0 t1, solveQuadratic obj.direction.squareNorm ((GVec.conv .vector obj.origin).dot obj.direction * GFloat.fromI64 2)
      ((GVec.conv .vector obj.origin).squareNorm - Scalar.square s.radius) = some (t0, t1) → t0.isFin = true ∧ t1.isFin = true)
    (res : IntersectionResult (Flt mw ew)) (hr : s.prim.intersect obj = some (some res))
    (hn : etaRnd mw ew ≤ uRnd mw * |res.tRay.toReal|) :
    |∑ i, pathPoint ts (rayPoint r res.tRay.toReal) i ^ 2 - s.radius.toReal ^ 2| ≤
      ((1 + 64 * uRnd mw) * (1 + 4.04 * uRnd mw) ^ (2 * ts.length) - 1) *
        (∑ i, pathSize (padding mw ew res.tRay.toReal) ts (raySize r res.tRay.toReal) i ^ 2 + s.radius.toReal ^ 2) := by
  have hu := uRnd_pos (mw := mw)
  obtain ⟨h, hh, he⟩ : ∃ h, s.intersectRay obj = some h ∧ res.tRay = h.tRay := by
    have hr' : s.intersect obj = some res := Option.some.inj hr
    unfold Sphere.intersect at hr'
    cases hh : s.intersectRay obj with
    | none => rw [hh] at hr'; cases hr'
    | some h => rw [hh] at hr'; cases hr'; exact ⟨h, rfl, rfl⟩
  rw [he] at hn ⊢
  have ch := fun i => C126_chain hm ts r obj hc hfin h.tRay.toReal i
  have hg : 1 ≤ (1 + 4.04 * uRnd mw) ^ ts.length := one_le_pow₀ (by linarith)
  rw [show (1 + 4.04 * uRnd mw) ^ (2 * ts.length) = ((1 + 4.04 * uRnd mw) ^ ts.length) ^ 2 by rw [← pow_mul, Nat.mul_comm]]
  generalize (1 + 4.04 * uRnd mw) ^ ts.length = g at *
  obtain ⟨k1, k2⟩ := nested_squares (fun i => pathPoint ts (rayPoint r h.tRay.toReal) i)
    (fun i => (obj.origin.vec i).toReal + (obj.direction.vec i).toReal * h.tRay.toReal)
    (fun i => pathSize (padding mw ew h.tRay.toReal) ts (raySize r h.tRay.toReal) i) (fun i => (obj.origin.vec i).toReal)
    (fun i => (obj.direction.vec i).toReal * h.tRay.toReal) hg (fun i => (ch i).1) (fun i => (ch i).2.1) (fun i => (ch i).2.2)
  have k3 := (C102_hit_partial hm hw s obj h hh hs hf hn).1
  unfold sphereDefect sphereScale at k3
  have R0 := sq_nonneg s.radius.toReal
  have S0 : 0 ≤ ∑ i, pathSize (padding mw ew h.tRay.toReal) ts (raySize r h.tRay.toReal) i ^ 2 := Finset.sum_nonneg fun i _ => sq_nonneg _
  generalize ∑ i, pathSize (padding mw ew h.tRay.toReal) ts (raySize r h.tRay.toReal) i ^ 2 = S at *
  generalize ∑ i, pathPoint ts (rayPoint r h.tRay.toReal) i ^ 2 = P at *
  generalize ∑ i, ((obj.origin.vec i).toReal + (obj.direction.vec i).toReal * h.tRay.toReal) ^ 2 = Q at *
  have k4 := mul_le_mul_of_nonneg_left k2 hu.le
  have g2 : 1 ≤ g ^ 2 := one_le_pow₀ hg
  have k5 : s.radius.toReal ^ 2 ≤ g ^ 2 * s.radius.toReal ^ 2 := le_mul_of_one_le_left R0 g2
  have k6 := mul_le_mul_of_nonneg_left k5 hu.le
  rw [_root_.abs_le] at *
  constructor <;> linarith [k1.1, k1.2, k3.1, k3.2]

/-- C126: if the solver finds no root for a sphere in the scene, the world ray misses its exact image up to rounding: at no `t` does the
exact point, taken through the exact affine maps, lie inside the sphere by more than `(1 + 32u)(1 + 4.04u)^2k − 1` of the squared sizes. -/
theorem C126_sphere_miss (hm : 9 ≤ mw) (s : Sphere (Flt mw ew)) (ts : List (Transform (Flt mw ew))) (r obj : Ray (Flt mw ew))
    (hc : Chain ts r obj) (hfin : ChainFin ts r) (hs : SphereRegular s obj)
    (hq : solveQuadratic obj.direction.squareNorm ((GVec.conv .vector obj.origin).dot obj.direction * GFloat.fromI64 2)
      ((GVec.conv .vector obj.origin).squareNorm - Scalar.square s.radius) = none) (t : ℝ) :
    s.radius.toReal ^ 2 - ((1 + 32 * uRnd mw) * (1 + 4.04 * uRnd mw) ^ (2 * ts.length) - 1) *
        (∑ i, pathSize (padding mw ew t) ts (raySize r t) i ^ 2 + s.radius.toReal ^ 2) ≤ ∑ i, pathPoint ts (rayPoint r t) i ^ 2 := by
  have hu := uRnd_pos (mw := mw)
  have ch := fun i => C126_chain hm ts r obj hc hfin t i
  have hg : 1 ≤ (1 + 4.04 * uRnd mw) ^ ts.length := one_le_pow₀ (by linarith)
  rw [show (1 + 4.04 * uRnd mw) ^ (2 * ts.length) = ((1 + 4.04 * uRnd mw) ^ ts.length) ^ 2 by rw [← pow_mul, Nat.mul_comm]]
  generalize (1 + 4.04 * uRnd mw) ^ ts.length = g at *
  obtain ⟨k1, k2⟩ := nested_squares (fun i => pathPoint ts (rayPoint r t) i)
    (fun i => (obj.origin.vec i).toReal + (obj.direction.vec i).toReal * t)
    (fun i => pathSize (padding mw ew t) ts (raySize r t) i) (fun i => (obj.origin.vec i).toReal)
    (fun i => (obj.direction.vec i).toReal * t) hg (fun i => (ch i).1) (fun i => (ch i).2.1) (fun i => (ch i).2.2)
  have k3 := C102_miss_partial hm s obj hs hq t
  unfold sphereDefect at k3
  have R0 := sq_nonneg s.radius.toReal
  have S0 : 0 ≤ ∑ i, pathSize (padding mw ew t) ts (raySize r t) i ^ 2 := Finset.sum_nonneg fun i _ => sq_nonneg _
  have E0 : 0 ≤ ∑ i, ((obj.direction.vec i).toReal * t) ^ 2 := Finset.sum_nonneg fun i _ => sq_nonneg _
  generalize ∑ i, pathSize (padding mw ew t) ts (raySize r t) i ^ 2 = S at *
  generalize ∑ i, pathPoint ts (rayPoint r t) i ^ 2 = P at *
  generalize ∑ i, ((obj.origin.vec i).toReal + (obj.direction.vec i).toReal * t) ^ 2 = Q at *
  generalize ∑ i, ((obj.direction.vec i).toReal * t) ^ 2 = E at *
  have k4 := mul_le_mul_of_nonneg_left (show ∑ i, (obj.origin.vec i).toReal ^ 2 ≤ g ^ 2 * S by linarith) hu.le
  have g2 : 1 ≤ g ^ 2 := one_le_pow₀ hg
  have k5 : s.radius.toReal ^ 2 ≤ g ^ 2 * s.radius.toReal ^ 2 := le_mul_of_one_le_left R0 g2
  have k6 := mul_le_mul_of_nonneg_left k5 hu.le
  linarith [(_root_.abs_le.1 k1).2]

section examples
/-- the translations by (4, 0, 0) and (3, 0, 0) -/
def nestA : Transform F32 := Transform.translate (new3 (F32.lit 4) (F32.lit 0) (F32.lit 0))
def nestB : Transform F32 := Transform.translate (new3 (F32.lit 3) (F32.lit 0) (F32.lit 0))
theorem nestM_some : (nestA.mapRayInv objW).isSome = true := by decide +kernel
/-- the ray from (7, 0, −3) along the z axis, after the first -/
def nestM : Ray F32 := (nestA.mapRayInv objW).get nestM_some
theorem nestR_some : (nestB.mapRayInv nestM).isSome = true := by decide +kernel
theorem nestR_eq : (nestB.mapRayInv nestM).get nestR_some = objR :=
  Ray.ext (GVec.ext (funext (by decide +kernel))) (GVec.ext (funext (by decide +kernel))) (by decide +kernel)
theorem nest_chain : Chain [nestA, nestB] objW objR :=
  ⟨nestM, (Option.some_get _).symm, objR, by rw [← nestR_eq]; exact (Option.some_get _).symm, rfl⟩
theorem nest_fin : ChainFin [nestA, nestB] objW := by
  refine ⟨⟨by decide +kernel, by decide +kernel⟩, affineF_of rfl rfl rfl rfl, fun s hs => ?_⟩
  have e : s = nestM := Option.some.inj (hs.symm.trans (Option.some_get nestM_some).symm)
  subst e
  refine ⟨⟨by decide +kernel, by decide +kernel⟩, affineF_of rfl rfl rfl rfl, fun s hs => ?_⟩
  have e : s = objR := by rw [← nestR_eq]; exact Option.some.inj (hs.symm.trans (Option.some_get nestR_some).symm)
  subst e
  exact ⟨by decide +kernel, by decide +kernel⟩

/-- Non-vacuity: the unit sphere moved by (3, 0, 0), in a list moved by (4, 0, 0), in a list with a cube; and a ray through its centre.
The scene reports a hit at distance 2; the path to the sphere and the ray that reaches it meet the hypotheses of `C126_sphere`. -/
example : letI : Libm 23 8 := ⟨id, id, id, id, id, id, fun y _ => y⟩
    let scene := PrimitiveList.prim [objB.prim, (PrimitiveList.prim [exSphF.prim.transformed nestB]).transformed nestA]
    Primitive.Scene (fun _ => False) scene ∧ Reaches scene [nestA, nestB] exSphF.prim ∧
    (scene.intersect objW).map (fun o => o.map (·.tRay)) = some (some (F32.lit 2)) ∧
    Chain [nestA, nestB] objW objR ∧ ChainFin [nestA, nestB] objW ∧ SphereRegular exSphF objR ∧
    (∀ t0 t1, solveQuadratic objR.direction.squareNorm ((GVec.conv .vector objR.origin).dot objR.direction * GFloat.fromI64 2)
      ((GVec.conv .vector objR.origin).squareNorm - Scalar.square exSphF.radius) = some (t0, t1) → t0.isFin = true ∧ t1.isFin = true) ∧
    (exSphF.prim.intersect objR).map (fun o => o.map (·.tRay)) = some (some (F32.lit 2)) ∧
    etaRnd 23 8 ≤ uRnd 23 * |(F32.lit 2).toReal| := by
  obtain ⟨-, -, -, -, h1, h2, -, h3, -⟩ := objR_hit
  letI : Libm 23 8 := ⟨id, id, id, id, id, id, fun y _ => y⟩
  intro scene
  refine ⟨.list _ fun p hp => ?_, .list _ _ _ _ (.tail _ (.head _)) (.transformed _ _ _ _ (.list _ _ _ _ (.head _) (.transformed _ _ _ _ (.here _)))),
    by decide +kernel, nest_chain, nest_fin, h1, h2, by decide +kernel, h3⟩
  rcases List.mem_cons.1 hp with rfl | hp
  · exact .bbox _
  · rw [List.mem_singleton.1 hp]
    exact .transformed _ _ (.list _ fun q hq => by rw [List.mem_singleton.1 hq]; exact .transformed _ _ (.sphere _))

theorem nestB_fin : Chain [objT] objD objS ∧ ChainFin [objT] objD := by
  refine ⟨⟨objS, (Option.some_get _).symm, rfl⟩, ⟨⟨by decide +kernel, by decide +kernel⟩, affineF_of rfl rfl rfl rfl, fun s hs => ?_⟩⟩
  have e : s = objS := Option.some.inj (hs.symm.trans (Option.some_get objS_some).symm)
  subst e
  exact ⟨by decide +kernel, by decide +kernel⟩

/-- Non-vacuity: the cube moved by (7, 0, 0) and a ray through its centre at distance 3 meet the hypotheses of `C126_box_hit` (and
of `C126_box_range`). -/
example : Chain [objT] objD objS ∧ ChainFin [objT] objD ∧ SlabFinite objB objS ∧ (∀ i, (objB.pmin.vec i).toReal ≤ (objB.pmax.vec i).toReal) ∧
    objD.tmax.isNaN = false ∧ ((3 : ℝ) : EReal) ≤ objD.tmax.val ∧
    (∀ i, (objB.pmin.vec i).toReal + pathMargin objB [objT] objD objS 3 i ≤ pathPoint [objT] (rayPoint objD 3) i ∧
      pathPoint [objT] (rayPoint objD 3) i ≤ (objB.pmax.vec i).toReal - pathMargin objB [objT] objD objS 3 i) ∧
    (objB.prim.intersect objS).map (fun o => o.isSome) = some true := by
  obtain ⟨-, -, -, -, k1, k2, k3, k4, -⟩ := objB_hit
  refine ⟨nestB_fin.1, nestB_fin.2, k1, k2, k3, k4, fun i => ?_, by decide +kernel⟩
  obtain ⟨pt, sz, sm, eb1, eb2⟩ := objB_facts i
  have hu := uRnd_pos (mw := 23)
  have hu1 : uRnd 23 ≤ 1 / 1024 := uRnd_small (by norm_num)
  have hp : padding 23 8 3 ≤ 1 := by
    unfold padding etaRnd uRnd fK
    norm_num
  have hp0 : 0 ≤ padding 23 8 3 := by
    have := etaRnd_pos (mw := 23) (ew := 8)
    unfold padding; positivity
  have mg : pathMargin objB [objT] objD objS 3 i ≤ 1 / 2 := by
    unfold pathMargin
    change slabMargin objB objS i + ((1 + 4.04 * uRnd 23) ^ 1 - 1) * (affAbs objT.minv (raySize objD 3) 1 i.castSucc + padding 23 8 3) ≤ 1 / 2
    rw [← objSize_eq, pow_one]
    have k := mul_le_mul_of_nonneg_left (add_le_add sz hp) hu.le
    linarith
  have e : pathPoint [objT] (rayPoint objD 3) i = 0 := pt
  rw [e, eb1, eb2]
  constructor <;> linarith

/-- a ray from (20, −3, −3) along (1, 1, 1), which misses the moved cube -/
def nestN : Ray F32 := ⟨new3 (F32.lit 20) (-F32.lit 3) (-F32.lit 3), new3 (F32.lit 1) (F32.lit 1) (F32.lit 1), F32.lit 10⟩
theorem nestN_some : (objT.mapRayInv nestN).isSome = true := by decide +kernel
theorem nestN_slab : SlabFinite objB ((objT.mapRayInv nestN).get nestN_some) := by unfold SlabFinite; decide +kernel

/-- Non-vacuity: the moved cube and that ray meet the hypotheses of `C126_box_miss`. -/
example : letI : Libm 23 8 := ⟨id, id, id, id, id, id, fun y _ => y⟩
    Reaches (objB.prim.transformed objT) [objT] objB.prim ∧
    ((objB.prim.transformed objT).intersect nestN).map (fun o => o.isSome) = some false ∧ ChainFin [objT] nestN ∧
    (∀ obj, Chain [objT] nestN obj → SlabFinite objB obj) := by
  refine ⟨.transformed _ _ _ _ (.here _), by decide +kernel, ⟨⟨by decide +kernel, by decide +kernel⟩, affineF_of rfl rfl rfl rfl, fun s hs => ?_⟩, ?_⟩
  · have e : s = (objT.mapRayInv nestN).get nestN_some := Option.some.inj (hs.symm.trans (Option.some_get nestN_some).symm)
    subst e
    exact ⟨by decide +kernel, by decide +kernel⟩
  · rintro obj ⟨s, hs, rfl⟩
    have e : s = (objT.mapRayInv nestN).get nestN_some := Option.some.inj (hs.symm.trans (Option.some_get nestN_some).symm)
    subst e
    exact nestN_slab
end examples

end Scarlet
