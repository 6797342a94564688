import Verif.Props.FirstHit
import Verif.Props.Contain
import Verif.Props.Visibility
import Verif.Props.ParallelBox
import Verif.Props.ShadowRay
import Verif.Props.Float

/-!
C154: rays started at a hit point (shadow rays, reflections).  The surface they start on is in the way of every one of them, in exact
arithmetic and on floats; so they have to be started off the surface.  How far off is enough: any distance in exact arithmetic, one float for
a box, about 116 roundings of the radius squared for a sphere.
-/

set_option linter.unusedSectionVars false

namespace Scarlet
open Flt GVec Contain

/-! ### exact arithmetic, every scene -/

/-- C154: a ray of any direction and any length that starts at the point of a reported hit is reported to hit. -/
theorem C154_self (p : Primitive ℝ) (R : Point ℝ 3 → Prop) (M : Ray ℝ → Prop) (h : Occupies p R M) (ray : Ray ℝ) (hm : M ray)
    (h0 : 0 ≤ ray.tmax) (r : IntersectionResult ℝ) (hr : p.intersect ray = some (some r)) (s : Ray ℝ) (hs : s.origin = ray.eval r.tRay)
    (hM : M s) (s0 : 0 ≤ s.tmax) : p.doIntersect s = some true := by
  obtain ⟨v, hv, hi⟩ := C141_exact p R M h s hM s0
  rw [hv, hi.2 ⟨s.eval 0, ⟨0, le_rfl, s0, rfl⟩, ?_⟩]
  have : s.eval 0 = s.origin := by
    apply GVec.ext; funext i
    change s.origin.vec i + s.direction.vec i * 0 = _
    ring
  rw [this, hs]
  exact (C141_hit p R M h ray hm h0 r hr).1

/-- Go on from the hit that `p` reports, in the same direction. -/
def advance (p : Primitive ℝ) (ray : Ray ℝ) : Option (Ray ℝ) :=
  match p.intersect ray with
  | some (some r) => some ⟨ray.eval r.tRay, ray.direction, ray.tmax⟩
  | _ => none

/-- C154: so going through an object from hit to hit gets stuck at the first one: the ray that goes on from there reports the same point
again, at distance 0, any number of times. -/
theorem C154_stuck (p : Primitive ℝ) (R : Point ℝ 3 → Prop) (M : Ray ℝ → Prop) (h : OccupiesOne p R M) (ray : Ray ℝ) (hm : M ray)
    (h0 : 0 ≤ ray.tmax) (s : Ray ℝ) (hs : advance p ray = some s) (hM : M s) (n : ℕ) :
    (fun o => Option.bind o (advance p))^[n] (some s) = some s ∧ ∃ r, p.intersect s = some (some r) ∧ r.tRay = 0 := by
  have self : ∀ s : Ray ℝ, s.eval 0 = s.origin := by
    intro s
    apply GVec.ext; funext i
    change s.origin.vec i + s.direction.vec i * 0 = _
    ring
  have hit : ∃ r, p.intersect s = some (some r) ∧ r.tRay = 0 := by
    unfold advance at hs
    split at hs
    · rename_i r hr
      cases hs
      obtain ⟨o, e, -, h2⟩ := C142_first p R M h ray hm h0
      rw [hr, Option.some.injEq] at e
      obtain ⟨⟨-, -, hR⟩, -⟩ := h2 r e.symm
      obtain ⟨o', e', h1', h2'⟩ := C142_first p R M h ⟨ray.eval r.tRay, ray.direction, ray.tmax⟩ hM h0
      have z : (0 : ℝ) ∈ MeetsAt ⟨ray.eval r.tRay, ray.direction, ray.tmax⟩ R := ⟨le_rfl, h0, by rw [self]; exact hR⟩
      cases o' with
      | none => rw [h1' rfl] at z; cases z
      | some r' =>
        obtain ⟨a, b⟩ := h2' r' rfl
        exact ⟨r', e', le_antisymm (b z) a.1⟩
    · cases hs
  refine ⟨?_, hit⟩
  obtain ⟨r, hr, hr0⟩ := hit
  induction n with
  | zero => rfl
  | succ n ih =>
    rw [Function.iterate_succ_apply', ih]
    change advance p s = _
    unfold advance
    rw [hr]
    dsimp only
    rw [hr0, self]

/-- C154: a ray that starts beyond a plane which has the whole scene on its other side, and does not lead back to the plane, meets
nothing. -/
theorem C154_away (p : Primitive ℝ) (R : Point ℝ 3 → Prop) (M : Ray ℝ → Prop) (h : Occupies p R M) (s : Ray ℝ) (hM : M s)
    (s0 : 0 ≤ s.tmax) (n : _root_.Fin 3 → ℝ) (c : ℝ) (hR : ∀ x, R x → ∑ i, n i * x.vec i ≤ c) (ho : c < ∑ i, n i * s.origin.vec i)
    (hd : 0 ≤ ∑ i, n i * s.direction.vec i) : p.doIntersect s = some false := by
  obtain ⟨v, hv, hi⟩ := C141_exact p R M h s hM s0
  rw [hv, Option.some.injEq, Bool.eq_false_iff, ne_eq, hi]
  rintro ⟨x, ⟨t, t0, -, rfl⟩, hx⟩
  have h1 := hR _ hx
  have e : ∑ i, n i * (s.eval t).vec i = ∑ i, n i * s.origin.vec i + t * ∑ i, n i * s.direction.vec i := by
    rw [Finset.mul_sum, ← Finset.sum_add_distrib]
    refine Finset.sum_congr rfl fun i _ => ?_
    change n i * (s.origin.vec i + s.direction.vec i * t) = _
    ring
  rw [e] at h1
  nlinarith

/-! ### floats -/

section
variable {mw ew : Nat} [FltImpl mw ew] [LawfulFlt mw ew]

/-- Specification: along axis `i` the ray starts beyond the box and leads away from it, no faster than 1 (which a normalised direction
does not); the numbers of this axis are finite. -/
def Leaving (b : Bbox (Flt mw ew)) (ray : Ray (Flt mw ew)) (i : _root_.Fin 3) : Prop :=
  (b.pmin.vec i).isFin = true ∧ (b.pmax.vec i).isFin = true ∧ (ray.origin.vec i).isFin = true ∧ (ray.direction.vec i).isFin = true ∧
  (b.pmin.vec i).toReal ≤ (b.pmax.vec i).toReal ∧
  (((b.pmax.vec i).toReal < (ray.origin.vec i).toReal ∧ 0 < (ray.direction.vec i).toReal ∧ (ray.direction.vec i).toReal ≤ 1) ∨
   ((ray.origin.vec i).toReal < (b.pmin.vec i).toReal ∧ (ray.direction.vec i).toReal < 0 ∧ -1 ≤ (ray.direction.vec i).toReal))

theorem toReal_neg_iff' {x : Flt mw ew} : x.toReal < 0 ↔ x.key < 0 := by
  rw [← not_le, ← not_le, not_iff_not]; exact toReal_nonneg_iff

/-- A negative number divided by a positive one that is at most 1 is negative: nothing underflows. -/
theorem div_neg_pos {x d : Flt mw ew} (hx : x.isNaN = false) (x0 : x.key < 0) (hd : d.isFin = true) (d0 : 0 < d.toReal) (d1 : d.toReal ≤ 1) :
    (x / d).isNaN = false ∧ (x / d).key < 0 := by
  have k0 := toReal_pos_iff.1 d0
  refine ⟨div_num hx hd (by omega), ?_⟩
  have fin : ∀ y : Flt mw ew, y.isFin = true → y.key < 0 → (y / d).key < 0 := by
    intro y hy y0
    have e := (div_fin hy hd (by omega)).2
    change (y / d).key = _ at e
    have : y.toReal / d.toReal ≤ y.toReal := by
      rw [div_le_iff₀ d0]
      nlinarith [toReal_neg_iff'.2 y0]
    have := rndK_mono mw ew this
    rw [rndK_toReal (notNaN_of_isFin hy)] at this
    omega
  by_cases hf : x.isFin = true
  · exact fin x hf x0
  · have o := (sone_spec (mw := mw) (ew := ew)).1
    have ok := key_sone_pos (mw := mw) (ew := ew)
    have n1 : (Scalar.one : Flt mw ew).neg.isFin = true := by rw [isFin_neg]; exact o
    have nk : (Scalar.one : Flt mw ew).neg.key = -(Scalar.one : Flt mw ew).key := key_neg _
    have hb := key_bounds hx
    have hi := isFin_iff_key.1 o
    rw [isFin_iff_key] at hf
    have := div_mono_pos hx (notNaN_of_isFin n1) hd k0 (by rw [nk]; omega)
    have := fin _ n1 (by rw [nk]; omega)
    omega

/-- A positive number divided by a negative one that is at least -1 is negative. -/
theorem div_pos_neg {x d : Flt mw ew} (hx : x.isNaN = false) (x0 : 0 < x.key) (hd : d.isFin = true) (d0 : d.toReal < 0) (d1 : -1 ≤ d.toReal) :
    (x / d).isNaN = false ∧ (x / d).key < 0 := by
  have k0 := toReal_neg_iff'.1 d0
  refine ⟨div_num hx hd (by omega), ?_⟩
  have fin : ∀ y : Flt mw ew, y.isFin = true → 0 < y.key → (y / d).key < 0 := by
    intro y hy y0
    have e := (div_fin hy hd (by omega)).2
    change (y / d).key = _ at e
    have : y.toReal / d.toReal ≤ -y.toReal := by
      rw [div_le_iff_of_neg d0]
      nlinarith [toReal_pos_iff.2 y0]
    have := rndK_mono mw ew this
    rw [rndK_neg, rndK_toReal (notNaN_of_isFin hy)] at this
    omega
  by_cases hf : x.isFin = true
  · exact fin x hf x0
  · have o := (sone_spec (mw := mw) (ew := ew)).1
    have ok := key_sone_pos (mw := mw) (ew := ew)
    have hb := key_bounds hx
    have hi := isFin_iff_key.1 o
    rw [isFin_iff_key] at hf
    have := div_mono_neg (x := Scalar.one) (notNaN_of_isFin o) hx hd k0 (by omega)
    have := fin _ o ok
    omega

/-- C154: on floats, a ray that starts beyond a face of a box and leads away from it misses the box; whatever the other axes hold, and
without any margin. -/
theorem C154_box (b : Bbox (Flt mw ew)) (ray : Ray (Flt mw ew)) (i : _root_.Fin 3) (h : Leaving b ray i) : b.intersectRay ray = none := by
  obtain ⟨f1, f2, f3, f4, hb, h⟩ := h
  refine (intersectRay_none_iff b ray).2 (Or.inr (Or.inl ⟨i, ?_⟩))
  have q : ∀ x : Flt mw ew, x = b.pmin.vec i - ray.origin.vec i ∨ x = b.pmax.vec i - ray.origin.vec i →
      (x / ray.direction.vec i).isNaN = false ∧ (x / ray.direction.vec i).key < 0 := by
    intro x hx
    have hn : x.isNaN = false := by
      rcases hx with rfl | rfl
      · exact (sub_fin f1 f3).1
      · exact (sub_fin f2 f3).1
    rcases h with ⟨k, d0, d1⟩ | ⟨k, d0, d1⟩
    · refine div_neg_pos hn ?_ f4 d0 d1
      rcases hx with rfl | rfl
      · exact sub_key_neg f1 f3 (toReal_lt_iff.1 (hb.trans_lt k))
      · exact sub_key_neg f2 f3 (toReal_lt_iff.1 k)
    · refine div_pos_neg hn ?_ f4 d0 d1
      rcases hx with rfl | rfl
      · exact sub_key_pos f1 f3 (toReal_lt_iff.1 k)
      · exact sub_key_pos f2 f3 (toReal_lt_iff.1 (k.trans_le hb))
  obtain ⟨n1, k1⟩ := q _ (Or.inl rfl)
  obtain ⟨n2, k2⟩ := q _ (Or.inr rfl)
  have m := smax_key n1 n2
  exact slt_iff.2 ⟨m.1, notNaN_of_isFin isFin_szero, by
    change (Scalar.max _ _ : Flt mw ew).key < (Scalar.zero : Flt mw ew).key
    rw [m.2, key_szero]; omega⟩

/-- C154: so `next_up` of the face is far enough off an upper face, and `next_down` off a lower one. -/
theorem C154_next (b : Bbox (Flt mw ew)) (ray : Ray (Flt mw ew)) (i : _root_.Fin 3) (f1 : (b.pmin.vec i).isFin = true)
    (f2 : (b.pmax.vec i).isFin = true) (hb : (b.pmin.vec i).toReal ≤ (b.pmax.vec i).toReal) (f3 : (ray.origin.vec i).isFin = true)
    (f4 : (ray.direction.vec i).isFin = true)
    (h : (ray.origin.vec i = GFloat.nextUp (b.pmax.vec i) ∧ 0 < (ray.direction.vec i).toReal ∧ (ray.direction.vec i).toReal ≤ 1) ∨
      (ray.origin.vec i = GFloat.nextDown (b.pmin.vec i) ∧ (ray.direction.vec i).toReal < 0 ∧ -1 ≤ (ray.direction.vec i).toReal)) :
    b.intersectRay ray = none := by
  refine C154_box b ray i ⟨f1, f2, f3, f4, hb, ?_⟩
  have b1 := isFin_iff_key.1 f1
  have b2 := isFin_iff_key.1 f2
  rcases h with ⟨e, d⟩ | ⟨e, d⟩
  · refine Or.inl ⟨toReal_lt_iff.2 ?_, d⟩
    rw [e, (nextUp_key (notNaN_of_isFin f2)).2]; omega
  · refine Or.inr ⟨toReal_lt_iff.2 ?_, d⟩
    rw [e, (nextDown_key (notNaN_of_isFin f1)).2]; omega

/-- The box of one point is hit by every ray that starts there, at 0. -/
theorem point_hit (ray : Ray (Flt mw ew)) (ho : ray.origin.Fin) (hd : ray.direction.Fin) (ht : ray.tmax.isNaN = false) (h0 : 0 ≤ ray.tmax.key) :
    ∃ s0 s1, (⟨ray.origin, ray.origin⟩ : Bbox (Flt mw ew)).intersectRay ray = some (s0, s1) ∧ s0.key = 0 := by
  have hK := kInf_pos (mw := mw) (ew := ew)
  have q : ∀ i, loK (slab ⟨ray.origin, ray.origin⟩ ray i).1 ≤ 0 ∧ 0 ≤ hiK (slab ⟨ray.origin, ray.origin⟩ ray i).2 := by
    intro i
    have e1 : (slab ⟨ray.origin, ray.origin⟩ ray i).1 = (ray.origin.vec i - ray.origin.vec i) / ray.direction.vec i := by
      unfold slab
      rw [smin_def]; exact ite_self _
    have e2 : (slab ⟨ray.origin, ray.origin⟩ ray i).2 = (ray.origin.vec i - ray.origin.vec i) / ray.direction.vec i := by
      unfold slab
      rw [smax_def]; exact ite_self _
    rw [e1, e2]
    have d := sub_fin (ho i) (ho i)
    rw [sub_self, rndK_zero] at d
    change (ray.origin.vec i - ray.origin.vec i).isNaN = false ∧ (ray.origin.vec i - ray.origin.vec i).key = 0 at d
    have df : (ray.origin.vec i - ray.origin.vec i).isFin = true := isFin_iff_key.2 ⟨by omega, by omega⟩
    cases hn : ((ray.origin.vec i - ray.origin.vec i) / ray.direction.vec i).isNaN
    · rw [loK_of hn, hiK_of hn]
      have hz : (ray.direction.vec i).key ≠ 0 := by
        intro hz
        change (Flt.div _ _).isNaN = false at hn
        unfold Flt.div at hn
        rw [notNaN_of_isFin df, notNaN_of_isFin (hd i), notInf_of_isFin df, notInf_of_isFin (hd i), isZero_iff_key.2 hz, isZero_iff_key.2 d.2] at hn
        simp [isNaN_nan] at hn
      have e := (div_fin df (hd i) hz).2
      rw [toReal_eq_zero_iff.2 d.2, zero_div, rndK_zero] at e
      change ((ray.origin.vec i - ray.origin.vec i) / ray.direction.vec i).key = 0 at e
      omega
    · simp only [loK, hiK, hn, if_true]
      omega
  obtain ⟨N, F, hN, hF, h⟩ := intersectRay_keys ⟨ray.origin, ray.origin⟩ ray
  have q0 := q 0; have q1 := q 1; have q2 := q 2
  rw [hiK_of ht] at h
  rcases h with ⟨-, h⟩ | ⟨-, -, -, t0, t1, e, -, k, -⟩
  · omega
  · exact ⟨t0, t1, e, by omega⟩

/-- C154: on floats and without tolerance, a box is hit at distance 0 by every ray that starts in it or on its surface, whatever its
direction, unless the ray runs within a lower face (where it is not hit: C53_blocked). -/
theorem C154_within (b : Bbox (Flt mw ew)) (ray : Ray (Flt mw ew)) (hb : b.pmin.Fin ∧ b.pmax.Fin) (ho : ray.origin.Fin) (hd : ray.direction.Fin)
    (ht : ray.tmax.isNaN = false) (h0 : 0 ≤ ray.tmax.val) (hin : b.inside ray.origin = true)
    (hf : ∀ i, (ray.direction.vec i).toReal = 0 → (b.pmin.vec i).toReal < (b.pmax.vec i).toReal →
      (ray.origin.vec i).toReal ≠ (b.pmin.vec i).toReal) :
    ∃ t0 t1, b.intersectRay ray = some (t0, t1) ∧ t0.toReal = 0 := by
  obtain ⟨s0, s1, e, k⟩ := point_hit ray ho hd ht ((val_nonneg_iff ht).1 h0)
  obtain ⟨t0, t1, e', l, -⟩ := C140_hit ⟨ray.origin, ray.origin⟩ b ray ⟨ray.origin, by
      rw [Bbox.insideF_iff]; intro i; exact ⟨.refl (notNaN_of_isFin (ho i)), .refl (notNaN_of_isFin (ho i))⟩⟩ (fun p hp => by
      rw [Bbox.insideF_iff] at hp hin ⊢
      intro i
      obtain ⟨⟨-, n, a1⟩, -, -, a2⟩ := hp i
      obtain ⟨⟨c1, c2, c3⟩, c4, c5, c6⟩ := hin i
      exact ⟨⟨c1, n, c3.trans a1⟩, n, c5, a2.trans c6⟩) ⟨ho, ho⟩ hb ho hd ht (fun i hi => hf i hi.1 hi.2.2.2 hi.2.1) s0 s1 e
  refine ⟨t0, t1, e', toReal_eq_zero_iff.2 ?_⟩
  have r := C52_range b ray t0 t1 ht h0 e'
  have := (val_nonneg_iff r.1.1).1 r.2.1
  have := (sle_iff.1 l).2.2
  omega

/-- Specification: the ray starts clearly outside the sphere, and exactly computed it does not lead towards the centre. -/
def Outward (s : Sphere (Flt mw ew)) (ray : Ray (Flt mw ew)) : Prop :=
  58 * uRnd mw * (∑ i, (ray.origin.vec i).toReal ^ 2 + s.radius.toReal ^ 2) < ∑ i, (ray.origin.vec i).toReal ^ 2 - s.radius.toReal ^ 2 ∧
  0 ≤ ∑ i, (ray.origin.vec i).toReal * (ray.direction.vec i).toReal

variable [Libm mw ew]

/-- C154: on floats, a ray that starts clearly outside a sphere and leads away from it misses the sphere. -/
theorem C154_sphere (hm : 9 ≤ mw) (hw : mw + 3 ≤ 2 ^ (ew - 1)) (s : Sphere (Flt mw ew)) (ray : Ray (Flt mw ew)) (hs : SphereRegular s ray)
    (hd : etaRnd mw ew * ∑ i, (ray.direction.vec i).toReal ^ 2 ≤ uRnd mw) (hf : RootsFinite s ray) (ho : Outward s ray) :
    s.intersectRay ray = none := by
  have hu := uRnd_pos (mw := mw)
  have hu1 := uRnd_small hm
  have out : ∀ t, 0 ≤ t → ¬ InsideAt s ray t := by
    intro t t0 hi
    unfold InsideAt at hi
    have e : sphereDefect s ray t = ∑ i, (ray.origin.vec i).toReal ^ 2 - s.radius.toReal ^ 2 +
        2 * t * ∑ i, (ray.origin.vec i).toReal * (ray.direction.vec i).toReal + ∑ i, ((ray.direction.vec i).toReal * t) ^ 2 := by
      unfold sphereDefect
      simp only [Fin.sum_univ_three]
      ring
    rw [e] at hi
    unfold sphereScale at hi
    have d0 : 0 ≤ ∑ i, ((ray.direction.vec i).toReal * t) ^ 2 := Finset.sum_nonneg fun i _ => sq_nonneg _
    have := mul_nonneg t0 ho.2
    have h1 := ho.1
    have : 58 * uRnd mw * ∑ i, ((ray.direction.vec i).toReal * t) ^ 2 ≤ ∑ i, ((ray.direction.vec i).toReal * t) ^ 2 :=
      mul_le_of_le_one_left d0 (by linarith)
    linarith
  rw [← Option.not_isSome_iff_eq_none]
  intro hc
  obtain ⟨r, hi⟩ := Option.isSome_iff_exists.1 hc
  unfold Sphere.intersectRay at hi
  dsimp only at hi
  split at hi
  · cases hi
  rename_i t0 t1 hq
  obtain ⟨f0, f1⟩ := hf t0 t1 hq
  have h01 := (C101_backward_partial hm hw _ _ _ t0 t1 hq f0 f1 hs.hb hs.hc).1
  have L := fun t => C120_line hm hw s _ hs hd hq f0 f1 t
  have fin : ∀ t : Flt mw ew, Scalar.inRange t Scalar.zero ray.tmax = true → ¬ InsideAt s ray t.toReal := by
    intro t hr
    unfold Scalar.inRange at hr
    rw [Bool.and_eq_true, sge_iff, sle_iff] at hr
    exact out _ (toReal_nonneg_iff.2 ((key_zero false).ge.trans hr.1.2.2))
  split at hi
  · obtain ⟨k, -⟩ := getIntersection_some hi
    exact fin t1 k ((L _).2.1 h01 le_rfl)
  · rename_i i hi'
    obtain ⟨k, -⟩ := getIntersection_some hi'
    exact fin t0 k ((L _).2.1 le_rfl h01)

/-- Specification: the ray leaves every box and every sphere of the scene, which is a list of them of any depth. -/
inductive Leaves (ray : Ray (Flt mw ew)) : Primitive (Flt mw ew) → Prop
  | box (b : Bbox (Flt mw ew)) (i) (h : Leaving b ray i) : Leaves ray b.prim
  | sphere (s : Sphere (Flt mw ew)) (hs : SphereRegular s ray) (hd : etaRnd mw ew * ∑ i, (ray.direction.vec i).toReal ^ 2 ≤ uRnd mw)
      (hf : RootsFinite s ray) (ho : Outward s ray) : Leaves ray s.prim
  | list (l : List (Primitive (Flt mw ew))) (h : ∀ p ∈ l, Leaves ray p) : Leaves ray (PrimitiveList.prim l)

/-- C154: on floats, a ray that leaves every object of a scene is reported free. -/
theorem C154_free (hm : 9 ≤ mw) (hw : mw + 3 ≤ 2 ^ (ew - 1)) (ray : Ray (Flt mw ew)) (p : Primitive (Flt mw ew)) (h : Leaves ray p) :
    p.doIntersect ray = some false := by
  induction h with
  | box b i h =>
    change some (b.intersectRay ray).isSome = _
    rw [C154_box b ray i h]; rfl
  | sphere s hs hd hf ho =>
    change some (s.intersectRay ray).isSome = _
    rw [C154_sphere hm hw s ray hs hd hf ho]; rfl
  | list l _ ih =>
    change PrimitiveList.doIntersectLoop ray l = _
    clear * - ih
    induction l with
    | nil => rfl
    | cons q l IH =>
      rw [PrimitiveList.doIntersectLoop, ih q List.mem_cons_self]
      exact IH fun p hp => ih p (List.mem_cons_of_mem _ hp)

end

/-! ### floats: started on the surface, and faster than 1 -/

/-- some trigonometric functions -/
@[reducible] def selfLibm : Libm 23 8 := ⟨id, id, id, id, id, id, fun y _ => y⟩
attribute [local instance] selfLibm

/-- a sphere of radius 5 -/
def selfBall : Sphere F32 := ⟨F32.lit 5, -F32.lit 5, F32.lit 5, F32.lit 0, F32.lit 0, Flt.inf 23 8 false⟩
/-- a box of half width 1 -/
def selfBox : Bbox F32 := ⟨new3 (-F32.lit 1) (-F32.lit 1) (-F32.lit 1), new3 (F32.lit 1) (F32.lit 1) (F32.lit 1)⟩
/-- the ray straight down from a height of 8 -/
def selfDown : Ray F32 := ⟨new3 (F32.lit 0) (F32.lit 0) (F32.lit 8), new3 (F32.lit 0) (F32.lit 0) (-F32.lit 1), F32.lit 100⟩
/-- the ray up and to the side from a point of it -/
def selfUp (t : F32) : Ray F32 := ⟨selfDown.eval t, new3 (F32.lit 3) (F32.lit 1) (F32.lit 4), F32.lit 100⟩

/-- C154: on `f32` too, a ray that starts at the computed point of a hit and leads away from the surface is reported to hit, at distance 0:
on top of a sphere (first hit at 3) and on top of a box (first hit at 7). -/
theorem C154_self_f32 :
    ((selfBall.intersectRay selfDown).map (·.tRay) = some (F32.lit 3) ∧
      (selfBall.intersectRay (selfUp (F32.lit 3))).map (·.tRay) = some (-F32.lit 0)) ∧
    (selfBox.intersectRay selfDown).map (·.1) = some (F32.lit 7) ∧
      (selfBox.intersectRay (selfUp (F32.lit 7))).map (·.1) = some (F32.lit 0) := by
  refine ⟨⟨?_, ?_⟩, ?_, ?_⟩ <;> decide +kernel

/-- C154: in `C154_next` the direction has to be no faster than 1.  Started `next_up` of the upper face, away from the box, but with the
components 2: the distance to the face, the smallest number there is, halved is 0, and the box is hit. -/
theorem C154_fast_refuted :
    ¬ ∀ (b : Bbox F32) (ray : Ray F32), (∀ i, (b.pmin.vec i).isFin = true ∧ (b.pmax.vec i).isFin = true ∧
        (b.pmin.vec i).toReal ≤ (b.pmax.vec i).toReal ∧ (ray.origin.vec i).isFin = true ∧ (ray.direction.vec i).isFin = true ∧
        ray.origin.vec i = GFloat.nextUp (b.pmax.vec i) ∧ 0 < (ray.direction.vec i).toReal) → b.intersectRay ray = none := by
  intro h
  have := h ⟨new3 (-F32.lit 1) (-F32.lit 1) (-F32.lit 1), new3 (F32.lit 0) (F32.lit 0) (F32.lit 0)⟩
    ⟨new3 (GFloat.nextUp (F32.lit 0)) (GFloat.nextUp (F32.lit 0)) (GFloat.nextUp (F32.lit 0)), new3 (F32.lit 2) (F32.lit 2) (F32.lit 2),
      F32.lit 1⟩ (by
    intro i
    rw [toReal_le_iff, toReal_pos_iff]
    revert i; decide +kernel)
  revert this; decide +kernel

/-! ### the hypotheses are met -/

/-- a ray from the middle of the upper face of the box, upwards, along an axis -/
example : let ray : Ray F32 := ⟨new3 (F32.lit 0) (F32.lit 0) (F32.lit 1), new3 (F32.lit 0) (F32.lit 0) (F32.lit 2), Flt.inf 23 8 false⟩
    selfBox.inside ray.origin = true ∧ (∀ i, (ray.direction.vec i).key = 0 → (ray.origin.vec i).key ≠ (selfBox.pmin.vec i).key) ∧
    (∀ i, (ray.origin.vec i).isFin = true ∧ (ray.direction.vec i).isFin = true ∧ (selfBox.pmin.vec i).isFin = true ∧
      (selfBox.pmax.vec i).isFin = true) ∧ 0 ≤ ray.tmax.key ∧ ray.tmax.isNaN = false := by
  decide +kernel

/-- exact arithmetic: the unit sphere, seen from above at distance 2; a ray from the top to the side is blocked; moved up by any
`ε > 0` it is free. -/
example (ε : ℝ) (hε : 0 < ε) : let s : Sphere ℝ := ⟨1, -1, 1, 0, Real.pi, Real.pi⟩
    Occupies s.prim s.OnSurface s.Regular ∧ s.Regular ⟨new3 0 0 1, new3 3 0 4, 9⟩ ∧ s.OnSurface (new3 0 0 1) ∧
    s.Regular ⟨new3 0 0 (1 + ε), new3 3 0 4, 9⟩ ∧
    (∀ x, s.OnSurface x → ∑ i, (![0, 0, 1] : _root_.Fin 3 → ℝ) i * x.vec i ≤ 1) ∧
    1 < ∑ i, (![0, 0, 1] : _root_.Fin 3 → ℝ) i * (new3 0 0 (1 + ε) : Point ℝ 3).vec i ∧
    0 ≤ ∑ i, (![0, 0, 1] : _root_.Fin 3 → ℝ) i * (new3 3 0 4 : Vec ℝ 3).vec i := by
  have x3 : (new3 3 0 4 : Vec ℝ 3).vec 0 = 3 := rfl
  have z3 : (new3 3 0 4 : Vec ℝ 3).vec 2 = 4 := rfl
  have z1 : (new3 0 0 (1 + ε) : Point ℝ 3).vec 2 = 1 + ε := rfl
  refine ⟨.sphere _, ⟨⟨0, by change (3 : ℝ) ≠ 0; norm_num⟩, ?_⟩, ⟨?_, ?_, ?_, Complex.arg_le_pi _⟩, ⟨⟨0, by change (3 : ℝ) ≠ 0; norm_num⟩, ?_⟩,
    fun x hx => ?_, ?_, ?_⟩
  · rintro ⟨h, -⟩
    change (0 : ℝ) * 3 + 0 * 0 + 1 * 4 = 0 at h
    norm_num at h
  · change (0 : ℝ) ^ 2 + 0 ^ 2 + 1 ^ 2 = 1 ^ 2; norm_num
  · change (-1 : ℝ) ≤ 1; norm_num
  · change (1 : ℝ) ≤ 1; norm_num
  · rintro ⟨h, -⟩
    change (0 : ℝ) * 3 + 0 * 0 + (1 + ε) * 4 = 0 at h
    linarith
  · rw [Fin.sum_univ_three]
    have k : x.vec 2 ≤ 1 := hx.2.2.1
    simpa using k
  · rw [Fin.sum_univ_three, z1]; simpa using hε
  · rw [Fin.sum_univ_three, z3]; simp

/-- the unit sphere and the ray straight down from a height of 3: it goes on from the top, regularly -/
example : let s : Sphere ℝ := ⟨1, -1, 1, 0, Real.pi, Real.pi⟩
    let ray : Ray ℝ := ⟨new3 0 0 3, new3 0 0 (-1), 9⟩
    OccupiesOne s.prim s.OnSurface s.Regular ∧ s.Regular ray ∧ ∃ s', advance s.prim ray = some s' ∧ s.Regular s' := by
  intro s ray
  have reg : s.Regular ray := by
    refine ⟨⟨2, by change (-1 : ℝ) ≠ 0; norm_num⟩, ?_⟩
    rintro ⟨h, -⟩
    change (0 : ℝ) * 0 + 0 * 0 + 3 * -1 = 0 at h
    norm_num at h
  have ez : ∀ t, (ray.eval t).z = 3 - t := fun t => by change (3 : ℝ) + -1 * t = _; ring
  have ex : ∀ t, (ray.eval t).x = 0 := fun t => by change (0 : ℝ) + 0 * t = _; ring
  have ey : ∀ t, (ray.eval t).y = 0 := fun t => by change (0 : ℝ) + 0 * t = _; ring
  obtain ⟨o, e, h1, h2⟩ := C142_first s.prim s.OnSurface s.Regular (.sphere s) ray reg (by change (0 : ℝ) ≤ 9; norm_num)
  have m : (2 : ℝ) ∈ MeetsAt ray s.OnSurface := by
    refine ⟨by norm_num, by change (2 : ℝ) ≤ 9; norm_num, ?_, ?_, ?_, Complex.arg_le_pi _⟩
    · rw [ex, ey, ez]; change (0 : ℝ) ^ 2 + 0 ^ 2 + (3 - 2) ^ 2 = 1 ^ 2; norm_num
    · rw [ez]; change (-1 : ℝ) ≤ 3 - 2; norm_num
    · rw [ez]; change (3 - 2 : ℝ) ≤ 1; norm_num
  cases o with
  | none => rw [h1 rfl] at m; cases m
  | some r =>
    refine ⟨.sphere s, reg, ⟨ray.eval r.tRay, ray.direction, ray.tmax⟩, by unfold advance; rw [e], ⟨2, by change (-1 : ℝ) ≠ 0; norm_num⟩, ?_⟩
    obtain ⟨⟨-, -, hs⟩, l⟩ := h2 r rfl
    have l2 := l m
    rintro ⟨h, -⟩
    change (ray.eval r.tRay).x * 0 + (ray.eval r.tRay).y * 0 + (ray.eval r.tRay).z * -1 = 0 at h
    rw [ez] at h
    linarith

/-- floats: from `(3,3,3)` along `(1,1,1)`, away from a box and a sphere of radius 3 in nested lists. -/
def exLeave : Ray F32 := ⟨exTo, new3 (F32.lit 1) (F32.lit 1) (F32.lit 1), Flt.inf 23 8 false⟩

theorem exLeave_ball : SphereRegular exBall exLeave ∧ etaRnd 23 8 * ∑ i, (exLeave.direction.vec i).toReal ^ 2 ≤ uRnd 23 ∧
    RootsFinite exBall exLeave ∧ Outward exBall exLeave := by
  have hη0 := etaRnd_pos (mw := 23) (ew := 8)
  have hu : uRnd 23 = 1 / 2 ^ 24 := by unfold uRnd; norm_num
  have hη : etaRnd 23 8 ≤ 1 / 2 ^ 60 := by unfold etaRnd fK; norm_num
  have e1 : ∀ i, (exLeave.direction.vec i).toReal = 1 := by
    have k : ∀ i, exLeave.direction.vec i = F32.lit 1 := by decide +kernel
    intro i; rw [k, toReal_lit (by norm_num)]; norm_num
  have eo' : ∀ i, (exLeave.origin.vec i).toReal = 3 := exTo_val
  have ed : ∑ i, (exLeave.direction.vec i).toReal ^ 2 = 3 := by rw [Fin.sum_univ_three, e1, e1, e1]; norm_num
  have eo : ∑ i, (exLeave.origin.vec i).toReal ^ 2 = 27 := by rw [Fin.sum_univ_three, eo', eo', eo']; norm_num
  have er : exBall.radius.toReal = 3 := (toReal_lit (by norm_num)).trans (by norm_num)
  have ka : exLeave.direction.squareNorm = F32.lit 3 := by decide +kernel
  have kb : (GVec.conv .vector exLeave.origin).dot exLeave.direction * GFloat.fromI64 2 = F32.lit 18 := by decide +kernel
  have kc : (GVec.conv .vector exLeave.origin).squareNorm - Scalar.square exBall.radius = F32.lit 18 := by decide +kernel
  have e3 : (F32.lit 3).toReal = 3 := by rw [toReal_lit (by norm_num)]; norm_num
  have e18 : (F32.lit 18).toReal = 18 := by rw [toReal_lit (by norm_num)]; norm_num
  refine ⟨⟨?_, ?_, ?_, ?_, ?_⟩, ?_, ?_, ?_, ?_⟩
  · rw [ed, hu]; linarith
  · rw [eo, er, hu]; linarith
  · rw [ka, kb, kc]; decide +kernel
  · rw [kb, e18]; exact normal_f32 (by norm_num)
  · rw [ka, kc, e3, e18]; exact normal_f32 (by norm_num)
  · rw [ed, hu]; linarith
  · unfold RootsFinite
    rw [ka, kb, kc]
    have k : ∀ o, o = solveQuadratic (F32.lit 3) (F32.lit 18) (F32.lit 18) → (o.all fun p => p.1.isFin && p.2.isFin) = true := by
      rintro o rfl; decide +kernel
    intro t0 t1 h
    have := k _ h.symm
    simpa using this
  · rw [eo, er, hu]; norm_num
  · rw [Fin.sum_univ_three, e1, e1, e1, eo', eo', eo']; norm_num

example : Leaves exLeave (PrimitiveList.prim [exShadeNear.prim, PrimitiveList.prim [exBall.prim]]) := by
  refine .list _ fun p hp => ?_
  rcases List.mem_cons.1 hp with rfl | hp
  · refine .box _ 0 ⟨by decide +kernel, by decide +kernel, by decide +kernel, by decide +kernel, toReal_le_iff.2 (by decide +kernel), Or.inl ⟨?_, ?_, ?_⟩⟩
    · exact toReal_lt_iff.2 (by decide +kernel)
    · exact toReal_pos_iff.2 (by decide +kernel)
    · change (F32.lit 1).toReal ≤ 1
      rw [toReal_lit (by norm_num)]; norm_num
  · obtain rfl := List.mem_singleton.1 hp
    refine .list _ fun p hp => ?_
    obtain rfl := List.mem_singleton.1 hp
    obtain ⟨h1, h2, h3, h4⟩ := exLeave_ball
    exact .sphere _ h1 h2 h3 h4

end Scarlet
