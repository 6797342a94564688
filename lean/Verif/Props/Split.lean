import Verif.Props.Contain

/-!
C152: cutting a box into cells leaves no cracks on floats: a ray hits the box exactly when it hits one of the cells, and the ranges
reported for the cells cover exactly the range reported for the box, without tolerance.
-/

set_option linter.unusedSectionVars false

namespace Scarlet
open Flt GVec Contain

variable {mw ew : Nat} [FltImpl mw ew] [LawfulFlt mw ew]

/-- Specification: `a` and `b` are the lower and the upper part of the box `u`, cut at a plane across axis `k`. -/
structure Splits (u a b : Bbox (Flt mw ew)) (k : _root_.Fin 3) : Prop where
  low : ∀ i, a.pmin.vec i = u.pmin.vec i
  high : ∀ i, b.pmax.vec i = u.pmax.vec i
  others : ∀ i, i ≠ k → a.pmax.vec i = u.pmax.vec i ∧ b.pmin.vec i = u.pmin.vec i
  plane : a.pmax.vec k = b.pmin.vec k
  fin : (a.pmax.vec k).isFin = true
  above : (u.pmin.vec k).toReal < (a.pmax.vec k).toReal
  below : (a.pmax.vec k).toReal ≤ (u.pmax.vec k).toReal

/-- Specification: a box with finite bounds in order. -/
def Proper (u : Bbox (Flt mw ew)) : Prop :=
  ∀ i, (u.pmin.vec i).isFin = true ∧ (u.pmax.vec i).isFin = true ∧ (u.pmin.vec i).toReal ≤ (u.pmax.vec i).toReal

/-- Specification: the distance `t` is in the range the slab test reports for the box. -/
def CoversAt (b : Bbox (Flt mw ew)) (ray : Ray (Flt mw ew)) (t : Flt mw ew) : Prop :=
  ∃ t0 t1, b.intersectRay ray = some (t0, t1) ∧ Scalar.le t0 t = true ∧ Scalar.le t t1 = true

/-- Specification: the boxes that are left after cutting `u` by planes across the axes, in any order, as often as one likes. -/
inductive Cells : Bbox (Flt mw ew) → List (Bbox (Flt mw ew)) → Prop
  | whole (u) : Cells u [u]
  | cut (u a b k l r) (h : Splits u a b k) (ha : Cells a l) (hb : Cells b r) : Cells u (l ++ r)

theorem Splits.proper {u a b : Bbox (Flt mw ew)} {k : _root_.Fin 3} (h : Splits u a b k) (hu : Proper u) : Proper a ∧ Proper b := by
  refine ⟨fun i => ?_, fun i => ?_⟩
  · rw [h.low i]
    by_cases hi : i = k
    · subst hi; exact ⟨(hu i).1, h.fin, h.above.le⟩
    · rw [(h.others i hi).1]; exact hu i
  · rw [h.high i]
    by_cases hi : i = k
    · subst hi; rw [← h.plane]; exact ⟨h.fin, (hu i).2.1, h.below⟩
    · rw [(h.others i hi).2]; exact hu i

/-- `κ` is between the bounds computed for axis `i`. -/
def AxisHas (b : Bbox (Flt mw ew)) (ray : Ray (Flt mw ew)) (i : _root_.Fin 3) (κ : ℤ) : Prop :=
  loK (slab b ray i).1 ≤ κ ∧ κ ≤ hiK (slab b ray i).2

theorem coversAt_iff (b : Bbox (Flt mw ew)) (ray : Ray (Flt mw ew)) (ht : ray.tmax.isNaN = false) (t : Flt mw ew) :
    CoversAt b ray t ↔ t.isNaN = false ∧ (∀ i, AxisHas b ray i t.key) ∧ 0 ≤ t.key ∧ t.key ≤ ray.tmax.key := by
  obtain ⟨N, F, hN, hF, h⟩ := intersectRay_keys b ray
  have all : (∀ i, AxisHas b ray i t.key) ↔ N ≤ t.key ∧ t.key ≤ F := by
    unfold AxisHas
    rw [hN, hF]
    constructor
    · intro h
      exact ⟨max_le (max_le (h 0).1 (h 1).1) (h 2).1, le_min (le_min (h 0).2 (h 1).2) (h 2).2⟩
    · rintro ⟨h1, h2⟩ i
      rw [max_le_iff, max_le_iff] at h1
      rw [le_min_iff, le_min_iff] at h2
      fin_cases i
      · exact ⟨h1.1.1, h2.1.1⟩
      · exact ⟨h1.1.2, h2.1.2⟩
      · exact ⟨h1.2, h2.2⟩
  rw [all]
  clear hN hF all
  rw [hiK_of ht] at h
  unfold CoversAt
  rcases h with ⟨hn, hbad⟩ | ⟨u1, u2, u3, t0, t1, he, w1, w2, w3, w4⟩
  · constructor
    · rintro ⟨t0, t1, he, -⟩; rw [hn] at he; cases he
    · rintro ⟨-, ⟨h1, h2⟩, h3, h4⟩; omega
  · have w4 := w4 ht
    rw [hiK_of w4] at w3
    constructor
    · rintro ⟨x0, x1, hx, hx0, hx1⟩
      rw [he, Option.some.injEq, Prod.mk.injEq] at hx
      obtain ⟨rfl, rfl⟩ := hx
      rw [sle_iff] at hx0 hx1
      refine ⟨hx1.1, ?_⟩
      omega
    · rintro ⟨n, ⟨h1, h2⟩, h3, h4⟩
      refine ⟨t0, t1, he, ?_, ?_⟩ <;> rw [sle_iff]
      · exact ⟨w1, n, by omega⟩
      · exact ⟨n, w4, by omega⟩

theorem hit_iff_covers (b : Bbox (Flt mw ew)) (ray : Ray (Flt mw ew)) (ht : ray.tmax.isNaN = false) (h0 : 0 ≤ ray.tmax.val) :
    b.doIntersect ray = true ↔ ∃ t, CoversAt b ray t := by
  have z := (val_nonneg_iff ht).1 h0
  constructor
  · intro h
    obtain ⟨⟨t0, t1⟩, he⟩ := Option.isSome_iff_exists.1 (show (b.intersectRay ray).isSome = true from h)
    obtain ⟨N, F, hN, hF, k⟩ := intersectRay_keys b ray
    rw [hiK_of ht] at k
    rcases k with ⟨hn, -⟩ | ⟨u1, u2, u3, x0, x1, hx, w1, w2, w3, w4⟩
    · rw [he] at hn; cases hn
    · have w4 := w4 ht
      rw [hiK_of w4] at w3
      refine ⟨x0, x0, x1, hx, ?_, ?_⟩ <;> rw [sle_iff]
      · exact ⟨w1, w1, le_rfl⟩
      · exact ⟨w1, w4, by omega⟩
  · rintro ⟨t, t0, t1, he, -⟩
    unfold Bbox.doIntersect
    rw [he]; rfl

theorem slab_congr {a b : Bbox (Flt mw ew)} (ray : Ray (Flt mw ew)) {i : _root_.Fin 3} (h1 : a.pmin.vec i = b.pmin.vec i)
    (h2 : a.pmax.vec i = b.pmax.vec i) : slab a ray i = slab b ray i := by unfold slab; rw [h1, h2]

theorem axis_split {u a b : Bbox (Flt mw ew)} {k : _root_.Fin 3} (h : Splits u a b k) (hu : Proper u) (ray : Ray (Flt mw ew))
    (ho : ray.origin.Fin) (hd : ray.direction.Fin) (κ : ℤ) : AxisHas u ray k κ ↔ AxisHas a ray k κ ∨ AxisHas b ray k κ := by
  have fu : AxisFin u ray k := ⟨(hu k).1, (hu k).2.1, ho k, hd k, (hu k).2.2⟩
  have fa : AxisFin a ray k := ⟨((h.proper hu).1 k).1, h.fin, ho k, hd k, ((h.proper hu).1 k).2.2⟩
  have fb : AxisFin b ray k := ⟨((h.proper hu).2 k).1, ((h.proper hu).2 k).2.1, ho k, hd k, ((h.proper hu).2 k).2.2⟩
  have e1 := h.low k; have e2 := h.high k; have e3 := h.plane
  have ab := h.above; have be := h.below
  have ma := slab_mono a u ray k fa fu (by rw [e1]) (toReal_le_iff.1 be) (by
    rintro ⟨-, -, x, -⟩; linarith)
  have mb := slab_mono b u ray k fb fu (by rw [← e3]; exact toReal_le_iff.1 ab.le) (by rw [e2]) (by
    rintro ⟨-, -, x, y⟩; rw [e2] at x; linarith)
  unfold AxisHas
  constructor
  · intro hk
    by_cases h0 : (ray.direction.vec k).key = 0
    · have r0 := toReal_eq_zero_iff.2 h0
      have wide : ∀ c : Bbox (Flt mw ew), AxisFin c ray k → Between c ray k →
          loK (slab c ray k).1 = -kInf mw ew ∧ hiK (slab c ray k).2 = kInf mw ew := by
        intro c fc bc
        rcases slab_between c ray k fc r0 bc with ⟨n1, n2⟩ | ⟨n1, n2, k1, k2⟩
        · simp [loK, hiK, n1, n2]
        · rw [loK_of n1, hiK_of n2]; exact ⟨k1, k2⟩
      have bl := loK_bounds (slab u ray k).1
      have bh := hiK_bounds (slab u ray k).2
      by_cases bu : Between u ray k
      · have : Between a ray k ∨ Between b ray k := by
          unfold Between at bu ⊢
          rw [e1, e2, ← e3]
          rcases bu with ⟨x, y⟩ | x
          · by_cases z : (ray.origin.vec k).toReal ≤ (a.pmax.vec k).toReal
            · exact Or.inl (Or.inl ⟨x, z⟩)
            · exact Or.inr (Or.inl ⟨not_le.1 z, y⟩)
          · exact Or.inr (Or.inr x)
        rcases this with w | w
        · left; obtain ⟨w1, w2⟩ := wide a fa w; omega
        · right; obtain ⟨w1, w2⟩ := wide b fb w; omega
      · have ba : ¬ Between a ray k := by
          intro w
          apply bu
          unfold Between at w ⊢
          rw [e1] at w
          rcases w with ⟨x, y⟩ | x
          · exact Or.inl ⟨x, y.trans be⟩
          · exact Or.inl ⟨by linarith, by linarith⟩
        obtain ⟨n1, n2, s, -, k1, k2⟩ := slab_outside a ray k fa h0 ba
        obtain ⟨m1, m2, s', -, l1, l2⟩ := slab_outside u ray k fu h0 bu
        rw [loK_of n1, hiK_of n2, loK_of m1, hiK_of m2] at ma
        rw [loK_of m1, hiK_of m2] at hk
        left
        rw [loK_of n1, hiK_of n2]
        rw [← k2] at k1
        rw [← l2] at l1
        omega
    · have f3 := fu.2.2.1; have f4 := fu.2.2.2.1
      have s1 : (u.pmin.vec k - ray.origin.vec k).isNaN = false := (sub_fin fu.1 f3).1
      have s2 : (a.pmax.vec k - ray.origin.vec k).isNaN = false := (sub_fin h.fin f3).1
      have s3 : (u.pmax.vec k - ray.origin.vec k).isNaN = false := (sub_fin fu.2.1 f3).1
      have n1 := div_num s1 f4 h0
      have n2 := div_num s2 f4 h0
      have n3 := div_num s3 f4 h0
      have ka : loK (slab a ray k).1 = Min.min ((u.pmin.vec k - ray.origin.vec k) / ray.direction.vec k).key ((a.pmax.vec k - ray.origin.vec k) / ray.direction.vec k).key ∧
          hiK (slab a ray k).2 = Max.max ((u.pmin.vec k - ray.origin.vec k) / ray.direction.vec k).key ((a.pmax.vec k - ray.origin.vec k) / ray.direction.vec k).key := by
        unfold slab
        rw [e1, loK_of (smin_key n1 n2).1, hiK_of (smax_key n1 n2).1]
        exact ⟨(smin_key n1 n2).2, (smax_key n1 n2).2⟩
      have kb : loK (slab b ray k).1 = Min.min ((a.pmax.vec k - ray.origin.vec k) / ray.direction.vec k).key ((u.pmax.vec k - ray.origin.vec k) / ray.direction.vec k).key ∧
          hiK (slab b ray k).2 = Max.max ((a.pmax.vec k - ray.origin.vec k) / ray.direction.vec k).key ((u.pmax.vec k - ray.origin.vec k) / ray.direction.vec k).key := by
        unfold slab
        rw [e2, ← e3, loK_of (smin_key n2 n3).1, hiK_of (smax_key n2 n3).1]
        exact ⟨(smin_key n2 n3).2, (smax_key n2 n3).2⟩
      have ku : loK (slab u ray k).1 = Min.min ((u.pmin.vec k - ray.origin.vec k) / ray.direction.vec k).key ((u.pmax.vec k - ray.origin.vec k) / ray.direction.vec k).key ∧
          hiK (slab u ray k).2 = Max.max ((u.pmin.vec k - ray.origin.vec k) / ray.direction.vec k).key ((u.pmax.vec k - ray.origin.vec k) / ray.direction.vec k).key := by
        unfold slab
        rw [loK_of (smin_key n1 n3).1, hiK_of (smax_key n1 n3).1]
        exact ⟨(smin_key n1 n3).2, (smax_key n1 n3).2⟩
      omega
  · rintro (hk | hk) <;> omega

/-- C152: cutting a box in two.  A distance is in the range of the box exactly when it is in the range of one of the parts; so
the ray hits the box exactly when it hits a part. -/
theorem C152_split (u a b : Bbox (Flt mw ew)) (k : _root_.Fin 3) (h : Splits u a b k) (hu : Proper u) (ray : Ray (Flt mw ew))
    (ho : ray.origin.Fin) (hd : ray.direction.Fin) (ht : ray.tmax.isNaN = false) (t : Flt mw ew) :
    CoversAt u ray t ↔ CoversAt a ray t ∨ CoversAt b ray t := by
  rw [coversAt_iff u ray ht, coversAt_iff a ray ht, coversAt_iff b ray ht]
  have ax := axis_split h hu ray ho hd t.key
  have oth : ∀ i, i ≠ k → (AxisHas a ray i t.key ↔ AxisHas u ray i t.key) ∧ (AxisHas b ray i t.key ↔ AxisHas u ray i t.key) := by
    intro i hi
    unfold AxisHas
    rw [slab_congr ray (h.low i) (h.others i hi).1, slab_congr ray (h.others i hi).2 (h.high i)]
    exact ⟨Iff.rfl, Iff.rfl⟩
  constructor
  · rintro ⟨h1, h2, h3⟩
    rcases ax.1 (h2 k) with x | x
    · refine Or.inl ⟨h1, fun i => ?_, h3⟩
      by_cases hi : i = k
      · subst hi; exact x
      · exact (oth i hi).1.2 (h2 i)
    · refine Or.inr ⟨h1, fun i => ?_, h3⟩
      by_cases hi : i = k
      · subst hi; exact x
      · exact (oth i hi).2.2 (h2 i)
  · rintro (⟨h1, h2, h3⟩ | ⟨h1, h2, h3⟩)
    · refine ⟨h1, fun i => ?_, h3⟩
      by_cases hi : i = k
      · subst hi; exact ax.2 (Or.inl (h2 i))
      · exact (oth i hi).1.1 (h2 i)
    · refine ⟨h1, fun i => ?_, h3⟩
      by_cases hi : i = k
      · subst hi; exact ax.2 (Or.inr (h2 i))
      · exact (oth i hi).2.1 (h2 i)

/-- C152: front to back.  Of the two parts, the one on the side the ray comes from is left no later than the other is entered. -/
theorem C152_order (u a b : Bbox (Flt mw ew)) (k : _root_.Fin 3) (h : Splits u a b k) (hu : Proper u) (ray : Ray (Flt mw ew))
    (ho : ray.origin.Fin) (hd : ray.direction.Fin) (ht : ray.tmax.isNaN = false) (s t : Flt mw ew) (hs : CoversAt a ray s)
    (hb : CoversAt b ray t) : (0 < (ray.direction.vec k).toReal → Scalar.le s t = true) ∧
      ((ray.direction.vec k).toReal < 0 → Scalar.le t s = true) := by
  rw [coversAt_iff a ray ht] at hs
  rw [coversAt_iff b ray ht] at hb
  obtain ⟨n1, ha, -⟩ := hs
  obtain ⟨n2, hb, -⟩ := hb
  have ha := ha k
  have hb := hb k
  have e1 := h.low k; have e2 := h.high k; have e3 := h.plane
  have f3 := ho k; have f4 := hd k
  have s1 : (u.pmin.vec k - ray.origin.vec k).isNaN = false := (sub_fin (hu k).1 f3).1
  have s2 : (a.pmax.vec k - ray.origin.vec k).isNaN = false := (sub_fin h.fin f3).1
  have s3 : (u.pmax.vec k - ray.origin.vec k).isNaN = false := (sub_fin (hu k).2.1 f3).1
  have o1 := sub_mono (hu k).1 h.fin f3 (toReal_le_iff.1 h.above.le)
  have o2 := sub_mono h.fin (hu k).2.1 f3 (toReal_le_iff.1 h.below)
  have main : (ray.direction.vec k).key ≠ 0 →
      (Min.min ((u.pmin.vec k - ray.origin.vec k) / ray.direction.vec k).key ((a.pmax.vec k - ray.origin.vec k) / ray.direction.vec k).key ≤ s.key ∧
      s.key ≤ Max.max ((u.pmin.vec k - ray.origin.vec k) / ray.direction.vec k).key ((a.pmax.vec k - ray.origin.vec k) / ray.direction.vec k).key) ∧
      (Min.min ((a.pmax.vec k - ray.origin.vec k) / ray.direction.vec k).key ((u.pmax.vec k - ray.origin.vec k) / ray.direction.vec k).key ≤ t.key ∧
      t.key ≤ Max.max ((a.pmax.vec k - ray.origin.vec k) / ray.direction.vec k).key ((u.pmax.vec k - ray.origin.vec k) / ray.direction.vec k).key) := by
    intro h0
    have n1 := div_num s1 f4 h0
    have n2 := div_num s2 f4 h0
    have n3 := div_num s3 f4 h0
    unfold AxisHas slab at ha hb
    rw [e1, loK_of (smin_key n1 n2).1, hiK_of (smax_key n1 n2).1, (smin_key n1 n2).2, (smax_key n1 n2).2] at ha
    rw [e2, ← e3, loK_of (smin_key n2 n3).1, hiK_of (smax_key n2 n3).1, (smin_key n2 n3).2, (smax_key n2 n3).2] at hb
    exact ⟨ha, hb⟩
  refine ⟨fun hp => ?_, fun hp => ?_⟩ <;> rw [sle_iff]
  · have hp := toReal_pos_iff.1 hp
    obtain ⟨m1, m2⟩ := main (by omega)
    have := div_mono_pos s1 s2 f4 hp o1
    have := div_mono_pos s2 s3 f4 hp o2
    exact ⟨n1, n2, by omega⟩
  · have hp : (ray.direction.vec k).key < 0 := by
      have := toReal_lt_iff (x := ray.direction.vec k) (y := zero mw ew false)
      rw [toReal_eq_zero_iff.2 (key_zero false), key_zero] at this
      exact this.1 hp
    obtain ⟨m1, m2⟩ := main (by omega)
    have := div_mono_neg s1 s2 f4 hp o1
    have := div_mono_neg s2 s3 f4 hp o2
    exact ⟨n2, n1, by omega⟩

/-- C152: the ranges of the cells of any subdivision cover exactly the range of the box. -/
theorem C152_cells (u : Bbox (Flt mw ew)) (l : List (Bbox (Flt mw ew))) (h : Cells u l) (hu : Proper u) (ray : Ray (Flt mw ew))
    (ho : ray.origin.Fin) (hd : ray.direction.Fin) (ht : ray.tmax.isNaN = false) (t : Flt mw ew) :
    CoversAt u ray t ↔ ∃ c ∈ l, CoversAt c ray t := by
  induction h with
  | whole u => simp
  | cut u a b k l r h _ _ iha ihb =>
    rw [C152_split u a b k h hu ray ho hd ht t, iha (h.proper hu).1, ihb (h.proper hu).2]
    constructor
    · rintro (⟨c, m, k⟩ | ⟨c, m, k⟩)
      · exact ⟨c, List.mem_append_left _ m, k⟩
      · exact ⟨c, List.mem_append_right _ m, k⟩
    · rintro ⟨c, m, k⟩
      rcases List.mem_append.1 m with m | m
      · exact Or.inl ⟨c, m, k⟩
      · exact Or.inr ⟨c, m, k⟩

theorem loop_boxes (l : List (Bbox (Flt mw ew))) (ray : Ray (Flt mw ew)) :
    PrimitiveList.doIntersectLoop ray (l.map Bbox.prim) = some (l.any fun c => c.doIntersect ray) := by
  induction l with
  | nil => rfl
  | cons c l ih =>
    rw [List.map_cons, PrimitiveList.doIntersectLoop, ih, List.any_cons]
    change (if c.doIntersect ray = true then some true else some _) = _
    cases c.doIntersect ray <;> rfl

/-- C152: so a list of the cells of a box and the box itself stop the same rays: no cracks, and nothing beyond the box. -/
theorem C152_scene (u : Bbox (Flt mw ew)) (l : List (Bbox (Flt mw ew))) (h : Cells u l) (hu : Proper u) (ray : Ray (Flt mw ew))
    (ho : ray.origin.Fin) (hd : ray.direction.Fin) (ht : ray.tmax.isNaN = false) (h0 : 0 ≤ ray.tmax.val) :
    (PrimitiveList.prim (l.map Bbox.prim)).doIntersect ray = u.prim.doIntersect ray := by
  change PrimitiveList.doIntersectLoop ray (l.map Bbox.prim) = some (u.doIntersect ray)
  rw [loop_boxes, Option.some.injEq, Bool.eq_iff_iff, List.any_eq_true, hit_iff_covers u ray ht h0]
  constructor
  · rintro ⟨c, m, k⟩
    obtain ⟨t, k⟩ := (hit_iff_covers c ray ht h0).1 k
    exact ⟨t, (C152_cells u l h hu ray ho hd ht t).2 ⟨c, m, k⟩⟩
  · rintro ⟨t, k⟩
    obtain ⟨c, m, k⟩ := (C152_cells u l h hu ray ho hd ht t).1 k
    exact ⟨c, m, (hit_iff_covers c ray ht h0).2 ⟨t, k⟩⟩

/-- C152: a point is inside the box exactly when it is inside a cell. -/
theorem C152_inside (u : Bbox (Flt mw ew)) (l : List (Bbox (Flt mw ew))) (h : Cells u l) (hu : Proper u) (p : Point (Flt mw ew) 3) :
    u.inside p = true ↔ ∃ c ∈ l, c.inside p = true := by
  induction h with
  | whole u => simp
  | cut u a b k l r h _ _ iha ihb =>
    have key : u.inside p = true ↔ a.inside p = true ∨ b.inside p = true := by
      rw [Bbox.insideF_iff, Bbox.insideF_iff, Bbox.insideF_iff]
      have fm := notNaN_of_isFin h.fin
      have ab := toReal_lt_iff.1 h.above
      have be := toReal_le_iff.1 h.below
      constructor
      · intro hp
        have hn := (hp k).1.2.1
        rcases le_total (p.vec k).key (a.pmax.vec k).key with m | m
        · refine Or.inl fun i => ?_
          rw [h.low i]
          by_cases hi : i = k
          · subst hi; exact ⟨(hp i).1, hn, fm, m⟩
          · rw [(h.others i hi).1]; exact hp i
        · refine Or.inr fun i => ?_
          rw [h.high i]
          by_cases hi : i = k
          · subst hi; rw [← h.plane]; exact ⟨⟨fm, hn, m⟩, (hp i).2⟩
          · rw [(h.others i hi).2]; exact hp i
      · rintro (hp | hp) i
        · have := hp i
          rw [h.low i] at this
          by_cases hi : i = k
          · subst hi; exact ⟨this.1, this.2.1, notNaN_of_isFin (hu i).2.1, by have := this.2.2.2; omega⟩
          · rw [(h.others i hi).1] at this; exact this
        · have := hp i
          rw [h.high i] at this
          by_cases hi : i = k
          · subst hi; rw [← h.plane] at this; exact ⟨⟨notNaN_of_isFin (hu i).1, this.1.2.1, by have := this.1.2.2; omega⟩, this.2⟩
          · rw [(h.others i hi).2] at this; exact this
    rw [key, iha (h.proper hu).1, ihb (h.proper hu).2]
    constructor
    · rintro (⟨c, m, k⟩ | ⟨c, m, k⟩)
      · exact ⟨c, List.mem_append_left _ m, k⟩
      · exact ⟨c, List.mem_append_right _ m, k⟩
    · rintro ⟨c, m, k⟩
      rcases List.mem_append.1 m with m | m
      · exact Or.inl ⟨c, m, k⟩
      · exact Or.inr ⟨c, m, k⟩

/-! ### the hypotheses are met -/

/-- the cube `[-1,1]³` -/
def cutU : Bbox F32 := ⟨new3 (-F32.lit 1) (-F32.lit 1) (-F32.lit 1), new3 (F32.lit 1) (F32.lit 1) (F32.lit 1)⟩
/-- its part with `x ≤ 0` -/
def cutA : Bbox F32 := ⟨new3 (-F32.lit 1) (-F32.lit 1) (-F32.lit 1), new3 (F32.lit 0) (F32.lit 1) (F32.lit 1)⟩
/-- its part with `x ≥ 0` -/
def cutB : Bbox F32 := ⟨new3 (F32.lit 0) (-F32.lit 1) (-F32.lit 1), new3 (F32.lit 1) (F32.lit 1) (F32.lit 1)⟩
/-- the part of that with `y ≤ 0` -/
def cutC : Bbox F32 := ⟨new3 (F32.lit 0) (-F32.lit 1) (-F32.lit 1), new3 (F32.lit 1) (F32.lit 0) (F32.lit 1)⟩
/-- the part of that with `y ≥ 0` -/
def cutD : Bbox F32 := ⟨new3 (F32.lit 0) (F32.lit 0) (-F32.lit 1), new3 (F32.lit 1) (F32.lit 1) (F32.lit 1)⟩
/-- a ray along y within the plane of the first cut -/
def cutRay : Ray F32 := ⟨new3 (F32.lit 0) (-F32.lit 3) (F32.lit 0), new3 (F32.lit 0) (F32.lit 1) (F32.lit 0), F32.lit 8⟩

theorem cutAB : Splits cutU cutA cutB 0 :=
  ⟨by decide +kernel, by decide +kernel, by decide +kernel, by decide +kernel, by decide +kernel,
    toReal_lt_iff.2 (by decide +kernel), toReal_le_iff.2 (by decide +kernel)⟩
theorem cutCD : Splits cutB cutC cutD 1 :=
  ⟨by decide +kernel, by decide +kernel, by decide +kernel, by decide +kernel, by decide +kernel,
    toReal_lt_iff.2 (by decide +kernel), toReal_le_iff.2 (by decide +kernel)⟩

/-- The cube cut in three, and the ray within the plane of a cut: it meets the hypotheses, and hits the lower part only; a ray
along x meets the parts one after the other. -/
example : Cells cutU [cutA, cutC, cutD] ∧ Proper cutU ∧ cutRay.origin.Fin ∧ cutRay.direction.Fin ∧ cutRay.tmax.isNaN = false ∧
    cutU.intersectRay cutRay = some (F32.lit 2, F32.lit 4) ∧ cutA.intersectRay cutRay = some (F32.lit 2, F32.lit 4) ∧
    cutB.intersectRay cutRay = none ∧
    let r : Ray F32 := ⟨new3 (-F32.lit 3) (F32.lit 0) (F32.lit 0), new3 (F32.lit 1) (F32.lit 0) (F32.lit 0), F32.lit 8⟩
    cutU.intersectRay r = some (F32.lit 2, F32.lit 4) ∧ cutA.intersectRay r = some (F32.lit 2, F32.lit 3) ∧
    cutC.intersectRay r = some (F32.lit 3, F32.lit 4) ∧ cutD.intersectRay r = none := by
  have k : ∀ i, (cutU.pmin.vec i).isFin = true ∧ (cutU.pmax.vec i).isFin = true ∧ (cutU.pmin.vec i).key ≤ (cutU.pmax.vec i).key := by
    decide +kernel
  exact ⟨.cut _ _ _ _ [cutA] _ cutAB (.whole _) (.cut _ _ _ _ [cutC] [cutD] cutCD (.whole _) (.whole _)),
    fun i => ⟨(k i).1, (k i).2.1, toReal_le_iff.2 (k i).2.2⟩, fun i => by revert i; decide +kernel, fun i => by revert i; decide +kernel,
    by decide +kernel⟩

end Scarlet
