import Verif.Props.Bbox2
import Verif.Props.Transform3

/-! C51 (the slab test is exact), C54 (surface hit of a box). -/

set_option linter.unusedSectionVars false

namespace Scarlet
open Flt GVec

/-! ### C51 -/

/-- The bounds of a real box are in order. -/
def Bbox.OrderedR (b : Bbox ℝ) : Prop := ∀ i, b.pmin.vec i ≤ b.pmax.vec i

theorem eval_coord (ray : Ray ℝ) (t : ℝ) (i : _root_.Fin 3) : (ray.eval t).vec i = ray.origin.vec i + ray.direction.vec i * t := rfl

/-- Entry and exit parameter of the slab of axis `i`. -/
noncomputable def tIn (b : Bbox ℝ) (ray : Ray ℝ) (i : _root_.Fin 3) : ℝ :=
  Min.min ((b.pmin.vec i - ray.origin.vec i) / ray.direction.vec i) ((b.pmax.vec i - ray.origin.vec i) / ray.direction.vec i)
noncomputable def tOut (b : Bbox ℝ) (ray : Ray ℝ) (i : _root_.Fin 3) : ℝ :=
  Max.max ((b.pmin.vec i - ray.origin.vec i) / ray.direction.vec i) ((b.pmax.vec i - ray.origin.vec i) / ray.direction.vec i)

theorem slab_iff (b : Bbox ℝ) (ray : Ray ℝ) (hb : b.OrderedR) (hd : ∀ i, ray.direction.vec i ≠ 0) (t : ℝ) (i : _root_.Fin 3) :
    (b.pmin.vec i ≤ (ray.eval t).vec i ∧ (ray.eval t).vec i ≤ b.pmax.vec i) ↔ tIn b ray i ≤ t ∧ t ≤ tOut b ray i := by
  rw [eval_coord]
  unfold tIn tOut
  have hlh := hb i
  generalize b.pmin.vec i = lo at *
  generalize b.pmax.vec i = hi at *
  generalize ray.origin.vec i = o
  rcases lt_or_gt_of_ne (hd i) with h | h
  · generalize ray.direction.vec i = d at *
    have e : (hi - o) / d ≤ (lo - o) / d := (div_le_div_right_of_neg h).2 (by linarith)
    rw [min_eq_right e, max_eq_left e, div_le_iff_of_neg h, le_div_iff_of_neg h]
    constructor
    · rintro ⟨h1, h2⟩; constructor <;> linarith
    · rintro ⟨h1, h2⟩; constructor <;> linarith
  · generalize ray.direction.vec i = d at *
    have e : (lo - o) / d ≤ (hi - o) / d := div_le_div_of_nonneg_right (by linarith) h.le
    rw [min_eq_left e, max_eq_right e, div_le_iff₀ h, le_div_iff₀ h]
    constructor
    · rintro ⟨h1, h2⟩; constructor <;> linarith
    · rintro ⟨h1, h2⟩; constructor <;> linarith

theorem intersectRay_real (b : Bbox ℝ) (ray : Ray ℝ) : b.intersectRay ray =
    if ray.tmax < Max.max (Max.max (tIn b ray 0) (tIn b ray 1)) (tIn b ray 2) ∨
      Min.min (Min.min (tOut b ray 0) (tOut b ray 1)) (tOut b ray 2) < 0 ∨
      Min.min (Min.min (tOut b ray 0) (tOut b ray 1)) (tOut b ray 2) < Max.max (Max.max (tIn b ray 0) (tIn b ray 1)) (tIn b ray 2)
    then none else
      some (Max.max (Max.max (Max.max (tIn b ray 0) (tIn b ray 1)) (tIn b ray 2)) 0,
        Min.min (Min.min (Min.min (tOut b ray 0) (tOut b ray 1)) (tOut b ray 2)) ray.tmax) := by
  have e1 : ∀ i, (GVec.min ((b.pmin - ray.origin) / ray.direction) ((b.pmax - ray.origin) / ray.direction)).vec i = tIn b ray i :=
    fun i => rmin _ _
  have e2 : ∀ i, (GVec.max ((b.pmin - ray.origin) / ray.direction) ((b.pmax - ray.origin) / ray.direction)).vec i = tOut b ray i :=
    fun i => rmax _ _
  unfold Bbox.intersectRay
  dsimp only [GVec.x, GVec.y, GVec.z]
  simp only [e1, e2, Bool.or_eq_true, rgt_iff, rlt_iff, rimax, rimin, rzero, or_assoc]

theorem inside_eval_iff (b : Bbox ℝ) (ray : Ray ℝ) (hb : b.OrderedR) (hd : ∀ i, ray.direction.vec i ≠ 0) (t : ℝ) :
    b.inside (ray.eval t) = true ↔ Max.max (Max.max (tIn b ray 0) (tIn b ray 1)) (tIn b ray 2) ≤ t ∧
      t ≤ Min.min (Min.min (tOut b ray 0) (tOut b ray 1)) (tOut b ray 2) := by
  rw [inside_iff]
  unfold Bbox.Contains
  simp only [slab_iff b ray hb hd t, Fin.forall_fin_succ, IsEmpty.forall_iff, and_true, max_le_iff, le_min_iff]
  change ((tIn b ray 0 ≤ t ∧ t ≤ tOut b ray 0) ∧ (tIn b ray 1 ≤ t ∧ t ≤ tOut b ray 1) ∧ (tIn b ray 2 ≤ t ∧ t ≤ tOut b ray 2)) ↔ _
  tauto

/-- C51: the ray meets the box within `[0, tmax]` exactly when `intersect_ray` returns a range. -/
theorem C51_some_iff (b : Bbox ℝ) (ray : Ray ℝ) (hb : b.OrderedR) (hd : ∀ i, ray.direction.vec i ≠ 0) (ht : 0 ≤ ray.tmax) :
    (b.intersectRay ray).isSome = true ↔ ∃ t, 0 ≤ t ∧ t ≤ ray.tmax ∧ b.inside (ray.eval t) = true := by
  simp only [inside_eval_iff b ray hb hd]
  rw [intersectRay_real]
  generalize Max.max (Max.max (tIn b ray 0) (tIn b ray 1)) (tIn b ray 2) = n
  generalize Min.min (Min.min (tOut b ray 0) (tOut b ray 1)) (tOut b ray 2) = f
  split
  · rename_i h
    simp only [Option.isSome_none, Bool.false_eq_true, false_iff, not_exists]
    rintro t ⟨h1, h2, h3, h4⟩
    rcases h with h | h | h <;> linarith
  · rename_i h
    simp only [not_or, not_lt] at h
    simp only [Option.isSome_some, true_iff]
    exact ⟨Max.max n 0, le_max_right _ _, max_le h.1 ht, le_max_left _ _, max_le h.2.2 h.2.1⟩

/-- C51: the returned range is exactly the set of parameters in `[0, tmax]` at which the ray is inside the box. -/
theorem C51_range (b : Bbox ℝ) (ray : Ray ℝ) (hb : b.OrderedR) (hd : ∀ i, ray.direction.vec i ≠ 0)
    (t0 t1 : ℝ) (h : b.intersectRay ray = some (t0, t1)) (t : ℝ) :
    (t0 ≤ t ∧ t ≤ t1) ↔ (0 ≤ t ∧ t ≤ ray.tmax ∧ b.inside (ray.eval t) = true) := by
  rw [inside_eval_iff b ray hb hd]
  rw [intersectRay_real] at h
  revert h
  generalize Max.max (Max.max (tIn b ray 0) (tIn b ray 1)) (tIn b ray 2) = n
  generalize Min.min (Min.min (tOut b ray 0) (tOut b ray 1)) (tOut b ray 2) = f
  intro h
  split at h
  · cases h
  · rw [Option.some.injEq, Prod.mk.injEq] at h
    rw [← h.1, ← h.2, max_le_iff, le_min_iff]
    tauto

/-- The unit cube over the reals. -/
def exBoxR : Bbox ℝ := ⟨new3 0 0 0, new3 1 1 1⟩
/-- A ray that enters the unit cube at `t = 1` through the face `x = 0`. -/
noncomputable def exRayR : Ray ℝ := ⟨new3 (-1) (1/4) (1/4), new3 1 (1/8) (1/16), 10⟩

theorem exR_ok : exBoxR.OrderedR ∧ (∀ i, exRayR.direction.vec i ≠ 0) ∧ 0 ≤ exRayR.tmax := by
  refine ⟨?_, ?_, by unfold exRayR; norm_num⟩
  · intro i; unfold exBoxR; fin_cases i <;> simp
  · intro i; unfold exRayR; fin_cases i <;> simp

/-- The hypotheses are met and the intersection is non-empty. -/
example : exBoxR.OrderedR ∧ (∀ i, exRayR.direction.vec i ≠ 0) ∧ 0 ≤ exRayR.tmax ∧ (exBoxR.intersectRay exRayR).isSome = true := by
  refine ⟨exR_ok.1, exR_ok.2.1, exR_ok.2.2, ?_⟩
  rw [C51_some_iff _ _ exR_ok.1 exR_ok.2.1 exR_ok.2.2]
  refine ⟨3 / 2, by norm_num, by unfold exRayR; norm_num, ?_⟩
  rw [inside_iff]
  intro i
  unfold exRayR exBoxR
  fin_cases i <;> simp [Ray.eval] <;> norm_num

/-! ### C54 -/

/-- Bound of face `f` (0 .. 5: xmin xmax ymin ymax zmin zmax). -/
def faceBound {T : Type} (b : Bbox T) (f : _root_.Fin 6) : T := ![b.pmin.vec 0, b.pmax.vec 0, b.pmin.vec 1, b.pmax.vec 1, b.pmin.vec 2, b.pmax.vec 2] f
/-- Axis of face `f`. -/
def faceAxis (f : _root_.Fin 6) : _root_.Fin 3 := ![0, 0, 1, 1, 2, 2] f
/-- Outward unit normal of face `f`. -/
def faceNormal {T : Type} [Neg T] [Scalar T] (f : _root_.Fin 6) : _root_.Fin 3 → T :=
  fun i => if i = faceAxis f then (if f.val % 2 = 0 then -Scalar.one else Scalar.one) else Scalar.zero

section fold
variable {T : Type} [Scalar T]
theorem argmin_fold (htr : ∀ a b c : T, Scalar.lt a b = true → Scalar.lt b c = true → Scalar.lt a c = true)
    (hir : ∀ a : T, Scalar.lt a a = false) (d : _root_.Fin 6 → T) (j : _root_.Fin 6) :
    Scalar.lt (d j) (d (Bbox.minDistanceIdx d)) = false := by
  have key : ∀ (l : List (_root_.Fin 6)) (s : _root_.Fin 6) (P : _root_.Fin 6 → Prop),
      (∀ j, P j → Scalar.lt (d j) (d s) = false) → P s →
      ∀ j, (P j ∨ j ∈ l) → Scalar.lt (d j) (d (l.foldl (fun best i => if Scalar.lt (d i) (d best) then i else best) s)) = false := by
    intro l
    induction l with
    | nil => intro s P hP _ j hj; exact hP j (hj.resolve_right (by simp))
    | cons i l ih =>
      intro s P hP hs j hj
      rw [List.foldl_cons]
      refine ih _ (fun j => P j ∨ j = i) ?_ ?_ j ?_
      · rintro j (h | rfl)
        · by_cases hlt : Scalar.lt (d i) (d s) = true
          · rw [if_pos hlt, Bool.eq_false_iff]
            intro h'
            have := htr _ _ _ h' hlt
            rw [hP j h] at this; cases this
          · rw [if_neg hlt]; exact hP j h
        · by_cases hlt : Scalar.lt (d j) (d s) = true
          · rw [if_pos hlt]; exact hir _
          · rw [if_neg hlt]; exact Bool.eq_false_iff.2 hlt
      · by_cases hlt : Scalar.lt (d i) (d s) = true
        · rw [if_pos hlt]; exact Or.inr rfl
        · rw [if_neg hlt]; exact Or.inl hs
      · rcases hj with h | h
        · exact Or.inl (Or.inl h)
        · rcases List.mem_cons.1 h with h | h
          · exact Or.inl (Or.inr h)
          · exact Or.inr h
  refine key [1, 2, 3, 4, 5] 0 (fun j => j = 0) (fun j h => h ▸ hir _) rfl j ?_
  fin_cases j <;> simp
end fold

section generic
variable {T : Type} [Add T] [Sub T] [Mul T] [Div T] [Neg T] [Scalar T] [Inherent T]

theorem faceInteraction_spec (b : Bbox T) (p : Point T 3) (f : _root_.Fin 6) :
    (Bbox.faceInteraction b p f).n.vec = faceNormal f ∧
    (Bbox.faceInteraction b p f).p.vec = fun i => if i = faceAxis f then faceBound b f else p.vec i := by
  constructor
  · fin_cases f <;> (funext i; fin_cases i <;> rfl)
  · fin_cases f <;> (funext i; fin_cases i <;> rfl)

theorem faceDistances_eq (b : Bbox T) (p : Point T 3) (f : _root_.Fin 6) :
    Bbox.faceDistances b p f = Inherent.abs (p.vec (faceAxis f) - faceBound b f) := by
  fin_cases f <;> rfl
end generic

/-- C54, for all floats (NaN and infinities included): a reported hit has `0 ≤ t_ray ≤ tmax`, and names a face `f` of the box such
that the normal is the outward unit normal of `f`, the point is `eval(t_ray)` moved onto `f`, and no face is closer to
`eval(t_ray)`. -/
theorem C54_hit {mw ew : Nat} [FltImpl mw ew] [LawfulFlt mw ew] (b : Bbox (Flt mw ew)) (ray : Ray (Flt mw ew))
    (r : IntersectionResult (Flt mw ew))
    (ht : ray.tmax.isNaN = false) (h0 : 0 ≤ ray.tmax.val) (h : b.hit ray = some r) :
    r.tRay.isNaN = false ∧ 0 ≤ r.tRay.val ∧ r.tRay.val ≤ ray.tmax.val ∧
    ∃ f, r.surfaceInteraction.n.vec = faceNormal f ∧
      (r.surfaceInteraction.p.vec = fun i => if i = faceAxis f then faceBound b f else (ray.eval r.tRay).vec i) ∧
      ∀ g, Scalar.lt (iabs ((ray.eval r.tRay).vec (faceAxis g) - faceBound b g))
        (iabs ((ray.eval r.tRay).vec (faceAxis f) - faceBound b f)) = false := by
  unfold Bbox.hit at h
  rw [Option.map_eq_some_iff] at h
  obtain ⟨⟨t0, t1⟩, hi, hr⟩ := h
  obtain ⟨⟨n1, n2⟩, g1, g2, g3⟩ := C52_range b ray t0 t1 ht h0 hi
  have et : r.tRay = t0 := by rw [← hr]
  have es : r.surfaceInteraction = Bbox.faceInteraction b (ray.eval t0) (Bbox.minDistanceIdx (Bbox.faceDistances b (ray.eval t0))) := by
    rw [← hr]
  rw [et, es]
  refine ⟨n1, g1, g2.trans g3, Bbox.minDistanceIdx (Bbox.faceDistances b (ray.eval t0)), (faceInteraction_spec _ _ _).1,
    (faceInteraction_spec _ _ _).2, fun g => ?_⟩
  have := argmin_fold (T := Flt mw ew) (fun a b c h1 h2 => ?_) (fun a => ?_) (Bbox.faceDistances b (ray.eval t0)) g
  · rw [faceDistances_eq, faceDistances_eq] at this
    exact this
  · rw [slt_iff] at *; exact ⟨h1.1, h2.2.1, by omega⟩
  · rw [Bool.eq_false_iff, ne_eq, slt_iff]; omega

theorem hit_real (b : Bbox ℝ) (ray : Ray ℝ) (r : IntersectionResult ℝ) (h : b.hit ray = some r) :
    ∃ t1 f, b.intersectRay ray = some (r.tRay, t1) ∧ r.surfaceInteraction = Bbox.faceInteraction b (ray.eval r.tRay) f ∧
      ∀ g, |(ray.eval r.tRay).vec (faceAxis f) - faceBound b f| ≤ |(ray.eval r.tRay).vec (faceAxis g) - faceBound b g| := by
  unfold Bbox.hit at h
  rw [Option.map_eq_some_iff] at h
  obtain ⟨⟨t0, t1⟩, hi, hr⟩ := h
  have et : r.tRay = t0 := by rw [← hr]
  refine ⟨t1, Bbox.minDistanceIdx (Bbox.faceDistances b (ray.eval t0)), by rw [et]; exact hi, ?_, fun g => ?_⟩
  · rw [et, ← hr]
  · have := argmin_fold (T := ℝ) (fun a b c h1 h2 => ?_) (fun a => ?_) (Bbox.faceDistances b (ray.eval t0)) g
    · rw [faceDistances_eq, faceDistances_eq, Bool.eq_false_iff, ne_eq, rlt_iff, not_lt] at this
      rw [et]; exact this
    · rw [rlt_iff] at *; exact h1.trans h2
    · rw [Bool.eq_false_iff, ne_eq, rlt_iff]; exact lt_irrefl _

/-- C54, exact arithmetic: the reported point is in the box, on a face; the normal is the outward normal of that face; and the
tangents satisfy `dpdu × dpdv = -n`. -/
theorem C54_face (b : Bbox ℝ) (ray : Ray ℝ) (hb : b.OrderedR) (hd : ∀ i, ray.direction.vec i ≠ 0)
    (r : IntersectionResult ℝ) (h : b.hit ray = some r) :
    b.inside r.surfaceInteraction.p = true ∧
    (∃ f, r.surfaceInteraction.n.vec = faceNormal f ∧ r.surfaceInteraction.p.vec (faceAxis f) = faceBound b f) ∧
    (r.surfaceInteraction.dpdu.cross r.surfaceInteraction.dpdv).vec = fun i => -(r.surfaceInteraction.n.vec i) := by
  obtain ⟨t1, f, hi, hs, -⟩ := hit_real b ray r h
  have hin : b.inside (ray.eval r.tRay) = true := by
    have h' := hi
    rw [intersectRay_real] at h'
    split at h'
    · cases h'
    rename_i hc
    simp only [not_or, not_lt] at hc
    rw [Option.some.injEq, Prod.mk.injEq] at h'
    rw [inside_eval_iff b ray hb hd, ← h'.1]
    exact ⟨le_max_left _ _, max_le hc.2.2 hc.2.1⟩
  refine ⟨?_, ⟨f, ?_, ?_⟩, ?_⟩
  · rw [hs, inside_iff]
    rw [inside_iff] at hin
    intro i
    rw [(faceInteraction_spec _ _ _).2]
    dsimp only
    split
    · rename_i hif
      rw [hif]
      fin_cases f
      exacts [⟨le_rfl, hb 0⟩, ⟨hb 0, le_rfl⟩, ⟨le_rfl, hb 1⟩, ⟨hb 1, le_rfl⟩, ⟨le_rfl, hb 2⟩, ⟨hb 2, le_rfl⟩]
    · exact hin i
  · rw [hs]; exact (faceInteraction_spec _ _ _).1
  · rw [hs, (faceInteraction_spec _ _ _).2]; simp
  · rw [hs]
    funext i
    fin_cases f <;> fin_cases i <;> simp [Bbox.faceInteraction, GVec.cross]

/-- C54, partial: if the ray starts outside the box, the reported point is `eval(t_ray)` itself, so the hit is genuine.
Missing: rays starting inside the box (see `C54_refuted`). -/
theorem C54_genuine_partial (b : Bbox ℝ) (ray : Ray ℝ) (hb : b.OrderedR) (hd : ∀ i, ray.direction.vec i ≠ 0)
    (hout : b.inside ray.origin = false) (r : IntersectionResult ℝ) (h : b.hit ray = some r) :
    r.surfaceInteraction.p = ray.eval r.tRay := by
  obtain ⟨t1, f, hi, hs, hmin⟩ := hit_real b ray r h
  rw [intersectRay_real] at hi
  split at hi
  · cases hi
  rename_i hc
  simp only [not_or, not_lt] at hc
  rw [Option.some.injEq, Prod.mk.injEq] at hi
  have h0 : ray.eval 0 = ray.origin := by
    refine GVec.ext (funext fun i => ?_)
    rw [eval_coord]; ring
  have hn : 0 < Max.max (Max.max (tIn b ray 0) (tIn b ray 1)) (tIn b ray 2) := by
    by_contra hle
    rw [← h0] at hout
    have := (inside_eval_iff b ray hb hd 0).2 ⟨not_lt.1 hle, hc.2.1⟩
    rw [hout] at this; cases this
  have ht : r.tRay = Max.max (Max.max (tIn b ray 0) (tIn b ray 1)) (tIn b ray 2) := by
    rw [← hi.1]; exact max_eq_left hn.le
  have hi' : ∃ i, r.tRay = tIn b ray i := by
    rw [ht]
    rcases max_choice (Max.max (tIn b ray 0) (tIn b ray 1)) (tIn b ray 2) with e | e
    · rcases max_choice (tIn b ray 0) (tIn b ray 1) with e' | e'
      · exact ⟨0, e.trans e'⟩
      · exact ⟨1, e.trans e'⟩
    · exact ⟨2, e⟩
  obtain ⟨i, hti⟩ := hi'
  have hz : ∃ g, (ray.eval r.tRay).vec (faceAxis g) - faceBound b g = 0 := by
    have hdi := hd i
    have sol : ∀ c, r.tRay = (c - ray.origin.vec i) / ray.direction.vec i → (ray.eval r.tRay).vec i - c = 0 := by
      intro c hc
      rw [eval_coord, hc]; field_simp; ring
    have fl : ∃ g, faceAxis g = i ∧ faceBound b g = b.pmin.vec i := by
      fin_cases i
      exacts [⟨0, rfl, rfl⟩, ⟨2, rfl, rfl⟩, ⟨4, rfl, rfl⟩]
    have fh : ∃ g, faceAxis g = i ∧ faceBound b g = b.pmax.vec i := by
      fin_cases i
      exacts [⟨1, rfl, rfl⟩, ⟨3, rfl, rfl⟩, ⟨5, rfl, rfl⟩]
    unfold tIn at hti
    rcases min_choice ((b.pmin.vec i - ray.origin.vec i) / ray.direction.vec i)
      ((b.pmax.vec i - ray.origin.vec i) / ray.direction.vec i) with e | e
    · obtain ⟨g, g1, g2⟩ := fl
      exact ⟨g, by rw [g1, g2]; exact sol _ (hti.trans e)⟩
    · obtain ⟨g, g1, g2⟩ := fh
      exact ⟨g, by rw [g1, g2]; exact sol _ (hti.trans e)⟩
  obtain ⟨g, hg⟩ := hz
  have hf : (ray.eval r.tRay).vec (faceAxis f) = faceBound b f := by
    have := hmin g
    rw [hg, abs_zero] at this
    have := abs_eq_zero.1 (le_antisymm this (abs_nonneg _))
    linarith
  refine GVec.ext ?_
  rw [hs, (faceInteraction_spec _ _ _).2]
  funext j
  split
  · rename_i hj; rw [hj, hf]
  · rfl

/-- C54 is false of the code in two ways: `dpdu × dpdv` is *minus* the reported normal for every hit (here: some hit exists), and for
a ray starting inside the box the reported point is not on the ray. -/
theorem C54_refuted :
    (¬ ∀ (b : Bbox ℝ) (ray : Ray ℝ) (r : IntersectionResult ℝ), b.OrderedR → (∀ i, ray.direction.vec i ≠ 0) → b.hit ray = some r →
      (r.surfaceInteraction.dpdu.cross r.surfaceInteraction.dpdv).vec = r.surfaceInteraction.n.vec) ∧
    (¬ ∀ (b : Bbox ℝ) (ray : Ray ℝ) (r : IntersectionResult ℝ), b.OrderedR → (∀ i, ray.direction.vec i ≠ 0) → b.hit ray = some r →
      r.surfaceInteraction.p = ray.eval r.tRay) := by
  let ray : Ray ℝ := ⟨new3 (1/2) (1/2) (1/2), new3 1 1 1, 10⟩
  have hd : ∀ i, ray.direction.vec i ≠ 0 := by intro i; fin_cases i <;> simp [ray]
  have hs : (exBoxR.intersectRay ray).isSome = true := by
    rw [C51_some_iff _ _ exR_ok.1 hd (by norm_num [ray])]
    refine ⟨0, le_rfl, by norm_num [ray], ?_⟩
    rw [inside_iff]
    intro i
    unfold exBoxR
    fin_cases i <;> simp [Ray.eval, ray] <;> norm_num
  obtain ⟨⟨t0, t1⟩, ht⟩ := Option.isSome_iff_exists.1 hs
  obtain ⟨r, hr⟩ : ∃ r, exBoxR.hit ray = some r := ⟨_, by unfold Bbox.hit; rw [ht]; rfl⟩
  obtain ⟨-, ⟨f, hn, hf⟩, hc⟩ := C54_face exBoxR ray exR_ok.1 hd r hr
  constructor
  · intro h
    have e := h exBoxR ray r exR_ok.1 hd hr
    rw [hc, hn] at e
    have := congrFun e (faceAxis f)
    unfold faceNormal at this
    simp only [if_true, rone] at this
    split at this <;> norm_num at this
  · intro h
    have e := h exBoxR ray r exR_ok.1 hd hr
    obtain ⟨t1', f', hi, -, -⟩ := hit_real _ _ _ hr
    have t0 : r.tRay = 0 := by
      have hr0 := (C51_range _ _ exR_ok.1 hd _ _ hi r.tRay).1 ⟨le_rfl, ?_⟩
      · refine le_antisymm ?_ hr0.1
        refine ((C51_range _ _ exR_ok.1 hd _ _ hi 0).2 ⟨le_rfl, by norm_num [ray], ?_⟩).1
        rw [inside_iff]
        intro i
        unfold exBoxR
        fin_cases i <;> simp [Ray.eval, ray] <;> norm_num
      · have h' := (C51_range _ _ exR_ok.1 hd _ _ hi 0).2 ⟨le_rfl, by norm_num [ray], ?_⟩
        · exact h'.1.trans h'.2
        · rw [inside_iff]
          intro i
          unfold exBoxR
          fin_cases i <;> simp [Ray.eval, ray] <;> norm_num
    rw [e, t0] at hf
    have hv : ∀ i, (ray.eval 0).vec i = 1 / 2 := by intro i; fin_cases i <;> simp [Ray.eval, ray]
    rw [hv] at hf
    unfold exBoxR at hf
    fin_cases f <;> simp [faceBound] at hf <;> norm_num at hf

/-- The hypotheses of the exact C54 theorems are met: `exRayR` starts outside and hits. -/
example : exBoxR.inside exRayR.origin = false := by
  rw [Bool.eq_false_iff, ne_eq, inside_iff]
  intro h
  have := (h 0).1
  unfold exBoxR exRayR at this
  simp at this
  norm_num at this

end Scarlet
