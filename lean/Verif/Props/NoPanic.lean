import Verif.Props.FloatNested
import Verif.Props.CameraFloat
import Verif.Theory.Near

/-! C147 (when tracing a scene panics). -/

set_option linter.unusedSectionVars false

namespace Scarlet
open GVec Flt

section general
variable {T : Type} [Add T] [Sub T] [Mul T] [Div T] [Neg T] [Scalar T] [Inherent T] [GFloat T] [GTrig T]

/-- Specification: a primitive that never panics. -/
def Primitive.Safe (p : Primitive T) : Prop := ∀ r, p.intersect r ≠ none ∧ p.doIntersect r ≠ none

theorem loop_none (r : Ray T) (ps : List (Primitive T)) (res : Option (IntersectionResult T)) (rm : Ray T) :
    PrimitiveList.intersectLoop r ps res rm = none ↔ ∃ p ∈ ps, p.intersect r = none := by
  induction ps generalizing res rm with
  | nil => simp [PrimitiveList.intersectLoop]
  | cons p ps ih =>
    unfold PrimitiveList.intersectLoop
    cases e : p.intersect r with
    | none => simp [e]
    | some x => cases x <;> simp [e, ih]

theorem doLoop_none (r : Ray T) (ps : List (Primitive T)) (h : PrimitiveList.doIntersectLoop r ps = none) :
    ∃ p ∈ ps, p.doIntersect r = none := by
  induction ps with
  | nil => cases h
  | cons p ps ih =>
    unfold PrimitiveList.doIntersectLoop at h
    cases e : p.doIntersect r with
    | none => exact ⟨p, List.mem_cons_self, e⟩
    | some x =>
      rw [e] at h
      cases x
      · obtain ⟨q, hq, hn⟩ := ih h
        exact ⟨q, List.mem_cons_of_mem _ hq, hn⟩
      · cases h

/-- C147: a scene of any depth panics exactly when a ray arrives at a transformed primitive that its transform cannot map back;
every scalar type. -/
theorem C147_origin (B : Primitive T → Prop) (hB : ∀ p, B p → p.Safe) (p : Primitive T) (hp : Primitive.Scene B p) (r : Ray T) :
    p.intersect r = none ↔ ∃ ts t q s, Reaches p (ts ++ [t]) q ∧ Chain ts r s ∧ t.mapRayInv s = none := by
  constructor
  · intro h
    induction hp generalizing r with
    | base p hb => exact absurd h (hB p hb r).1
    | sphere s => cases h
    | bbox b => cases h
    | transformed p t _ ih =>
      cases e : t.mapRayInv r with
      | none => exact ⟨[], t, p, r, .transformed _ _ _ _ (.here p), rfl, e⟩
      | some s =>
        have h' : p.intersect s = none := by
          have : (t.mapRayInv r).bind p.intersect = none := h
          rwa [e] at this
        obtain ⟨ts, t', q, s', k1, k2, k3⟩ := ih s h'
        exact ⟨t :: ts, t', q, s', .transformed _ _ _ _ k1, ⟨s, e, k2⟩, k3⟩
    | list ps _ ih =>
      obtain ⟨p, hp, hn⟩ := (loop_none r ps none r).1 h
      obtain ⟨ts, t', q, s', k1, k2, k3⟩ := ih p hp r hn
      exact ⟨ts, t', q, s', .list _ _ _ _ hp k1, k2, k3⟩
  · rintro ⟨ts, t, q, s, k1, k2, k3⟩
    clear hp
    generalize e : ts ++ [t] = l at k1
    induction k1 generalizing ts r with
    | here p => cases ts <;> cases e
    | transformed p t' l q _ ih =>
      change (t'.mapRayInv r).bind p.intersect = none
      cases ts with
      | nil =>
        cases e
        cases k2
        rw [k3]
        rfl
      | cons a ts =>
        cases e
        obtain ⟨s', h1, h2⟩ := k2
        rw [h1]
        exact ih s' ts h2 rfl
    | list ps p l q hp _ ih => exact (loop_none r ps none r).2 ⟨p, hp, ih r ts k2 e⟩

/-- C147: `do_intersect` never panics where `intersect` does not. -/
theorem C147_do_intersect (B : Primitive T → Prop) (hB : ∀ p, B p → p.Safe ∧ p.Agrees) (p : Primitive T) (hp : Primitive.Scene B p)
    (r : Ray T) (h : p.intersect r ≠ none) : p.doIntersect r ≠ none := by
  obtain ⟨x, hx⟩ := Option.ne_none_iff_exists'.1 h
  rw [C58_agrees B (fun q hq => (hB q hq).2) p hp r x hx]
  exact Option.some_ne_none _

end general

variable {mw ew : Nat} [FltImpl mw ew] [LawfulFlt mw ew]

/-- Specification: scenes built from spheres, boxes and the primitives in `B` by lists and transforms, with every transform in `P` and
at most `k` transforms around each shape. -/
inductive Primitive.DeepScene [Libm mw ew] (B : Primitive (Flt mw ew) → Prop) (P : Transform (Flt mw ew) → Prop) :
    Nat → Primitive (Flt mw ew) → Prop
  | base (k p) (h : B p) : DeepScene B P k p
  | sphere (k) (s : Sphere (Flt mw ew)) : DeepScene B P k s.prim
  | bbox (k) (b : Bbox (Flt mw ew)) : DeepScene B P k b.prim
  | transformed (k p) (t : Transform (Flt mw ew)) (ht : P t) (h : DeepScene B P k p) : DeepScene B P (k + 1) (p.transformed t)
  | list (k) (ps : List (Primitive (Flt mw ew))) (h : ∀ p ∈ ps, DeepScene B P k p) : DeepScene B P k (PrimitiveList.prim ps)

theorem Primitive.DeepScene.scene [Libm mw ew] {B : Primitive (Flt mw ew) → Prop} {P : Transform (Flt mw ew) → Prop} {k : Nat}
    {p : Primitive (Flt mw ew)} (h : p.DeepScene B P k) : Primitive.Scene B p := by
  induction h with
  | base k p h => exact .base p h
  | sphere k s => exact .sphere s
  | bbox k b => exact .bbox b
  | transformed k p t _ _ ih => exact .transformed p t ih
  | list k ps _ ih => exact .list ps ih

theorem mapRayInv_none_iff (t : Transform (Flt mw ew)) (hi : t.minv.AffineF) (r : Ray (Flt mw ew)) :
    t.mapRayInv r = none ↔ ∃ i, (r.direction.vec i).isFin = false := by
  have h2 := C43_float_exact t.minv hi r.origin r.direction
  rw [← h2.2]
  unfold Transform.mapRayInv Transform.mapPointInv Transform.mapVecInv
  obtain ⟨q, hq⟩ := Option.ne_none_iff_exists'.1 h2.1
  rw [hq]
  cases mapVector t.minv r.direction <;> simp

/-- a direction that is not finite cannot be mapped, whatever the matrix -/
theorem mapRayInv_none_of (t : Transform (Flt mw ew)) (r : Ray (Flt mw ew)) (h : ∃ i, (r.direction.vec i).isFin = false) :
    t.mapRayInv r = none := by
  obtain ⟨i, hi⟩ := h
  have hv : mapVector t.minv r.direction = none := by
    unfold mapVector
    rw [if_neg]
    intro hw
    have hz := isFin_of_key_zero ((seq_iff.1 hw).2.2.trans key_szero)
    have f := isFin_of_add (isFin_of_add hz).1
    have g := (isFin_of_add hz).2
    have : (r.direction.vec i).isFin = true := by
      fin_cases i
      · exact (isFin_of_mul f.1).1
      · exact (isFin_of_mul f.2).1
      · exact (isFin_of_mul g).1
    rw [this] at hi
    cases hi
  unfold Transform.mapRayInv Transform.mapPointInv Transform.mapVecInv
  rw [hv]
  cases mapPt t.minv r.origin <;> rfl

/-- C147: on floats, a scene of affine transforms panics exactly when a ray whose direction has an infinite or NaN component arrives
at a transformed primitive.  Origins, `tmax` and the shapes never matter. -/
theorem C147_exact [Libm mw ew] (B : Primitive (Flt mw ew) → Prop) (hB : ∀ p, B p → p.Safe) (k : Nat) (p : Primitive (Flt mw ew))
    (hp : p.DeepScene B (fun t => t.minv.AffineF) k) (r : Ray (Flt mw ew)) :
    p.intersect r = none ↔ ∃ ts t q s, Reaches p (ts ++ [t]) q ∧ Chain ts r s ∧ ∃ i, (s.direction.vec i).isFin = false := by
  constructor
  · intro h
    induction hp generalizing r with
    | base k p hb => exact absurd h (hB p hb r).1
    | sphere k s => cases h
    | bbox k b => cases h
    | transformed k p t ht _ ih =>
      cases e : t.mapRayInv r with
      | none => exact ⟨[], t, p, r, .transformed _ _ _ _ (.here p), rfl, (mapRayInv_none_iff t ht r).1 e⟩
      | some s =>
        have h' : p.intersect s = none := by
          have : (t.mapRayInv r).bind p.intersect = none := h
          rwa [e] at this
        obtain ⟨ts, t', q, s', k1, k2, k3⟩ := ih s h'
        exact ⟨t :: ts, t', q, s', .transformed _ _ _ _ k1, ⟨s, e, k2⟩, k3⟩
    | list k ps _ ih =>
      obtain ⟨p, hp, hn⟩ := (loop_none r ps none r).1 h
      obtain ⟨ts, t', q, s', k1, k2, k3⟩ := ih p hp r hn
      exact ⟨ts, t', q, s', .list _ _ _ _ hp k1, k2, k3⟩
  · rintro ⟨ts, t, q, s, k1, k2, k3⟩
    exact (C147_origin B hB p hp.scene r).2 ⟨ts, t, q, s, k1, k2, mapRayInv_none_of t s k3⟩

/-- C147: so a scene without transforms never panics, and one with at most one transform around each shape panics only on rays
whose own direction is not finite. -/
theorem C147_shallow [Libm mw ew] (B : Primitive (Flt mw ew) → Prop) (hB : ∀ p, B p → p.Safe) (p : Primitive (Flt mw ew))
    (r : Ray (Flt mw ew)) :
    (p.DeepScene B (fun t => t.minv.AffineF) 0 → p.intersect r ≠ none) ∧
    (p.DeepScene B (fun t => t.minv.AffineF) 1 → (∀ i, (r.direction.vec i).isFin = true) → p.intersect r ≠ none) := by
  have h0 : ∀ (k : Nat) (p : Primitive (Flt mw ew)) (r : Ray (Flt mw ew)), p.DeepScene B (fun t => t.minv.AffineF) k → k = 0 → p.intersect r ≠ none := by
    intro k p r hp hk
    induction hp with
    | base k p hb => exact (hB p hb r).1
    | sphere k s => exact Option.some_ne_none _
    | bbox k b => exact Option.some_ne_none _
    | transformed k p t ht _ ih => cases hk
    | list k ps _ ih =>
      intro h
      obtain ⟨p, hp, hn⟩ := (loop_none r ps none r).1 h
      exact ih p hp hk hn
  refine ⟨fun hp => h0 0 p r hp rfl, fun hp hr => ?_⟩
  generalize e : 1 = k at hp
  induction hp with
  | base k p hb => exact (hB p hb r).1
  | sphere k s => exact Option.some_ne_none _
  | bbox k b => exact Option.some_ne_none _
  | transformed k p t ht hp _ =>
    have hk : k = 0 := by omega
    intro h
    cases e' : t.mapRayInv r with
    | none =>
      obtain ⟨i, hi⟩ := (mapRayInv_none_iff t ht r).1 e'
      rw [hr i] at hi
      cases hi
    | some s =>
      have : (t.mapRayInv r).bind p.intersect = none := h
      rw [e'] at this
      exact h0 k p s hp hk this
  | list k ps _ ih =>
    intro h
    obtain ⟨p, hp, hn⟩ := (loop_none r ps none r).1 h
    exact ih p hp e hn

/-! ### how far directions can grow -/

/-- the exponent of the largest power of two among the floats, 127 for `f32` -/
def maxExp (ew : Nat) : Nat := 2 ^ (ew - 1) - 1

theorem exists_pow (e : Nat) (he : e ≤ maxExp ew) : ∃ F : Flt mw ew, F.isFin = true ∧ F.toReal = 2 ^ e := by
  have hF : Fmt mw ew := inferInstance
  have hmw := hF.hmw
  have hew := hF.hew
  have h1 : 2 ^ ew = 2 * 2 ^ (ew - 1) := by rw [← pow_succ']; congr 1; omega
  have h2 : 2 ^ 2 ≤ 2 ^ (ew - 1) := Nat.pow_le_pow_right (by decide) (by omega)
  refine ⟨ofRat mw ew false (2 ^ e) 1, exact_of_repr ?_ ?_⟩
  · refine repr_of_mul_pow 1 (fK mw ew + e) (Nat.one_le_two_pow) ?_ (by push_cast; ring)
    rw [magN_infIdx, ← pow_add, one_mul]
    apply Nat.pow_lt_pow_right (by decide)
    unfold fK maxExp at *
    omega
  · rw [(ofRat_key false (2 ^ e) 1 (by decide)).2]; simp

theorem round_below {z : Flt mw ew} {r : ℝ} {e : Nat} (he : e ≤ maxExp ew) (hk : z.key = rndK mw ew r) (h : |r| ≤ 2 ^ e) :
    z.isFin = true ∧ |z.toReal| ≤ 2 ^ e := by
  obtain ⟨F, hF, hv⟩ := exists_pow (mw := mw) e he
  rw [← hv] at h
  have hz := fin_below hF hk h
  refine ⟨hz, ?_⟩
  obtain ⟨h1, h2⟩ := _root_.abs_le.1 h
  have u1 := rndK_mono mw ew h2
  have u2 := rndK_mono mw ew h1
  rw [rndK_neg, rndK_toReal (notNaN_of_isFin hF), ← hk] at u2
  rw [rndK_toReal (notNaN_of_isFin hF), ← hk] at u1
  rw [← hv, _root_.abs_le]
  refine ⟨?_, toReal_le_iff.2 u1⟩
  rw [← toReal_negop, toReal_le_iff, key_negop]
  exact u2

theorem below_add {x y : Flt mw ew} {e : Nat} (he : e + 1 ≤ maxExp ew) (hx : x.isFin = true ∧ |x.toReal| ≤ 2 ^ e)
    (hy : y.isFin = true ∧ |y.toReal| ≤ 2 ^ e) : (x + y).isFin = true ∧ |(x + y).toReal| ≤ 2 ^ (e + 1) := by
  refine round_below he (add_fin hx.1 hy.1).2 ((abs_add_le _ _).trans ?_)
  rw [pow_succ]
  linarith [hx.2, hy.2]

theorem below_mul {x y : Flt mw ew} {a b : Nat} (he : a + b ≤ maxExp ew) (hx : x.isFin = true ∧ |x.toReal| ≤ 2 ^ a)
    (hy : y.isFin = true ∧ |y.toReal| ≤ 2 ^ b) : (x * y).isFin = true ∧ |(x * y).toReal| ≤ 2 ^ (a + b) := by
  refine round_below he (mul_fin hx.1 hy.1).2 ?_
  rw [abs_mul, pow_add]
  exact mul_le_mul hx.2 hy.2 (abs_nonneg _) (by positivity)

theorem below_up {x : Flt mw ew} {a b : Nat} (h : a ≤ b) (hx : x.isFin = true ∧ |x.toReal| ≤ 2 ^ a) :
    x.isFin = true ∧ |x.toReal| ≤ 2 ^ b := ⟨hx.1, hx.2.trans (pow_le_pow_right₀ (by norm_num) h)⟩

/-- Specification: all components are finite and at most `2^a` in size. -/
def Below (a : Nat) (v : Vec (Flt mw ew) 3) : Prop := ∀ i, (v.vec i).isFin = true ∧ |(v.vec i).toReal| ≤ 2 ^ a

/-- Specification: the entries that act on directions are finite and at most `2^b` in size. -/
def EntriesBelow (b : Nat) (m : Mat4 (Flt mw ew)) : Prop :=
  ∀ i j : _root_.Fin 3, (m.data i.castSucc j.castSucc).isFin = true ∧ |(m.data i.castSucc j.castSucc).toReal| ≤ 2 ^ b

theorem below_map (t : Transform (Flt mw ew)) (r s : Ray (Flt mw ew)) {a b : Nat} (he : a + b + 2 ≤ maxExp ew)
    (ht : EntriesBelow b t.minv) (hr : Below a r.direction) (h : t.mapRayInv r = some s) : Below (a + b + 2) s.direction := by
  unfold Transform.mapRayInv at h
  obtain ⟨o, -, h⟩ := Option.bind_eq_some_iff.1 h
  obtain ⟨d, hd, h⟩ := Option.bind_eq_some_iff.1 h
  cases h
  change Below (a + b + 2) d
  change mapVector t.minv r.direction = some d at hd
  unfold mapVector at hd
  split at hd
  · cases hd
    have row : ∀ i : _root_.Fin 3,
        (r.direction.x * t.minv.idx i.castSucc 0 + r.direction.y * t.minv.idx i.castSucc 1 +
          r.direction.z * t.minv.idx i.castSucc 2).isFin = true ∧
        |(r.direction.x * t.minv.idx i.castSucc 0 + r.direction.y * t.minv.idx i.castSucc 1 +
          r.direction.z * t.minv.idx i.castSucc 2).toReal| ≤ 2 ^ (a + b + 2) := by
      intro i
      exact below_add (e := a + b + 1) he
        (below_add (e := a + b) (by omega) (below_mul (by omega) (hr 0) (ht i 0)) (below_mul (by omega) (hr 1) (ht i 1)))
        (below_up (by omega) (below_mul (by omega) (hr 2) (ht i 2)))
    intro i
    fin_cases i
    · exact row 0
    · exact row 1
    · exact row 2
  · cases hd

/-- C147: with direction components at most `2^a`, matrix entries at most `2^b` and at most `k` transforms around each shape, a scene
does not panic if `a + (k-1)(b+2)` is at most the largest exponent (127 for `f32`), whatever the rounding: not in `intersect` and not
in `do_intersect`. -/
theorem C147_deep [Libm mw ew] (B : Primitive (Flt mw ew) → Prop) (hB : ∀ p, B p → p.Safe ∧ p.Agrees) (a b k : Nat)
    (p : Primitive (Flt mw ew)) (hp : p.DeepScene B (fun t => t.minv.AffineF ∧ EntriesBelow b t.minv) k) (r : Ray (Flt mw ew))
    (hr : Below a r.direction) (he : a + (k - 1) * (b + 2) ≤ maxExp ew) : p.intersect r ≠ none ∧ p.doIntersect r ≠ none := by
  have h1 : k = 0 ∨ (Below a r.direction ∧ a + (k - 1) * (b + 2) ≤ maxExp ew) → p.intersect r ≠ none := by
    clear hr he
    induction hp generalizing a r with
    | base k p hb => exact fun _ => ((hB p hb).1 r).1
    | sphere k s => exact fun _ => Option.some_ne_none _
    | bbox k b => exact fun _ => Option.some_ne_none _
    | transformed k p t ht _ ih =>
      rintro (h | ⟨hr, he⟩) hn
      · cases h
      · rw [Nat.add_sub_cancel] at he
        cases e : t.mapRayInv r with
        | none =>
          obtain ⟨i, hi⟩ := (mapRayInv_none_iff t ht.1 r).1 e
          rw [(hr i).1] at hi
          cases hi
        | some s =>
          have h' : (t.mapRayInv r).bind p.intersect = none := hn
          rw [e] at h'
          refine ih (a + b + 2) s ?_ h'
          rcases Nat.eq_zero_or_pos k with hk | hk
          · exact .inl hk
          · obtain ⟨k', rfl⟩ : ∃ k', k = k' + 1 := ⟨k - 1, by omega⟩
            have hm : (k' + 1) * (b + 2) = k' * (b + 2) + (b + 2) := by ring
            rw [hm] at he
            refine .inr ⟨below_map t r s (by omega) ht.2 hr e, ?_⟩
            rw [Nat.add_sub_cancel]
            omega
    | list k ps _ ih =>
      intro hr h
      obtain ⟨p, hp, hn⟩ := (loop_none r ps none r).1 h
      exact ih p hp a r hr hn
  exact ⟨h1 (.inr ⟨hr, he⟩), C147_do_intersect B hB p hp.scene r (h1 (.inr ⟨hr, he⟩))⟩

/-- C147: a whole sample, from the camera to the scene: it does not panic if the squared distance from the lens point to the point of
focus neither overflows nor underflows (C89), and the entries of the view and of the `k` transforms around each shape are at most `2^b`
with `1 + k(b+2)` at most the largest exponent. -/
theorem C147_sample [Libm mw ew] (hw : 9 ≤ mw) (B : Primitive (Flt mw ew) → Prop) (hB : ∀ p, B p → p.Safe ∧ p.Agrees)
    (b k : Nat) (p : Primitive (Flt mw ew)) (hp : p.DeepScene B (fun t => t.minv.AffineF ∧ EntriesBelow b t.minv) k)
    (cam : ThinLensCamera (Flt mw ew))
    (s : CameraSample (Flt mw ew)) (hm : cam.view.m.AffineF) (hv : cam.view.minv.AffineF)
    (h : (cam.toFocus s).squareNorm.isFin = true)
    (hS : 3 * etaRnd mw ew ≤ uRnd mw * ∑ i, ((cam.toFocus s).vec i).toReal ^ 2) (hb : EntriesBelow b cam.view.minv)
    (hk1 : 1 ≤ k) (he : 1 + k * (b + 2) ≤ maxExp ew) :
    (cam.generateRay s).bind p.intersect ≠ none ∧ (cam.generateRay s).bind p.doIntersect ≠ none := by
  obtain ⟨h1, h2⟩ := C89_no_panic_partial hw cam s hm hv h hS
  obtain ⟨r, hr⟩ := Option.ne_none_iff_exists'.1 h1
  have hfin : ∀ i, ((cam.cameraRay s).direction.vec i).isFin = true := by
    intro i
    by_contra hc
    exact h1 ((C89_panic_iff cam s hm hv).2 ⟨i, by simpa using hc⟩)
  have hu : uRnd mw ≤ 1 / 1024 := uRnd_small hw
  have hd : Below 1 (cam.cameraRay s).direction := by
    intro i
    refine ⟨hfin i, ?_⟩
    have h3 := (_root_.abs_le.1 h2).2
    have h4 := Finset.single_le_sum (f := fun i => ((cam.cameraRay s).direction.vec i).toReal ^ 2)
      (fun i _ => sq_nonneg _) (Finset.mem_univ i)
    refine abs_le_of_sq_le_sq ?_ (by norm_num)
    have : ((cam.cameraRay s).direction.vec i).toReal ^ 2 ≤ 1 + 18 * (1 / 1024) := by
      have h5 : ((cam.cameraRay s).direction.vec i).toReal ^ 2 ≤ ∑ i, ((cam.cameraRay s).direction.vec i).toReal ^ 2 := h4
      linarith
    linarith
  have hkk : k * (b + 2) = (b + 2) + (k - 1) * (b + 2) := by
    obtain ⟨k', rfl⟩ : ∃ k', k = k' + 1 := ⟨k - 1, by omega⟩
    simp only [Nat.add_sub_cancel]; ring
  have hr' : Below (1 + b + 2) r.direction := below_map cam.view _ r (by omega) hb hd hr
  rw [hr]
  exact C147_deep B hB (1 + b + 2) b k p hp r hr' (by omega)

theorem small_of_key {x : Flt mw ew} (h : -(Scalar.one : Flt mw ew).key ≤ x.key ∧ x.key ≤ (Scalar.one : Flt mw ew).key) :
    x.isFin = true ∧ |x.toReal| ≤ 2 ^ 0 := by
  have k := isFin_iff_key.1 (sone_spec (mw := mw) (ew := ew)).1
  refine ⟨isFin_iff_key.2 ⟨by omega, by omega⟩, ?_⟩
  rw [pow_zero, ← (sone_spec (mw := mw) (ew := ew)).2, _root_.abs_le]
  exact ⟨by rw [← toReal_negop, toReal_le_iff, key_negop]; exact h.1, toReal_le_iff.2 h.2⟩

/-- A scene meeting the hypotheses of `C147_deep` on `f32`: spheres and boxes under `scale(2, 2, 2)` under `translate`, in a list,
with a unit direction; `0 + (2 - 1) * (0 + 2) ≤ 127`. -/
example [Libm 23 8] (s : Sphere F32) (b : Bbox F32) (o : Point F32 3) (tm : F32) :
    (PrimitiveList.prim [(s.prim.transformed (.scale (new3 (F32.lit 2) (F32.lit 2) (F32.lit 2)))).transformed
      (.translate (new3 (F32.lit 1) (F32.lit 2) (F32.lit 3))), b.prim]).intersect
      ⟨o, new3 (F32.lit 0) (F32.lit 0) (F32.lit 1), tm⟩ ≠ none := by
  refine (C147_deep (mw := 23) (ew := 8) (fun _ => False) (fun _ h => h.elim) 0 0 2 _ ?_ _ ?_ (by decide)).1
  · refine .list 2 _ fun p hp => ?_
    rcases List.mem_cons.1 hp with rfl | hp
    · refine .transformed 1 _ _ ⟨?_, ?_⟩ (.transformed 0 _ _ ⟨?_, ?_⟩ (.sphere 0 s))
      · exact affineF_of (by decide +kernel) (by decide +kernel) (by decide +kernel) (by decide +kernel)
      · exact fun i j => small_of_key (by revert i j; decide +kernel)
      · exact affineF_of (by decide +kernel) (by decide +kernel) (by decide +kernel) (by decide +kernel)
      · exact fun i j => small_of_key (by revert i j; decide +kernel)
    · rw [List.mem_singleton.1 hp]; exact .bbox 2 b
  · intro i
    change ((new3 (F32.lit 0) (F32.lit 0) (F32.lit 1) : Vec F32 3).vec i).isFin = true ∧
      |((new3 (F32.lit 0) (F32.lit 0) (F32.lit 1) : Vec F32 3).vec i).toReal| ≤ 2 ^ 0
    exact small_of_key (by clear s b o tm; revert i; decide +kernel)

/-! ### a finite direction is not enough -/

/-- `scale(2^-64, 2^-64, 2^-64)` -/
def tiny : Transform F32 := Transform.scale (new3 ⟨0x1F800000#32⟩ ⟨0x1F800000#32⟩ ⟨0x1F800000#32⟩)
/-- the unit box under three of them -/
def tinyScene : Primitive F32 :=
  (((Bbox.prim ⟨new3 (F32.lit 0) (F32.lit 0) (F32.lit 0), new3 (F32.lit 1) (F32.lit 1) (F32.lit 1)⟩).transformed tiny).transformed tiny).transformed tiny
/-- a ray with a finite direction -/
def tinyRay : Ray F32 := ⟨new3 (F32.lit 0) (F32.lit 0) (F32.lit 0), new3 (F32.lit 1) (F32.lit 1) (F32.lit 1), Scalar.highest⟩

/-- C147: a finite direction does not suffice for nested transforms: under three scalings by `2^-64` a ray with direction (1,1,1)
panics, because the direction has become infinite when it reaches the third. -/
theorem C147_finite_refuted : tinyScene.intersect tinyRay = none ∧ tinyScene.doIntersect tinyRay = none ∧
    ∀ i, (tinyRay.direction.vec i).isFin = true := by
  refine ⟨by decide +kernel, by decide +kernel, by decide +kernel⟩

end Scarlet
