import Verif.Props.FloatTrip
import Verif.Props.Bbox1
import Mathlib.Data.Fintype.Basic

/-! C109: mapped boxes on floats, without any tolerance. -/

set_option linter.unusedSectionVars false

namespace Scarlet
open Flt GVec

variable {mw ew : Nat} [FltImpl mw ew] [LawfulFlt mw ew]

/-- A float matrix that moves each axis on its own: last row `0 0 0 1`, zero off-diagonal entries in the linear part, finite
entries elsewhere.  `translate`, `scale` and their products that do not overflow have such matrices. -/
def Mat4.DiagF (m : Mat4 (Flt mw ew)) : Prop :=
  m.AffineF ∧ (∀ i j : _root_.Fin 3, i ≠ j → (m.data i.castSucc j.castSucc).toReal = 0) ∧
    (∀ i : _root_.Fin 3, (m.data i.castSucc i.castSucc).isFin = true ∧ (m.data i.castSucc 3).isFin = true)

namespace Flt

theorem same_zero {x : Flt mw ew} (h : x.toReal = 0) : Same x Scalar.zero := by
  have hk := toReal_eq_zero_iff.1 h
  exact ⟨notNaN_of_isFin (isFin_of_key_zero hk), notNaN_of_isFin isFin_szero, by rw [hk, key_szero]⟩

/-- adding a finite float is total and monotone, also at the infinities -/
theorem add_fin_mono {t u v : Flt mw ew} (ht : t.isFin = true) (h : FLe u v) : FLe (t + u) (t + v) := by
  have hk := kInf_pos (mw := mw) (ew := ew)
  have htk := isFin_iff_key.1 ht
  have hn := notNaN_of_isFin ht
  obtain ⟨hu, hv, hle⟩ := h
  have hub := key_bounds hu
  have hvb := key_bounds hv
  have F : ∀ {w : Flt mw ew}, w.isNaN = false → (t + w).isNaN = false ∧
      (w.key = -kInf mw ew → (t + w).key = -kInf mw ew) ∧ (w.key = kInf mw ew → (t + w).key = kInf mw ew) := by
    intro w hw
    rcases key_cases hw with e | e | e
    · have := add_bot_right hn hw e (by omega)
      exact ⟨this.1, fun _ => this.2, fun h => by omega⟩
    · have := add_top_right hn hw e (by omega)
      exact ⟨this.1, fun h => by omega, fun _ => this.2⟩
    · have := (add_fin ht e).1
      rw [isFin_iff_key] at e
      exact ⟨this, fun h => by omega, fun h => by omega⟩
  obtain ⟨a1, a2, a3⟩ := F hu
  obtain ⟨b1, b2, b3⟩ := F hv
  refine ⟨a1, b1, ?_⟩
  have ab := key_bounds a1
  have bb := key_bounds b1
  rcases key_cases hu with e | e | e
  · rw [a2 e]; omega
  · rw [b3 (by omega)]; omega
  · rcases key_cases hv with e' | e' | e'
    · rw [isFin_iff_key] at e; omega
    · rw [b3 e']; omega
    · have h1 := (add_fin ht e).2
      have h2 := (add_fin ht e').2
      rw [← add_def] at h1 h2
      rw [h1, h2]
      have := toReal_le_iff.2 hle
      exact rndK_mono mw ew (by linarith)

/-- the smaller and the larger of the two products that one loop iteration of `map_bbox` adds -/
def prodLo (a l u : Flt mw ew) : Flt mw ew := if Scalar.lt (a * l) (a * u) then a * l else a * u
def prodHi (a l u : Flt mw ew) : Flt mw ew := if Scalar.lt (a * l) (a * u) then a * u else a * l

theorem prod_order {a l u : Flt mw ew} (ha : a.isFin = true) (hl : l.isFin = true) (hu : u.isFin = true) :
    (prodLo a l u).isNaN = false ∧ (prodHi a l u).isNaN = false ∧
    (prodLo a l u).key = Min.min (a * l).key (a * u).key ∧ (prodHi a l u).key = Max.max (a * l).key (a * u).key := by
  have h1 := (mul_fin ha hl).1
  have h2 := (mul_fin ha hu).1
  rw [← mul_def] at h1 h2
  unfold prodLo prodHi
  by_cases h : Scalar.lt (a * l) (a * u) = true
  · have := (slt_iff.1 h).2.2
    rw [if_pos h, if_pos h]
    exact ⟨h1, h2, (min_eq_left this.le).symm, (max_eq_right this.le).symm⟩
  · rw [if_neg h, if_neg h]
    have : (a * u).key ≤ (a * l).key := by
      by_contra hc
      exact h (slt_iff.2 ⟨h1, h2, by omega⟩)
    exact ⟨h2, h1, (min_eq_right this).symm, (max_eq_left this).symm⟩

/-- rounding keeps the product of a point between the products of the bounds -/
theorem prod_fle {a l x u : Flt mw ew} (ha : a.isFin = true) (hl : l.isFin = true) (hx : x.isFin = true) (hu : u.isFin = true)
    (h1 : l.key ≤ x.key) (h2 : x.key ≤ u.key) : FLe (prodLo a l u) (a * x) ∧ FLe (a * x) (prodHi a l u) := by
  obtain ⟨n1, n2, k1, k2⟩ := prod_order ha hl hu
  have e0 := mul_fin ha hl
  have e1 := mul_fin ha hx
  have e2 := mul_fin ha hu
  rw [← mul_def] at e0 e1 e2
  have r1 := toReal_le_iff.2 h1
  have r2 := toReal_le_iff.2 h2
  refine ⟨⟨n1, e1.1, ?_⟩, ⟨e1.1, n2, ?_⟩⟩
  · rw [k1, e0.2, e1.2, e2.2]
    rcases le_total 0 a.toReal with h | h
    · exact (min_le_left _ _).trans (rndK_mono mw ew (mul_le_mul_of_nonneg_left r1 h))
    · exact (min_le_right _ _).trans (rndK_mono mw ew (mul_le_mul_of_nonpos_left r2 h))
  · rw [k2, e0.2, e1.2, e2.2]
    rcases le_total 0 a.toReal with h | h
    · exact (rndK_mono mw ew (mul_le_mul_of_nonneg_left r2 h)).trans (le_max_right _ _)
    · exact (rndK_mono mw ew (mul_le_mul_of_nonpos_left r1 h)).trans (le_max_left _ _)

theorem prod_zero {a l u : Flt mw ew} (ha : Same a Scalar.zero) (hl : l.isFin = true) (hu : u.isFin = true) :
    Same (prodLo a l u) Scalar.zero ∧ Same (prodHi a l u) Scalar.zero := by
  have z : ∀ {w : Flt mw ew}, w.isFin = true → Same (a * w) (Scalar.zero : Flt mw ew) := fun hw => by
    rw [Flt.mul_comm']; exact mul_zero_same' hw ha
  unfold prodLo prodHi
  split
  · exact ⟨z hl, z hu⟩
  · exact ⟨z hu, z hl⟩

theorem FLe.congr {a b c d : Flt mw ew} (h : FLe a b) (hc : Same c a) (hd : Same d b) : FLe c d :=
  ⟨hc.1, hd.1, by rw [hc.2.2, hd.2.2]; exact h.2.2⟩

end Flt

theorem mapBboxStepF (m : Mat4 (Flt mw ew)) (bmin bmax : _root_.Fin 3 → Flt mw ew)
    (acc : (_root_.Fin 4 → Flt mw ew) × (_root_.Fin 4 → Flt mw ew)) (ij : _root_.Fin 3 × _root_.Fin 3) :
    Bbox.mapBboxStep m bmin bmax acc ij =
      (Function.update acc.1 ij.2.castSucc (acc.1 ij.2.castSucc +
          prodLo (m.data ij.1.castSucc ij.2.castSucc) (bmin ij.2) (bmax ij.2)),
       Function.update acc.2 ij.2.castSucc (acc.2 ij.2.castSucc +
          prodHi (m.data ij.1.castSucc ij.2.castSucc) (bmin ij.2) (bmax ij.2))) := by
  unfold Bbox.mapBboxStep prodLo prodHi
  dsimp only
  split <;> rfl

/-- the corner that `map_bbox` computes for axis `j` before `Bbox3::new` -/
def boxLo (m : Mat4 (Flt mw ew)) (b : Bbox (Flt mw ew)) (j : _root_.Fin 3) : Flt mw ew :=
  m.data j.castSucc 3 + prodLo (m.data 0 j.castSucc) (b.pmin.vec j) (b.pmax.vec j) +
    prodLo (m.data 1 j.castSucc) (b.pmin.vec j) (b.pmax.vec j) + prodLo (m.data 2 j.castSucc) (b.pmin.vec j) (b.pmax.vec j)
def boxHi (m : Mat4 (Flt mw ew)) (b : Bbox (Flt mw ew)) (j : _root_.Fin 3) : Flt mw ew :=
  m.data j.castSucc 3 + prodHi (m.data 0 j.castSucc) (b.pmin.vec j) (b.pmax.vec j) +
    prodHi (m.data 1 j.castSucc) (b.pmin.vec j) (b.pmax.vec j) + prodHi (m.data 2 j.castSucc) (b.pmin.vec j) (b.pmax.vec j)

theorem mapBboxF (m : Mat4 (Flt mw ew)) (b : Bbox (Flt mw ew)) :
    Bbox.mapBbox m b = Bbox.new ⟨boxLo m b⟩ ⟨boxHi m b⟩ := by
  unfold Bbox.mapBbox
  simp only [List.foldl_cons, List.foldl_nil, mapBboxStepF]
  congr 1
  · refine ext3 ?_ ?_ ?_ <;> simp [Function.update, Mat4.col] <;> rfl
  · refine ext3 ?_ ?_ ?_ <;> simp [Function.update, Mat4.col] <;> rfl

theorem add_same_left {t t' y : Flt mw ew} (h : Same t' t) (ht : t.isFin = true) (hy : y.isNaN = false) : Same (t' + y) (t + y) := by
  have ht' := h.isFin ht
  have a1 := add_fin_mono ht' (FLe.refl hy)
  have a2 := add_fin_mono ht (FLe.refl hy)
  refine ⟨a1.1, a2.1, ?_⟩
  have b1 := isFin_iff_key.1 ht'
  have b2 := isFin_iff_key.1 ht
  rcases key_cases hy with e | e | e
  · rw [(add_bot_right h.1 hy e (by omega)).2, (add_bot_right h.2.1 hy e (by omega)).2]
  · rw [(add_top_right h.1 hy e (by omega)).2, (add_top_right h.2.1 hy e (by omega)).2]
  · have c1 := (add_fin ht' e).2
    have c2 := (add_fin ht e).2
    rw [← add_def] at c1 c2
    rw [c1, c2, h.toReal]

theorem sum_diag {t p0 p1 p2 : Flt mw ew} (ht : t.isFin = true) (j : _root_.Fin 3)
    (hz : ∀ k, k ≠ j → Same ((![p0, p1, p2] : _root_.Fin 3 → Flt mw ew) k) Scalar.zero)
    (hn : ((![p0, p1, p2] : _root_.Fin 3 → Flt mw ew) j).isNaN = false) :
    Same (t + p0 + p1 + p2) (t + (![p0, p1, p2] : _root_.Fin 3 → Flt mw ew) j) := by
  have st : Same t t := Same.refl (notNaN_of_isFin ht)
  fin_cases j
  · exact add_zero_same (add_zero_same (Same.refl (add_fin_mono ht (FLe.refl hn)).1) (hz 1 (by decide))) (hz 2 (by decide))
  · exact add_zero_same (add_same_left (add_zero_same st (hz 0 (by decide))) ht hn) (hz 2 (by decide))
  · exact add_same_left (add_zero_same (add_zero_same st (hz 0 (by decide))) (hz 1 (by decide))) ht hn

section
variable {m : Mat4 (Flt mw ew)}

/-- the `i`-th coordinate of a mapped point, with no rounding beyond one product and one sum -/
theorem mapPt_diag (hm : m.DiagF) {p : Point (Flt mw ew) 3} (hp : ∀ i, (p.vec i).isFin = true) :
    ∃ q, mapPt m p = some q ∧ ∀ i : _root_.Fin 3,
      Same (q.vec i) (m.data i.castSucc 3 + m.data i.castSucc i.castSucc * p.vec i) := by
  obtain ⟨ha, hd, hf⟩ := hm
  obtain ⟨q, hq, h0, h1, h2⟩ := mapPt_lastRow ha hp
  have key : ∀ i : _root_.Fin 3, Same (rowPt m p i.castSucc)
      (m.data i.castSucc 3 + m.data i.castSucc i.castSucc * p.vec i) := by
    intro i
    have hn := (mul_fin (hf i).1 (hp i)).1
    rw [← mul_def] at hn
    have hs := (add_fin_mono (hf i).2 (FLe.refl hn)).1
    have z : ∀ j, j ≠ i → Same (p.vec j * m.data i.castSucc j.castSucc) (Scalar.zero : Flt mw ew) := fun j hj =>
      mul_zero_same' (hp j) (same_zero (hd i j hj.symm))
    have e : p.vec i * m.data i.castSucc i.castSucc = m.data i.castSucc i.castSucc * p.vec i := Flt.mul_comm' _ _
    have s : Same (p.vec 0 * m.data i.castSucc 0 + p.vec 1 * m.data i.castSucc 1 + p.vec 2 * m.data i.castSucc 2)
        (m.data i.castSucc i.castSucc * p.vec i) := by
      rw [← e] at hn ⊢
      fin_cases i
      · exact add_zero_same (add_zero_same (Same.refl hn) (z 1 (by decide))) (z 2 (by decide))
      · exact add_zero_same (zero_add_same (z 0 (by decide)) (Same.refl hn)) (z 2 (by decide))
      · exact zero_add_same (add_zero_same (z 0 (by decide)) (z 1 (by decide))) (Same.refl hn)
    have l1 := add_fin_mono (hf i).2 (⟨s.1, s.2.1, s.2.2.le⟩ : FLe _ _)
    have l2 := add_fin_mono (hf i).2 (⟨s.2.1, s.1, s.2.2.ge⟩ : FLe _ _)
    have r : rowPt m p i.castSucc = m.data i.castSucc 3 + (p.vec 0 * m.data i.castSucc 0 + p.vec 1 * m.data i.castSucc 1 +
        p.vec 2 * m.data i.castSucc 2) := Flt.add_comm' _ _
    rw [r]
    exact ⟨l1.1, l1.2.1, le_antisymm l1.2.2 l2.2.2⟩
  refine ⟨q, hq, fun i => ?_⟩
  fin_cases i
  · exact (h0 (key 0).1).trans (key 0)
  · exact (h1 (key 1).1).trans (key 1)
  · exact (h2 (key 2).1).trans (key 2)

theorem boxLo_diag (hm : m.DiagF) {b : Bbox (Flt mw ew)} (hb : ∀ i, (b.pmin.vec i).isFin = true ∧ (b.pmax.vec i).isFin = true)
    (j : _root_.Fin 3) :
    Same (boxLo m b j) (m.data j.castSucc 3 + prodLo (m.data j.castSucc j.castSucc) (b.pmin.vec j) (b.pmax.vec j)) ∧
    Same (boxHi m b j) (m.data j.castSucc 3 + prodHi (m.data j.castSucc j.castSucc) (b.pmin.vec j) (b.pmax.vec j)) := by
  obtain ⟨ha, hd, hf⟩ := hm
  have z : ∀ k, k ≠ j → _ := fun k hk => prod_zero (same_zero (hd k j hk)) (hb j).1 (hb j).2
  obtain ⟨n1, n2, -, -⟩ := prod_order (hf j).1 (hb j).1 (hb j).2
  have e : ∀ (f : _root_.Fin 3 → Flt mw ew) k, (![f 0, f 1, f 2] : _root_.Fin 3 → Flt mw ew) k = f k := by
    intro f k; fin_cases k <;> rfl
  constructor
  · have := sum_diag (hf j).2 (p0 := prodLo (m.data (0 : _root_.Fin 3).castSucc j.castSucc) (b.pmin.vec j) (b.pmax.vec j))
      (p1 := prodLo (m.data (1 : _root_.Fin 3).castSucc j.castSucc) (b.pmin.vec j) (b.pmax.vec j))
      (p2 := prodLo (m.data (2 : _root_.Fin 3).castSucc j.castSucc) (b.pmin.vec j) (b.pmax.vec j)) j
    rw [e fun k => prodLo (m.data k.castSucc j.castSucc) (b.pmin.vec j) (b.pmax.vec j)] at this
    exact this (fun k hk => by rw [e fun k => prodLo (m.data k.castSucc j.castSucc) (b.pmin.vec j) (b.pmax.vec j)]; exact (z k hk).1) n1
  · have := sum_diag (hf j).2 (p0 := prodHi (m.data (0 : _root_.Fin 3).castSucc j.castSucc) (b.pmin.vec j) (b.pmax.vec j))
      (p1 := prodHi (m.data (1 : _root_.Fin 3).castSucc j.castSucc) (b.pmin.vec j) (b.pmax.vec j))
      (p2 := prodHi (m.data (2 : _root_.Fin 3).castSucc j.castSucc) (b.pmin.vec j) (b.pmax.vec j)) j
    rw [e fun k => prodHi (m.data k.castSucc j.castSucc) (b.pmin.vec j) (b.pmax.vec j)] at this
    exact this (fun k hk => by rw [e fun k => prodHi (m.data k.castSucc j.castSucc) (b.pmin.vec j) (b.pmax.vec j)]; exact (z k hk).2) n2

theorem fin_of_between {l x u : Flt mw ew} (hl : l.isFin = true) (hu : u.isFin = true) (h1 : FLe l x) (h2 : FLe x u) :
    x.isFin = true := by
  rw [isFin_iff_key] at *
  have := h1.2.2
  have := h2.2.2
  omega

/-- the mapped box of a matrix that moves each axis on its own -/
theorem mapBbox_diag (hm : m.DiagF) (b : Bbox (Flt mw ew))
    (hb : ∀ i, (b.pmin.vec i).isFin = true ∧ (b.pmax.vec i).isFin = true) (p : Point (Flt mw ew) 3) (hp : b.inside p = true) :
    ∃ q, mapPt m p = some q ∧ (Bbox.mapBbox m b).inside q = true := by
  rw [Bbox.insideF_iff] at hp
  have hpf : ∀ i, (p.vec i).isFin = true := fun i => fin_of_between (hb i).1 (hb i).2 (hp i).1 (hp i).2
  obtain ⟨q, hq, hs⟩ := mapPt_diag hm hpf
  refine ⟨q, hq, ?_⟩
  rw [mapBboxF, Bbox.insideF_iff]
  intro i
  rw [(Bbox.newF _ _ i).1, (Bbox.newF _ _ i).2]
  obtain ⟨h1, h2⟩ := boxLo_diag hm hb i
  obtain ⟨e1, e2⟩ := prod_fle (hm.2.2 i).1 (hb i).1 (hpf i) (hb i).2 (hp i).1.2.2 (hp i).2.2.2
  have f1 := add_fin_mono (hm.2.2 i).2 e1
  have f2 := add_fin_mono (hm.2.2 i).2 e2
  exact ⟨imin_fle.2 (Or.inl (f1.congr h1 (hs i))), fle_imax.2 (Or.inr (f2.congr (hs i) h2))⟩

/-- the mapped box is the box of the two mapped corners, coordinate for coordinate -/
theorem mapBbox_corners (hm : m.DiagF) (b : Bbox (Flt mw ew))
    (hb : ∀ i, (b.pmin.vec i).isFin = true ∧ (b.pmax.vec i).isFin = true) :
    ∃ q r, mapPt m b.pmin = some q ∧ mapPt m b.pmax = some r ∧ ∀ i,
      ((Bbox.mapBbox m b).pmin.vec i).isNaN = false ∧ ((Bbox.mapBbox m b).pmax.vec i).isNaN = false ∧
      ((Bbox.mapBbox m b).pmin.vec i).val = Min.min (q.vec i).val (r.vec i).val ∧
      ((Bbox.mapBbox m b).pmax.vec i).val = Max.max (q.vec i).val (r.vec i).val := by
  obtain ⟨q, hq, hqs⟩ := mapPt_diag hm (fun i => (hb i).1)
  obtain ⟨r, hr, hrs⟩ := mapPt_diag hm (fun i => (hb i).2)
  refine ⟨q, r, hq, hr, fun i => ?_⟩
  obtain ⟨s1, s2⟩ := boxLo_diag hm hb i
  have hf := hm.2.2 i
  have lohi : FLe (boxLo m b i) (boxHi m b i) := by
    obtain ⟨n1, n2, k1, k2⟩ := prod_order hf.1 (hb i).1 (hb i).2
    refine (add_fin_mono hf.2 (⟨n1, n2, ?_⟩ : FLe _ _)).congr s1 s2
    rw [k1, k2]; exact (min_le_left _ _).trans (le_max_left _ _)
  have E : ((Bbox.mapBbox m b).pmin.vec i).isNaN = false ∧ ((Bbox.mapBbox m b).pmax.vec i).isNaN = false ∧
      ((Bbox.mapBbox m b).pmin.vec i).val = (boxLo m b i).val ∧ ((Bbox.mapBbox m b).pmax.vec i).val = (boxHi m b i).val := by
    rw [mapBboxF, (Bbox.newF _ _ i).1, (Bbox.newF _ _ i).2]
    have a := imin_key lohi.1 lohi.2.1
    have c := imax_key lohi.1 lohi.2.1
    refine ⟨a.1, c.1, (val_eq_iff a.1 lohi.1).2 ?_, (val_eq_iff c.1 lohi.2.1).2 ?_⟩
    · rw [a.2]; exact min_eq_left lohi.2.2
    · rw [c.2]; exact max_eq_right lohi.2.2
  refine ⟨E.1, E.2.1, E.2.2.1.trans ?_, E.2.2.2.trans ?_⟩
  all_goals
    rw [(hqs i).val, (hrs i).val]
    first | rw [s1.val] | rw [s2.val]
    have h1 := (mul_fin hf.1 (hb i).1).1
    have h2 := (mul_fin hf.1 (hb i).2).1
    rw [← mul_def] at h1 h2
    first | unfold prodLo | unfold prodHi
    by_cases h : Scalar.lt (m.data i.castSucc i.castSucc * b.pmin.vec i) (m.data i.castSucc i.castSucc * b.pmax.vec i) = true
    · have := (slt_iff.1 h).2.2
      have g := add_fin_mono hf.2 (⟨h1, h2, this.le⟩ : FLe _ _)
      have := (val_le_iff g.1 g.2.1).2 g.2.2
      simp only [h, if_true]
      first | exact (min_eq_left this).symm | exact (max_eq_right this).symm
    · have hle : (m.data i.castSucc i.castSucc * b.pmax.vec i).key ≤ (m.data i.castSucc i.castSucc * b.pmin.vec i).key := by
        by_contra hc
        exact h (slt_iff.2 ⟨h1, h2, by omega⟩)
      have g := add_fin_mono hf.2 (⟨h2, h1, hle⟩ : FLe _ _)
      have := (val_le_iff g.1 g.2.1).2 g.2.2
      simp only [h, Bool.false_eq_true, if_false]
      first | exact (min_eq_right this).symm | exact (max_eq_left this).symm

end

/-! ### C109 -/

/-- C109: on floats, a transform that moves each axis on its own maps every finite box to a box that contains the computed
image of every point of the first: no rounding error, no overflow and no negative factor lets a point out. -/
theorem C109_map (t : Transform (Flt mw ew)) (ht : t.m.DiagF) (b : Bbox (Flt mw ew))
    (hb : ∀ i, (b.pmin.vec i).isFin = true ∧ (b.pmax.vec i).isFin = true) (p : Point (Flt mw ew) 3) (hp : b.inside p = true) :
    ∃ q, t.mapPoint p = some q ∧ (t.mapBox b).inside q = true := mapBbox_diag ht b hb p hp

/-- C109 for `map_inverse` -/
theorem C109_inverse (t : Transform (Flt mw ew)) (ht : t.minv.DiagF) (b : Bbox (Flt mw ew))
    (hb : ∀ i, (b.pmin.vec i).isFin = true ∧ (b.pmax.vec i).isFin = true) (p : Point (Flt mw ew) 3) (hp : b.inside p = true) :
    ∃ q, t.mapPointInv p = some q ∧ (t.mapBoxInv b).inside q = true := mapBbox_diag ht b hb p hp

/-- C109: and it is the smallest such box: its bounds are the computed images of the two corners, sorted. -/
theorem C109_tight (t : Transform (Flt mw ew)) (ht : t.m.DiagF) (b : Bbox (Flt mw ew))
    (hb : ∀ i, (b.pmin.vec i).isFin = true ∧ (b.pmax.vec i).isFin = true) :
    ∃ q r, t.mapPoint b.pmin = some q ∧ t.mapPoint b.pmax = some r ∧ ∀ i,
      ((t.mapBox b).pmin.vec i).isNaN = false ∧ ((t.mapBox b).pmax.vec i).isNaN = false ∧
      ((t.mapBox b).pmin.vec i).val = Min.min (q.vec i).val (r.vec i).val ∧
      ((t.mapBox b).pmax.vec i).val = Max.max (q.vec i).val (r.vec i).val := mapBbox_corners ht b hb

/-- translations move each axis on its own -/
theorem diagF_translate {v : Vec (Flt mw ew) 3} (hv : ∀ i, (v.vec i).isFin = true) :
    (Transform.translate v).m.DiagF ∧ (Transform.translate v).minv.DiagF := by
  have ho := (sone_spec (mw := mw) (ew := ew)).1
  refine ⟨⟨(affineF_translate v).1, ?_, ?_⟩, (affineF_translate v).2, ?_, ?_⟩
  · intro i j h
    fin_cases i <;> fin_cases j <;> first | exact absurd rfl h | exact toReal_szero
  · intro i
    fin_cases i
    · exact ⟨ho, hv 0⟩
    · exact ⟨ho, hv 1⟩
    · exact ⟨ho, hv 2⟩
  · intro i j h
    fin_cases i <;> fin_cases j <;> first | exact absurd rfl h | exact toReal_szero
  · have n : ∀ i, (-(v.vec i)).isFin = true := fun i => by rw [neg_def, isFin_neg]; exact hv i
    intro i
    fin_cases i
    · exact ⟨ho, n 0⟩
    · exact ⟨ho, n 1⟩
    · exact ⟨ho, n 2⟩

/-- scalings move each axis on its own; the inverse needs reciprocals that do not overflow -/
theorem diagF_scale {v : Vec (Flt mw ew) 3} :
    ((∀ i, (v.vec i).isFin = true) → (Transform.scale v).m.DiagF) ∧
    ((∀ i, (Scalar.one / v.vec i).isFin = true) → (Transform.scale v).minv.DiagF) := by
  have hz := isFin_szero (mw := mw) (ew := ew)
  refine ⟨fun hv => ⟨(affineF_scale v).1, ?_, ?_⟩, fun hv => ⟨(affineF_scale v).2, ?_, ?_⟩⟩
  · intro i j h
    fin_cases i <;> fin_cases j <;> first | exact absurd rfl h | exact toReal_szero
  · intro i
    fin_cases i
    · exact ⟨hv 0, hz⟩
    · exact ⟨hv 1, hz⟩
    · exact ⟨hv 2, hz⟩
  · intro i j h
    fin_cases i <;> fin_cases j <;> first | exact absurd rfl h | exact toReal_szero
  · intro i
    fin_cases i
    · exact ⟨hv 0, hz⟩
    · exact ⟨hv 1, hz⟩
    · exact ⟨hv 2, hz⟩

/-- C109: translations and scalings built by the constructors, both ways. -/
theorem C109_constructors (v : Vec (Flt mw ew) 3) (hv : ∀ i, (v.vec i).isFin = true) (b : Bbox (Flt mw ew))
    (hb : ∀ i, (b.pmin.vec i).isFin = true ∧ (b.pmax.vec i).isFin = true) (p : Point (Flt mw ew) 3) (hp : b.inside p = true) :
    (∃ q, (Transform.translate v).mapPoint p = some q ∧ ((Transform.translate v).mapBox b).inside q = true) ∧
    (∃ q, (Transform.translate v).mapPointInv p = some q ∧ ((Transform.translate v).mapBoxInv b).inside q = true) ∧
    (∃ q, (Transform.scale v).mapPoint p = some q ∧ ((Transform.scale v).mapBox b).inside q = true) ∧
    ((∀ i, (Scalar.one / v.vec i).isFin = true) →
      ∃ q, (Transform.scale v).mapPointInv p = some q ∧ ((Transform.scale v).mapBoxInv b).inside q = true) :=
  ⟨C109_map _ (diagF_translate hv).1 b hb p hp, C109_inverse _ (diagF_translate hv).2 b hb p hp,
   C109_map _ (diagF_scale.1 hv) b hb p hp, fun h => C109_inverse _ (diagF_scale.2 h) b hb p hp⟩

/-- C109: composing keeps it, unless the composed matrix overflows. -/
theorem C109_compose (s t : Transform (Flt mw ew)) (hs : s.m.DiagF) (ht : t.m.DiagF)
    (hf : ∀ i j, ((s * t).m.data i j).isFin = true) (hfs : ∀ i j, (s.m.data i j).isFin = true)
    (hft : ∀ i j, (t.m.data i j).isFin = true) : (s * t).m.DiagF := by
  have hs' : (s * t).m = s.m * t.m := rfl
  rw [hs'] at hf ⊢
  refine ⟨affineF_mul hs.1 ht.1 hft, fun i j h => ?_, fun i => ⟨hf _ _, hf _ _⟩⟩
  have hd : (s.m * t.m).data i.castSucc j.castSucc = Scalar.zero + s.m.data i.castSucc 0 * t.m.data 0 j.castSucc +
      s.m.data i.castSucc 1 * t.m.data 1 j.castSucc + s.m.data i.castSucc 2 * t.m.data 2 j.castSucc +
      s.m.data i.castSucc 3 * t.m.data 3 j.castSucc := rfl
  rw [hd]
  have z : ∀ k : _root_.Fin 3, Same (s.m.data i.castSucc k.castSucc * t.m.data k.castSucc j.castSucc) (Scalar.zero : Flt mw ew) := by
    intro k
    by_cases hk : k = j
    · rw [Flt.mul_comm']
      exact mul_zero_same' (hft _ _) (same_zero (hs.2.1 i k (hk ▸ h)))
    · exact mul_zero_same' (hfs _ _) (same_zero (ht.2.1 k j hk))
  have z3 : Same (s.m.data i.castSucc 3 * t.m.data 3 j.castSucc) (Scalar.zero : Flt mw ew) :=
    mul_zero_same' (hfs _ _) (same_zero (ht.1.1 j))
  have := add_zero_same (add_zero_same (add_zero_same (add_zero_same szero_same (z 0)) (z 1)) (z 2)) z3
  exact this.toReal.trans toReal_szero

/-- A box with inexact bounds, mirrored and moved in `f32`: the mapped box keeps the images of both corners, with no slack. -/
example :
    let b : Bbox F32 := ⟨new3 (ofRat 23 8 false 1 3) (F32.lit 1) (F32.lit 1), new3 (ofRat 23 8 false 7 5) (F32.lit 2) (F32.lit 3)⟩
    let t : Transform F32 := Transform.scale (new3 (ofRat 23 8 true 1 10) (F32.lit 2) (F32.lit 3))
    (∀ i, (b.pmin.vec i).isFin = true ∧ (b.pmax.vec i).isFin = true) ∧ b.inside b.pmax = true ∧
    ((t.mapBox b).pmin.vec 0, (t.mapBox b).pmax.vec 0) =
      (ofRat 23 8 true 1 10 * ofRat 23 8 false 7 5, ofRat 23 8 true 1 10 * ofRat 23 8 false 1 3) := by decide +kernel

/-- The hypotheses of `C109_compose` hold of a mirroring scale followed by a translation by thirds. -/
example :
    let s : Transform F32 := Transform.translate (new3 (ofRat 23 8 false 1 3) (F32.lit 1) (F32.lit 1))
    let t : Transform F32 := Transform.scale (new3 (ofRat 23 8 true 1 10) (F32.lit 2) (F32.lit 3))
    (∀ i j, ((s * t).m.data i j).isFin = true) ∧ (∀ i j, (s.m.data i j).isFin = true) ∧
      (∀ i j, (t.m.data i j).isFin = true) := by decide +kernel

end Scarlet
