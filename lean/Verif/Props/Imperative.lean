import Verif.Model.Imperative
import Mathlib.Tactic.IntervalCases
import Mathlib.Tactic.FinCases
import Mathlib.Data.Fintype.Basic

/-! C88 (element access), C96 (the loops as written: no panic, and the result is per component). -/

set_option linter.unusedSectionVars false

namespace Scarlet
open Imp
variable {T : Type} {n : Nat} {U I : Marker}

theorem rd_of_lt {a : Fin n → T} {i : Nat} (h : i < n) : rd a i = some (a ⟨i, h⟩) := dif_pos h
theorem rd_of_ge {a : Fin n → T} {i : Nat} (h : n ≤ i) : rd a i = none := dif_neg (by omega)
theorem wr_of_lt {a : Fin n → T} {i : Nat} {t : T} (h : i < n) : wr a i t = some (fun j => if j.val = i then t else a j) := dif_pos h
theorem wr_of_ge {a : Fin n → T} {i : Nat} {t : T} (h : n ≤ i) : wr a i t = none := dif_neg (by omega)

/-! ## C88 -/

/-- C88: reading `a[i]` gives the component `i` if `i < N` and panics otherwise. -/
theorem C88_index (a : GVec T n U) (i : Nat) :
    (∀ h : i < n, index a i = some (a.vec ⟨i, h⟩)) ∧ (index a i = none ↔ n ≤ i) := by
  refine ⟨fun h => rd_of_lt h, ?_⟩
  unfold index
  constructor
  · intro h
    by_contra hc
    rw [rd_of_lt (by omega)] at h
    cases h
  · exact rd_of_ge

/-- C88: an assignment `a[i] = t` panics exactly when `i` is out of range; otherwise reading `a[i]` afterwards gives `t` and
every other index reads as before (in range or not). -/
theorem C88_index_mut (a : GVec T n U) (i : Nat) (t : T) :
    (indexMut a i t = none ↔ n ≤ i) ∧
    ∀ b, indexMut a i t = some b → index b i = some t ∧ ∀ j, j ≠ i → index b j = index a j := by
  unfold indexMut
  constructor
  · constructor
    · intro h
      by_contra hc
      rw [wr_of_lt (by omega)] at h
      cases h
    · intro h
      rw [wr_of_ge h]; rfl
  · intro b hb
    rcases Nat.lt_or_ge i n with h | h
    · rw [wr_of_lt h] at hb
      cases hb
      unfold index fromArray
      refine ⟨by rw [rd_of_lt h]; simp, fun j hj => ?_⟩
      rcases Nat.lt_or_ge j n with h' | h'
      · rw [rd_of_lt h', rd_of_lt h']; simp [hj]
      · rw [rd_of_ge h', rd_of_ge h']
    · rw [wr_of_ge h] at hb
      cases hb

/-- C88: the last of two assignments to the same index wins, assignments to different indices commute, and assigning what is
already there changes nothing. -/
theorem C88_assign_laws (a : GVec T n U) (i j : Nat) (s t : T) :
    ((indexMut a i s).bind fun b => indexMut b i t) = indexMut a i t ∧
    (i ≠ j → ((indexMut a i s).bind fun b => indexMut b j t) = ((indexMut a j t).bind fun b => indexMut b i s)) ∧
    (∀ u, index a i = some u → indexMut a i u = some a) := by
  unfold indexMut index
  refine ⟨?_, fun hij => ?_, fun u hu => ?_⟩
  · rcases Nat.lt_or_ge i n with h | h
    · rw [wr_of_lt h, wr_of_lt h]
      simp only [Option.map_some, Option.bind_some, fromArray]
      rw [wr_of_lt h]
      simp only [Option.map_some, fromArray]
      congr 2
      funext k
      by_cases hk : k.val = i <;> simp [hk]
    · rw [wr_of_ge h, wr_of_ge h]; rfl
  · rcases Nat.lt_or_ge i n with h | h <;> rcases Nat.lt_or_ge j n with h' | h'
    · rw [wr_of_lt h, wr_of_lt h']
      simp only [Option.map_some, Option.bind_some, fromArray]
      rw [wr_of_lt h, wr_of_lt h']
      simp only [Option.map_some, fromArray]
      congr 2
      funext k
      by_cases hk : k.val = i
      · have : k.val ≠ j := by omega
        simp [hk, hij]
      · simp [hk]
    · rw [wr_of_lt h, wr_of_ge h']
      simp only [Option.map_some, Option.bind_some, Option.map_none, Option.bind_none, fromArray]
      rw [wr_of_ge h']; rfl
    · rw [wr_of_ge h, wr_of_lt h']
      simp only [Option.map_some, Option.bind_some, Option.map_none, Option.bind_none, fromArray]
      rw [wr_of_ge h]; rfl
    · rw [wr_of_ge h, wr_of_ge h']; rfl
  · rcases Nat.lt_or_ge i n with h | h
    · rw [rd_of_lt h] at hu
      cases hu
      rw [wr_of_lt h]
      simp only [Option.map_some, fromArray]
      congr 1
      apply GVec.ext
      funext k
      by_cases hk : k.val = i
      · have : k = ⟨i, h⟩ := Fin.ext hk
        simp [this]
      · simp [hk]
    · rw [rd_of_ge h] at hu
      cases hu

/-- C88: `x`, `y`, `z`, `w` and their `_mut` versions are the indices 0 to 3 (and panic in the same cases). -/
theorem C88_xyzw (a : GVec T n U) (t : T) :
    (x a = index a 0 ∧ y a = index a 1 ∧ z a = index a 2 ∧ w a = index a 3) ∧
    (xMut a t = indexMut a 0 t ∧ yMut a t = indexMut a 1 t ∧ zMut a t = indexMut a 2 t ∧ wMut a t = indexMut a 3 t) :=
  ⟨⟨rfl, rfl, rfl, rfl⟩, ⟨rfl, rfl, rfl, rfl⟩⟩

/-- C88: constructing a vector from its components (or from an array) and reading them back. -/
theorem C88_new (p q r s : T) (arr : Fin n → T) :
    (x (GVec.new2 p q : GVec T 2 U) = some p ∧ y (GVec.new2 p q : GVec T 2 U) = some q ∧ z (GVec.new2 p q : GVec T 2 U) = none) ∧
    (x (GVec.new3 p q r : GVec T 3 U) = some p ∧ y (GVec.new3 p q r : GVec T 3 U) = some q ∧
      z (GVec.new3 p q r : GVec T 3 U) = some r ∧ w (GVec.new3 p q r : GVec T 3 U) = none) ∧
    (x (GVec.new4 p q r s : GVec T 4 U) = some p ∧ y (GVec.new4 p q r s : GVec T 4 U) = some q ∧
      z (GVec.new4 p q r s : GVec T 4 U) = some r ∧ w (GVec.new4 p q r s : GVec T 4 U) = some s ∧
      index (GVec.new4 p q r s : GVec T 4 U) 4 = none) ∧
    ∀ i : Fin n, index (fromArray arr : GVec T n U) i = some (arr i) :=
  ⟨⟨rfl, rfl, rfl⟩, ⟨rfl, rfl, rfl, rfl⟩, ⟨rfl, rfl, rfl, rfl, rfl⟩, fun i => rd_of_lt i.isLt⟩

/-- C88: matrix access: `m[(i,j)]`, `m[i][j]`, `row(i)[j]`, `col(j)[i]`, and the components of `row_vec(i)`, `col_vec(j)` all
are the same entry, and panic exactly when an index is 4 or more. -/
theorem C88_matrix (m : Mat4 T) (i j : Nat) :
    (matIndex m i j = none ↔ 4 ≤ i ∨ 4 ≤ j) ∧ (matRow m i = none ↔ 4 ≤ i) ∧ (matCol m j = none ↔ 4 ≤ j) ∧
    (matRowVec m i = none ↔ 4 ≤ i) ∧ (matColVec m j = none ↔ 4 ≤ j) ∧
    (matRow m i).bind (fun r => rd r j) = matIndex m i j ∧
    (j < 4 → ((matCol m j).bind fun c => rd c i) = matIndex m i j) ∧
    ((matRowVec m i).bind fun r => index r j) = matIndex m i j ∧
    (j < 4 → ((matColVec m j).bind fun c => index c i) = matIndex m i j) := by
  rcases Nat.lt_or_ge i 4 with h | h <;> rcases Nat.lt_or_ge j 4 with h' | h'
  · have e1 : rd m.data i = some (m.data ⟨i, h⟩) := rd_of_lt h
    have e2 : ∀ k, rd (m.data k) j = some (m.data k ⟨j, h'⟩) := fun k => rd_of_lt h'
    unfold matIndex matRow matCol matRowVec matColVec index
    simp only [e1, e2, Option.bind_some]
    refine ⟨by simp; omega, by simp; omega, by simp; omega, by simp; omega, by simp; omega, trivial, fun _ => ?_, ?_, fun _ => ?_⟩
    · interval_cases i <;> rfl
    · interval_cases j <;> rfl
    · interval_cases i <;> rfl
  · have e1 : rd m.data i = some (m.data ⟨i, h⟩) := rd_of_lt h
    have e2 : ∀ k, rd (m.data k) j = none := fun k => rd_of_ge h'
    unfold matIndex matRow matCol matRowVec matColVec index
    simp only [e1, e2, Option.bind_some, Option.bind_none]
    refine ⟨by simp; omega, by simp; omega, by simp; omega, by simp; omega, by simp; omega, trivial, fun _ => ?_, ?_, fun _ => ?_⟩
    · omega
    · exact rd_of_ge h'
    · omega
  · have e1 : rd m.data i = none := rd_of_ge h
    have e2 : ∀ k, rd (m.data k) j = some (m.data k ⟨j, h'⟩) := fun k => rd_of_lt h'
    unfold matIndex matRow matCol matRowVec matColVec index
    simp only [e1, e2, Option.bind_some, Option.bind_none]
    refine ⟨by simp; omega, by simp; omega, by simp; omega, by simp; omega, by simp; omega, trivial, fun _ => ?_, trivial, fun _ => ?_⟩
    · exact rd_of_ge h
    · exact rd_of_ge h
  · have e1 : rd m.data i = none := rd_of_ge h
    have e2 : ∀ k, rd (m.data k) j = none := fun k => rd_of_ge h'
    unfold matIndex matRow matCol matRowVec matColVec index
    simp only [e1, e2, Option.bind_none]
    refine ⟨by simp; omega, by simp; omega, by simp; omega, by simp; omega, by simp; omega, trivial, fun _ => ?_, trivial, fun _ => ?_⟩ <;> omega

/-- The matrix with entry `(i, j)` replaced. -/
def setE (m : Mat4 T) (i j : Fin 4) (t : T) : Mat4 T := ⟨fun k l => if k = i ∧ l = j then t else m.data k l⟩

theorem matIndex_fin (m : Mat4 T) (i j : Fin 4) : matIndex m i.val j.val = some (m.data i j) := by
  unfold matIndex
  rw [rd_of_lt i.isLt, Option.bind_some, rd_of_lt j.isLt]

theorem matIndexMut_fin (m : Mat4 T) (i j : Fin 4) (t : T) : matIndexMut m i.val j.val t = some (setE m i j t) := by
  unfold matIndexMut
  rw [rd_of_lt i.isLt, Option.bind_some, wr_of_lt j.isLt, Option.bind_some, wr_of_lt i.isLt]
  simp only [Option.map_some, matFrom, setE]
  congr 2
  funext k l
  by_cases h1 : k = i
  · subst h1
    by_cases h2 : l = j
    · subst h2; simp
    · have : l.val ≠ j.val := fun h => h2 (Fin.ext h)
      simp [h2, this]
  · have : k.val ≠ i.val := fun h => h1 (Fin.ext h)
    simp [h1, this]

/-- C88: the total accessors used elsewhere in the model are the panicking ones wherever these do not panic; every component
of `default()` and every entry of the zero matrix is zero; the identity has ones on the diagonal and zeros elsewhere. -/
theorem C88_model [Scalar T] (a : GVec T 4 U) (m : Mat4 T) (i j : Fin 4) (k : Fin n) :
    (x a = some a.x ∧ y a = some a.y ∧ z a = some a.z ∧ w a = some a.w) ∧
    matIndex m i j = some (m.idx i j) ∧ matRow m i = some (m.row i) ∧ matCol m j = some (m.col j) ∧
    matRowVec m i = some (m.rowVec i) ∧ matColVec m j = some (m.colVec j) ∧
    index (GVec.default : GVec T n U) k = some Scalar.zero ∧ matIndex (Mat4.zero : Mat4 T) i j = some Scalar.zero ∧
    matIndex (Mat4.identity : Mat4 T) i j = some (if i = j then Scalar.one else Scalar.zero) := by
  refine ⟨⟨rfl, rfl, rfl, rfl⟩, ?_, ?_, ?_, ?_, ?_, rd_of_lt k.isLt, ?_, ?_⟩
  · exact matIndex_fin m i j
  · exact rd_of_lt i.isLt
  · fin_cases j <;> rfl
  · fin_cases i <;> rfl
  · fin_cases j <;> rfl
  · rw [matIndex_fin]; fin_cases i <;> fin_cases j <;> rfl
  · rw [matIndex_fin]; fin_cases i <;> fin_cases j <;> rfl

/-- C88: `m[(i,j)] = t` and `m[i] = r` change exactly that entry / that row. -/
theorem C88_matrix_mut (m : Mat4 T) (i j : Nat) (t : T) (r : Fin 4 → T) :
    (matIndexMut m i j t = none ↔ 4 ≤ i ∨ 4 ≤ j) ∧ (matRowMut m i r = none ↔ 4 ≤ i) ∧
    (∀ m', matIndexMut m i j t = some m' → matIndex m' i j = some t ∧ ∀ k l, (k, l) ≠ (i, j) → matIndex m' k l = matIndex m k l) ∧
    (∀ m', matRowMut m i r = some m' → matRow m' i = some r ∧ ∀ k, k ≠ i → matRow m' k = matRow m k) := by
  refine ⟨⟨fun h => ?_, fun h => ?_⟩, ⟨fun h => ?_, fun h => ?_⟩, fun m' h => ?_, fun m' h => ?_⟩
  · by_contra hc
    have h1 : i < 4 := by omega
    have h2 : j < 4 := by omega
    have := matIndexMut_fin m ⟨i, h1⟩ ⟨j, h2⟩ t
    simp only at this
    rw [this] at h
    cases h
  · unfold matIndexMut
    rcases Nat.lt_or_ge i 4 with h1 | h1
    · have h2 : 4 ≤ j := by omega
      rw [rd_of_lt h1, Option.bind_some, wr_of_ge h2]; rfl
    · rw [rd_of_ge h1]; rfl
  · by_contra hc
    unfold matRowMut at h
    rw [wr_of_lt (by omega)] at h
    cases h
  · unfold matRowMut
    rw [wr_of_ge h]; rfl
  · have hij : i < 4 ∧ j < 4 := by
      by_contra hc
      unfold matIndexMut at h
      rcases Nat.lt_or_ge i 4 with h1 | h1
      · have h2 : 4 ≤ j := by omega
        rw [rd_of_lt h1, Option.bind_some, wr_of_ge h2] at h
        cases h
      · rw [rd_of_ge h1] at h
        cases h
    have e := matIndexMut_fin m ⟨i, hij.1⟩ ⟨j, hij.2⟩ t
    simp only at e
    rw [e] at h
    cases h
    constructor
    · have := matIndex_fin (setE m ⟨i, hij.1⟩ ⟨j, hij.2⟩ t) ⟨i, hij.1⟩ ⟨j, hij.2⟩
      simp only at this
      rw [this]; simp [setE]
    · intro k l hkl
      unfold matIndex
      rcases Nat.lt_or_ge k 4 with h1 | h1
      · rw [rd_of_lt h1, rd_of_lt h1, Option.bind_some, Option.bind_some]
        rcases Nat.lt_or_ge l 4 with h2 | h2
        · rw [rd_of_lt h2, rd_of_lt h2]
          have : ¬ (k = i ∧ l = j) := fun h => hkl (by rw [h.1, h.2])
          simp [setE, this]
        · rw [rd_of_ge h2, rd_of_ge h2]
      · rw [rd_of_ge h1, rd_of_ge h1]
  · unfold matRowMut at h
    rcases Nat.lt_or_ge i 4 with h1 | h1
    · rw [wr_of_lt h1] at h
      cases h
      unfold matRow matFrom
      refine ⟨by rw [rd_of_lt h1]; simp, fun k hk => ?_⟩
      rcases Nat.lt_or_ge k 4 with h2 | h2
      · rw [rd_of_lt h2, rd_of_lt h2]; simp [hk]
      · rw [rd_of_ge h2, rd_of_ge h2]
    · rw [wr_of_ge h1] at h
      cases h

/-! ## C96 -/

/-- Loop invariant of the in-place loops. -/
theorem zipLoop_inv (op : T → T → T) (v r : Fin n → T) : ∀ m, m ≤ n →
    forRange m (fun i v => (rd v i).bind fun x => (rd r i).bind fun y => wr v i (op x y)) v =
      some (fun j => if j.val < m then op (v j) (r j) else v j)
  | 0, _ => by simp [forRange]
  | m + 1, h => by
    rw [forRange, zipLoop_inv op v r m (by omega)]
    have hm : m < n := by omega
    simp only [Option.bind_some, rd_of_lt hm, wr_of_lt hm, Option.some.injEq]
    funext j
    by_cases h1 : j.val = m
    · have : j = ⟨m, hm⟩ := Fin.ext h1
      simp [this]
    · by_cases h2 : j.val < m
      · have : j.val < m + 1 := by omega
        simp [h1, h2, this]
      · have : ¬ j.val < m + 1 := by omega
        simp [h1, h2, this]

theorem zipLoop_eq (op : T → T → T) (v r : Fin n → T) : zipLoop op v r = some (fun i => op (v i) (r i)) := by
  unfold zipLoop
  rw [zipLoop_inv op v r n le_rfl]
  simp

theorem mapLoop_inv (f : T → T) (v : Fin n → T) : ∀ m, m ≤ n →
    forRange m (fun i v => (rd v i).bind fun x => wr v i (f x)) v = some (fun j => if j.val < m then f (v j) else v j)
  | 0, _ => by simp [forRange]
  | m + 1, h => by
    rw [forRange, mapLoop_inv f v m (by omega)]
    have hm : m < n := by omega
    simp only [Option.bind_some, rd_of_lt hm, wr_of_lt hm, Option.some.injEq]
    funext j
    by_cases h1 : j.val = m
    · have : j = ⟨m, hm⟩ := Fin.ext h1
      simp [this]
    · by_cases h2 : j.val < m
      · have : j.val < m + 1 := by omega
        simp [h1, h2, this]
      · have : ¬ j.val < m + 1 := by omega
        simp [h1, h2, this]

theorem mapLoop_eq (f : T → T) (v : Fin n → T) : mapLoop f v = some (fun i => f (v i)) := by
  unfold mapLoop
  rw [mapLoop_inv f v n le_rfl]
  simp

/-- C96: in every dimension and for every scalar type, the in-place loops of the component-wise operators never panic and
component `i` of the result is the operation applied to components `i` of the arguments. -/
theorem C96_componentwise [Add T] [Sub T] [Mul T] [Div T] [Scalar T] (a b : GVec T n U) (c d : Vec T n) (t : T) :
    add a b = some ⟨fun i => a.vec i + b.vec i⟩ ∧ mul a b = some ⟨fun i => a.vec i * b.vec i⟩ ∧
    div a b = some ⟨fun i => a.vec i / b.vec i⟩ ∧ sub c d = some ⟨fun i => c.vec i - d.vec i⟩ ∧
    scale a t = some ⟨fun i => a.vec i * t⟩ ∧ divScalar a t = some ⟨fun i => a.vec i / t⟩ ∧
    Imp.min a b = some ⟨fun i => Scalar.min (a.vec i) (b.vec i)⟩ ∧ Imp.max a b = some ⟨fun i => Scalar.max (a.vec i) (b.vec i)⟩ := by
  unfold add mul div sub scale divScalar Imp.min Imp.max
  simp only [zipLoop_eq, mapLoop_eq]
  exact ⟨rfl, rfl, rfl, rfl, rfl, rfl, rfl, rfl⟩

/-- C96: `a += b` leaves in `a` what `a + b` returns, and `a -= b` what `a - b` returns. -/
theorem C96_assign [Add T] [Sub T] (a b : GVec T n U) (c d : Vec T n) :
    addAssign a b = add a b ∧ subAssign c d = sub c d := ⟨rfl, rfl⟩

/-- C96: the component-wise definitions used everywhere else in this model are what the loops compute. -/
theorem C96_model [Add T] [Sub T] [Mul T] [Div T] [Scalar T] (a b : GVec T n U) (c d : Vec T n) (t : T) :
    add a b = some (a + b) ∧ mul a b = some (a * b) ∧ div a b = some (a / b) ∧ sub c d = some (c - d) ∧
    scale a t = some (a * t) ∧ divScalar a t = some (a / t) ∧ Imp.min a b = some (a.min b) ∧ Imp.max a b = some (a.max b) :=
  C96_componentwise a b c d t

theorem sumLoop_castLE [Add T] [Scalar T] (f : Fin n → T) (body : Nat → T → Option T)
    (hb : ∀ i : Fin n, ∀ s, body i s = some (s + f i)) : forRange n body Scalar.zero = some (sumLoop n f) := by
  induction n with
  | zero => rfl
  | succ n ih =>
    rw [forRange, ih (fun i => f i.castSucc) (fun i s => hb i.castSucc s)]
    exact hb (Fin.last n) _

/-- C96: the accumulating loops of `dot` and `square_norm` never panic and compute `((0 + t₀) + t₁) + …`. -/
theorem C96_sums [Add T] [Mul T] [Scalar T] (a : GVec T n U) (b : GVec T n I) :
    dot a b = some (a.dot b) ∧ squareNorm a = some a.squareNorm := by
  constructor
  · apply sumLoop_castLE
    intro i s
    rw [rd_of_lt i.isLt, rd_of_lt i.isLt]; rfl
  · apply sumLoop_castLE
    intro i s
    rw [rd_of_lt i.isLt]; rfl

theorem allRange_eq (test : Nat → Option Bool) (f : Nat → Bool) : ∀ n lo, (∀ i, lo ≤ i → i < lo + n → test i = some (f i)) →
    allRange test n lo = some ((List.range' lo n).all f)
  | 0, lo, _ => by simp [allRange]
  | n + 1, lo, h => by
    rw [allRange, h lo le_rfl (by omega), allRange_eq test f n (lo + 1) (fun i h1 h2 => h i (by omega) (by omega)),
      List.range'_succ, List.all_cons]
    cases f lo <;> rfl

/-- C96: `almost_eq` of vectors and matrices never panics and is true exactly when all components are almost equal. -/
theorem C96_almost_eq [AlmostEqual T T] (a b : GVec T n U) (m k : Mat4 T) :
    (∃ r, almostEq a b = some r ∧ (r = true ↔ ∀ i, AlmostEqual.almostEq (a.vec i) (b.vec i) = true)) ∧
    (∃ r, matAlmostEq m k = some r ∧ (r = true ↔ ∀ i j, AlmostEqual.almostEq (m.data i j) (k.data i j) = true)) := by
  constructor
  · refine ⟨_, allRange_eq _ (fun i => if h : i < n then AlmostEqual.almostEq (a.vec ⟨i, h⟩) (b.vec ⟨i, h⟩) else true) n 0 ?_, ?_⟩
    · intro i _ h
      have h : i < n := by omega
      rw [rd_of_lt h, rd_of_lt h]
      simp [h]
    · simp only [List.all_eq_true, List.mem_range'_1]
      constructor
      · intro h i
        have := h i.val (by omega)
        simpa using this
      · intro h i hi
        have hi : i < n := by omega
        simp [hi, h]
  · refine ⟨_, allRange_eq _ (fun i => (List.range' 0 4).all fun j =>
      if h : i < 4 ∧ j < 4 then AlmostEqual.almostEq (m.data ⟨i, h.1⟩ ⟨j, h.2⟩) (k.data ⟨i, h.1⟩ ⟨j, h.2⟩) else true) 4 0 ?_, ?_⟩
    · intro i _ h
      have h : i < 4 := by omega
      apply allRange_eq
      intro j _ h'
      have h' : j < 4 := by omega
      have e := matIndex_fin m ⟨i, h⟩ ⟨j, h'⟩
      have e' := matIndex_fin k ⟨i, h⟩ ⟨j, h'⟩
      simp only at e e'
      rw [e, e']
      simp [h, h']
    · simp only [List.all_eq_true, List.mem_range'_1]
      constructor
      · intro h i j
        have := h i.val (by omega) j.val (by omega)
        simpa using this
      · intro h i hi j hj
        have hi : i < 4 := by omega
        have hj : j < 4 := by omega
        simp [hi, hj, h]

theorem forRange_four {S : Type} {body : Nat → S → Option S} {s0 s1 s2 s3 s4 : S} (h0 : body 0 s0 = some s1)
    (h1 : body 1 s1 = some s2) (h2 : body 2 s2 = some s3) (h3 : body 3 s3 = some s4) : forRange 4 body s0 = some s4 := by
  simp [forRange, h0, h1, h2, h3]

/-- The innermost loop. -/
theorem matMul_k [Add T] [Mul T] (a b res : Mat4 T) (i j : Fin 4) :
    forRange 4 (fun k res => (matIndex a i.val k).bind fun x => (matIndex b k j.val).bind fun y => (matIndex res i.val j.val).bind
      fun old => matIndexMut res i.val j.val (old + x * y)) res =
    some (setE res i j (res.data i j + a.data i 0 * b.data 0 j + a.data i 1 * b.data 1 j + a.data i 2 * b.data 2 j
      + a.data i 3 * b.data 3 j)) := by
  have e : ∀ k : Fin 4, ∀ r : Mat4 T, ((matIndex a i.val k.val).bind fun x => (matIndex b k.val j.val).bind fun y =>
      (matIndex r i.val j.val).bind fun old => matIndexMut r i.val j.val (old + x * y)) =
      some (setE r i j (r.data i j + a.data i k * b.data k j)) := by
    intro k r
    rw [matIndex_fin, matIndex_fin, matIndex_fin, Option.bind_some, Option.bind_some, Option.bind_some, matIndexMut_fin]
  have s1 : ∀ r : Mat4 T, ∀ u, (setE r i j u).data i j = u := fun r u => by simp [setE]
  have s2 : ∀ r : Mat4 T, ∀ u v, setE (setE r i j u) i j v = setE r i j v := by
    intro r u v
    unfold setE
    congr 1
    funext k l
    by_cases h : k = i ∧ l = j <;> simp [h]
  refine (forRange_four (e 0 _) (e 1 _) (e 2 _) (e 3 _)).trans ?_
  simp only [s1, s2]

/-- The middle loop. -/
theorem matMul_j [Add T] [Mul T] (a b res : Mat4 T) (i : Fin 4) :
    forRange 4 (fun j => forRange 4 (fun k res => (matIndex a i.val k).bind fun x => (matIndex b k j).bind fun y =>
      (matIndex res i.val j).bind fun old => matIndexMut res i.val j (old + x * y))) res =
    some ⟨fun p q => if p = i then res.data i q + a.data i 0 * b.data 0 q + a.data i 1 * b.data 1 q + a.data i 2 * b.data 2 q
      + a.data i 3 * b.data 3 q else res.data p q⟩ := by
  refine (forRange_four (matMul_k a b _ i 0) (matMul_k a b _ i 1) (matMul_k a b _ i 2) (matMul_k a b _ i 3)).trans ?_
  congr 1
  apply Mat4.ext
  funext p q
  by_cases h : p = i
  · subst h
    fin_cases q <;> simp [setE]
  · simp [setE, h]

/-- C96: the three nested loops of the matrix product never panic and give the product of the model. -/
theorem C96_matMul [Add T] [Mul T] [Scalar T] (a b : Mat4 T) : matMul a b = some (a * b) := by
  refine (forRange_four (matMul_j a b _ 0) (matMul_j a b _ 1) (matMul_j a b _ 2) (matMul_j a b _ 3)).trans ?_
  congr 1
  apply Mat4.ext
  funext p q
  have hz : ∀ p q, (Mat4.zero : Mat4 T).data p q = Scalar.zero := by
    intro p q
    fin_cases p <;> fin_cases q <;> rfl
  fin_cases p <;> simp [hz] <;> rfl

/-! Concrete cases meeting the hypotheses. -/
example : indexMut (GVec.new3 1 2 3 : Vec Nat 3) 1 7 = some (GVec.new3 1 7 3) := by
  unfold indexMut
  rw [wr_of_lt (by decide)]
  simp only [Option.map_some, fromArray, Option.some.injEq]
  apply GVec.ext
  funext k
  fin_cases k <;> rfl
example : indexMut (GVec.new3 1 2 3 : Vec Nat 3) 3 7 = none := rfl
example : index (GVec.new3 1 2 3 : Vec Nat 3) 2 = some 3 := rfl
end Scarlet
