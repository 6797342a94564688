import Verif.Model.Transform
import Verif.Theory.Vec

/-! 4x4 matrices: component lemmas, the Mathlib matrix with the same entries. -/

namespace Scarlet
variable {T : Type}

namespace Mat4

@[simp] theorem idx_mk4 (a b c d e f g h i j k l m n o p : T) (r s : Fin 4) :
    (mk4 a b c d e f g h i j k l m n o p).data r s =
      ![![a, b, c, d], ![e, f, g, h], ![i, j, k, l], ![m, n, o, p]] r s := rfl

theorem mk4_congr {a b c d e f g h i j k l m n o p a' b' c' d' e' f' g' h' i' j' k' l' m' n' o' p' : T}
    (ha : a = a') (hb : b = b') (hc : c = c') (hd : d = d') (he : e = e') (hf : f = f') (hg : g = g') (hh : h = h')
    (hi : i = i') (hj : j = j') (hk : k = k') (hl : l = l') (hm : m = m') (hn : n = n') (ho : o = o') (hp : p = p') :
    mk4 a b c d e f g h i j k l m n o p = mk4 a' b' c' d' e' f' g' h' i' j' k' l' m' n' o' p' := by
  subst ha hb hc hd he hf hg hh hi hj hk hl hm hn ho hp; rfl

theorem mul_data [Add T] [Mul T] [Scalar T] (a b : Mat4 T) (i j : Fin 4) :
    (a * b).data i j = sumLoop 4 fun k => a.data i k * b.data k j := rfl

/-- The Mathlib matrix with the same entries. -/
def toMatrix (a : Mat4 T) : Matrix (Fin 4) (Fin 4) T := Matrix.of a.data

theorem toMatrix_inj {a b : Mat4 T} : a.toMatrix = b.toMatrix ↔ a = b := by
  constructor
  · intro h; ext i j; exact congrFun (congrFun h i) j
  · rintro rfl; rfl

theorem mul_real (a b : Mat4 ℝ) : (a * b).toMatrix = a.toMatrix * b.toMatrix := by
  ext i j
  rw [Matrix.mul_apply]
  exact sumLoop_real _

theorem identity_real : (identity : Mat4 ℝ).toMatrix = 1 := by
  ext i j
  fin_cases i <;> fin_cases j <;> rfl

theorem transpose_eq (a : Mat4 T) : a.transpose.toMatrix = a.toMatrix.transpose := by
  ext i j
  fin_cases i <;> fin_cases j <;> rfl

section
variable [Add T] [Sub T] [Mul T] [Neg T] [Scalar T] [ExactRing T]

theorem mul_exact (a b : Mat4 T) :
    letI := ExactRing.ring T
    (a * b).toMatrix = a.toMatrix * b.toMatrix := by
  let _ := ExactRing.ring T
  ext i j
  rw [Matrix.mul_apply]
  exact sumLoop_exact _

theorem identity_exact :
    letI := ExactRing.ring T
    (identity : Mat4 T).toMatrix = 1 := by
  ext i j
  fin_cases i <;> fin_cases j <;> rfl

end
end Mat4
end Scarlet
