import Mathlib.LinearAlgebra.Matrix.Adjugate
import Mathlib.LinearAlgebra.Matrix.Determinant.Basic
import Mathlib.Data.Fin.VecNotation
import Mathlib.Tactic.Ring
import Mathlib.Tactic.FinCases
import Mathlib.Algebra.BigOperators.Fin
/-!
# Determinants of five vectors
-/
namespace Verif.Delaunay

variable {K : Type} [CommRing K]

/-- A lifted point: the three coordinates, the height, and `1`; or a direction. -/
abbrev Vec (K : Type) := Fin 5 → K

/-- The determinant of five vectors. -/
def br (a b c d e : Vec K) : K := Matrix.det (Matrix.of ![a, b, c, d, e])

theorem br_01 (a b c d e : Vec K) : br b a c d e = - br a b c d e := by
  have := Matrix.det_permute (Equiv.swap (0 : Fin 5) 1) (Matrix.of ![a, b, c, d, e])
  rw [Equiv.Perm.sign_swap (by decide)] at this
  have e : (Matrix.of ![a, b, c, d, e]).submatrix (Equiv.swap (0 : Fin 5) 1) id = Matrix.of ![b, a, c, d, e] := by
    ext i j; fin_cases i <;> rfl
  rw [e] at this
  rw [br, this, br]; simp

theorem br_12 (a b c d e : Vec K) : br a c b d e = - br a b c d e := by
  have := Matrix.det_permute (Equiv.swap (1 : Fin 5) 2) (Matrix.of ![a, b, c, d, e])
  rw [Equiv.Perm.sign_swap (by decide)] at this
  have e : (Matrix.of ![a, b, c, d, e]).submatrix (Equiv.swap (1 : Fin 5) 2) id = Matrix.of ![a, c, b, d, e] := by
    ext i j; fin_cases i <;> rfl
  rw [e] at this
  rw [br, this, br]; simp

theorem br_23 (a b c d e : Vec K) : br a b d c e = - br a b c d e := by
  have := Matrix.det_permute (Equiv.swap (2 : Fin 5) 3) (Matrix.of ![a, b, c, d, e])
  rw [Equiv.Perm.sign_swap (by decide)] at this
  have e : (Matrix.of ![a, b, c, d, e]).submatrix (Equiv.swap (2 : Fin 5) 3) id = Matrix.of ![a, b, d, c, e] := by
    ext i j; fin_cases i <;> rfl
  rw [e] at this
  rw [br, this, br]; simp

theorem br_34 (a b c d e : Vec K) : br a b c e d = - br a b c d e := by
  have := Matrix.det_permute (Equiv.swap (3 : Fin 5) 4) (Matrix.of ![a, b, c, d, e])
  rw [Equiv.Perm.sign_swap (by decide)] at this
  have e : (Matrix.of ![a, b, c, d, e]).submatrix (Equiv.swap (3 : Fin 5) 4) id = Matrix.of ![a, b, c, e, d] := by
    ext i j; fin_cases i <;> rfl
  rw [e] at this
  rw [br, this, br]; simp

/-- Cramer's rule. -/
theorem cramer (a b c d e q : Vec K) : br a b c d e • q = br q b c d e • a + br a q c d e • b + br a b q d e • c + br a b c q e • d + br a b c d q • e := by
  have h := Matrix.mulVec_cramer (Matrix.of ![a, b, c, d, e]).transpose q
  rw [Matrix.det_transpose] at h
  have key : ∀ i, Matrix.cramer (Matrix.of ![a, b, c, d, e]).transpose q i = ((Matrix.of ![a, b, c, d, e]).updateRow i q).det :=
    fun i => Matrix.cramer_transpose_apply ..
  have u0 : (Matrix.of ![a, b, c, d, e]).updateRow 0 q = Matrix.of ![q, b, c, d, e] := by
    ext i j; fin_cases i <;> rfl
  have u1 : (Matrix.of ![a, b, c, d, e]).updateRow 1 q = Matrix.of ![a, q, c, d, e] := by
    ext i j; fin_cases i <;> rfl
  have u2 : (Matrix.of ![a, b, c, d, e]).updateRow 2 q = Matrix.of ![a, b, q, d, e] := by
    ext i j; fin_cases i <;> rfl
  have u3 : (Matrix.of ![a, b, c, d, e]).updateRow 3 q = Matrix.of ![a, b, c, q, e] := by
    ext i j; fin_cases i <;> rfl
  have u4 : (Matrix.of ![a, b, c, d, e]).updateRow 4 q = Matrix.of ![a, b, c, d, q] := by
    ext i j; fin_cases i <;> rfl
  unfold br
  rw [← h]
  ext i
  rw [Matrix.mulVec, dotProduct, Fin.sum_univ_five, key, key, key, key, key, u0, u1, u2, u3, u4]
  simp only [Matrix.transpose_apply, Matrix.of_apply, Pi.add_apply, Pi.smul_apply, smul_eq_mul, Matrix.cons_val_zero, Matrix.cons_val_one, Matrix.cons_val]
  ring

/-- The determinant is linear in the last vector. -/
def brL (a b c d : Vec K) : Vec K →ₗ[K] K where
  toFun e := br a b c d e
  map_add' x y := by
    have h := Matrix.det_updateRow_add (Matrix.of ![a, b, c, d, 0]) 4 x y
    have u : ∀ z, (Matrix.of ![a, b, c, d, 0]).updateRow 4 z = Matrix.of ![a, b, c, d, z] := by
      intro z; ext i j; fin_cases i <;> rfl
    rw [u, u, u] at h
    exact h
  map_smul' s x := by
    have h := Matrix.det_updateRow_smul (Matrix.of ![a, b, c, d, 0]) 4 s x
    have u : ∀ z, (Matrix.of ![a, b, c, d, 0]).updateRow 4 z = Matrix.of ![a, b, c, d, z] := by
      intro z; ext i j; fin_cases i <;> rfl
    rw [u, u] at h
    exact h

theorem brL_apply (a b c d e : Vec K) : brL a b c d e = br a b c d e := rfl

theorem br_eq34 [IsDomain K] [CharZero K] (a b c d : Vec K) : br a b c d d = 0 := by
  unfold br
  exact Matrix.det_zero_of_row_eq (i := 3) (j := 4) (by decide) rfl

theorem br_rep0 (a b c d : Vec K) : br a b c d a = 0 := Matrix.det_zero_of_row_eq (i := 0) (j := 4) (by decide) rfl
theorem br_rep1 (a b c d : Vec K) : br a b c d b = 0 := Matrix.det_zero_of_row_eq (i := 1) (j := 4) (by decide) rfl
theorem br_rep2 (a b c d : Vec K) : br a b c d c = 0 := Matrix.det_zero_of_row_eq (i := 2) (j := 4) (by decide) rfl
theorem br_rep3 (a b c d : Vec K) : br a b c d d = 0 := Matrix.det_zero_of_row_eq (i := 3) (j := 4) (by decide) rfl

/-- Any linear functional respects Cramer's rule. -/
theorem cramer_apply (f : Vec K →ₗ[K] K) (a b c d e q : Vec K) :
    br a b c d e * f q = br q b c d e * f a + br a q c d e * f b + br a b q d e * f c + br a b c q e * f d + br a b c d q * f e := by
  have := congrArg f (cramer a b c d e q)
  simpa using this

/-- The relation between the determinants that share three vectors. -/
theorem plucker (a b c d e p q : Vec K) : br a b c d e * br a b c p q = br a b c q e * br a b c p d + br a b c d q * br a b c p e := by
  have := cramer_apply (brL a b c p) a b c d e q
  simpa only [brL_apply, br_rep0, br_rep1, br_rep2, mul_zero, zero_add] using this

end Verif.Delaunay
