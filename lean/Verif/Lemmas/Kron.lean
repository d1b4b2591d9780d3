import Mathlib.Analysis.Normed.Algebra.MatrixExponential
import Mathlib.LinearAlgebra.Matrix.Kronecker
import Mathlib.Tactic

/-!
# Exponentials of operators on two subsystems
-/

set_option linter.unusedSectionVars false

namespace OpenMS.Kron

open Matrix
open scoped Kronecker

variable {n m : Type*} [Fintype n] [DecidableEq n] [Fintype m] [DecidableEq m]

/-- An operator of the first subsystem. -/
def leftHom (n m : Type*) [Fintype n] [DecidableEq n] [Fintype m] [DecidableEq m] :
    Matrix n n ℂ →+* Matrix (n × m) (n × m) ℂ where
  toFun X := X ⊗ₖ (1 : Matrix m m ℂ)
  map_one' := Matrix.one_kronecker_one
  map_mul' X Y := by rw [← Matrix.mul_kronecker_mul, one_mul]
  map_zero' := Matrix.zero_kronecker _
  map_add' X Y := Matrix.add_kronecker _ _ _

/-- An operator of the second subsystem. -/
def rightHom (n m : Type*) [Fintype n] [DecidableEq n] [Fintype m] [DecidableEq m] :
    Matrix m m ℂ →+* Matrix (n × m) (n × m) ℂ where
  toFun Y := (1 : Matrix n n ℂ) ⊗ₖ Y
  map_one' := Matrix.one_kronecker_one
  map_mul' X Y := by rw [← Matrix.mul_kronecker_mul, one_mul]
  map_zero' := Matrix.kronecker_zero _
  map_add' X Y := Matrix.kronecker_add _ _ _

theorem exp_left (X : Matrix n n ℂ) :
    NormedSpace.exp (X ⊗ₖ (1 : Matrix m m ℂ)) = NormedSpace.exp X ⊗ₖ (1 : Matrix m m ℂ) := by
  let _ : NormedRing (Matrix n n ℂ) := Matrix.linftyOpNormedRing
  let _ : NormedAlgebra ℂ (Matrix n n ℂ) := Matrix.linftyOpNormedAlgebra
  let _ : NormedRing (Matrix (n × m) (n × m) ℂ) := Matrix.linftyOpNormedRing
  let _ : NormedAlgebra ℂ (Matrix (n × m) (n × m) ℂ) := Matrix.linftyOpNormedAlgebra
  let _ : NormedAlgebra ℚ (Matrix n n ℂ) := NormedAlgebra.restrictScalars ℚ ℂ _
  have hc : Continuous (leftHom n m) := by
    refine continuous_matrix fun i j => ?_
    show Continuous fun X : Matrix n n ℂ => X i.1 j.1 * (1 : Matrix m m ℂ) i.2 j.2
    exact (continuous_id.matrix_elem _ _).mul continuous_const
  exact (NormedSpace.map_exp (leftHom n m) hc X).symm

theorem exp_right (Y : Matrix m m ℂ) :
    NormedSpace.exp ((1 : Matrix n n ℂ) ⊗ₖ Y) = (1 : Matrix n n ℂ) ⊗ₖ NormedSpace.exp Y := by
  let _ : NormedRing (Matrix m m ℂ) := Matrix.linftyOpNormedRing
  let _ : NormedAlgebra ℂ (Matrix m m ℂ) := Matrix.linftyOpNormedAlgebra
  let _ : NormedRing (Matrix (n × m) (n × m) ℂ) := Matrix.linftyOpNormedRing
  let _ : NormedAlgebra ℂ (Matrix (n × m) (n × m) ℂ) := Matrix.linftyOpNormedAlgebra
  let _ : NormedAlgebra ℚ (Matrix m m ℂ) := NormedAlgebra.restrictScalars ℚ ℂ _
  have hc : Continuous (rightHom n m) := by
    refine continuous_matrix fun i j => ?_
    show Continuous fun X : Matrix m m ℂ => (1 : Matrix n n ℂ) i.1 j.1 * X i.2 j.2
    exact continuous_const.mul (continuous_id.matrix_elem _ _)
  exact (NormedSpace.map_exp (rightHom n m) hc Y).symm

theorem exp_kron (X : Matrix n n ℂ) (Y : Matrix m m ℂ) :
    NormedSpace.exp (X ⊗ₖ (1 : Matrix m m ℂ) + (1 : Matrix n n ℂ) ⊗ₖ Y) =
      NormedSpace.exp X ⊗ₖ NormedSpace.exp Y := by
  have hc : Commute (X ⊗ₖ (1 : Matrix m m ℂ)) ((1 : Matrix n n ℂ) ⊗ₖ Y) := by
    unfold Commute SemiconjBy
    rw [← Matrix.mul_kronecker_mul, ← Matrix.mul_kronecker_mul]
    simp
  rw [Matrix.exp_add_of_commute _ _ hc, exp_left, exp_right, ← Matrix.mul_kronecker_mul]
  simp

end OpenMS.Kron
