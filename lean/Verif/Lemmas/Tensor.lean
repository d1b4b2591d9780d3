import Mathlib.Analysis.Normed.Algebra.MatrixExponential
import Mathlib.Tactic

/-!
# Operators on several particles

Matrices on the space of functions `e → p` (one basis function for every particle of `e`).
-/

set_option linter.unusedSectionVars false

namespace OpenMS.Tensor

open Matrix

variable {e p : Type*} [Fintype e] [DecidableEq e] [Fintype p] [DecidableEq p]

/-- The product of one-particle matrices, one for every particle. -/
def tensor (B : e → Matrix p p ℂ) : Matrix (e → p) (e → p) ℂ :=
  Matrix.of fun f g => ∏ j, B j (f j) (g j)

/-- A one-particle matrix acting on particle `j`. -/
def site (j : e) (M : Matrix p p ℂ) : Matrix (e → p) (e → p) ℂ :=
  Matrix.of fun f g => if ∀ i, i ≠ j → f i = g i then M (f j) (g j) else 0

theorem tensor_mul (B C : e → Matrix p p ℂ) :
    tensor B * tensor C = tensor fun j => B j * C j := by
  ext f g
  simp only [tensor, Matrix.mul_apply, Matrix.of_apply]
  rw [Finset.prod_univ_sum, Fintype.piFinset_univ]
  exact Finset.sum_congr rfl fun h _ => (Finset.prod_mul_distrib).symm

theorem tensor_one : tensor (fun _ : e => (1 : Matrix p p ℂ)) = 1 := by
  ext f g
  simp only [tensor, Matrix.of_apply, Matrix.one_apply]
  by_cases h : f = g
  · subst h; simp
  · rw [if_neg h]
    obtain ⟨j, hj⟩ := Function.ne_iff.1 h
    exact Finset.prod_eq_zero (Finset.mem_univ j) (if_neg hj)

theorem site_eq (j : e) (M : Matrix p p ℂ) :
    site j M = tensor (Function.update (fun _ => 1) j M) := by
  ext f g
  simp only [site, tensor, Matrix.of_apply]
  rw [← Finset.mul_prod_erase _ _ (Finset.mem_univ j), Function.update_self]
  have : ∀ i ∈ Finset.univ.erase j, Function.update (fun _ : e => (1 : Matrix p p ℂ)) j M i (f i) (g i) =
      if f i = g i then 1 else 0 := by
    intro i hi
    rw [Function.update_of_ne (Finset.ne_of_mem_erase hi), Matrix.one_apply]
  rw [Finset.prod_congr rfl this]
  by_cases h : ∀ i, i ≠ j → f i = g i
  · rw [if_pos h, Finset.prod_eq_one fun i hi => if_pos (h i (Finset.ne_of_mem_erase hi)), mul_one]
  · rw [if_neg h]
    push Not at h
    obtain ⟨i, hi, hne⟩ := h
    rw [Finset.prod_eq_zero (Finset.mem_erase.2 ⟨hi, Finset.mem_univ i⟩) (if_neg hne), mul_zero]

theorem site_mul (j : e) (M N : Matrix p p ℂ) : site j M * site j N = site j (M * N) := by
  rw [site_eq, site_eq, site_eq, tensor_mul]
  congr 1
  funext i
  by_cases h : i = j
  · subst h; simp
  · simp [Function.update_of_ne h]

theorem site_commute (i j : e) (hij : i ≠ j) (M N : Matrix p p ℂ) :
    Commute (site i M) (site j N) := by
  unfold Commute SemiconjBy
  rw [site_eq, site_eq, tensor_mul, tensor_mul]
  congr 1
  funext k
  by_cases h : k = i
  · subst h; simp [Function.update_of_ne hij]
  · simp [Function.update_of_ne h]

/-- `site j` as a homomorphism of algebras. -/
def siteHom (j : e) : Matrix p p ℂ →+* Matrix (e → p) (e → p) ℂ where
  toFun := site j
  map_one' := by
    rw [site_eq, ← tensor_one]
    congr 1
    exact Function.update_eq_self j _
  map_mul' M N := (site_mul j M N).symm
  map_zero' := by ext f g; simp [site]
  map_add' M N := by
    ext f g
    simp only [site, Matrix.of_apply, Matrix.add_apply]
    split_ifs <;> simp

theorem site_continuous (j : e) : Continuous (site j : Matrix p p ℂ → Matrix (e → p) (e → p) ℂ) := by
  refine continuous_matrix fun f g => ?_
  simp only [site, Matrix.of_apply]
  split_ifs
  · exact continuous_id.matrix_elem _ _
  · exact continuous_const

theorem exp_site (j : e) (M : Matrix p p ℂ) :
    NormedSpace.exp (site j M) = site j (NormedSpace.exp M) := by
  let _ : NormedRing (Matrix p p ℂ) := Matrix.linftyOpNormedRing
  let _ : NormedAlgebra ℂ (Matrix p p ℂ) := Matrix.linftyOpNormedAlgebra
  let _ : NormedRing (Matrix (e → p) (e → p) ℂ) := Matrix.linftyOpNormedRing
  let _ : NormedAlgebra ℂ (Matrix (e → p) (e → p) ℂ) := Matrix.linftyOpNormedAlgebra
  let _ : NormedAlgebra ℚ (Matrix p p ℂ) := NormedAlgebra.restrictScalars ℚ ℂ _
  exact (NormedSpace.map_exp (siteHom j) (site_continuous j) M).symm

/-- The exponential of a sum of one-particle operators is the product of the exponentials. -/
theorem exp_sum_site (M : e → Matrix p p ℂ) (s : Finset e) :
    NormedSpace.exp (∑ j ∈ s, site j (M j)) =
      tensor fun j => if j ∈ s then NormedSpace.exp (M j) else 1 := by
  induction s using Finset.induction_on with
  | empty => simp [tensor_one]
  | insert a s ha ih =>
    have hc : Commute (site a (M a)) (∑ j ∈ s, site j (M j)) :=
      Commute.sum_right _ _ _ fun j hj => site_commute a j (fun h => ha (h ▸ hj)) _ _
    rw [Finset.sum_insert ha, Matrix.exp_add_of_commute _ _ hc, exp_site, ih, site_eq, tensor_mul]
    congr 1
    funext j
    by_cases h : j = a
    · subst h; simp [ha]
    · simp [h]

theorem exp_sum_site_univ (M : e → Matrix p p ℂ) :
    NormedSpace.exp (∑ j, site j (M j)) = tensor fun j => NormedSpace.exp (M j) := by
  simpa using exp_sum_site M Finset.univ

end OpenMS.Tensor
