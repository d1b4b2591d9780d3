import Verif.Model.ScQedHF
import Mathlib.Tactic
import Mathlib.Data.ENNReal.Basic
import Mathlib.Analysis.SpecialFunctions.Pow.NNReal

/-!
# Cholesky orthogonalisation of the basis

Model of `full_cholesky_decomposition` and `full_cholesky_orth` in `/repo/openms/lib/mathlib.py` and of `remove_linear_dep` in
`/repo/openms/lib/scipy_helper.py`.  `dpstrf` is taken as the algorithm of its documentation with a tolerance that is not negative
(unblocked, as for matrices up to the block size): complete pivoting, the largest entry of the diagonal of what is left is
the next pivot; the first pivot is only compared with zero.  The numbers that LAPACK keeps in the matrix are kept here as the vectors
and the matrix `R` that is left.  Numbers are exact.  Not modelled: printing, `info < 0` (wrong arguments).
-/

namespace OpenMS.CholOrth

open Matrix

/-- The state of `dpstrf` after `k` columns: pivots, columns of the factor for all basis functions, and what is left. -/
structure State (N : ℕ) where
  k : ℕ
  piv : ℕ → Fin N
  vec : ℕ → Fin N → ℝ
  R : Matrix (Fin N) (Fin N) ℝ

/-- `mathlib.py` L121-127: before the first column. -/
def start {N : ℕ} (S : Matrix (Fin N) (Fin N) ℝ) (piv : ℕ → Fin N) : State N := ⟨0, piv, fun _ _ => 0, S⟩

/-- `mathlib.py` L126-127 (`dpstrf`): `p` may be chosen as the next pivot. -/
def IsPivot {N : ℕ} (s : State N) (p : Fin N) : Prop :=
  (∀ i < s.k, s.piv i ≠ p) ∧ ∀ q, (∀ i < s.k, s.piv i ≠ q) → s.R q q ≤ s.R p p

/-- `mathlib.py` L126-127 (`dpstrf`): the test that ends the factorisation before the last column. -/
def Stops {N : ℕ} (tol : ℝ) (s : State N) (p : Fin N) : Prop := if s.k = 0 then s.R p p ≤ 0 else s.R p p ≤ tol

/-- `mathlib.py` L126-127 (`dpstrf`): the column of the pivot `p`. -/
noncomputable def column {N : ℕ} (s : State N) (p : Fin N) : Fin N → ℝ := fun a => s.R a p / √(s.R p p)

/-- `mathlib.py` L126-127 (`dpstrf`): one column. -/
noncomputable def next {N : ℕ} (s : State N) (p : Fin N) : State N :=
  ⟨s.k + 1, Function.update s.piv s.k p, Function.update s.vec s.k (column s p),
    fun a b => s.R a b - column s p a * column s p b⟩

/-- `mathlib.py` L126-127 (`dpstrf`): the states that may occur. -/
inductive Reach {N : ℕ} (S : Matrix (Fin N) (Fin N) ℝ) (tol : ℝ) : State N → Prop
  | start (piv : ℕ → Fin N) : Reach S tol (start S piv)
  | next {s : State N} (p : Fin N) : Reach S tol s → IsPivot s p → ¬Stops tol s p → Reach S tol (next s p)

/-- `mathlib.py` L126-127 (`dpstrf`): the states that are returned; `k` is `n_vectors`. -/
def Final {N : ℕ} (S : Matrix (Fin N) (Fin N) ℝ) (tol : ℝ) (s : State N) : Prop :=
  Reach S tol s ∧ (s.k = N ∨ ∃ p, IsPivot s p ∧ Stops tol s p)

/-- `mathlib.py` L126-138: the matrix `cholesky_vectors` returned by `full_cholesky_decomposition`, with `perm` the list `pivots`: the
columns from `n_vectors` on keep the entries of the matrix, the upper triangle is set to zero. -/
noncomputable def fullVectors {N : ℕ} (S : Matrix (Fin N) (Fin N) ℝ) (s : State N) (perm : Equiv.Perm (Fin N)) :
    Matrix (Fin N) (Fin N) ℝ :=
  fun i j => if i < j then 0 else if (j : ℕ) < s.k then s.vec j (perm i) else S (perm i) (perm j)

/-- `mathlib.py` L194-198: `L` of `full_cholesky_orth`. -/
noncomputable def factorL {N : ℕ} (s : State N) : Matrix (Fin s.k) (Fin s.k) ℝ :=
  fun i j => if i < j then 0 else s.vec j (s.piv i)

/-- `mathlib.py` L195-203: `P` of `full_cholesky_orth`. -/
noncomputable def selectP {N : ℕ} (s : State N) : Matrix (Fin N) (Fin s.k) ℝ := fun a i => if a = s.piv i then 1 else 0

/-- `mathlib.py` L185-192: the error of `full_cholesky_orth` (`n_oao` is never above `n`, the pivots are in range). -/
def raises {N : ℕ} (s : State N) : Prop := s.k = 0

/-! ### Condition numbers -/

/-- What `remove_linear_dep` does to the solver. -/
inductive Solver
  | unchanged | canonical | pivoted
  deriving DecidableEq

/-- The errors of `remove_linear_dep`. -/
inductive Error
  | nameError | typeError | valueError
  deriving DecidableEq

open ENNReal in
/-- `scipy_helper.py` L60-87: `remove_linear_dep`.  `scond`: condition number of the overlap; `gconds`: those of the coupling
matrices, `none` if `mf.qed` is not a `Boson`; `debug`: the messages of `logger.debug` are printed.  L74 prints a function with `%g`
and L76 gives one tuple to a text with two places. -/
noncomputable def removeLinearDep (scond : ℝ≥0∞) (gconds : Option (List ℝ≥0∞)) (lindep eps : ℝ≥0∞) (force debug : Bool) :
    Except Error Solver :=
  match gconds with
  | some [] => .error .valueError
  | _ =>
    let max_cond := (gconds.getD []).foldl max (max 0 scond)
    if max_cond < 1 / lindep ∧ force = false then .ok .unchanged
    else if debug then .error .typeError
    else
      match gconds with
      | none => .error .nameError
      | some _ => if max_cond < 1 / eps ∧ force = false then .ok .canonical else .ok .pivoted

end OpenMS.CholOrth
