import Mathlib.Data.Real.Basic
import Mathlib.Logic.Equiv.Basic

/-!
# Occupation numbers of the Gutzwiller codes

`openms/gwf/ga_local.py` L75-105, `openms/gwf/ga_sband.py` L146-176 (`get_occ`, the same text).  The permutation `σ` is what `numpy.argsort`
returns, real numbers are exact.
-/

namespace OpenMS.AufbauOcc

/-- `ga_local.py` L91: `mf.mol.nelectron // 2`. -/
def nocc (nelec : ℕ) : ℕ := nelec / 2

/-- `ga_local.py` L90-92: `mo_occ[e_idx[:nocc]] = 2` in an array of zeros. -/
noncomputable def moOcc {n : ℕ} (nelec : ℕ) (σ : Equiv.Perm (Fin n)) (i : Fin n) : ℝ :=
  if (σ.symm i).val < nocc nelec then 2 else 0

/-- Python's index `k - 1` of an array of length `n`: `-1` is the last entry. -/
def before (n k : ℕ) : ℕ := if k = 0 then n - 1 else k - 1

/-- `ga_local.py` L93-95: whether the warning that HOMO and LUMO coincide is given; `none` if `nocc` is not below the number of
orbitals, when nothing is said.  `mf.verbose` is taken to be at least `INFO`. -/
noncomputable def warns {n : ℕ} (nelec : ℕ) (e : Fin n → ℝ) (σ : Equiv.Perm (Fin n)) : Option Prop :=
  if h : nocc nelec < n then
    some (e (σ ⟨nocc nelec, h⟩) < e (σ ⟨before n (nocc nelec), by unfold before; split <;> omega⟩) + 1 / 1000)
  else none

end OpenMS.AufbauOcc
