import Mathlib.Data.Real.Basic
import Mathlib.Algebra.BigOperators.Group.Finset.Basic
import Mathlib.Algebra.BigOperators.Ring.Finset

/-!
# Coulomb and exchange matrices with dressing factors

`openms/mqed/scqedhf.py` L125-145 (`compute_JK_numba`) and L1204-1260 (`get_jk_chols`).  `G` is the dressing factor as a function
of the sum of displacements, real numbers are exact.  Both functions are called nowhere.
-/

namespace OpenMS.DressedJK

variable {n X : Type*} [Fintype n] [Fintype X] [LinearOrder n]

/-- `scqedhf.py` L132-139: the sum for the entry `p q` of the Coulomb matrix; the factor `fc` has the shift `eta[q] - eta[p]`. -/
def jPair (G : ℝ → ℝ) (L : X → n → n → ℝ) (D : n → n → ℝ) (η : n → ℝ) (p q : n) : ℝ :=
  ∑ r, ∑ s, (∑ x, L x p q * L x r s) * D r s * G (η r - η s + (η q - η p))

/-- `scqedhf.py` L132-140: the sum for the entry `p q` of the exchange matrix, `K = L[:, :, q].T @ L[:, p, :]`. -/
def kPair (G : ℝ → ℝ) (L : X → n → n → ℝ) (D : n → n → ℝ) (η : n → ℝ) (p q : n) : ℝ :=
  ∑ r, ∑ s, (∑ x, L x r q * L x p s) * D r s * G (η r - η s + (η q - η p))

/-- `scqedhf.py` L125-145: `compute_JK_numba`; the pairs `p ≤ q` are computed and written to both places.  `FC_factor_numba` is called
without three of its arguments, and `self` is not defined (numba reports both as it compiles, as a kind of `TypeError`); `names` says that
they were there. -/
def computeJK (names : Bool) (G : ℝ → ℝ) (L : X → n → n → ℝ) (D : n → n → ℝ) (η : n → ℝ) :
    Except String ((n → n → ℝ) × (n → n → ℝ)) :=
  if names then .ok (fun p q => if p ≤ q then jPair G L D η p q else jPair G L D η q p,
    fun p q => if p ≤ q then kPair G L D η p q else kPair G L D η q p)
  else .error "TypeError"

/-- `hf.dot_eri_dm` of PySCF for four-index integrals: `vj = einsum('ijkl,ji->kl')`, `vk = einsum('ijkl,jk->il')`. -/
def dotEriDm (I : n → n → n → n → ℝ) (D : n → n → ℝ) : (n → n → ℝ) × (n → n → ℝ) :=
  (fun k l => ∑ i, ∑ j, I i j k l * D j i, fun i l => ∑ j, ∑ k, I i j k l * D j k)

/-- `scqedhf.py` L1253-1258: the loop over the modes; every mode replaces what the one before left.  A mode is its factor and its
displacements. -/
def modeLoop (eri : n → n → n → n → ℝ) (D : n → n → ℝ) (modes : List ((ℝ → ℝ) × (n → ℝ))) :
    Option ((n → n → ℝ) × (n → n → ℝ)) :=
  modes.foldl (fun _ m => some (dotEriDm (fun p q r s => eri p q r s * m.1 (m.2 p - m.2 q + m.2 r - m.2 s)) D)) none

/-- `scqedhf.py` L1204-1260: `get_jk_chols`; L1237 reads `imode`, a name that only the loop in L1253 assigns; `names` says that it has a
value. -/
def getJKchols (names : Bool) (eri : n → n → n → n → ℝ) (D : n → n → ℝ) (modes : List ((ℝ → ℝ) × (n → ℝ))) :
    Except String (Option ((n → n → ℝ) × (n → n → ℝ))) :=
  if names then .ok (modeLoop eri D modes) else .error "UnboundLocalError"

end OpenMS.DressedJK
