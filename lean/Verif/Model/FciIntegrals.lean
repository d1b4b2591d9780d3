import Mathlib.Data.Matrix.Mul
import Mathlib.Analysis.Real.Sqrt

/-!
# Model of the integrals for the full CI with bosons

* `openms/lib/boson.py` L343-352 (`transform_ao2mo`), L355-406 (`get_integrals4fci`).

Everything is real (`C = lo.orth.lowdin(overlap)` is real), so `C.conj().T` is the transpose.  The overlap,
core Hamiltonian, two-electron integrals, coupling matrices, density matrix and orthogonalisation are
arguments; `ao2mo.kernel(eri, C)` of a four-index array is the transformation of all four indices.
-/

namespace OpenMS.FciIntegrals
open Matrix
open scoped BigOperators

variable {nm nao : ℕ}

/-- `boson.py` L343-352: `transform_ao2mo`. -/
def transform {k l : ℕ} (A : Matrix (Fin k) (Fin k) ℝ) (C : Matrix (Fin k) (Fin l) ℝ) :
    Matrix (Fin l) (Fin l) ℝ :=
  Cᵀ * A * C

/-- `boson.py` L373: `gmat * numpy.sqrt(cavity_freq/2.0)`.  Arrays of shapes `(nmode, nao, nao)` and
`(nmode,)` are multiplied along the last axis; numpy raises unless `nmode` is one or `nao` (for `nao = 1`
the product has shape `(nmode, 1, nmode)` and L397 raises). -/
noncomputable def bilinear (g : Fin nm → Matrix (Fin nao) (Fin nao) ℝ) (freq : Fin nm → ℝ) :
    Option (Fin nm → Matrix (Fin nao) (Fin nao) ℝ) :=
  if h1 : nm = 1 then some fun X => Matrix.of fun p q => g X p q * √(freq ⟨0, by omega⟩ / 2)
  else if h : nm = nao then some fun X => Matrix.of fun p q => g X p q * √(freq (Fin.cast h.symm q) / 2)
  else none

/-- `boson.py` L397: `Hep`. -/
noncomputable def hep (g : Fin nm → Matrix (Fin nao) (Fin nao) ℝ) (freq : Fin nm → ℝ)
    (C : Matrix (Fin nao) (Fin nao) ℝ) : Option (Fin nm → Matrix (Fin nao) (Fin nao) ℝ) :=
  (bilinear g freq).map fun b X => Matrix.of fun m n => ∑ p, ∑ q, b X p q * C p m * C q n

/-- `boson.py` L402: `gmat_lo`. -/
def gmatLo (g : Fin nm → Matrix (Fin nao) (Fin nao) ℝ) (C : Matrix (Fin nao) (Fin nao) ℝ) (X : Fin nm)
    (m n : Fin nao) : ℝ :=
  ∑ p, ∑ q, g X p q * C p m * C q n

/-- `boson.py` L403: the core Hamiltonian with the self energy, from the transformed one (L394). -/
noncomputable def hcoreDse (h : Fin nao → Fin nao → ℝ) (G : Fin nm → Fin nao → Fin nao → ℝ)
    (p s : Fin nao) : ℝ :=
  h p s + 1 / 2 * ∑ X, ∑ q, G X p q * G X q s

/-- `boson.py` L404: the two-electron integrals with the self energy, from the transformed ones (L396). -/
def eriDse (eri : Fin nao → Fin nao → Fin nao → Fin nao → ℝ) (G : Fin nm → Fin nao → Fin nao → ℝ)
    (p q r s : Fin nao) : ℝ :=
  eri p q r s + ∑ X, G X p q * G X r s

/-- `boson.py` L395, L398-399: `dm0`.  The name `ovlp` holds the transformed overlap when `SC` is
formed. -/
def dmOrth (D S C : Matrix (Fin nao) (Fin nao) ℝ) : Matrix (Fin nao) (Fin nao) ℝ :=
  let ovlp := transform S C
  let SC := ovlp * C
  transform D SC

end OpenMS.FciIntegrals
