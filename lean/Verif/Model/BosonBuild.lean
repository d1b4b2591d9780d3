import Mathlib.Tactic
import Mathlib.LinearAlgebra.Matrix.Notation
import Mathlib.Data.Complex.Basic

/-!
# One-body part of the propagator of bosons

Model of `PhaselessBoson` of `/repo/openms/qmc/propagators.py` and of `build_propagator` of `/repo/openms/qmc/bafqmc.py`.  Numbers are
exact and `scipy.linalg.expm` is a function.  `TL_tensor` and the messages are left out; the names that `bafqmc.py` does not import
(`warnings`, `backend`, `scipy`, `logger`, and its base class `QMCBase`, which is `QMCbase` in `qmc.py`) are taken as if they were there.
-/

namespace OpenMS.BosonBuild

open scoped ComplexConjugate

variable {ι κ τ : Type*} [Fintype ι] [Fintype κ] [Fintype τ]

/-- `propagators.py` L882, `bafqmc.py` L29: `brho_mf`, `trial.psi.dot(trial.psi.T.conj())`. -/
noncomputable def rho (psi : ι → τ → ℂ) (p q : ι) : ℂ := ∑ i, psi p i * conj (psi q i)

/-- `propagators.py` L883, `bafqmc.py` L30: `bmf_shift`. -/
noncomputable def mfShift (L : κ → ι → ι → ℂ) (psi : ι → τ → ℂ) (n : κ) : ℂ :=
  Complex.I * ∑ p, ∑ q, L n p q * rho psi p q

/-- `propagators.py` L885: `trace_v2b`, `nil,njj->il`. -/
noncomputable def traceV (L : κ → ι → ι → ℂ) (i l : ι) : ℂ := ∑ n, ∑ j, conj (L n i l) * L n j j

/-- `propagators.py` L886-890: `shifted_h1b`. -/
noncomputable def shiftedH1b (h1b : ι → ι → ℂ) (L : κ → ι → ι → ℂ) (psi : ι → τ → ℂ) (p q : ι) : ℂ :=
  h1b p q - 0.5 * traceV L p q - ∑ n, mfShift L psi n * (Complex.I * L n p q)

/-- `bafqmc.py` L32: `traceV`, `npr,nrq->pq`. -/
noncomputable def traceVB (L : κ → ι → ι → ℂ) (p q : ι) : ℂ := ∑ n, ∑ r, conj (L n p r) * L n r q

/-- `bafqmc.py` L33-34: `shifted_h1b`. -/
noncomputable def shiftedH1bB (h1b : ι → ι → ℂ) (L : κ → ι → ι → ℂ) (psi : ι → τ → ℂ) (p q : ι) : ℂ :=
  h1b p q - 0.5 * traceVB L p q - ∑ n, mfShift L psi n * (Complex.I * L n p q)

/-- The attributes of the propagator that its one-body step depends on. -/
structure Attrs (ι : Type*) where
  exp_h1e : Option (ι → ι → ℂ)
  exp_h1b : Option (ι → ι → ℂ)

/-- `propagators.py` L305: `__init__`; there is no `exp_h1b` yet. -/
def init : Attrs ι := ⟨none, none⟩

/-- `propagators.py` L847-895: `build`. -/
noncomputable def build (expm : (ι → ι → ℂ) → ι → ι → ℂ) (dt : ℝ) (h1b : ι → ι → ℂ) (L : κ → ι → ι → ℂ) (psi : ι → τ → ℂ) (a : Attrs ι) :
    Attrs ι :=
  { a with exp_h1b := some (expm fun p q => -(dt : ℂ) / 2 * shiftedH1b h1b L psi p q) }

/-- `propagators.py` L898-901: `propagate_walkers_onebody` for one walker; `einsum` raises an error if an operand is `None`. -/
noncomputable def onebody (a : Attrs ι) (phi : ι → τ → ℂ) : Option (ι → τ → ℂ) :=
  a.exp_h1e.map fun e p r => ∑ q, e p q * phi q r

end OpenMS.BosonBuild
