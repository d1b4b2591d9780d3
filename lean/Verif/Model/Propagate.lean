import Mathlib.Data.Matrix.Mul
import Mathlib.Analysis.Complex.Basic
import Mathlib.Analysis.SpecialFunctions.Complex.Log
import Mathlib.Analysis.SpecialFunctions.Sqrt

/-!
# Walker propagation

Model of `propagate_exp_op` and of the auxiliary-field factors of
`propagate_walkers_twobody` in `/repo/openms/qmc/propagators.py`.
-/

namespace OpenMS.Propagators

open Matrix

/-! ### Taylor expansion -/

section
variable {K : Type*} [Field K] {n m : Type*} [Fintype n]

/-- `propagators.py` L255-258 (and the compiled variant L122-126): `count` passes of the
loop starting at counter `i`, on the pair `(temp, phiw[iw])`. -/
def taylorLoop (A : Matrix n n K) : ℕ → ℕ → Matrix n m K → Matrix n m K → Matrix n m K
  | 0, _, _, phi => phi
  | count + 1, i, temp, phi =>
    let temp' := ((i : K) + 1)⁻¹ • (A * temp)
    taylorLoop A count (i + 1) temp' (phi + temp')

/-- L254-258: one walker. -/
def expOpOne (A : Matrix n n K) (phi : Matrix n m K) (order : ℕ) : Matrix n m K :=
  taylorLoop A order 0 phi phi

/-- L253: all walkers; each has its own operator.  Fewer operators than walkers is an
`IndexError` (`none`). -/
def propagateExpOp (order : ℕ) : List (Matrix n n K) → List (Matrix n m K) →
    Option (List (Matrix n m K))
  | _, [] => some []
  | [], _ :: _ => none
  | A :: As, phi :: phis =>
    (propagateExpOp order As phis).map fun rest => expOpOne A phi order :: rest

end

/-! ### Auxiliary fields -/

section
variable {g : Type*} [Fintype g]

/-- `propagators.py` L374: `mf_shift = 1j * Tr(L rho)`; `lbar` is the trace. -/
noncomputable def mfShift (lbar : g → ℂ) (γ : g) : ℂ := Complex.I * lbar γ

/-- L655: the force bias before bounding. -/
noncomputable def xbarRaw (dt : ℝ) (vbias lbar : g → ℂ) (γ : g) : ℂ :=
  -(Real.sqrt dt : ℂ) * (Complex.I * vbias γ - mfShift lbar γ)

/-- L657: the shifted field. -/
def xshift (x : g → ℝ) (xbar : g → ℂ) (γ : g) : ℂ := (x γ : ℂ) - xbar γ

/-- L676: `cfb`. -/
noncomputable def cfb (x : g → ℝ) (xbar : g → ℂ) : ℂ :=
  ∑ γ, ((x γ : ℂ) - 1 / 2 * xbar γ) * xbar γ

/-- L678: `cmf`. -/
noncomputable def cmf (dt : ℝ) (x : g → ℝ) (xbar lbar : g → ℂ) : ℂ :=
  -(Real.sqrt dt : ℂ) * ∑ γ, xshift x xbar γ * mfShift lbar γ

/-- L563-566: the two-body operator `eri_op` of one walker; here for operators that act as
the numbers `l γ` on the state (a common eigenvector of the operators). -/
noncomputable def eriOp (dt : ℝ) (x : g → ℝ) (xbar l : g → ℂ) : ℂ :=
  Complex.I * (Real.sqrt dt : ℂ) * ∑ γ, xshift x xbar γ * l γ

end

end OpenMS.Propagators
