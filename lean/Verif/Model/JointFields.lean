import Verif.Model.Propagate
import Verif.Model.WeightUpdate

/-!
# Shared auxiliary fields of electrons and bosons

Model of the decoupled branch of `propagate_bosons_bilinear` in
`/repo/openms/qmc/propagators.py` and of the way `PhaselessElecBoson.propagate_walkers` joins it
with the electronic two-body step.  The boson operators act as the numbers `l γ` on the state
(a common eigenvector), as in `eriOp`.
-/

namespace OpenMS.Joint

open OpenMS.Propagators

variable {g : Type*} [Fintype g]

/-- `propagators.py` L1690-1691: the bosonic force bias, before and after bounding. -/
noncomputable def bosonXbar (dt bound : ℝ) (vbias lbar : g → ℂ) (γ : g) : ℂ :=
  rescaleFbias bound (-(Real.sqrt dt : ℂ) * (Complex.I * vbias γ - mfShift lbar γ))

/-- L1707: `cfb = Σ xi xbar - 0.5 Σ xbar xbar`. -/
noncomputable def bosonCfb (x : g → ℝ) (xbar : g → ℂ) : ℂ :=
  (∑ γ, (x γ : ℂ) * xbar γ) - 1 / 2 * ∑ γ, xbar γ * xbar γ

/-- L1709: `cmf`. -/
noncomputable def bosonCmf (dt : ℝ) (x : g → ℝ) (xbar lbar : g → ℂ) : ℂ :=
  -(Real.sqrt dt : ℂ) * ∑ γ, ((x γ : ℂ) - xbar γ) * mfShift lbar γ

/-- L1683, L1692, L1698: `op_power = tau * Σ_n xshift_n chol_B_n` with `tau = 1j * sqrt(dt)`. -/
noncomputable def bosonOp (dt : ℝ) (x : g → ℝ) (xbar l : g → ℂ) : ℂ :=
  Complex.I * (Real.sqrt dt : ℂ) * ∑ γ, ((x γ : ℂ) - xbar γ) * l γ

/-- L1682, L1807, L1818-1821: the same fields `x` (`xi_bilinear`) drive electrons and bosons; the
factors of the two steps are added. -/
noncomputable def jointExponent (dt : ℝ) (x : g → ℝ) (xf fbar f xb bbar b : g → ℂ) : ℂ :=
  (cfb x xf + bosonCfb x xb) + (cmf dt x xf fbar + bosonCmf dt x xb bbar) +
    (eriOp dt x xf f + bosonOp dt x xb b)

end OpenMS.Joint
