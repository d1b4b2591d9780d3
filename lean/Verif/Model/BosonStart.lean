import Mathlib.Analysis.Real.Sqrt
import Mathlib.Analysis.Complex.Exponential
import Mathlib.Data.Nat.Factorial.Basic

/-!
# The coherent state a run starts from

`openms/qmc/qmc.py` L455-460 (in `build`) and `openms/qmc/trial.py` L606-620, for one mode and a real coupling.  The electrons are a
trial determinant with Green's functions `Ga` and `Gb` of the two spins.
-/

namespace OpenMS.BosonStart

variable {n : Type*} [Fintype n]

/-- `qmc.py` L457: `zalpha`, from the Green's function of the first component only. -/
def zalpha (geb Ga : n → n → ℝ) : ℝ := ∑ p, ∑ q, geb p q * Ga p q

/-- `trial.py` L616: the amplitudes before normalisation. -/
noncomputable def amp (z : ℝ) (k : ℕ) : ℝ := Real.exp (-|z| ^ 2 / 2) * z ^ k / √(k.factorial : ℝ)

/-- `trial.py` L606-620: `N` amplitudes divided by their norm. -/
noncomputable def start (z : ℝ) (N k : ℕ) : ℝ := amp z k / √(∑ j ∈ Finset.range N, |amp z j| ^ 2)

end OpenMS.BosonStart
