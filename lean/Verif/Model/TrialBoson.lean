import Mathlib.Analysis.SpecialFunctions.Exp
import Mathlib.Analysis.Complex.Exponential
import Mathlib.Analysis.Complex.Norm
import Mathlib.Analysis.SpecialFunctions.Pow.Real
import Mathlib.Data.Fintype.BigOperators

/-!
# Bosonic trial states

Model of `/repo/openms/qmc/trial_boson.py`.
-/

namespace OpenMS.TrialBoson

/-! ### First quantisation -/

section First
variable {ι : Type*} [Fintype ι]

/-- `trial_boson.py` L257-259: `TrialQ.gradient`, element by element. -/
noncomputable def gradientQ (mass freq shift : ℝ) (q : ι → ℝ) (i : ι) : ℝ := -(mass * freq) * (q i - shift)

/-- `trial_boson.py` L261-263: `TrialQ.qvalue`. -/
noncomputable def valueQ (mass freq shift : ℝ) (q : ι → ℝ) : ℝ :=
  ∏ i, Real.exp (-0.5 * (mass * freq) * (q i - shift) * (q i - shift))

/-- `trial_boson.py` L265-272: `TrialQ.laplacian`, element by element. -/
noncomputable def laplacianQ (mass freq shift : ℝ) (q : ι → ℝ) (i : ι) : ℝ :=
  (mass * freq * (q i - shift)) ^ 2 - mass * freq

/-- `trial_boson.py` L274-289: `TrialQ.local_energy`. -/
noncomputable def energyQ (mass freq shift : ℝ) (q : ι → ℝ) : ℝ :=
  -0.5 * (∑ i, laplacianQ mass freq shift q i) / mass + 0.5 * (mass * freq) * freq * (∑ i, q i * q i) -
    0.5 * freq * Fintype.card ι

/-- `trial_boson.py` L303-304: `TrialP.gradient`. -/
noncomputable def gradientP (mass freq shift : ℝ) (p : ι → ℝ) (i : ι) : ℝ :=
  -1 / (mass * freq) * (p i - shift)

/-- `trial_boson.py` L306-311: `TrialP.pvalue`. -/
noncomputable def valueP (mass freq shift : ℝ) (p : ι → ℝ) : ℝ :=
  ∏ i, Real.exp (-0.5 / (mass * freq) * (p i - shift) * (p i - shift))

/-- `trial_boson.py` L313-320: `TrialP.laplacian`. -/
noncomputable def laplacianP (mass freq shift : ℝ) (p : ι → ℝ) (i : ι) : ℝ :=
  ((p i - shift) / (mass * freq)) ^ 2 - 1 / (mass * freq)

/-- `trial_boson.py` L322-335: `TrialP.local_energy`. -/
noncomputable def energyP (mass freq shift : ℝ) (p : ι → ℝ) : ℝ :=
  0.5 / mass * (∑ i, p i * p i) + -0.5 * (mass * freq) * freq * (∑ i, laplacianP mass freq shift p i) -
    0.5 * freq * Fintype.card ι

end First

/-! ### Second quantisation -/

/-- `trial_boson.py` L94-97: `coherent_state_coeff`. -/
noncomputable def coherentCoeff (n : ℕ) (α : ℂ) : ℂ :=
  Real.exp (-‖α‖ ^ 2 / 2) * α ^ n / (Real.sqrt n.factorial : ℝ)

/-- `trial_boson.py` L175-194: the coefficients written by `TrivialFock.build` with amplitudes, one
for every tuple of occupations below the cut-off.  The flat position of a tuple is left out. -/
noncomputable def fockTrial (nmodes nfock : ℕ) (α : Fin nmodes → ℂ) (n : Fin nmodes → Fin nfock) : ℂ :=
  ∏ i, coherentCoeff (n i) (α i)

end OpenMS.TrialBoson
