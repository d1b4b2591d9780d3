import Mathlib.Analysis.SpecialFunctions.Exp
import Mathlib.Analysis.SpecialFunctions.Trigonometric.Basic

/-!
# Line shapes

`openms/lib/misc.py` L221-230 (`gaussian1d`) and L233-238 (`Lorentz1d`) for one number `x`.  `none` is a division by zero.
-/

namespace OpenMS.LineShapes

/-- `misc.py` L221-230: `gaussian1d`. -/
noncomputable def gaussian1d (x const σ x0 : ℝ) : Option ℝ :=
  if σ < 0 then some (-1)
  else if σ = 0 then none
  else some (const / (σ * Real.sqrt (2 * Real.pi)) * Real.exp (-(x - x0) ^ 2 / (2 * σ ^ 2)))

/-- `misc.py` L233-238: `Lorentz1d`. -/
noncomputable def lorentz1d (x const σ x0 : ℝ) : Option ℝ :=
  if σ < 0 then some (-1)
  else if (x - x0) ^ 2 + σ * σ = 0 then none
  else some (const * σ / ((x - x0) ^ 2 + σ * σ))

end OpenMS.LineShapes
