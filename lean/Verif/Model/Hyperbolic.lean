/-
Conductivity of hyperbolic materials, openms/maxwell/hyperbolic.py.

Arrays are functions of the component; the constants of L4-L9 are inputs.  `none` stands for a value
that is not finite.
-/
import Mathlib.Analysis.SpecialFunctions.Log.Basic
import Mathlib.Analysis.Real.Sqrt
import Mathlib.Analysis.SpecialFunctions.Trigonometric.Basic
import Mathlib.Data.Complex.Basic

namespace OpenMS.Hyperbolic

/-- openms/maxwell/hyperbolic.py L4-L9: constants of the module. -/
structure Consts where
  eMass : ℝ
  eSI : ℝ
  eps0 : ℝ
  hbar : ℝ

/-- openms/maxwell/hyperbolic.py L76-L79: plasmon frequency from density and mass. -/
noncomputable def plasmonFreq (k : Consts) (density mass : ℝ) : ℝ :=
  k.hbar * k.eSI * Real.sqrt (density * 1e27 / (k.eps0 * mass * k.eMass))

variable {n : Type*} [Fintype n]

/-- Attributes of the object, openms/maxwell/hyperbolic.py L64-L85. -/
structure Params (n : Type*) where
  wp : n → ℝ
  w0 : n → ℝ
  s : n → ℝ
  eta : ℝ

/-- openms/maxwell/hyperbolic.py L95: part of the free electrons. -/
noncomputable def drude (p : Params n) (w : ℝ) (i : n) : ℂ :=
  Complex.I * p.wp i / (w + Complex.I * p.eta)

/-- openms/maxwell/hyperbolic.py L96-L97. -/
noncomputable def logPart (p : Params n) (w : ℝ) (i : n) : ℂ :=
  Complex.I / Real.pi * Real.log |(w - p.w0 i) / (w + p.w0 i)|

open Classical in
/-- openms/maxwell/hyperbolic.py L98-L100: one is added to the whole array for every plasmon frequency
below `w`. -/
noncomputable def steps (p : Params n) (w : ℝ) : ℕ := (Finset.univ.filter fun k => w > p.wp k).card

open Classical in
/-- openms/maxwell/hyperbolic.py L94-L104: one row of `get_conductivity`. -/
noncomputable def row (p : Params n) (w : ℝ) : Option (n → ℂ) :=
  if (w = 0 ∧ p.eta = 0) ∨ ∃ i, w = p.w0 i ∨ w = -p.w0 i then none
  else some fun i => drude p w i + (logPart p w i + steps p w) * p.s i

/-- openms/maxwell/hyperbolic.py L88-L105 `get_conductivity`. -/
noncomputable def conductivity (p : Params n) (ws : List ℝ) : List (Option (n → ℂ)) := ws.map (row p)

end OpenMS.Hyperbolic
