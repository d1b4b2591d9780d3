import Verif.Model.Walkers
import Mathlib.Analysis.SpecialFunctions.Complex.Log
import Mathlib.Analysis.SpecialFunctions.Sqrt

/-!
# Force-bias bounding and weight update

Model of `rescale_fbias` and `update_weight` in
`/repo/openms/qmc/propagators.py`, for one walker.  Floats are real numbers.
-/

namespace OpenMS.Propagators

open Complex

/-- `propagators.py` L510-533: `rescale_fbias` on one component.  Components with modulus
above the bound are divided by their modulus if it exceeds `1e-12` (else kept). -/
noncomputable def rescaleFbias (bound : ℝ) (f : ℂ) : ℂ :=
  if ‖f‖ > bound then (if ‖f‖ > 1e-12 then f / (‖f‖ : ℂ) else f) else f

/-- `propagators.py` L300: `ebound = (2 / dt) ** 0.5`. -/
noncomputable def ebound (dt : ℝ) : ℝ := Real.sqrt (2 / dt)

/-- `np.clip(x, a_min=lo, a_max=hi)`. -/
noncomputable def clipTo (lo hi x : ℝ) : ℝ := min (max x lo) hi

/-- `propagators.py` L794-800: the clipped hybrid energy.  `np.clip(ehybrid.real, …,
out=ehybrid.real)` returns the *real* view that was passed as `out`, so the variable
`ehybrid` is real afterwards: the imaginary part is dropped.  The overlaps must be
non-zero for the logarithm to make sense. -/
noncomputable def hybridEnergy (dt : ℝ) (ovlp newovlp cfb cmf eshift : ℂ) : ℝ :=
  clipTo (eshift.re - ebound dt) (eshift.re + ebound dt)
    (-(log (newovlp / ovlp) + cfb + cmf) / dt).re

/-- `propagators.py` L793-810, hybrid scheme: new weight and stored hybrid energy. -/
noncomputable def updateHybrid (dt : ℝ) (w ehybOld : ℝ) (ovlp newovlp cfb cmf eshift : ℂ) :
    ℝ × ℝ :=
  let e := hybridEnergy dt ovlp newovlp cfb cmf eshift
  let imp := exp (-dt * (1 / 2 * ((e : ℂ) + ehybOld) - eshift))
  let phase := (-dt * (e : ℂ) - cfb).im
  (w * (‖imp‖ * max 0 (Real.cos phase)), e)

/-- `propagators.py` L812-820, local scheme: new weight. -/
noncomputable def updateLocal (dt : ℝ) (w : ℝ) (ovlp newovlp cmf : ℂ) (eloc : ℂ) : ℝ :=
  let ratio := newovlp / ovlp * exp cmf
  w * (Real.exp (-dt * eloc.re) * max 0 (Real.cos (arg ratio)))

/-- Input of one weight update for one walker. -/
structure UpdateInput where
  ovlp : ℂ
  newovlp : ℂ
  cfb : ℂ
  cmf : ℂ
  eloc : ℂ

/-- `propagators.py` L762-827: `update_weight` for one walker, with the choice of scheme
(`none` is Python's `None`); other schemes raise `ValueError`.  The result is the new
weight and the stored hybrid energy. -/
noncomputable def updateWeight (scheme : Option String) (dt : ℝ) (eshift : ℂ) (w ehyb : ℝ)
    (x : UpdateInput) : Except String (ℝ × ℝ) :=
  if scheme = some "hybrid" then
    .ok (updateHybrid dt w ehyb x.ovlp x.newovlp x.cfb x.cmf eshift)
  else if scheme = some "local" then
    .ok (updateLocal dt w x.ovlp x.newovlp x.cmf x.eloc, ehyb)
  else .error "ValueError"

end OpenMS.Propagators
