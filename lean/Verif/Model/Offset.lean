import Verif.Model.PopulationControl
import Mathlib.Analysis.SpecialFunctions.Log.Basic

/-!
# Model of the population control by an energy offset

* `openms/qmc/population_control.py` L420-445 (`energy_offset_adjustment_with_resampling`), L556-580
  (`systematic_resampling`), L584-595 (`adjust_energy_offset`).

Real numbers; walkers, weights and local energies are lists (the arrays have the same length, otherwise
numpy raises at the product of L442).  The draw of the resampling is an argument.
-/

namespace OpenMS.Offset
open OpenMS.PopulationControl

variable {α : Type*}

/-- `population_control.py` L436-438: mean weight and offset. -/
noncomputable def energyOffset (weights : List ℝ) (target : ℝ) : ℝ :=
  Real.log (weights.sum / weights.length / target)

/-- `population_control.py` L442: the adjusted weights. -/
noncomputable def offsetWeights (weights e : List ℝ) (dt target : ℝ) : List ℝ :=
  List.zipWith (fun w x => w * Real.exp (-dt * (x - energyOffset weights target))) weights e

/-- `population_control.py` L420-445: `energy_offset_adjustment_with_resampling`. -/
noncomputable def offsetResampling (start : ℝ) (phiw : List α) (weights e : List ℝ) (dt target : ℝ) :
    Except Err (List α × List ℝ) :=
  stochasticReconfiguration start phiw (offsetWeights weights e dt target)

/-- `population_control.py` L584-595: `adjust_energy_offset`; the mean divides by the number of walkers. -/
noncomputable def adjustEnergyOffset (walkers : List α) (weights : List ℝ) (target : ℝ) : ℝ :=
  Real.log (weights.sum / walkers.length / target)

/-- `population_control.py` L556-580: `systematic_resampling`.  Unlike L372-417 the size is the number of
walkers, and the weights are a list made beforehand. -/
noncomputable def systematicResampling (start : ℝ) (walkers : List α) (weights : List ℝ) :
    Except Err (List α × List ℝ) :=
  let N := walkers.length
  let total := weights.sum
  if N = 0 then .error .zeroDivisionError
  else if total = 0 then .error .indexError
  else
    let cum := cumsumFrom 0 (weights.map (· / total))
    match reconfLoop N (fun i => start + (i : ℝ) / N) cum walkers 0 0 [] with
    | .ok l => .ok (l, List.replicate N (total / N))
    | .error e => .error e

end OpenMS.Offset
