import Mathlib.Analysis.Complex.Exponential
import Mathlib.Analysis.Real.Sqrt
import Mathlib.Analysis.Complex.Norm
import Mathlib.Data.Nat.Factorial.Basic

/-!
# Initial bosonic trial states

Model of `initialize_boson_trial_with_z` and of the bosonic part of `make_trial` in
`/repo/openms/qmc/trial.py`.  The amplitudes of all modes are stored one after the other in
one array.
-/

namespace OpenMS.BosonInit

/-- `trial.py` L616: `exp(-|alpha|**2 / 2) * alpha**n / sqrt(factorial(n))`. -/
noncomputable def coef (a : ℂ) (n : ℕ) : ℂ :=
  (Real.exp (-‖a‖ ^ 2 / 2) : ℂ) * a ^ n / (Real.sqrt (n.factorial : ℝ) : ℂ)

/-- L613-617: the amplitudes of one mode with `N` states. -/
noncomputable def block (a : ℂ) (N : ℕ) : List ℂ := (List.range N).map (coef a)

/-- L619: `sqrt(sum(abs(coefficients)**2))`. -/
noncomputable def norm (l : List ℂ) : ℝ := Real.sqrt (l.map fun c => ‖c‖ ^ 2).sum

/-- L606-620: `initialize_boson_trial_with_z`; the modes are those of `zalpha`.  Missing entries of
`boson_states` raise `IndexError`.  `np.sqrt` of a Python integer which does not fit in 64 bits raises
`TypeError`.  A norm of zero occurs only for an array without entries. -/
noncomputable def initZ (zalpha : List ℂ) (states : List ℕ) : Except String (List ℂ) :=
  if ∃ N ∈ (states.take zalpha.length), 2 ^ 64 ≤ (N - 1).factorial then .error "TypeError"
  else if states.length < zalpha.length then .error "IndexError"
  else
    let c := (List.zipWith block zalpha states).flatten
    .ok (c.map (· / (norm c : ℂ)))

/-- L1329-1331: the bosonic state of `make_trial`: `exp(-nocc)`, divided by its norm. -/
noncomputable def makeTrial (states : List ℕ) : List ℂ :=
  let c := (states.map fun N => (List.range N).map fun (n : ℕ) => ((Real.exp (-(n : ℝ)) : ℝ) : ℂ)).flatten
  c.map (· / (norm c : ℂ))

/-- The entries of mode number `j` in the array. -/
def mode (states : List ℕ) (j : ℕ) (l : List ℂ) : List ℂ :=
  (l.drop (states.take j).sum).take (states.getD j 0)

end OpenMS.BosonInit
