import Verif.Model.Qmd

/-!
# Hopping probabilities

`openms/qmd/sh.py` L141-165: `get_densities` and `hopping_probability`.
-/

namespace OpenMS.Qmd

open scoped BigOperators

/-- `sh.py` L142: `einsum("ij, ik -> ijk", conj(coef), coef)` for one molecule. -/
noncomputable def densities {n : Type*} (c : n → ℂ) (j k : n) : ℂ := (starRingEnd ℂ) (c j) * c k

/-- `sh.py` L157-164: the entry for target `j`; the real part is what the array of floats keeps. -/
noncomputable def hopEntry {n : Type*} [DecidableEq n] (edt : ℝ) (ham : n → n → ℝ) (dens : n → n → ℂ) (cur j : n) : ℝ :=
  if j = cur then 0
  else
    let tmp : ℝ := -(dens cur j * (ham cur j : ℂ)).re
    ((2 * edt * tmp : ℝ) / dens j j : ℂ).re

/-- What `range` accepts. -/
inductive RangeArg where
  /-- a Python integer -/
  | int (n : ℕ)
  /-- an array with at least one axis -/
  | array (states : List ℕ)

/-- `range(x)`: an array with an axis is no index. -/
def pyRange : RangeArg → Except String (List ℕ)
  | .int n => .ok (List.range n)
  | .array _ => .error "TypeError"

/-- `sh.py` L144-165 for all molecules: `bound` is what is given to `range` at L156. -/
noncomputable def hoppingProbability (bound : RangeArg) (edt : ℝ) (states : List ℕ) (ham : List (ℕ → ℕ → ℝ))
    (dens : List (ℕ → ℕ → ℂ)) : Except String (List (List ℝ)) :=
  (states.zip (ham.zip dens)).mapM fun x => do
    let js ← pyRange bound
    return js.map fun j => hopEntry edt x.2.1 x.2.2 x.1 j

end OpenMS.Qmd
