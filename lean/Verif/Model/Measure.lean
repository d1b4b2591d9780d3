import Mathlib.Algebra.Field.Basic
import Mathlib.Algebra.BigOperators.Group.List.Basic

/-!
# The measurement part of the run loop

Model of `property_stack` and of the measurement part of `kernel`
(`/repo/openms/qmc/qmc.py` L828-895, L957-1036).  Numbers are elements of a field (complex
in the code).  The processes run in lockstep: one entry per process.
-/

namespace OpenMS.Measure

variable {K : Type*} [Field K]

/-- The per-walker arrays of one process that enter `property_stack` at one step
(L849-855): the arrays `weights`, `weights_org`, `ehybrid`, `eloc`, walker by walker. -/
structure Sample (K : Type*) where
  weight : K
  weightOrg : K
  ehybrid : K
  eloc : K

/-- `property_buffer` with the four entries of `stacked_variables` (L372-380). -/
structure Buffer (K : Type*) where
  weights : K
  unscaled : K
  hybrid : K
  local_ : K
  deriving DecidableEq

/-- L378: a cleared buffer. -/
def Buffer.zero : Buffer K := ⟨0, 0, 0, 0⟩

/-- Entrywise sum (`+=` of arrays, `allreduce`). -/
def Buffer.add (a b : Buffer K) : Buffer K :=
  ⟨a.weights + b.weights, a.unscaled + b.unscaled, a.hybrid + b.hybrid, a.local_ + b.local_⟩

/-- L849-860: the increment of one process at one step. -/
def increment (walkers : List (Sample K)) : Buffer K where
  weights := (walkers.map Sample.weight).sum
  unscaled := (walkers.map Sample.weightOrg).sum
  hybrid := (walkers.map fun s => s.ehybrid * s.weight).sum
  local_ := (walkers.map fun s => s.eloc * s.weight).sum

/-- The state kept between steps: one buffer per process, and the energy shift, which is
the same on all processes.  `eshift = none` is NaN or infinity. -/
structure St (K : Type*) where
  buffers : List (Buffer K)
  eshift : Option K

/-- Division that is NaN/inf for a vanishing denominator. -/
def divide [DecidableEq K] (a b : K) : Option K := if b = 0 then none else some (a / b)

/-- L828-895: `property_stack(walkers, step)` for `step ≥ 0` on all processes; `freq` is
`property_calc_freq` (non-zero, else `%` raises).  The normalised buffer is only used for
`eshift` and cleared. -/
def propertyStack [DecidableEq K] (freq : ℕ) (st : St K) (step : ℕ)
    (procs : List (List (Sample K))) : St K :=
  let buffers := st.buffers.zipWith Buffer.add (procs.map increment)
  if (step + 1) % freq = 0 then
    let red := buffers.foldl Buffer.add Buffer.zero
    { buffers := buffers.map fun _ => Buffer.zero, eshift := divide red.hybrid red.weights }
  else
    { buffers := buffers, eshift := st.eshift }

/-- What a run returns and keeps: state, recorded times and energies. -/
structure Out (K : Type*) where
  st : St K
  times : List K
  energies : List (Option K)

/-- One pass of the loop of `kernel` (L957-1036), measurement part.  `estimate step` is
`(energies[0], energies[1])` returned by `local_energy` for the walkers at that step. -/
def stepOnce [DecidableEq K] (freq : ℕ) (dt : K) (procs : ℕ → List (List (Sample K)))
    (estimate : ℕ → K × K) (o : Out K) (step : ℕ) : Out K :=
  let st := propertyStack freq o.st step (procs step)
  if (step + 1) % freq = 0 then
    { st := st, times := o.times ++ [dt * (step : K)],
      energies := o.energies ++ [divide (estimate step).1 (estimate step).2] }
  else { st := st, times := o.times, energies := o.energies }

/-- L957: `for step in range(nsteps)`, started with cleared buffers on `size` processes and
the initial energy shift. -/
def kernel [DecidableEq K] (freq : ℕ) (dt : K) (size : ℕ) (eshift0 : K)
    (procs : ℕ → List (List (Sample K))) (estimate : ℕ → K × K) (nsteps : ℕ) : Out K :=
  (List.range nsteps).foldl (stepOnce freq dt procs estimate)
    ⟨⟨List.replicate size Buffer.zero, some eshift0⟩, [], []⟩

/-- A further call of `kernel` on the same object (L897-1036): the buffers and the energy shift are
attributes set in `__init__` (L378-381) and not reset, the step counter and the lists of times and
energies start anew.  `o` is what the previous call left. -/
def kernelAgain [DecidableEq K] (freq : ℕ) (dt : K) (o : Out K)
    (procs : ℕ → List (List (Sample K))) (estimate : ℕ → K × K) (nsteps : ℕ) : Out K :=
  (List.range nsteps).foldl (stepOnce freq dt procs estimate) ⟨o.st, [], []⟩

end OpenMS.Measure
