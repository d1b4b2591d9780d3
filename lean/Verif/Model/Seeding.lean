import Verif.Model.Walkers

/-!
# Random numbers of a run

Model of the seeding in `kernel` (`/repo/openms/qmc/qmc.py` L915-922) and of the places of a run that
draw random numbers: the auxiliary fields (`/repo/openms/qmc/propagators.py` L619-639) and the control
methods (`/repo/openms/qmc/population_control.py` L213, L358, L394).  All of them use numpy's global
generator `np.random`; every process has its own.
-/

namespace OpenMS.Seeding

open OpenMS.Walkers

/-- numpy's global generator: `G` are its states, `X` the numbers it returns. -/
structure Rng (G X : Type*) where
  /-- `np.random.seed(s)` -/
  seeded : ℕ → G
  /-- one number of `np.random.normal(0, 1, …)` -/
  normal : G → X × G
  /-- one number of `np.random.rand()` or `np.random.uniform(…)` -/
  uniform : G → X × G

variable {G X : Type*}

/-- qmc.py L916-922: the state of the global generator of a process after the seeding, when it was `g`
before.  With more than one process and without `debug_mpi` the code creates a generator with
`default_rng(child_seeds[rank])` and drops it (L920), the global one is left alone. -/
def seedKernel (R : Rng G X) (size : ℕ) (debugMpi : Bool) (seed : ℕ) (g : G) : G :=
  if size > 1 ∧ debugMpi = false then g else R.seeded seed

/-- `m` normally distributed numbers. -/
def normals (R : Rng G X) : ℕ → G → List X × G
  | 0, g => ([], g)
  | m + 1, g =>
    let (x, g') := R.normal g
    let (xs, g'') := normals R m g'
    (x :: xs, g'')

/-- `m` uniformly distributed numbers. -/
def uniforms (R : Rng G X) : ℕ → G → List X × G
  | 0, g => ([], g)
  | m + 1, g =>
    let (x, g') := R.uniform g
    let (xs, g'') := uniforms R m g'
    (x :: xs, g'')

/-- What draws numbers in a run. -/
inductive Ev where
  /-- one propagation step: the auxiliary fields of all walkers at hand -/
  | fields
  /-- one call of a control method that draws `k` numbers: one for reconfiguration and comb, one per
  branched pair for branching -/
  | control (k : ℕ)
  deriving DecidableEq

/-- The numbers one process draws in a history, one list per event; `m` is the number of
fields drawn in a propagation step. -/
def history (R : Rng G X) (m : ℕ) : List Ev → G → List (List X)
  | [], _ => []
  | .fields :: evs, g => (normals R m g).1 :: history R m evs (normals R m g).2
  | .control k :: evs, g => (uniforms R k g).1 :: history R m evs (uniforms R k g).2

/-- All numbers drawn by one process in a run: `nf` fields per walker
(`nfields + num_fake_fields`), `nw` walkers on the process (propagators.py L636). -/
def runProcess (R : Rng G X) (size : ℕ) (debugMpi : Bool) (seed : ℕ) (g : G) (nf nw : ℕ)
    (evs : List Ev) : List (List X) :=
  history R (nf * nw) evs (seedKernel R size debugMpi seed g)

/-- propagators.py L628-632: `counts`, `displs` and `Scatterv`: what process `r` receives of the
numbers drawn by process 0. -/
def scatter (nf nwalkers size r : ℕ) (full : List X) : List X :=
  let counts := (walkerCounter nwalkers size).map fun nw => nf * nw
  (full.drop (counts.take r).sum).take (counts.getD r 0)

/-- propagators.py L638: `xi.reshape(nwalkers, nf)[k]`: the fields of walker number `k`. -/
def row (nf k : ℕ) (xs : List X) : List X := (xs.drop (k * nf)).take nf

/-- propagators.py L619-632: the fields of a run with `debug_mpi`, one list per propagation step: process
0 draws for all walkers, then the numbers are scattered.  `evs` is the history of process 0. -/
def debugFields (R : Rng G X) (size seed : ℕ) (g : G) (nf nwalkers : ℕ) (evs : List Ev) (r : ℕ) :
    List (List X) :=
  ((evs.zip (history R (nf * nwalkers) evs (seedKernel R size true seed g))).filter
    fun p => p.1 = .fields).map fun p => scatter nf nwalkers size r p.2

/-- The fields of a run on one process, one list per propagation step. -/
def serialFields (R : Rng G X) (seed : ℕ) (g : G) (nf nwalkers : ℕ) (evs : List Ev) : List (List X) :=
  ((evs.zip (runProcess R 1 false seed g nf nwalkers evs)).filter
    fun p => p.1 = .fields).map fun p => p.2

end OpenMS.Seeding
