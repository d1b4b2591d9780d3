import Mathlib.Data.Real.Basic
import Mathlib.Data.List.Basic

/-!
# Order of operations of a run

`openms/qmc/qmc.py` L92-207 (function `kernel`) and L885-1036 (method `kernel`): what is done in which order.  Timings, log lines and
flushing are left out.  Frequencies are positive integers.
-/

namespace OpenMS.Schedule

/-- Operations of the run loop. -/
inductive Ev (K : Type*) where
  /-- `propagator.build` -/
  | build
  /-- `orthogonalization()` -/
  | ortho
  /-- `propagate_walkers` -/
  | prop
  /-- `weight_control(step, freq, method)` -/
  | control (step freq : ℕ) (method : String)
  /-- `property_stack(walkers, step)` -/
  | stack (step : ℤ)
  /-- local energy, with the time appended to `time_list` -/
  | measure (t : K)
deriving DecidableEq

/-- Parameters of a run. -/
structure Par (K : Type*) where
  dt : K
  nsteps : ℕ
  renorm : ℕ
  pop : ℕ
  prop : ℕ
  method : String

variable {K : Type*} [Field K]

/-- `qmc.py` L137-198 (function) and L957-1030 (method): one turn of the loop; `method` is what `weight_control` receives. -/
def turn (p : Par K) (method : String) (step : ℕ) : List (Ev K) :=
  let tt := p.dt * (step : K)
  (if (step + 1) % p.renorm = 0 then [Ev.ortho] else []) ++ [.prop, .control step p.pop method, .stack step] ++
    (if (step + 1) % p.prop = 0 then [.measure tt] else [])

/-- `qmc.py` L894-1036: the method `kernel`. -/
def methodKernel (p : Par K) : List (Ev K) :=
  [.build, .ortho, .stack (-1)] ++ (List.range p.nsteps).flatMap (turn p p.method)

/-- `qmc.py` L92-207: the function `kernel`; `weight_control` is called without `method`, whose default is the reconfiguration
(`generic_walkers.py` L154). -/
def functionKernel (p : Par K) : List (Ev K) :=
  [.build, .ortho, .stack (-1)] ++ (List.range p.nsteps).flatMap (turn p "reconfiguration")

/-- `time_list`. -/
def times (es : List (Ev K)) : List K := es.filterMap fun | .measure t => some t | _ => none

/-- Number of propagations in a list of operations. -/
def props (es : List (Ev K)) : ℕ := es.countP fun | .prop => true | _ => false

/-- Number of orthogonalisations in a list of operations. -/
def orthos (es : List (Ev K)) : ℕ := es.countP fun | .ortho => true | _ => false

end OpenMS.Schedule
