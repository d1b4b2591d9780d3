import Verif.Model.WeightUpdate

/-!
# The weight history of a run

The operations that the run loop (`/repo/openms/qmc/qmc.py` L957-1000) applies to the
walker weights: propagation with a weight update, then weight control, repeated.
-/

namespace OpenMS.Run

open OpenMS.PopulationControl OpenMS.Walkers OpenMS.Propagators

/-- One operation on the weights of all processes. -/
inductive Op where
  /-- `propagate_walkers`: for each process and each walker the stored hybrid energy and
  the overlaps and factors that enter `update_weight`. -/
  | update (scheme : Option String) (dt : ℝ) (eshift : ℂ) (inputs : List (List (ℝ × UpdateInput)))
  /-- `weight_control` -/
  | control (step freq : ℕ) (method : Option String) (draws : List (Draws ℝ))

/-- Weight update of the walkers of one process (`walkers.weights *= importance_func`,
`propagators.py` L826).  Arrays of different length raise `ValueError`. -/
noncomputable def updateProc (scheme : Option String) (dt : ℝ) (eshift : ℂ) :
    List ℝ → List (ℝ × UpdateInput) → Except String (List ℝ)
  | [], [] => .ok []
  | w :: ws, (e, x) :: xs =>
    match updateWeight scheme dt eshift w e x with
    | .error m => .error m
    | .ok (w', _) =>
      match updateProc scheme dt eshift ws xs with
      | .error m => .error m
      | .ok ws' => .ok (w' :: ws')
  | _, _ => .error "ValueError"

/-- Weight update on all processes. -/
noncomputable def updateAll {α : Type*} (scheme : Option String) (dt : ℝ) (eshift : ℂ) :
    List (List α × List ℝ) → List (List (ℝ × UpdateInput)) →
    Except String (List (List α × List ℝ))
  | [], [] => .ok []
  | p :: ps, x :: xs =>
    match updateProc scheme dt eshift p.2 x with
    | .error m => .error m
    | .ok w =>
      match updateAll scheme dt eshift ps xs with
      | .error m => .error m
      | .ok qs => .ok ((p.1, w) :: qs)
  | _, _ => .error "ValueError"

/-- One operation. -/
noncomputable def apply {α : Type*} (st : State α ℝ) : Op → Except String (State α ℝ)
  | .update scheme dt eshift inputs =>
    match updateAll scheme dt eshift st.procs inputs with
    | .ok ps => .ok { st with procs := ps }
    | .error m => .error m
  | .control step freq method draws =>
    match weightControl step freq method draws st with
    | .ok st' => .ok st'
    | .error _ => .error "weight control"

/-- A history of operations; it stops at the first exception. -/
noncomputable def run {α : Type*} (st : State α ℝ) : List Op → Except String (State α ℝ)
  | [] => .ok st
  | o :: os =>
    match apply st o with
    | .ok st' => run st' os
    | .error m => .error m

end OpenMS.Run
