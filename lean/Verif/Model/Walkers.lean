import Verif.Model.PopulationControl

/-!
# Walker bookkeeping

Model of `/repo/openms/qmc/generic_walkers.py` (distribution over processes,
weight control, packing) and of `inter_node_rebalance` in
`/repo/openms/qmc/population_control.py`.
-/

namespace OpenMS.Walkers

open OpenMS.PopulationControl

variable {K : Type*} [Field K] [LinearOrder K] {α : Type*}

/-- `generic_walkers.py` L89: `walker_counter`. -/
def walkerCounter (nwalkers size : ℕ) : List ℕ :=
  (List.range size).map fun i => nwalkers / size + (if i < nwalkers % size then 1 else 0)

/-- `generic_walkers.py` L90: `displs`. -/
def displs (nwalkers size : ℕ) : List ℕ :=
  (List.range size).map fun i => ((walkerCounter nwalkers size).take i).sum

/-! ### Inter-node rebalancing -/

/-- `population_control.py` L478-485: inner `while rneed > 0 and si < len(senders)`
loop for one receiver `ri`.  Exhausted senders are dropped from the front of the
list (the pointer `si`).  Returns the plan entries and the remaining senders. -/
def fillReceiver (ri : ℕ) : ℕ → List (ℕ × ℕ) → List (ℕ × ℕ × ℕ) × List (ℕ × ℕ)
  | _, [] => ([], [])
  | need, (r, surplus) :: rest =>
    if need = 0 then ([], (r, surplus) :: rest)
    else
      let c := min need surplus
      if surplus - c = 0 then
        let (p, s) := fillReceiver ri (need - c) rest
        ((r, ri, c) :: p, s)
      else ([(r, ri, c)], (r, surplus - c) :: rest)

/-- `population_control.py` L475-485: loop over the receivers. -/
def sendPlan : List (ℕ × ℕ) → List (ℕ × ℕ) → List (ℕ × ℕ × ℕ)
  | [], _ => []
  | (ri, need) :: rs, senders =>
    let (p, s) := fillReceiver ri need senders
    p ++ sendPlan rs s

/-- `population_control.py` L457-489: `inter_node_rebalance` on the list of local walker
counts.  Returns the plan and the counts after the call.  The function ends after
building the plan (L487-489 only create empty lists), so the counts are unchanged.
`max(|d|) > 0.05 * ideal` is `20 * max(|d|) > ideal`. -/
def interNodeRebalance (counts : List ℕ) : List (ℕ × ℕ × ℕ) × List ℕ :=
  let ideal := counts.sum / counts.length
  let dev := (counts.map fun c => (c - ideal) + (ideal - c)).foldr max 0
  let plan :=
    if 20 * dev > ideal then
      let senders := counts.zipIdx.filterMap fun (c, i) => if c > ideal then some (i, c - ideal) else none
      let receivers := counts.zipIdx.filterMap fun (c, i) => if c < ideal then some (i, ideal - c) else none
      sendPlan receivers senders
    else []
  (plan, counts)

/-! ### Weight control -/

/-- `np.clip(w, a_min=-b, a_max=b)`, i.e. `minimum(maximum(w, -b), b)`. -/
def clip (b w : K) : K := min (max w (-b)) b

/-- Exceptions and NaN results of weight control. -/
inductive WErr where
  | control (e : Err)
  | zeroDivisionError
  | notANumber
  deriving DecidableEq, Repr

/-- The part of the walker objects of all processes that weight control touches.  One entry
of `procs` per process: walkers and weights.  All processes hold the same
`total_weight` and `total_weight0`. -/
structure State (α K : Type*) where
  procs : List (List α × List K)
  totalWeight : K
  totalWeight0 : K
  weightsOrg : List (List K)

/-- `generic_walkers.py` L59-124: state after construction with `n` walkers on `size`
processes; `w` is the initial walker. -/
def initState (w : α) (n size : ℕ) : State α K where
  procs := (walkerCounter n size).map fun c => (List.replicate c w, List.replicate c 1)
  totalWeight := n
  totalWeight0 := n
  weightsOrg := (walkerCounter n size).map fun c => List.replicate c 1

/-- Sum over processes of the local sums of absolute weights (`allreduce`). -/
def totalAbs (procs : List (List α × List K)) : K :=
  (procs.map fun p => (p.2.map fun w => |w|).sum).sum

/-- Population control on every process with its own random draws
(`population_control_factory`, called by every process).  The second process list of
draws must be at least as long as the list of processes. -/
def controlAll (method : Option String) :
    List (Draws K) → List (List α × List K) → Except WErr (List (List α × List K))
  | _, [] => .ok []
  | [], _ :: _ => .error (.control .indexError)
  | d :: ds, (x, w) :: ps =>
    match populationControl d method x w with
    | .error e => .error (.control e)
    | .ok p =>
      match controlAll method ds ps with
      | .error e => .error e
      | .ok qs => .ok (p :: qs)

/-- `generic_walkers.py` L154-189: `weight_control`.  `freq = 0` raises
`ZeroDivisionError` in `(step + 1) % freq`.  If the total weight or the nominal total
is zero the weights become NaN/inf. -/
def weightControl (step freq : ℕ) (method : Option String) (draws : List (Draws K))
    (st : State α K) : Except WErr (State α K) :=
  let bound := 1 / 10 * st.totalWeight
  let procs := if step > 0 then st.procs.map fun p => (p.1, p.2.map (clip bound)) else st.procs
  if freq = 0 then .error .zeroDivisionError
  else if (step + 1) % freq ≠ 0 then .ok { st with procs := procs }
  else
    let total := totalAbs procs
    if st.totalWeight0 = 0 ∨ total = 0 then .error .notANumber
    else
      let ratio := total / st.totalWeight0
      let scaled := procs.map fun p => (p.1, p.2.map (· / ratio))
      match controlAll method draws scaled with
      | .error e => .error e
      | .ok ps => .ok
          { procs := ps, totalWeight := total, totalWeight0 := st.totalWeight0,
            weightsOrg := procs.map Prod.snd }

/-! ### Packing -/

/-- The per-walker arrays of one process.  `phiwb = none` for one component. -/
structure Fields (A B E : Type*) where
  phiwa : List A
  phiwb : Option (List A)
  boson : Option (List B)
  ehybrid : List E
  eloc : List E

/-- One packed walker (`generic_walkers.py` L192-203): orbitals and boson state. -/
structure Packed (A B : Type*) where
  a : A
  b : Option A
  bos : Option B

/-- `generic_walkers.py` L192-203: row `i` of `_pack_walkers`; `none` is an index error. -/
def packOne {A B E : Type*} (f : Fields A B E) (i : ℕ) : Option (Packed A B) :=
  match f.phiwa[i]?, f.phiwb, f.boson with
  | some a, none, none => some ⟨a, none, none⟩
  | some a, some pb, none => (pb[i]?).map fun b => ⟨a, some b, none⟩
  | some a, none, some bo => (bo[i]?).map fun c => ⟨a, none, some c⟩
  | some a, some pb, some bo =>
    match pb[i]?, bo[i]? with
    | some b, some c => some ⟨a, some b, some c⟩
    | _, _ => none
  | none, _, _ => none

/-- `generic_walkers.py` L192-203: `_pack_walkers`. -/
def pack {A B E : Type*} (nwalkers : ℕ) (f : Fields A B E) : Option (List (Packed A B)) :=
  (List.range nwalkers).mapM (packOne f)

/-- `generic_walkers.py` L206-219: `_unpack_walkers`: new `phiwa`, `phiwb`, `boson_phiw`;
`ehybrid` and `eloc` are not touched.  (The code reads `new_walkers[i]` for
`i < nwalkers`; every control method returns exactly `nwalkers` walkers.) -/
def unpack {A B E : Type*} (f : Fields A B E) (new : List (Packed A B)) : Fields A B E :=
  { phiwa := new.map Packed.a
    phiwb := f.phiwb.map fun _ => new.filterMap Packed.b
    boson := f.boson.map fun _ => new.filterMap Packed.bos
    ehybrid := f.ehybrid
    eloc := f.eloc }

end OpenMS.Walkers
