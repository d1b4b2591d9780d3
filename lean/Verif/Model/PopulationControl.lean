import Mathlib.Algebra.Order.Field.Basic
import Mathlib.Algebra.Order.Floor.Defs
import Mathlib.Algebra.BigOperators.Group.List.Basic

/-!
# Population control of walkers

Model of `/repo/openms/qmc/population_control.py`.

Floating point numbers are elements of a linear ordered field `K`; random
numbers are explicit arguments.  Python exceptions are values of `Err`.
-/

namespace OpenMS.PopulationControl

/-- Python exceptions that the modelled functions can raise. -/
inductive Err where
  | assertionError
  | indexError
  | zeroDivisionError
  | nameError
  deriving DecidableEq, Repr

variable {K : Type*} [Field K] [LinearOrder K] {α : Type*}

/-- One entry of the structured array `walker_info`
(`population_control.py` L183-188).  The field `final_idx` is written but never
read by the code, so it is left out. -/
structure Rec (K : Type*) where
  weight : K
  status : ℕ
  orgIdx : ℕ
  deriving DecidableEq, Repr

/-- L190-194: `walker_info` before sorting: absolute weight, status one, index. -/
def initRecs (weights : List K) : List (Rec K) :=
  weights.mapIdx fun i w => ⟨|w|, 1, i⟩

/-- L201-237: the two-pointer pair loop of `branching_dp0`.  `s`, `e` are
`start`, `end`; the draw of `np.random.rand()` made at `start = s` is `rnd s`.
Indexing outside the array is `indexError`.  If both weights of a pair vanish,
numpy compares with NaN and takes the `else` branch; here `0 / 0 = 0` and
`rnd s < 0` is false for `rnd s ≥ 0`, which is the same branch. -/
def pairLoop (minW maxW : K) (rnd : ℕ → K) (arr : List (Rec K)) (s e : ℕ) :
    Except Err (List (Rec K)) :=
  if s < e then
    match arr[s]?, arr[e]? with
    | some a, some b =>
      if a.weight < minW ∨ b.weight > maxW then
        let wse := a.weight + b.weight
        if rnd s < b.weight / wse then
          pairLoop minW maxW rnd
            ((arr.set e { b with weight := 1 / 2 * wse, status := 2 }).set s
              { a with weight := 0, status := 0 }) (s + 1) (e - 1)
        else
          pairLoop minW maxW rnd
            ((arr.set s { a with weight := 1 / 2 * wse, status := 2 }).set e
              { b with weight := 0, status := 0 }) (s + 1) (e - 1)
      else
        .ok arr
    | _, _ => .error .indexError
  else
    .ok arr
termination_by e - s

/-- L239-250: every record is emitted `status` times, with the walker stored at
its original index. -/
def emit (walkers : List α) (arr : List (Rec K)) : Except Err (List α × List K) :=
  match (arr.flatMap fun r => List.replicate r.status r).mapM
      (fun r => (walkers[r.orgIdx]?).map fun w => (w, r.weight)) with
  | some l => .ok (l.map Prod.fst, l.map Prod.snd)
  | none => .error .indexError

/-- `np.argsort(walker_info['weight'])` (L197).  Numpy's default sort is not
stable, so the result is only specified as *some* permutation of the indices
that makes the absolute weights non-decreasing. -/
structure IsArgsort (order : List ℕ) (weights : List K) : Prop where
  perm : order.Perm (List.range weights.length)
  sorted : order.Pairwise fun i j =>
    ∀ a b, weights[i]? = some a → weights[j]? = some b → |a| ≤ |b|

/-- L167-250: `branching_dp0`.  `order` is the result of the call of `argsort`.
For an empty list `end` is `-1` in Python and `0` here; the loop does not run in
both cases. -/
def branchingDP0 (order : List ℕ) (minW maxW : K) (rnd : ℕ → K)
    (walkers : List α) (weights : List K) : Except Err (List α × List K) :=
  if walkers.length = weights.length then
    match order.mapM (fun i => (initRecs weights)[i]?) with
    | some srt =>
      match pairLoop minW maxW rnd srt 0 (srt.length - 1) with
      | .ok arr => emit walkers arr
      | .error e => .error e
    | none => .error .indexError
  else .error .assertionError

/-- L111-164: the loop of `branching_dp_constant`, on the weight list `w` and the
walker list `x` (copies of the arguments), with `idx` the sorted indices. -/
def constantLoop (minW maxW : K) (rnd : ℕ → K) (idx : List ℕ) (x : List α) (w : List K)
    (s e : ℕ) : Except Err (List α × List K) :=
  if s < e then
    match idx[s]?, idx[e]? with
    | some is, some ie =>
      match w[is]?, w[ie]?, x[is]?, x[ie]? with
      | some ws, some we, some xs, some xe =>
        if |ws| < minW ∨ |we| > maxW then
          let wab := |ws| + |we|
          if rnd s < |we| / wab then
            constantLoop minW maxW rnd idx (x.set ie xs) (w.set ie (1 / 2 * wab)) (s + 1) (e - 1)
          else
            constantLoop minW maxW rnd idx (x.set is xe) (w.set is (1 / 2 * wab)) (s + 1) (e - 1)
        else .ok (x, w)
      | _, _, _, _ => .error .indexError
    | _, _ => .error .indexError
  else .ok (x, w)
termination_by e - s

/-- L111-164: `branching_dp_constant`; `order` is the result of `argsort`. -/
def branchingDPConstant (order : List ℕ) (minW maxW : K) (rnd : ℕ → K)
    (walkers : List α) (weights : List K) : Except Err (List α × List K) :=
  constantLoop minW maxW rnd order walkers weights 0 (walkers.length - 1)

/-- L64-100: main loop of `branching_dp_dynamics`.  `s` and `e1 = e + 1`, so that
`s ≤ e` is `s < e1`.  The random draws are numbered by `k`.  The accumulator `acc` holds
`(new_walkers, new_weights)`. -/
def dynLoop (minW maxW : K) (rnd : ℕ → K) (idx : List ℕ) (x : List α) (target : ℕ)
    (w : List K) (acc : List (α × K)) (s e1 k : ℕ) : Except Err (List K × List (α × K)) :=
  if s < e1 ∧ acc.length < target then
    match idx[s]?, idx[e1 - 1]? with
    | some is, some ie =>
      match w[is]?, w[ie]?, x[is]?, x[ie]? with
      | some ws, some we, some xs, some xe =>
        if |ws| < minW ∨ |we| > maxW then
          let wab := |ws| + |we|
          if rnd k < |we| / wab then
            dynLoop minW maxW rnd idx x target (w.set ie (1 / 2 * wab))
              (acc ++ [(xs, 1 / 2 * wab)]) (s + 1) (e1 - 1) (k + 1)
          else
            dynLoop minW maxW rnd idx x target (w.set is (1 / 2 * wab))
              (acc ++ [(xe, 1 / 2 * wab)]) (s + 1) (e1 - 1) (k + 1)
        else
          dynLoop minW maxW rnd idx x target w (acc ++ [(xe, we)]) s (e1 - 1) k
      | _, _, _, _ => .error .indexError
    | _, _ => .error .indexError
  else .ok (w, acc)
termination_by e1 - s

/-- L102-107: padding with randomly selected walkers up to the target size; the
draws of `randint` are the list `pad` (it must be long enough and in range). -/
def dynPad (x : List α) (w : List K) (target : ℕ) (acc : List (α × K)) :
    List ℕ → Except Err (List (α × K))
  | [] => if acc.length < target then .error .indexError else .ok acc
  | i :: is =>
    if acc.length < target then
      match x[i]?, w[i]? with
      | some xi, some wi => dynPad x w target (acc ++ [(xi, wi)]) is
      | _, _ => .error .indexError
    else .ok acc

/-- L30-108: `branching_dp_dynamics`. -/
def branchingDPDynamics (order : List ℕ) (minW maxW : K) (rnd : ℕ → K) (pad : List ℕ)
    (walkers : List α) (weights : List K) : Except Err (List (α × K)) :=
  match dynLoop minW maxW rnd order walkers walkers.length weights [] 0 walkers.length 0 with
  | .ok (w, acc) => dynPad walkers w walkers.length acc pad
  | .error e => .error e

/-- `np.cumsum` started from `c` (L388, L356): `[c + w₀, c + w₀ + w₁, …]`. -/
def cumsumFrom (c : K) : List K → List K
  | [] => []
  | w :: ws => (c + w) :: cumsumFrom (c + w) ws

/-- L407-413: the `while i < N` loop of `stochastic_reconfiguration`.  The new
walkers are accumulated in `acc`; reading `cumulative_sum[j]` or `phiw[j]`
outside the array is `indexError`. -/
def reconfLoop (N : ℕ) (pos : ℕ → K) (cum : List K) (phiw : List α)
    (i j : ℕ) (acc : List α) : Except Err (List α) :=
  if i < N then
    if h : j < cum.length then
      if pos i < cum[j] then
        match phiw[j]? with
        | some x => reconfLoop N pos cum phiw (i + 1) j (acc ++ [x])
        | none => .error .indexError
      else reconfLoop N pos cum phiw i (j + 1) acc
    else .error .indexError
  else .ok acc
termination_by (N - i) + (cum.length - j)

/-- L372-417: `stochastic_reconfiguration`; `start` is the draw of
`np.random.uniform(0, 1/N)`.  `N = 0` raises `ZeroDivisionError` (`1.0/N`); a
vanishing total makes all cumulative weights NaN, all comparisons false and the
loop runs off the array (`IndexError`). -/
def stochasticReconfiguration (start : K) (phiw : List α) (weights : List K) :
    Except Err (List α × List K) :=
  let N := weights.length
  let total := weights.sum
  if N = 0 then .error .zeroDivisionError
  else if total = 0 then .error .indexError
  else
    let cum := cumsumFrom 0 (weights.map (· / total))
    match reconfLoop N (fun i => start + (i : K) / N) cum phiw 0 0 [] with
    | .ok l => .ok (l, List.replicate l.length (total / N))
    | .error e => .error e

/-- `np.searchsorted(cum, x)` with the default `side='left'` for a sorted `cum`:
the first index whose entry is at least `x`, the length if there is none. -/
def searchsortedLeft (cum : List K) (x : K) : ℕ :=
  cum.findIdx fun c => decide (x ≤ c)

/-- L336-369: `comb_resampling`; `offset` is the draw of
`np.random.uniform(0, 1/N)`. -/
def combResampling (offset : K) (phiw : List α) (weights : List K) :
    Except Err (List α × List K) :=
  let N := weights.length
  let total := weights.sum
  if N = 0 then .error .zeroDivisionError
  else if total = 0 then .error .indexError
  else
    let cum := cumsumFrom 0 (weights.map (· / total))
    match (List.range N).mapM fun (k : ℕ) =>
        phiw[searchsortedLeft cum (offset + (k : K) / N)]? with
    | some l => .ok (l, List.replicate N (total / N))
    | none => .error .indexError

/-- L262-333: `branching_control` refers to an undefined name `arr` (L286)
before doing anything, for every argument. -/
def branchingControl (_walkers : List α) (_bound : K) : Except Err (List α) :=
  .error .nameError

/-- The entries of `control_func_dict` (L449-454). -/
inductive Method where
  | branching | reconfiguration | comb
  deriving DecidableEq, Repr

/-- L449-454 and the test `method in control_func_dict` (L494).  `none` is the
Python value `None`. -/
def lookupMethod : Option String → Option Method
  | some "branching" => some .branching
  | some "reconfiguration" => some .reconfiguration
  | some "comb" => some .comb
  | _ => none

/-- The random input of one population control call. -/
structure Draws (K : Type*) where
  /-- result of `argsort` for branching -/
  order : List ℕ
  /-- `np.random.rand()` draws for branching -/
  rnd : ℕ → K
  /-- `np.random.uniform(0, 1/N)` for the resampling methods -/
  offset : K

/-- L492-511: `population_control_factory` on one process: pack, control,
unpack, set weights; nothing happens for an unknown method.  The defaults
`min_weight = 0.1`, `max_weight = 2.0` of `branching_dp0` are used. -/
def populationControl (d : Draws K) (method : Option String)
    (walkers : List α) (weights : List K) : Except Err (List α × List K) :=
  match lookupMethod method with
  | some .branching => branchingDP0 d.order (1 / 10) 2 d.rnd walkers weights
  | some .reconfiguration => stochasticReconfiguration d.offset walkers weights
  | some .comb => combResampling d.offset walkers weights
  | none => .ok (walkers, weights)

/-- L518-551: `branching_population_control` (the loop over walkers).  The draws
of `random.random()` are numbered by the position `k` of the walker. `num_copies = int(w // ub)`. -/
def thresholdBranch [FloorRing K] (ub lb : K) (rnd : ℕ → K) : ℕ → List (α × K) → List (α × K)
  | _, [] => []
  | k, (x, w) :: rest =>
    (if w > ub then
      let n := (⌊w / ub⌋).toNat
      List.replicate n (x, w / n)
    else if w < lb then
      if rnd k < w / lb then [(x, lb)] else []
    else [(x, w)]) ++ thresholdBranch ub lb rnd (k + 1) rest

end OpenMS.PopulationControl
