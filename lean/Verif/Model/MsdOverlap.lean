import Mathlib.LinearAlgebra.Matrix.NonsingularInverse
import Mathlib.Data.Complex.Basic
import Mathlib.Data.List.FinRange

/-!
# Overlaps of excited determinants with a walker

`openms/qmc/trial.py` L462-493 (`calc_ovlp_iexc`) and L496-513 (`compute_MSD_ovlp`), for one walker.  An excitation of order `k` is
a list of `k` pairs of an entry of `cre_idx` and one of `anh_idx`.
-/

namespace OpenMS.MsdOverlap

variable {k : ℕ}

/-- `trial.py` L484-485 and L488-489: the pair of indices of one excitation. -/
def idx (occMap : ℕ → ℕ) (frozen : ℕ) (d : Fin k → ℕ × ℕ) (i : Fin k) : ℕ × ℕ := (occMap (d i).1 + frozen, (d i).2 + frozen)

/-- `trial.py` L483-491: the entries of `ovlp_tmp` in the order in which they are written, `e` are the pairs `(p, q)` or `(r, s)`. -/
def writes (G : ℕ → ℕ → ℂ) (e : Fin k → ℕ × ℕ) : List ((Fin k × Fin k) × ℂ) :=
  (List.finRange k).flatMap fun i => ((i, i), G (e i).1 (e i).2) ::
    ((List.finRange k).filter fun j => i < j).flatMap fun j => [((i, j), G (e i).1 (e j).2), ((j, i), G (e j).1 (e i).2)]

/-- `trial.py` L483-491: `ovlp_tmp` after the loops, from what it was before. -/
def fill (G : ℕ → ℕ → ℂ) (e : Fin k → ℕ × ℕ) (t : Fin k × Fin k → ℂ) : Fin k × Fin k → ℂ :=
  (writes G e).foldl (fun t w => Function.update t w.1 w.2) t

/-- `trial.py` L482-492: the loop over the determinants; `ovlp_tmp` is not reset in between. -/
def detLoop (G : ℕ → ℕ → ℂ) (t : Fin k × Fin k → ℂ) : List (Fin k → ℕ × ℕ) → List ℂ
  | [] => []
  | e :: l => (Matrix.of fun i j => fill G e t (i, j)).det :: detLoop G (fill G e t) l

/-- `trial.py` L462-493: `calc_ovlp_iexc`.  `names` says that `iex`, `jex`, `mapping` and `det`, which are not defined, stand for `iexc`,
`jexc`, `occ_map` and `ovlp_tmp`, and that `cre_idx` can be indexed both ways; the array `Gf` of the walker has the shape `(d1, d2)`. -/
def calcOvlpIexc (names : Bool) (d1 d2 : ℕ) (G : ℕ → ℕ → ℂ) (occMap : ℕ → ℕ) (frozen : ℕ) (dets : List (Fin k → ℕ × ℕ)) :
    Except String (Option (List ℂ)) :=
  if dets = [] then .ok none
  else if names = false then .error "NameError"
  else if ∃ d ∈ dets, ∃ i, d1 ≤ (idx occMap frozen d i).1 ∨ d2 ≤ (idx occMap frozen d i).2 then .error "IndexError"
  else .ok (some (detLoop G (fun _ => 0) (dets.map (idx occMap frozen))))

/-- `trial.py` L496-513: `compute_MSD_ovlp` for one walker and one spin. -/
def computeMSDOvlp (ndets : ℕ) : List ℂ := List.replicate ndets 1

end OpenMS.MsdOverlap
