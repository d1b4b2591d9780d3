/-
Error vector of the accelerated self-consistency, openms/mqed/diis.py.

Matrices are over the complex numbers; arrays of dimension three are lists of matrices.  The
extrapolation itself is `lib.diis.DIIS.update` of another package and is not modelled.
-/
import Mathlib.Data.Complex.Basic
import Mathlib.LinearAlgebra.Matrix.ConjTranspose

namespace OpenMS.Diis

open Matrix

variable {n m : ℕ}

/-- A numpy array of two dimensions or of three. -/
inductive Arr (a b : ℕ) where
  | mat (M : Matrix (Fin a) (Fin b) ℂ)
  | stack (Ms : List (Matrix (Fin a) (Fin b) ℂ))

/-- `ravel` of a matrix. -/
def ravel {a b : ℕ} (M : Matrix (Fin a) (Fin b) ℂ) : List ℂ :=
  (List.finRange a).flatMap fun i => (List.finRange b).map fun j => M i j

/-- openms/mqed/diis.py L64-L65, L70-L71: one block of the error vector. -/
def block (s d f : Matrix (Fin n) (Fin n) ℂ) : List ℂ :=
  let sdf := s * d * f
  ravel (sdfᴴ - sdf)

/-- openms/mqed/diis.py L91-L92, L99-L100: `sdf[sym_forbid] = 0`. -/
def mask (orbsym : Option (Fin m → ℕ)) (M : Matrix (Fin m) (Fin m) ℂ) : Matrix (Fin m) (Fin m) ℂ :=
  match orbsym with
  | none => M
  | some o => of fun i j => if o i ≠ o j then 0 else M i j

/-- openms/mqed/diis.py L90-L93, L98-L101: one block in the orthonormal basis. -/
def blockOrth (orbsym : Option (Fin m → ℕ)) (s d f : Matrix (Fin n) (Fin n) ℂ)
    (C : Matrix (Fin n) (Fin m) ℂ) : List ℂ :=
  let sdf := mask orbsym (Cᴴ * s * d * f * C)
  ravel (sdfᴴ - sdf)

/-- openms/mqed/diis.py L61-L79 `get_err_vec_orig`; `none` stands for an exception. -/
def errOrig : Arr n n → Arr n n → Arr n n → Option (List ℂ)
  | .mat s, .mat d, .mat f => some (block s d f)
  | .stack ss, .stack ds, .stack fs =>
    if fs ≠ [] ∧ fs.length ≤ ss.length ∧ fs.length ≤ ds.length then -- `hstack` of nothing raises
      some ((List.zipWith3 block ss ds fs).flatten)
    else none
  | .mat s, .stack ds, .stack [fa, fb] =>
    match ds with
    | da :: db :: _ => some (block s da fa ++ block s db fb)
    | _ => none
  | _, _, _ => none

/-- openms/mqed/diis.py L82-L110 `get_err_vec_orth`. -/
def errOrth (orbsym : Option (Fin m → ℕ)) : Arr n n → Arr n n → Arr n n → Arr n m → Option (List ℂ)
  | .mat s, .mat d, .mat f, .mat C => some (blockOrth orbsym s d f C)
  | .stack ss, .stack ds, .stack fs, .stack Cs =>
    if fs ≠ [] ∧ fs.length ≤ ss.length ∧ fs.length ≤ ds.length ∧ fs.length ≤ Cs.length then
      some ((List.zipWith3 (fun sd f C => blockOrth orbsym sd.1 sd.2 f C) (ss.zip ds) fs Cs).flatten)
    else none
  | .mat s, .stack ds, .stack [fa, fb], .stack Cs =>
    match ds, Cs with
    | da :: db :: _, Ca :: Cb :: _ =>
      -- the attribute `orbsym` belongs to the array of both spins, its items have none
      some (blockOrth none s da fa Ca ++ blockOrth none s db fb Cb)
    | _, _ => none
  | _, _, _, _ => none

/-- openms/mqed/diis.py L112-L121 `get_err_vec`. -/
def errVec (orbsym : Option (Fin m → ℕ)) (s d f : Arr n n) (Corth : Option (Arr n m))
    (varGrad : Option (List ℂ)) : Option (List ℂ) :=
  let errors := match Corth with
    | none => errOrig s d f
    | some C => errOrth orbsym s d f C
  match varGrad with
  | none => errors
  | some g => errors.map (· ++ g)

/-- Flattened Fock matrix or matrices. -/
def Arr.ravel {a b : ℕ} : Arr a b → List ℂ
  | .mat M => Diis.ravel M
  | .stack Ms => (Ms.map Diis.ravel).flatten

/-- openms/mqed/diis.py L37-L47: the pair given to the extrapolation, parameters and error; without
`var` the attribute access `var.ravel()` raises. -/
def updateArgs (orbsym : Option (Fin m → ℕ)) (s d f : Arr n n) (Corth : Option (Arr n m))
    (var varGrad : Option (List ℂ)) : Option (List ℂ × List ℂ) :=
  match errVec orbsym s d f Corth varGrad, var with
  | some e, some v => some (f.ravel ++ v, e)
  | _, _ => none

/-- openms/mqed/diis.py L49-L50: the stored vectors after the extrapolation. -/
def bookkeep {α : Type*} (rollback space : ℕ) (l : List α) : List α :=
  if 0 < rollback ∧ l.length = space then l.drop (l.length - rollback) else l

end OpenMS.Diis
