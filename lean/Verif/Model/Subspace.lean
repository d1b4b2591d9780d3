import Mathlib.Data.Complex.Basic
import Mathlib.Data.Complex.BigOperators
import Mathlib.Algebra.BigOperators.Group.Finset.Basic
import Mathlib.Data.List.Range

/-!
# Model of the projected matrix of a subspace eigensolver

* `openms/solvers/linalg.py` L23-39 (`_fill_heff_hermitian`), L41-56 (`_fill_heff`).

`xs`, `ax` are the trial vectors and their images; `xt`, `axt` are the last `nrow` of them (`len(ax)` is
`row1`).  The matrix `heff` is a function of two indices and the loops are the list of assignments in the
order of the code.  `dot` is `numpy.dot` (L552).
-/

namespace OpenMS.Subspace
open scoped BigOperators

variable {n : Type*} [Fintype n]

/-- `dot(x.conj(), y)`. -/
noncomputable def dotc (x y : n → ℂ) : ℂ := ∑ k, (starRingEnd ℂ) (x k) * y k

/-- One assignment `heff[i, j] = v`. -/
def write (h : ℕ → ℕ → ℂ) (w : ℕ × ℕ × ℂ) : ℕ → ℕ → ℂ :=
  fun i j => if i = w.1 ∧ j = w.2.1 then w.2.2 else h i j

/-- `linalg.py` L27-31: assignments inside the new block.  L29 reads back the value written in L28. -/
noncomputable def newHerm (xt axt : ℕ → n → ℂ) (row0 nrow : ℕ) : List (ℕ × ℕ × ℂ) :=
  (List.range nrow).flatMap fun ip =>
    ((List.range ip).flatMap fun jp =>
      [(row0 + ip, row0 + jp, dotc (xt ip) (axt jp)),
       (row0 + jp, row0 + ip, (starRingEnd ℂ) (dotc (xt ip) (axt jp)))]) ++
    [(row0 + ip, row0 + ip, ((dotc (xt ip) (axt ip)).re : ℂ))]

/-- `linalg.py` L33-38: assignments between the old and the new vectors. -/
noncomputable def crossHerm (ax xt : ℕ → n → ℂ) (row0 nrow : ℕ) : List (ℕ × ℕ × ℂ) :=
  (List.range row0).flatMap fun i => (List.range nrow).flatMap fun jp =>
    [(row0 + jp, i, dotc (xt jp) (ax i)), (i, row0 + jp, (starRingEnd ℂ) (dotc (xt jp) (ax i)))]

/-- `linalg.py` L23-39: `_fill_heff_hermitian` with `row0 = len(ax) - len(axt)`, `nrow = len(axt)`. -/
noncomputable def fillHerm (h : ℕ → ℕ → ℂ) (ax xt axt : ℕ → n → ℂ) (row0 nrow : ℕ) : ℕ → ℕ → ℂ :=
  (newHerm xt axt row0 nrow ++ crossHerm ax xt row0 nrow).foldl write h

/-- `linalg.py` L45-47: assignments inside the new block. -/
noncomputable def newGen (xt axt : ℕ → n → ℂ) (row0 nrow : ℕ) : List (ℕ × ℕ × ℂ) :=
  (List.range nrow).flatMap fun ip => (List.range nrow).map fun jp =>
    (row0 + ip, row0 + jp, dotc (xt ip) (axt jp))

/-- `linalg.py` L49-55: assignments between the old and the new vectors. -/
noncomputable def crossGen (xs ax xt axt : ℕ → n → ℂ) (row0 nrow : ℕ) : List (ℕ × ℕ × ℂ) :=
  (List.range row0).flatMap fun i => (List.range nrow).flatMap fun jp =>
    [(i, row0 + jp, dotc (xs i) (axt jp)), (row0 + jp, i, dotc (xt jp) (ax i))]

/-- `linalg.py` L41-56: `_fill_heff`. -/
noncomputable def fillGen (h : ℕ → ℕ → ℂ) (xs ax xt axt : ℕ → n → ℂ) (row0 nrow : ℕ) : ℕ → ℕ → ℂ :=
  (newGen xt axt row0 nrow ++ crossGen xs ax xt axt row0 nrow).foldl write h

/-- `linalg.py` L368-378 (as in every cycle of `davidson1`): the blocks of sizes `ks` are appended one
after the other to the stored vectors and `heff` is filled after each of them.  Returns the matrix and
the number of vectors. -/
noncomputable def growHerm (h : ℕ → ℕ → ℂ) (xs ax : ℕ → n → ℂ) (row0 : ℕ) : List ℕ → (ℕ → ℕ → ℂ) × ℕ
  | [] => (h, row0)
  | k :: ks => growHerm (fillHerm h ax (fun p => xs (row0 + p)) (fun p => ax (row0 + p)) row0 k) xs ax
      (row0 + k) ks

/-- The same with `_fill_heff`. -/
noncomputable def growGen (h : ℕ → ℕ → ℂ) (xs ax : ℕ → n → ℂ) (row0 : ℕ) : List ℕ → (ℕ → ℕ → ℂ) × ℕ
  | [] => (h, row0)
  | k :: ks => growGen (fillGen h xs ax (fun p => xs (row0 + p)) (fun p => ax (row0 + p)) row0 k) xs ax
      (row0 + k) ks

end OpenMS.Subspace
