import Mathlib.Data.Real.Basic
import Mathlib.Algebra.BigOperators.Ring.Finset
import Mathlib.Data.List.Range

/-!
# Dipole basis of the strong coupling mean field

`openms/mqed/scqedhf.py`.  `initialize_eta` diagonalises the coupling matrix of every mode, hands the
eigenvectors to `check_n_resolve_degeneracy`, which turns the vectors of degenerate groups so that they
diagonalise the Fock matrix within the group, and then transforms the two body integrals.  Columns are
numbered by `ℕ` (only those below `nao` exist), rows by a finite type.
-/

namespace OpenMS.DipoleBasis

open Finset

variable {ι : Type*} [Fintype ι]

/-- scqedhf.py L533-538, L571: one turn of the loop over `p`.  The state is the counter `degeneracy` and the list
of slices `[r, s)` that were turned so far.  A gap equal to the threshold takes neither branch. -/
noncomputable def degStep (thr : ℝ) (ev : ℕ → ℝ) (st : ℕ × List (ℕ × ℕ)) (p : ℕ) : ℕ × List (ℕ × ℕ) :=
  let ediff := ev (p + 1) - ev p
  if |ediff| < thr then (st.1 + 1, st.2)
  else if thr < |ediff| ∧ 1 < st.1 then (1, st.2 ++ [(p + 1 - st.1, p + 1)])
  else st

/-- scqedhf.py L528-531: the loop over `range(nao - 1)` from counter one. -/
noncomputable def degLoop (thr : ℝ) (ev : ℕ → ℝ) (n : ℕ) : ℕ × List (ℕ × ℕ) :=
  (List.range n).foldl (degStep thr ev) (1, [])

/-- scqedhf.py L526-573: the slices that are turned, in order. -/
noncomputable def turned (thr : ℝ) (ev : ℕ → ℝ) (nao : ℕ) : List (ℕ × ℕ) := (degLoop thr ev (nao - 1)).2

/-- scqedhf.py L67-71 `unitary_transform` (one entry): `Uᵀ A U`. -/
def transform (U : ι → ℕ → ℝ) (A : ι → ι → ℝ) (a b : ℕ) : ℝ := ∑ i, ∑ j, U i a * A i j * U j b

/-- scqedhf.py L566-568: the columns of the slice are replaced by their combinations with the columns of `Q`. -/
def turn (V : ι → ℕ → ℝ) (r s : ℕ) (Q : ℕ → ℕ → ℝ) (i : ι) (j : ℕ) : ℝ :=
  if r ≤ j ∧ j < s then ∑ k ∈ range (s - r), V i (r + k) * Q k (j - r) else V i j

/-- scqedhf.py L562: what `linalg.eigh` promises about the eigenvectors of a symmetric matrix of size `d`:
orthonormal columns that make the matrix diagonal. -/
def IsEigh (d : ℕ) (M Q : ℕ → ℕ → ℝ) : Prop :=
  (∀ a < d, ∀ b < d, ∑ k ∈ range d, Q k a * Q k b = if a = b then 1 else 0) ∧
  (∀ a < d, ∀ b < d, a ≠ b → ∑ k ∈ range d, ∑ l ∈ range d, Q k a * M k l * Q l b = 0)

/-- scqedhf.py L539-571: the body of the second branch for every slice in order; the Fock matrix in the molecular
orbitals (with the shift of L554, the same in every turn) is transformed with the columns as they are now. -/
inductive Resolve (fock : ι → ι → ℝ) : (ι → ℕ → ℝ) → List (ℕ × ℕ) → (ι → ℕ → ℝ) → Prop
  | nil (V) : Resolve fock V [] V
  | cons (V r s bs Q V') (hQ : IsEigh (s - r) (fun a b => transform V fock (r + a) (r + b)) Q)
      (h : Resolve fock (turn V r s Q) bs V') : Resolve fock V ((r, s) :: bs) V'

/-- scqedhf.py L785: `einsum("pu, qv, rw, st, pqrs->uvwt", U, U, U, U, eri)`. -/
def eriDO (U : ι → ι → ℝ) (eri : ι → ι → ι → ι → ℝ) (u v w t : ι) : ℝ :=
  ∑ p, ∑ q, ∑ r, ∑ s, U p u * U q v * U r w * U s t * eri p q r s

/-- scqedhf.py L767: `U.conj().T @ chol @ U` for real matrices. -/
def cholDO (U : ι → ι → ℝ) (L : ι → ι → ℝ) (u v : ι) : ℝ := ∑ p, ∑ q, U p u * L p q * U q v

/-- scqedhf.py L607-615 with `construct_eri_DO` L770-787: every mode assigns the one attribute `eri_DO`. -/
def storeEri (eri : ι → ι → ι → ι → ℝ) (Us : List (ι → ι → ℝ)) : Option (ι → ι → ι → ι → ℝ) :=
  Us.foldl (fun _ U => some (eriDO U eri)) none

/-- scqedhf.py L607-613 with `cholesky_DO` L760-767: the vectors are made and transformed only while the attribute
`ltensor` is `None`. -/
def storeChol {γ : Type*} (L : γ → ι → ι → ℝ) (Us : List (ι → ι → ℝ)) : Option (γ → ι → ι → ℝ) :=
  Us.foldl (fun st U => match st with
    | none => some fun g => cholDO U (L g)
    | some x => some x) none

/-- scqedhf.py L790-799 `photon_exp_val` for real coefficients: `C` is `boson_coeff`, the states of the mode are the rows
`idx .. idx + mdim`.  The vector `2 n` multiplies the columns of the outer product, and the column of the
coefficients is `idx` (`boson.py` uses column 0 for every mode). -/
def photonExpVal (nstates : List ℕ) (C : ℕ → ℕ → ℝ) (imode : ℕ) : ℝ :=
  let mdim := nstates.getD imode 0
  let idx := (nstates.take imode).sum
  ∑ i ∈ range mdim, ∑ j ∈ range mdim, 2 * (j : ℝ) * (C (idx + i) idx * C (idx + j) idx)

/-- boson.py L995-1021 `get_boson_occ`: occupation of a mode from column 0. -/
def bosonOcc (nstates : List ℕ) (C : ℕ → ℕ → ℝ) (mode : ℕ) : ℝ :=
  let mdim := nstates.getD mode 0
  let idx := if 0 < mode then (nstates.take mode).sum else 0
  ∑ j ∈ range mdim, C (idx + j) 0 * C (idx + j) 0 * (j : ℝ)

end OpenMS.DipoleBasis
