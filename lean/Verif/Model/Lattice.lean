import Mathlib.Data.Real.Basic
import Mathlib.Data.Fintype.BigOperators
import Mathlib.Data.Fintype.Sum

/-!
# Lattice models

Model of `/repo/openms/models/hubbard.py` (`Hubbard1D`), `/repo/openms/models/hh_model.py`
(`HHModel`) and `/repo/openms/models/aggregates.py` (`DMA`).
-/

namespace OpenMS.Lattice

/-! ### Hopping -/

/-- A Python index of an axis of length `L`; `none` is `IndexError`. -/
def pyIndex (L : ℕ) (k : ℤ) : Option ℕ :=
  if 0 ≤ k ∧ k < L then some k.toNat else if -(L : ℤ) ≤ k ∧ k < 0 then some (k + L).toNat else none

/-- `hubbard.py` L40-51, `hh_model.py` L131-142: `_nn`; `periodic` is `bc == "p"`, otherwise
`bc is None` (other values raise). -/
def nn (periodic : Bool) (L i : ℕ) : ℤ × ℤ :=
  if periodic then
    (if i = 0 then (L : ℤ) - 1 else (i : ℤ) - 1, if (i : ℤ) = (L : ℤ) - 1 then 0 else (i : ℤ) + 1)
  else
    (if i = 0 then (i : ℤ) + 1 else (i : ℤ) - 1, if (i : ℤ) = (L : ℤ) - 1 then (i : ℤ) - 1 else (i : ℤ) + 1)

/-- `t[i, j] = v`. -/
def setT (t : ℕ → ℕ → ℝ) (i j : ℕ) (v : ℝ) : ℕ → ℕ → ℝ := fun a b => if a = i ∧ b = j then v else t a b

/-- `hubbard.py` L59-61: one turn of the loop. -/
def hopRow (periodic : Bool) (L : ℕ) (t : ℕ → ℕ → ℝ) (i : ℕ) : Option (ℕ → ℕ → ℝ) :=
  (pyIndex L (nn periodic L i).1).bind fun l =>
    (pyIndex L (nn periodic L i).2).map fun r => setT (setT t i l (-1)) i r (-1)

/-- `hubbard.py` L54-62: `Hubbard1D.tmatS`. -/
def hubbardT (periodic : Bool) (L : ℕ) : Option (ℕ → ℕ → ℝ) :=
  (List.range L).foldlM (hopRow periodic L) fun _ _ => 0

/-- `hh_model.py` L145-156: `HHModel.tmatS`, which adds to `t[0, -1]` and `t[-1, 0]` when `L == 2`. -/
noncomputable def hhT (periodic : Bool) (L : ℕ) : Option (ℕ → ℕ → ℝ) :=
  (hubbardT periodic L).map fun t =>
    if L = 2 then
      let t := setT t 0 (L - 1) (t 0 (L - 1) + -1)
      setT t (L - 1) 0 (t (L - 1) 0 + -1)
    else t

/-! ### Mean field -/

variable {n : Type*} [Fintype n] [DecidableEq n]

/-- `ov_blocks.block_diag` of two square matrices: spin-up sites are `inl`, spin-down sites `inr`. -/
def blockDiag (a b : n → n → ℝ) : n ⊕ n → n ⊕ n → ℝ
  | .inl i, .inl j => a i j
  | .inr i, .inr j => b i j
  | _, _ => 0

/-- `hubbard.py` L71-80, `hh_model.py` L174-183: `umat`; the four assignments of the loop. -/
def umat (U : ℝ) : n ⊕ n → n ⊕ n → n ⊕ n → n ⊕ n → ℝ
  | .inl i, .inr j, .inl k, .inr l => if i = j ∧ i = k ∧ i = l then U else 0
  | .inr i, .inl j, .inr k, .inl l => if i = j ∧ i = k ∧ i = l then U else 0
  | .inl i, .inl j, .inl k, .inl l => if i = j ∧ i = k ∧ i = l then U else 0
  | .inr i, .inr j, .inr k, .inr l => if i = j ∧ i = k ∧ i = l then U else 0
  | _, _, _, _ => 0

/-- `hubbard.py` L92-100: `fock`. -/
def fock (t : n → n → ℝ) (U : ℝ) (pa pb : n → n → ℝ) (p q : n ⊕ n) : ℝ :=
  blockDiag t t p q + ∑ r, ∑ s, (umat U p r q s - umat U p r s q) * blockDiag pa pb r s

/-- `hubbard.py` L103-109: `hf_energy`. -/
noncomputable def hfEnergy (t : n → n → ℝ) (U : ℝ) (pa pb : n → n → ℝ) : ℝ :=
  0.5 * ((∑ i, ∑ j, blockDiag pa pb i j * fock t U pa pb j i) +
    ∑ i, ∑ j, blockDiag pa pb i j * blockDiag t t j i)

/-- `hh_model.py` L83-90: the density of one spin, from the first `N // 2` columns of its orbitals
(a slice stops at the last column). -/
def hhDensity {L : ℕ} (N : ℕ) (c : Fin L → Fin L → ℝ) (a b : Fin L) : ℝ :=
  ∑ i : Fin L, if i.val < N / 2 then c a i * c b i else 0

/-- `hh_model.py` L105: the shifts `xi`. -/
noncomputable def xi {M : Type*} (gmat : M → n ⊕ n → n ⊕ n → ℝ) (w : ℝ) (pa pb : n → n → ℝ) (I : M) : ℝ :=
  (∑ a, ∑ b, gmat I a b * blockDiag pa pb a b) / w

/-- `hh_model.py` L105-112, L202-208: `HHModel.hf_energy`. -/
noncomputable def hhEnergy {M : Type*} [Fintype M] (shift : Bool) (t : n → n → ℝ) (U w : ℝ)
    (gmat : M → n ⊕ n → n ⊕ n → ℝ) (pa pb : n → n → ℝ) : ℝ :=
  hfEnergy t U pa pb + if shift then -∑ I, w * xi gmat w pa pb I ^ 2 else 0

/-! ### Disordered aggregates -/

/-- `aggregates.py` L146-151: the loop of `DMA.kernel`; `disorder` is the drawn energies. -/
def dmaH (N : ℕ) (hopping : ℝ) (disorder : ℕ → ℝ) : ℕ → ℕ → ℝ :=
  (List.range N).foldl (fun A i =>
    let A := setT A i i (disorder i)
    if i + 1 < N then setT (setT A i (i + 1) hopping) (i + 1) i hopping else A) fun _ _ => 0

/-- `aggregates.py` L165-175: `dipole`. -/
def dipole (evecs : n → n → ℝ) (u : n) : ℝ := ∑ j, evecs j u

/-- `aggregates.py` L26-39: one point of `linear_spec`. -/
noncomputable def linearSpec (states : List n) (evals dip : n → ℝ) (gamma e : ℝ) : ℝ :=
  (states.map fun j => dip j * dip j * gamma / ((e - evals j) ^ 2 + gamma ^ 2)).sum

end OpenMS.Lattice
