import Mathlib.Tactic
import Mathlib.Analysis.SpecialFunctions.Exp

/-!
# Library of the variational QED-HF method

Model of `/repo/openms/lib/qedlibs/qed.cpp`.  Numbers are exact, `int` has no bound.  The functions of the Python object get
copies of the vectors (lists made by `pybind11/stl.h`), so the vectors of the C++ function keep the zeros they are made of.  The
parallel loops are lists of writes in any order.
-/

namespace OpenMS.QedLib

/-- `qed.cpp` L13-22: `gaussian_factor_vt_qedhf`. -/
noncomputable def gaussianFactor (freq eta_p eta_q eta_r eta_s : ℝ) : ℝ :=
  if eta_r ≠ -1 ∧ eta_s ≠ -1 then Real.exp (-(1 / 2) * ((eta_p + eta_r - eta_s - eta_q) / freq) ^ 2)
  else Real.exp (-(1 / 2) * ((eta_p - eta_q) / freq) ^ 2)

/-- `qed.cpp` L33: `count`. -/
def count (N p q r s : ℕ) : ℕ := p * N * N * N + q * N * N + r * N + s

/-- `qed.cpp` L28-38: the writes of `test_gaussian`, in the order of the text. -/
noncomputable def writes (N : ℕ) (freq : ℝ) (eta : ℕ → ℝ) : List (ℕ × ℝ) :=
  (List.range N).flatMap fun p => (List.range N).flatMap fun q => (List.range N).flatMap fun r => (List.range N).map fun s =>
    (count N p q r s, gaussianFactor freq (eta p) (eta q) (eta r) (eta s))

/-- Writes one after the other. -/
noncomputable def apply (l : List (ℕ × ℝ)) (m : ℕ → ℝ) : ℕ → ℝ := l.foldl (fun m w => Function.update m w.1 w.2) m

/-- The vectors of `update_fock_energy_gradient_vt_qedhf`. -/
structure Vectors where
  g : ℕ → ℝ
  density : ℕ → ℕ → ℝ

/-- `qed.cpp` L103-108, L117-118: the vectors after the calls of the Python functions. -/
def afterCalls : Vectors := ⟨fun _ => 0, fun _ _ => 0⟩

/-- `qed.cpp` L129-139: `dipole_basis_fock` after the first loop, with `freq = 1.0` (L97). -/
noncomputable def fockOne (v : Vectors) (mean : ℝ) (p q : ℕ) : ℝ :=
  if p = q then (2 * v.g p * mean - v.g p * v.g p * v.density p p) / 1
  else if p < q then 0 - v.g p * v.g q * v.density q p / 1
  else 0 - v.g q * v.g p * v.density p q / 1

/-- `qed.cpp` L153-155: what is added for `r` and `s`; `eri` has the four indices of `eri_var`. -/
noncomputable def fockTerm (v : Vectors) (eri : ℕ → ℕ → ℕ → ℕ → ℝ) (p q r s : ℕ) : ℝ :=
  (2 * eri p q r s - eri p s r q) * v.density r s * gaussianFactor 1 p q r s / 2

/-- `qed.cpp` L148-160: `dipole_basis_fock` after the second loop. -/
noncomputable def fock (n_mo : ℕ) (v : Vectors) (mean : ℝ) (eri : ℕ → ℕ → ℕ → ℕ → ℝ) (p q : ℕ) : ℝ :=
  if p ≤ q then fockOne v mean p q + ∑ r ∈ Finset.range n_mo, ∑ s ∈ Finset.range n_mo, fockTerm v eri p q r s
  else fockOne v mean q p + ∑ r ∈ Finset.range n_mo, ∑ s ∈ Finset.range n_mo, fockTerm v eri q p r s

end OpenMS.QedLib
