import Verif.Model.QedFciDensity

/-!
# Hubbard interaction in the full CI with bosons

`openms/mqed/qedfci.py` L207-232 (`_unpack_u`, `contract_2e_hubbard`) and L552-584 (`make_hdiag_hubbard`).  The masks
of strings (`strs & (1 << i)`) are membership of the orbital in the set of occupied orbitals.
-/

namespace OpenMS.QedFci

variable {m : ℕ} {n : Type*} [Fintype n] [DecidableEq n]

/-- The argument `u`: a number or three numbers. -/
inductive UArg where
  /-- one interaction -/
  | scalar (u : ℝ)
  /-- `(u_aa, u_ab, u_bb)` -/
  | triple (aa ab bb : ℝ)

/-- `qedfci.py` L207-212: `_unpack_u`. -/
def unpackU : UArg → ℝ × ℝ × ℝ
  | .scalar u => (u, u, u)
  | .triple aa ab bb => (aa, ab, bb)

/-- `qedfci.py` L228-231: the loop over orbitals with factor `f` in front of the masked vector. -/
def hubbardLoop {Na Nb : ℕ} (f : (Fin m → ℕ) → ℝ) (c : Str n Na × Str n Nb → (Fin m → ℕ) → ℝ)
    (s : Str n Na × Str n Nb) (σ : Fin m → ℕ) : ℝ :=
  ∑ i : n, if i ∈ s.1.1 ∧ i ∈ s.2.1 then f σ * c s σ else 0

/-- `qedfci.py` L214-232: `contract_2e_hubbard` for at least one mode and one orbital.  The loop multiplies with `u` itself, not with
an unpacked value: three numbers are broadcast along the last axis, the occupation of the last mode, and
do not match it (`ValueError`) unless that has three states. -/
def contract2eHubbard {Na Nb : ℕ} (N : Fin (m + 1) → ℕ) (u : UArg)
    (c : Str n Na × Str n Nb → (Fin (m + 1) → ℕ) → ℝ) :
    Except String (Str n Na × Str n Nb → (Fin (m + 1) → ℕ) → ℝ) :=
  match u with
  | .scalar u => .ok (hubbardLoop (fun _ => u) c)
  | .triple aa ab bb =>
    if N (Fin.last m) + 1 = 3 then
      .ok (hubbardLoop (fun σ => if σ (Fin.last m) = 0 then aa else if σ (Fin.last m) = 1 then ab else bb) c)
    else .error "ValueError"

/-- `qedfci.py` L552-584: `make_hdiag_hubbard` for one-dimensional `Hbb`.  The function reads `boson_states`, which is neither an
argument nor defined in the module; `global` is a value of that name if there is one. -/
noncomputable def makeHdiagHubbard {Na Nb : ℕ} (global : Option (Fin m → ℕ)) (h : n → n → ℝ) (u : UArg) (Hbb : Fin m → ℝ) :
    Except String (Str n Na × Str n Nb → (Fin m → ℕ) → ℝ) :=
  match global with
  | none => .error "NameError"
  | some N => .ok fun s σ =>
      let e1 := ∑ i ∈ s.1.1, h i i + ∑ i ∈ s.2.1, h i i
      let e2 := (unpackU u).2.1 * ((Na + Nb : ℕ) : ℝ)
      e1 + e2 + ∑ x, ∑ i ∈ Finset.range (N x + 1), if σ x = i then max ((i : ℝ) * Hbb x) (1 / 2) else 0

end OpenMS.QedFci
