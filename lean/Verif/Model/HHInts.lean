import Verif.Model.HubbardInts

/-!
# Orbitals and integrals of the Hubbard-Holstein chain

`openms/models/hh_model.py` L22-55 (`get_mo`, what it hands to the mean-field program), L93-112 (couplings and shifts), L225-245
(`g_fock`), L294-325 (`mfG`, `gint`, `gint_tot`).  `g_aint` (L248-285) transforms one index after the other; its result is `gaintMo` of
`Model/HubbardInts`.
-/

namespace OpenMS.Lattice

/-- `hh_model.py` L30-35: the hopping matrix of `get_mo`. -/
def moHop (periodic : Bool) (L : ℕ) : ℕ → ℕ → ℝ :=
  let h1 := (List.range (L - 1)).foldl (fun h i => setT (setT h (i + 1) i (-1)) i (i + 1) (-1)) fun _ _ => 0
  if periodic then
    let h1 := setT h1 (L - 1) 0 (h1 (L - 1) 0 + -1)
    setT h1 0 (L - 1) (h1 0 (L - 1) + -1)
  else h1

section
variable {n : Type*} [Fintype n] [DecidableEq n]

/-- `hh_model.py` L36-50: the repulsion of `get_mo`, which is assigned in the branch of broken symmetry only. -/
def moEri (breaksym : Bool) (U : ℝ) (i j k l : n) : ℝ :=
  if breaksym then (if i = j ∧ i = k ∧ i = l then U else 0) else 0

/-- `hh_model.py` L107-112: the shifts, zero without `shift`. -/
noncomputable def hhXi {M : Type*} (shift : Bool) (gmat : M → n ⊕ n → n ⊕ n → ℝ) (w : ℝ) (pa pb : n → n → ℝ) (I : M) : ℝ :=
  if shift then xi gmat w pa pb I else 0

/-- `hh_model.py` L225-245: `g_fock` between two orbitals. -/
noncomputable def hhGfock {M : Type*} [Fintype M] (shift : Bool) (t : n → n → ℝ) (U w : ℝ) (gmat : M → n ⊕ n → n ⊕ n → ℝ)
    (pa pb ca cb : n → n → ℝ) (i j : n ⊕ n) : ℝ :=
  (∑ p, ∑ q, blockDiag ca cb p i * fock t U pa pb p q * blockDiag ca cb q j) -
    2 * ∑ I, ∑ p, ∑ q, hhXi shift gmat w pa pb I * blockDiag ca cb p i * gmat I p q * blockDiag ca cb q j

/-- `hh_model.py` L294-300: `mfG`. -/
def mfG {M : Type*} (shift : Bool) (gmat : M → n ⊕ n → n ⊕ n → ℝ) (pa pb : n → n → ℝ) (I : M) : ℝ :=
  if shift then 0 else ∑ p, ∑ q, gmat I p q * blockDiag pa pb q p

/-- `hh_model.py` L318-325: `gint_tot`; the blocks of `gint` select its columns. -/
def gintTot {M : Type*} (gmat : M → n ⊕ n → n ⊕ n → ℝ) (ca cb : n → n → ℝ) (I : M) (i j : n ⊕ n) : ℝ :=
  ∑ p, ∑ q, gmat I p q * blockDiag ca cb p i * blockDiag ca cb q j

end

/-- `hh_model.py` L93-104: the coupling of mode `I`, with the site as a natural number for each spin; the assignments of `gij`
come first, those of `g` on the diagonal last. -/
def hhGmat (periodic : Bool) (L : ℕ) (g : ℝ) (gij : Option ℝ) (I : Fin L) : Fin L ⊕ Fin L → Fin L ⊕ Fin L → ℝ :=
  let one : Fin L → Fin L → ℝ := fun a b =>
    if a = I ∧ b = I then g
    else match gij with
      | none => 0
      | some x =>
        if a.val + 1 = b.val ∨ b.val + 1 = a.val then x
        else if periodic ∧ ((a.val = 0 ∧ b.val = L - 1) ∨ (a.val = L - 1 ∧ b.val = 0)) then x else 0
  blockDiag one one

end OpenMS.Lattice
