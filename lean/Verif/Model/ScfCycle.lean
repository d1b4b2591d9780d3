import Verif.Model.ScQedHF

/-!
# One cycle of the self-consistent field with displacements

`openms/mqed/scqedhf.py` L309-350 with `get_fock` (`openms/mqed/qedhf.py` L303-397), one photon mode, in the dipole basis (the transformations
to and from the atomic orbitals are left out), four-index integrals.  The one-electron matrix `h1e_DO` and the couplings
`g_dipole` are made by `get_h1e_DO` only, at L313, from the displacements of that moment; `get_hcore` and `get_veff` combine them
with the Franck-Condon factors of the present displacements.  Damping and level shift are off (the names are not defined).
-/

namespace OpenMS.ScQed

variable {n : Type*} [Fintype n] [LinearOrder n]

/-- Attributes of the object and variables of the loop: `etaH` are the displacements with which `h1e_DO` and `g_dipole` were made. -/
structure Cyc (n : Type*) where
  etaH : n → ℝ
  eta : n → ℝ
  vhf : n → n → ℝ
  dm : n → n → ℝ

/-- `scqedhf.py` L935-976: `get_hcore`. -/
noncomputable def hcoreNow (s : Sys n) (f : ℝ) (G : ℝ → ℝ) (etaH eta : n → ℝ) (p q : n) : ℝ :=
  h1eDO s f etaH p q * G (eta p - eta q)

/-- `scqedhf.py` L979-1080: `get_veff`, computed from the given density alone. -/
noncomputable def veffNow (s : Sys n) (f : ℝ) (G : ℝ → ℝ) (etaH eta : n → ℝ) (D : n → n → ℝ) (p q : n) : ℝ :=
  vDse s f etaH D p q + vEri s eta G D p q

/-- `qedhf.py` L728-735: the electronic energy of the given matrices. -/
noncomputable def energyOf (D h v : n → n → ℝ) : ℝ :=
  (∑ p, ∑ q, h p q * D q p) + 1 / 2 * ∑ p, ∑ q, v p q * D q p

/-- What a cycle computes. -/
structure CycOut (n : Type*) where
  /-- the Fock matrix that is diagonalised -/
  fock : n → n → ℝ
  /-- `e_tot` without the nuclear repulsion -/
  e : ℝ
  /-- the state at the end of the cycle -/
  st : Cyc n

/-- `scqedhf.py` L232-263: the state before the first cycle, with `initialize_eta` (L583-617): the displacements are the couplings in
the dipole basis. -/
noncomputable def cycStart (s : Sys n) (f : ℝ) (G : ℝ → ℝ) (D : n → n → ℝ) : Cyc n :=
  let eta := fun p => s.gt p * f
  ⟨eta, eta, veffNow s f G eta eta D, D⟩

/-- `scqedhf.py` L313-340 with `qedhf.py` L368-394: one cycle.  `dens` is `eig`, `get_occ` and `make_rdm1`; `diis` is the extrapolation
of Fock matrix and displacements, `none` before it starts or when it is off. -/
noncomputable def cycleStep (s : Sys n) (f precond : ℝ) (G dG : ℝ → ℝ) (dens : (n → n → ℝ) → n → n → ℝ)
    (diis : Option ((n → n → ℝ) → (n → ℝ) → (n → n → ℝ) × (n → ℝ))) (st : Cyc n) : CycOut n :=
  let etaH := st.eta
  let grad := etaGrad s f st.eta dG st.dm
  let eta := fun p => st.eta p - precond * grad p
  let f0 := fun p q => hcoreNow s f G etaH eta p q + st.vhf p q
  let (fock, eta) := match diis with
    | none => (f0, eta)
    | some ex => ex f0 eta
  let dm := dens fock
  let vhf := veffNow s f G etaH eta dm
  ⟨fock, energyOf dm (hcoreNow s f G etaH eta) vhf, ⟨etaH, eta, vhf, dm⟩⟩

end OpenMS.ScQed
