import Mathlib.Data.Real.Basic
import Mathlib.Algebra.BigOperators.Group.Finset.Basic
import Mathlib.Tactic

/-!
# Integrals of the deprecated class QEDAFQMC

`openms/qmc/afqmc.py` L385-431 (constructor) and L438-466 (`get_integrals`).  `a b` are basis functions, taken as orthonormal, `m`
modes, `x y` directions, `F` photon states, `S` spins, `j` orbitals.  Numbers are exact.  The attribute `exp_h1e` and the
decomposition of `eri` are left out.
-/

namespace OpenMS.AfqmcIntegrals

variable {p M : Type*} [Fintype p] [Fintype M] [DecidableEq p]

/-- `boson.py` L257-259 and L1914-1923: `get_polarized_dipole_ao` of all modes, `r` are the integrals `int1e_r`. -/
def dipPol (vec : M → Fin 3 → ℝ) (r : Fin 3 → p → p → ℝ) (m : M) (a b : p) : ℝ := ∑ x, vec m x * (-r x a b)

/-- `boson.py` L336-338 and `afqmc.py` L391-396: `quadrupole_ao_polarized`, `rr` are the integrals `int1e_rr`. -/
def quadPol (vec : M → Fin 3 → ℝ) (rr : Fin 3 → Fin 3 → p → p → ℝ) (m : M) (a b : p) : ℝ :=
  ∑ x, ∑ y, vec m x * (-rr x y a b) * vec m y

/-- `afqmc.py` L408 and L418-420: `h1e_DSE`. -/
def h1eDSE (coupling : M → ℝ) (quad : M → p → p → ℝ) (a b : p) : ℝ := ∑ m, coupling m ^ 2 * (-1 * quad m a b)

/-- `afqmc.py` L408 and L426-431: `eri_DSE`. -/
def eriDSE (coupling : M → ℝ) (dip : M → p → p → ℝ) (a b c d : p) : ℝ := ∑ m, coupling m ^ 2 * dip m a b * dip m c d

/-- `afqmc.py` L391: the constructor; `get_quadrupole_ao` is not imported (`NameError`), `some` stands for its result. -/
def construct (coupling : M → ℝ) (vec : M → Fin 3 → ℝ) (r : Fin 3 → p → p → ℝ) (rr : Option (Fin 3 → Fin 3 → p → p → ℝ)) :
    Except String ((p → p → ℝ) × (p → p → p → p → ℝ)) :=
  match rr with
  | none => .error "NameError"
  | some rr => .ok (h1eDSE coupling (quadPol vec rr), eriDSE coupling (dipPol vec r))

/-- `afqmc.py` L451: `rho_mf`, `einsum("FSaj,FSbj->ab", wf, wf)`. -/
def rhoMf {F S J : Type*} [Fintype F] [Fintype S] [Fintype J] (wf : F → S → p → J → ℝ) (a b : p) : ℝ :=
  ∑ f, ∑ s, ∑ j, wf f s a j * wf f s b j

/-- `afqmc.py` L452: `dipole_mf`. -/
def dipoleMf (dip : M → p → p → ℝ) (rho : p → p → ℝ) (m : M) : ℝ := ∑ a, ∑ b, dip m a b * rho a b

/-- `afqmc.py` L453-455: `mu_shifted`. -/
def muShifted (dip : M → p → p → ℝ) (rho : p → p → ℝ) (m : M) (a b : p) : ℝ :=
  dip m a b - (if a = b then 1 else 0) * dipoleMf dip rho m

/-- What `get_integrals` leaves behind. -/
structure Ints (p F : Type*) where
  /-- `h1e` -/
  h1e : p → p → ℝ
  /-- `eri` -/
  eri : p → p → p → p → ℝ
  /-- `MuQc` -/
  MuQc : F → F → p → p → ℝ

/-- `afqmc.py` L438-466: `get_integrals`.  The method `make_read_fcidump` and the attribute `aT_plus_a` are defined nowhere
(`AttributeError`); `some` stands for their values.  The name `eri_DSE` of L457 is never read. -/
def getIntegrals {F S J : Type*} [Fintype F] [Fintype S] [Fintype J] (coupling bil : M → ℝ) (dip quad : M → p → p → ℝ)
    (wf : F → S → p → J → ℝ) (fcidump : Option ((p → p → ℝ) × (p → p → p → p → ℝ))) (aTa : Option (F → F → ℝ)) :
    Except String (Ints p F) :=
  match fcidump with
  | none => .error "AttributeError"
  | some I =>
    match aTa with
    | none => .error "AttributeError"
    | some x => .ok
      { h1e := fun a b => I.1 a b + h1eDSE coupling quad a b
        eri := fun a b c d => I.2 a b c d + eriDSE coupling dip a b c d
        MuQc := fun f f' a b => ∑ m, bil m * x f f' * muShifted dip (rhoMf wf) m a b }

end OpenMS.AfqmcIntegrals
