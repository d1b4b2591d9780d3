import Verif.Model.Displacement
import Mathlib.LinearAlgebra.Matrix.NonsingularInverse
import Mathlib.LinearAlgebra.Matrix.Trace
import Mathlib.Data.List.GetD
import Mathlib.Data.Nat.Factorial.Basic

/-!
# Strong-coupling and variational-transformation QED-HF

Model of `/repo/openms/mqed/scqedhf.py` and `/repo/openms/mqed/vtqedhf.py` for one photon mode
(the code says "only works for one mode"), in the dipole basis.
-/

namespace OpenMS.ScQed

open Matrix

/-- `scqedhf.py` L825-828: `tmp = exp(squeezed_var) / omega`. -/
noncomputable def tmpFac (omega F : ℝ) : ℝ := Real.exp F / omega

/-- `scqedhf.py` L802-846: one entry of the Franck-Condon factor for the difference `x` of
displacements (`shift` included): the vacuum Gaussian for one photon state, otherwise the
displacement expectation value. -/
noncomputable def fcFactor (omega F : ℝ) (mdim : ℕ) (pdm : ℕ → ℕ → ℝ) (x : ℝ) : ℝ :=
  if mdim > 1 then Boson.displacementMatrix mdim (tmpFac omega F * x) pdm true
  else Real.exp (-(1 / 2) * (tmpFac omega F * x) ^ 2)

/-- `scqedhf.py` L849-881: `gaussian_derivative_vectorized`, one entry. -/
noncomputable def fcDeriv (omega F : ℝ) (mdim : ℕ) (pdm : ℕ → ℕ → ℝ) (x : ℝ) : ℝ :=
  if mdim > 1 then Boson.displacementDeriv mdim (tmpFac omega F * x) pdm
  else -Real.exp (-(1 / 2) * (tmpFac omega F * x) ^ 2) * (tmpFac omega F ^ 2 * x)

/-- `vtqedhf.py` L175-212: `gaussian_derivative_sq_vector`, one entry; `x` is the negative of the
difference used in the factor itself (`eta[q] - eta[p]`). -/
noncomputable def fcDerivSq (omega F : ℝ) (mdim : ℕ) (pdm : ℕ → ℕ → ℝ) (x : ℝ) : ℝ :=
  if mdim > 1 then Boson.displacementDerivScaled mdim (tmpFac omega F * x) pdm
  else -Real.exp (-(1 / 2) * (tmpFac omega F * x) ^ 2) * (tmpFac omega F * x) ^ 2

/-- `vtqedhf.py` L215-260: `gaussian_derivative_f_vector`, one entry. -/
noncomputable def fcDerivF (omega F : ℝ) (mdim : ℕ) (pdm : ℕ → ℕ → ℝ) (f x : ℝ) : ℝ :=
  (if mdim > 1 then Boson.displacementDerivScaled mdim (tmpFac omega F * x) pdm
  else -Real.exp (-(1 / 2) * (tmpFac omega F * x) ^ 2) * (tmpFac omega F * x) ^ 2) / f

variable {n : Type*} [Fintype n] [LinearOrder n]

/-- What the energy in the dipole basis is made of: bare one-electron integrals, bare diagonal
couplings (`gmat * sqrt(omega / 2)` in the dipole basis, without the fraction), two-electron
integrals and frequency. -/
structure Sys (n : Type*) where
  h : n → n → ℝ
  gt : n → ℝ
  eri : n → n → n → n → ℝ
  omega : ℝ

/-- `scqedhf.py` L923-926: `g_dipole`, with the fraction `f` (`couplings_var`, 1 in `scqedhf`). -/
def gDipole (s : Sys n) (f : ℝ) (eta : n → ℝ) (p : n) : ℝ := s.gt p * f - eta p

/-- `scqedhf.py` L917-926: `h1e_DO`. -/
noncomputable def h1eDO (s : Sys n) (f : ℝ) (eta : n → ℝ) (p q : n) : ℝ :=
  s.h p q + if p = q then gDipole s f eta p ^ 2 / s.omega else 0

/-- `scqedhf.py` L960-968: the dressed one-electron matrix in the dipole basis. -/
noncomputable def hcoreDO (s : Sys n) (f : ℝ) (eta : n → ℝ) (G : ℝ → ℝ) (p q : n) : ℝ :=
  h1eDO s f eta p q * G (eta p - eta q)

/-- `scqedhf.py` L1010-1027: the self-energy part of the potential: diagonal, upper triangle and
its mirror image. -/
noncomputable def vDse (s : Sys n) (f : ℝ) (eta : n → ℝ) (D : n → n → ℝ) (p q : n) : ℝ :=
  let g := gDipole s f eta
  if p = q then (2 * g p * (∑ r, D r r * g r) - g p ^ 2 * D p p) / s.omega
  else if p < q then -(g p * g q * D q p / s.omega)
  else -(g q * g p * D p q / s.omega)

/-- `scqedhf.py` L1066-1071: the two-electron part from the four-index integrals:
`vhf = 0.5 * einsum('pqrs, rs->pq', ...)`, `vhf += vhf.T`. -/
noncomputable def vEri (s : Sys n) (eta : n → ℝ) (G : ℝ → ℝ) (D : n → n → ℝ) (p q : n) : ℝ :=
  let M : n → n → ℝ := fun p q => 1 / 2 * ∑ r, ∑ t,
    G (eta p - eta q + eta r - eta t) * (s.eri p q r t - 1 / 2 * s.eri p t r q) * D r t
  M p q + M q p

/-- `scqedhf.py` L1036-1058: the two-electron part from the Cholesky tensor. -/
noncomputable def vChol {X : Type*} [Fintype X] (L : X → n → n → ℝ) (eta : n → ℝ) (G : ℝ → ℝ)
    (D : n → n → ℝ) (p q : n) : ℝ :=
  ∑ r, ∑ t, (∑ x, L x p q * L x r t - 1 / 2 * ∑ x, L x p t * L x r q) * D r t *
    G (eta r - eta t + (eta p - eta q))

/-- `qedhf.py` L728-735 in the dipole basis: the energy. -/
noncomputable def energy (s : Sys n) (f : ℝ) (eta : n → ℝ) (G : ℝ → ℝ) (D : n → n → ℝ) : ℝ :=
  (∑ p, ∑ q, hcoreDO s f eta G p q * D q p) +
    1 / 2 * ∑ p, ∑ q, (vDse s f eta D p q + vEri s eta G D p q) * D q p

/-- `scqedhf.py` L637-651: the one-electron part of the gradient. -/
noncomputable def onebodyDeta (s : Sys n) (f : ℝ) (eta : n → ℝ) (dG : ℝ → ℝ) (D : n → n → ℝ)
    (p : n) : ℝ :=
  -(2 * D p p * gDipole s f eta p / s.omega) +
    ∑ q, (2 * h1eDO s f eta p q * D p q * dG (eta p - eta q) -
      (2 * D p p * D q q - D p q * D q p) * gDipole s f eta q / s.omega)

/-- `scqedhf.py` L665-671: the two-electron part of the gradient, four-index integrals. -/
noncomputable def twobodyDeta (s : Sys n) (eta : n → ℝ) (dG : ℝ → ℝ) (D : n → n → ℝ) (p : n) : ℝ :=
  ∑ q, (∑ r, ∑ t, dG (eta p - eta q + eta r - eta t) *
    (2 * s.eri p q r t - s.eri p t r q) * D r t) * D p q

/-- `scqedhf.py` L653-663: the same from the Cholesky tensor. -/
noncomputable def twobodyDetaChol {X : Type*} [Fintype X] (L : X → n → n → ℝ) (eta : n → ℝ)
    (dG : ℝ → ℝ) (D : n → n → ℝ) (p : n) : ℝ :=
  ∑ q, (∑ r, ∑ t, (2 * (∑ x, L x p q * L x r t) - ∑ x, L x p t * L x r q) *
    dG (eta r - eta t + (eta p - eta q)) * D r t) * D p q

/-- `scqedhf.py` L620-678: `eta_grad`. -/
noncomputable def etaGrad (s : Sys n) (f : ℝ) (eta : n → ℝ) (dG : ℝ → ℝ) (D : n → n → ℝ) (p : n) : ℝ :=
  onebodyDeta s f eta dG D p + twobodyDeta s eta dG D p

/-- `vtqedhf.py` L288-315: the electronic part of the squeezing gradient; `dS` is
`gaussian_derivative_sq_vector`, called with the reversed differences. -/
noncomputable def vsqGrad (s : Sys n) (f : ℝ) (eta : n → ℝ) (dS : ℝ → ℝ) (D : n → n → ℝ) : ℝ :=
  (∑ p, ∑ q, h1eDO s f eta p q * dS (eta q - eta p) * D p q) +
    (∑ p, ∑ q, (∑ r, ∑ t, dS (eta q - eta p + eta t - eta r) *
      (2 * s.eri p q r t - s.eri p t r q) * D r t) * D p q) / 4

/-- `vtqedhf.py` L303-309: the two-electron part of the squeezing gradient from the Cholesky
tensor (`shift = eta[q] - eta[p]`). -/
noncomputable def vsqTwoChol {X : Type*} [Fintype X] (L : X → n → n → ℝ) (eta : n → ℝ)
    (dS : ℝ → ℝ) (D : n → n → ℝ) : ℝ :=
  ∑ p, ∑ q, (∑ r, ∑ t, (2 * (∑ x, L x p q * L x r t) - ∑ x, L x p t * L x r q) *
    dS (eta t - eta r + (eta q - eta p)) * D r t) * D p q / 4

/-- `vtqedhf.py` L471-518: the electronic part of the gradient in the fraction; `dF` is
`gaussian_derivative_f_vector` (already divided by `f`). -/
noncomputable def vlfGrad (s : Sys n) (f : ℝ) (eta : n → ℝ) (dF : ℝ → ℝ) (D : n → n → ℝ) : ℝ :=
  let g := gDipole s f eta
  (if |f| > 1e-5 then 2 * (∑ p, D p p * g p ^ 2) / s.omega / f else 0) +
    ((∑ p, ∑ q, h1eDO s f eta p q * dF (eta p - eta q) * D p q) +
      (2 * (∑ p, ∑ q, (D p p * g p) * (D q q * g q)) - ∑ p, ∑ q, D p q * D p q * g p * g q) /
        s.omega / f) +
    (∑ p, ∑ q, (∑ r, ∑ t, dF (eta p - eta q + eta r - eta t) *
      (2 * s.eri p q r t - s.eri p t r q) * D r t) * D p q) / 4

/-! ### Change of basis -/

/-- `scqedhf.py` L67-71: `unitary_transform(U, A) = U^T A U`. -/
def unitaryTransform {m : Type*} [Fintype m] (U A : Matrix m m ℝ) : Matrix m m ℝ := Uᵀ * A * U

/-- `scqedhf.py` L578-581: `get_dm_do`. -/
def dmDO {m : Type*} [Fintype m] (S dm U : Matrix m m ℝ) : Matrix m m ℝ :=
  unitaryTransform (S * U) dm

/-! ### Initial orbitals -/

/-- `mathlib.py` L141-205: what `full_cholesky_orth` computes: `P^T S P = L L^T` with a selection
matrix `P` and a lower triangular `L`; returned in the order `(L, P)`. -/
structure IsCholOrth {N K : ℕ} (S : Matrix (Fin N) (Fin N) ℝ) (L : Matrix (Fin K) (Fin K) ℝ)
    (P : Matrix (Fin N) (Fin K) ℝ) : Prop where
  factor : Pᵀ * S * P = L * Lᵀ
  lower : ∀ i j, i < j → L i j = 0
  select : ∃ piv : Fin K → Fin N, Function.Injective piv ∧ ∀ a i, P a i = if a = piv i then 1 else 0

/-- `scipy.linalg.eigh(F, S)`: generalised eigenvectors, normalised in the metric `S`. -/
structure IsEigh {K : ℕ} (F S c : Matrix (Fin K) (Fin K) ℝ) (e : Fin K → ℝ) : Prop where
  eig : F * c = S * c * Matrix.diagonal e
  norm : cᵀ * S * c = 1

/-- `scqedhf.py` L82-88: `cholesky_diag_fock_rao` with the attributes `mf.P`, `mf.L`. -/
def IsRaoOrbitals {N K : ℕ} (F : Matrix (Fin N) (Fin N) ℝ) (P : Matrix (Fin N) (Fin K) ℝ)
    {J : Type*} [Fintype J] (L : Matrix (Fin K) J ℝ) (C : Matrix (Fin N) (Fin K) ℝ) : Prop :=
  ∃ c e, IsEigh (Pᵀ * F * P) (L * Lᵀ) c e ∧ C = P * c

/-- `scqedhf.py` L485-494: `self.P, self.L = full_cholesky_orth(...)`: the attributes are the
results in the order they are returned, so `mf.P` is the factor and `mf.L` the selection matrix.
Only for as many vectors as basis functions do the shapes match afterwards. -/
def IsInitialOrbitals {N : ℕ} (F S : Matrix (Fin N) (Fin N) ℝ) (C : Matrix (Fin N) (Fin N) ℝ) : Prop :=
  ∃ L P, IsCholOrth (N := N) (K := N) S L P ∧ IsRaoOrbitals F L P C

/-! ### Parameter vectors -/

/-- The variational parameters: displacements, fractions, squeezing. -/
structure Params where
  eta : List ℝ
  f : List ℝ
  sq : List ℝ

/-- `vtqedhf.py` L549-560: `pre_update_var_params`, first result, flattened. -/
def preUpdate (varf vsq : Bool) (p : Params) : List ℝ :=
  p.eta ++ (if varf then p.f else []) ++ (if vsq then p.sq else [])

/-- `vtqedhf.py` L563-585: `set_var_params`; `reshape` raises (`none`) if the number of entries
differs. -/
def setVarParams (varf vsq : Bool) (p : Params) (v : List ℝ) : Option Params :=
  let i1 := p.eta.length
  let i2 := i1 + p.f.length
  let e := if v.length > 0 then v.take i1 else p.eta
  let f := if v.length > i1 ∧ varf then (v.drop i1).take p.f.length else p.f
  let q := if v.length > i2 ∧ vsq then v.drop i2 else p.sq
  if e.length = p.eta.length ∧ f.length = p.f.length ∧ q.length = p.sq.length then
    some ⟨e, f, q⟩
  else none

/-- `vtqedhf.py` L588-611: `set_params`; the vector starts with the Fock matrix. -/
def setParams (varf vsq : Bool) (p : Params) (fsize : ℕ) (v : List ℝ) : Option (List ℝ × Params) :=
  let i0 := fsize
  let i1 := i0 + p.eta.length
  let i2 := i1 + p.f.length
  let e := if v.length > i0 then (v.drop i0).take p.eta.length else p.eta
  let f := if varf ∧ v.length > i1 then (v.drop i1).take p.f.length else p.f
  let q := if vsq ∧ v.length > i2 then v.drop i2 else p.sq
  if (v.take fsize).length = fsize ∧ e.length = p.eta.length ∧ f.length = p.f.length ∧
      q.length = p.sq.length then
    some (v.take fsize, ⟨e, f, q⟩)
  else none

/-! ### Density matrix in the original representation -/

/-- `qedhf.py` L826-827: `rho = (mocc * occ) mocc^T` over occupied orbitals. -/
def mkRho {a i : Type*} [Fintype i] (C : Matrix a i ℝ) (occ : i → ℝ) : Matrix a a ℝ :=
  Matrix.of fun p q => ∑ k, C p k * occ k * C q k

/-- `qedhf.py` L838-842, `scqedhf.py` L1159-1161, `vtqedhf.py` L657-660: the amplitude for `m`
photons: `exp(-z²/2) z^m sqrt(m!)`; `sgn` is -1 where the code has `(-zalpha) ** n`. -/
noncomputable def zAmp (sgn z : ℝ) (m : ℕ) : ℝ :=
  Real.exp (-(1 / 2) * z ^ 2) * (sgn * z) ^ m * Real.sqrt (m.factorial : ℝ)

variable {a : Type*} [Fintype a]

/-- `qedhf.py` L833-845: the block `rho_tot[m, :, k, :]`. -/
noncomputable def orgHF (rho : Matrix a a ℝ) (z : ℝ) (m k : ℕ) : Matrix a a ℝ :=
  Matrix.of fun p q => rho p q * zAmp 1 z m * zAmp 1 z k

/-- `scqedhf.py` L1145-1168 (`sgn = -1`) and `vtqedhf.py` L641-667 (`sgn = 1`): transformation to
the dipole basis, displacement of each dipole orbital by its own `z p`, and back. -/
noncomputable def orgDO (sgn : ℝ) (U Uinv rho : Matrix a a ℝ) (z : a → ℝ) (m k : ℕ) : Matrix a a ℝ :=
  unitaryTransform Uinv (Matrix.of fun p q =>
    unitaryTransform U rho p q * (zAmp 1 (z p) m * zAmp sgn (z q) k))

/-- `qedhf.py` L847, `vtqedhf.py` L669: `rho_e`. -/
noncomputable def rhoE (tot : ℕ → ℕ → Matrix a a ℝ) (nfock : ℕ) : Matrix a a ℝ :=
  ∑ m ∈ Finset.range nfock, tot m m

/-- `qedhf.py` L848, `vtqedhf.py` L670: `rho_b`. -/
noncomputable def rhoB (tot : ℕ → ℕ → Matrix a a ℝ) (nfock : ℕ) (m k : ℕ) : ℝ :=
  (tot m k).trace / (rhoE tot nfock).trace

end OpenMS.ScQed
