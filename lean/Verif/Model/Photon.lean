import Mathlib.Analysis.SpecialFunctions.Trigonometric.Deriv
import Mathlib.Analysis.SpecialFunctions.Pow.Real
import Mathlib.LinearAlgebra.Matrix.Trace
import Mathlib.Data.List.GetD

/-!
# Photon Hamiltonian, photon energy, dressed one-electron term, dipole self-energy

Model of parts of `/repo/openms/lib/boson.py` (`get_bosonic_Ham` L148-212, `Boson.__init__`
L640-657, `update_boson_coeff` L1052-1149, `add_oei_ao` L1439-1607, `update_cs` L1407-1436) and
of `/repo/openms/mqed/qedhf.py` (`get_dse_jk` L508-573, `energy_elec` L696-735).
-/

namespace OpenMS.Photon

open Matrix

/-! ### Bosonic Hamiltonian -/

/-- `boson.py` L195-207: the block `H0` of one mode: `(diag(arange * cosh2r + sinhr²)) * omega`
plus `h_od * za`. -/
noncomputable def modeBlock (omega za F : ℝ) (a b : ℕ) : ℝ :=
  (if a = b then ((a : ℝ) * Real.cosh (2 * F) + Real.sinh F * Real.sinh F) * omega else 0) +
    ((if b = a + 1 then Real.sqrt (a + 1) else 0) + (if a = b + 1 then Real.sqrt (b + 1) else 0)) * za

/-- Parameters of one mode: number of states, frequency, displacement, squeezing. -/
structure Mode where
  mdim : ℕ
  omega : ℝ
  za : ℝ
  F : ℝ

/-- `boson.py` L190-210: the loop over modes; `Hb[idx:idx+mdim, idx:idx+mdim] = H0`. -/
noncomputable def bosonicHam (modes : List Mode) : (ℕ → ℕ → ℝ) × ℕ :=
  modes.foldl (fun s m =>
    (fun i j => if s.2 ≤ i ∧ i < s.2 + m.mdim ∧ s.2 ≤ j ∧ j < s.2 + m.mdim then
        modeBlock m.omega m.za m.F (i - s.2) (j - s.2) else s.1 i j,
      s.2 + m.mdim)) (fun _ _ => 0, 0)

/-! ### Photon energy -/

/-- `boson.py` L1134-1143: energy of one mode from the amplitudes `v` (real eigenvector). -/
noncomputable def modeEnergy (omega F : ℝ) (mdim : ℕ) (v : ℕ → ℝ) : ℝ :=
  omega * ∑ n ∈ Finset.range mdim, v n * v n * (((n : ℝ) + 1 / 2) * Real.cosh (2 * F) - 1 / 2)

/-- `boson.py` L1141, L1143: the gradient of one mode. -/
noncomputable def modeEnergyGrad (omega F : ℝ) (mdim : ℕ) (v : ℕ → ℝ) : ℝ :=
  omega * ∑ n ∈ Finset.range mdim, v n * v n * (((n : ℝ) + 1 / 2) * Real.sinh (2 * F) * 2)

/-- `boson.py` L1131-1145: the total photon energy: consecutive slices of the first column `c`
of the eigenvector matrix of the whole Hamiltonian. -/
noncomputable def photonEnergy (modes : List Mode) (c : ℕ → ℝ) : ℝ × ℕ :=
  modes.foldl (fun s m => (s.1 + modeEnergy m.omega m.F m.mdim (fun n => c (s.2 + n)), s.2 + m.mdim))
    (0, 0)

/-- `boson.py` L1139: total population of every mode as computed from the slices. -/
noncomputable def populations (modes : List Mode) (c : ℕ → ℝ) : List ℝ × ℕ :=
  modes.foldl (fun s m => (s.1 ++ [∑ n ∈ Finset.range m.mdim, c (s.2 + n) * c (s.2 + n)], s.2 + m.mdim))
    ([], 0)

/-! ### Dressed one-electron term -/

variable {X n : Type*} [Fintype X] [Fintype n]

/-- `einsum("pq, Xpq -> X", dm, gmat)` for one mode. -/
noncomputable def contract (D g : Matrix n n ℝ) : ℝ := ∑ p, ∑ q, D p q * g p q

/-- `boson.py` L1545-1553, `qedhf.py` L537-543: the factor `gvar2` of a mode. -/
noncomputable def gvar2 (residue addDse : Bool) (f : ℝ) : ℝ :=
  if residue then (if addDse then (1 - f) ^ 2 else f * (f - 2)) else 1

/-- `boson.py` L1553: `dg = -2 * couplings_res` (only defined when `residue`). -/
noncomputable def dgvar (f : ℝ) : ℝ := -2 * (1 - f)

/-- Everything `add_oei_ao` reads apart from the fractions: couplings `g`, displacements `z`,
the self-energy matrices `T` (`-q_lambda_ao` or `g S⁻¹ g`), overlap, number of electrons, photon
energy, frequencies, `⟨b + b†⟩` of every mode. -/
structure Dressing (X n : Type*) where
  g : X → Matrix n n ℝ
  z : X → ℝ
  T : X → Matrix n n ℝ
  S : Matrix n n ℝ
  ne : ℝ
  eBoson : ℝ
  omega : X → ℝ
  ph : X → ℝ
  addDse : Bool

/-- `boson.py` L1439-1607: the matrix `oei` as a function of the fractions `f`. -/
noncomputable def oei (d : Dressing X n) (residue : Bool) (f : X → ℝ) : Matrix n n ℝ :=
  Matrix.of fun p q =>
    -(∑ x, d.g x p q * (gvar2 residue d.addDse (f x) * d.z x)) +
      (if d.addDse then 1 / 2 * ∑ x, gvar2 residue d.addDse (f x) * d.T x p q else 0) +
      (1 / 2 * (∑ x, d.z x ^ 2 * gvar2 residue d.addDse (f x)) + d.eBoson) * d.S p q / d.ne +
      ∑ x, d.ph x * ((d.g x p q - d.S p q * d.z x) * Real.sqrt (1 / 2 * d.omega x)) * (1 - f x)

/-- `boson.py` L1439-1607: the matrix `oei_grad` (`compute_grad=True`, `residue=True`). -/
noncomputable def oeiGrad (d : Dressing X n) (f : X → ℝ) : Matrix n n ℝ :=
  Matrix.of fun p q =>
    -(∑ x, d.g x p q * (dgvar (f x) * d.z x)) +
      (if d.addDse then 1 / 2 * ∑ x, dgvar (f x) * d.T x p q else 0) +
      1 / 2 * (∑ x, d.z x ^ 2 * dgvar (f x)) * d.S p q / d.ne -
      ∑ x, d.ph x * ((d.g x p q - d.S p q * d.z x) * Real.sqrt (1 / 2 * d.omega x))

/-- `qedhf.py` L545-561: the matrix `vj_dse`. -/
noncomputable def vjDse (g : X → Matrix n n ℝ) (gv : X → ℝ) (D : Matrix n n ℝ) : Matrix n n ℝ :=
  Matrix.of fun p q => ∑ x, g x p q * contract D (g x) * gv x

/-- `qedhf.py` L553-556: the matrix `vk_dse`. -/
noncomputable def vkDse (g : X → Matrix n n ℝ) (gv : X → ℝ) (D : Matrix n n ℝ) : Matrix n n ℝ :=
  Matrix.of fun p q => ∑ x, ∑ r, g x p r * (∑ s, g x q s * D r s) * gv x

/-- `qedhf.py` L550-560: the matrix `grad_vjk`. -/
noncomputable def gradVjk (g : X → Matrix n n ℝ) (f : X → ℝ) (D : Matrix n n ℝ) : Matrix n n ℝ :=
  vjDse g (fun x => dgvar (f x)) D - (1 / 2 : ℝ) • vkDse g (fun x => dgvar (f x)) D

/-- `qedhf.py` L728-735: `energy_elec` for the dipole self-energy part:
`einsum('ij,ji->', h1e, dm) + einsum('ij,ji->', vhf, dm) / 2`, with `vhf = vj - vk / 2`. -/
noncomputable def energyElec (h1e vhf D : Matrix n n ℝ) : ℝ :=
  (h1e * D).trace + (vhf * D).trace / 2

/-- `boson.py` L240-258, L1952-1990: the interaction matrix of a mode with coupling `lam` and
polarisation `e`, from the position integrals `R` about the coordinate origin:
`dipole_ao = -int1e_r` about the point `o`, contracted with `vec` and scaled. -/
noncomputable def gMode (lam : ℝ) (e o : Fin 3 → ℝ) (R : Fin 3 → Matrix n n ℝ) (S : Matrix n n ℝ) :
    Matrix n n ℝ := lam • ∑ c, e c • (-(R c - o c • S))

/-- `boson.py` L324-338, L1890-1904: `q_lambda_ao` of a mode:
`quadrupole_ao = -int1e_rr` about the point `o`, contracted with `outer(vec, vec) * couplings²`. -/
noncomputable def qLambda (lam : ℝ) (e o : Fin 3 → ℝ) (R : Fin 3 → Matrix n n ℝ)
    (RR : Fin 3 → Fin 3 → Matrix n n ℝ) (S : Matrix n n ℝ) : Matrix n n ℝ :=
  ∑ x, ∑ y, (e x * e y * lam ^ 2) •
    (-(RR x y - o x • R y - o y • R x + (o x * o y) • S))

/-- `boson.py` L1559-1566: `tmp_term` of one mode; in an incomplete basis `g S⁻¹ g` (`Sinv` is the
inverse from the eigenvalue decomposition). -/
noncomputable def tmpTerm (completeBasis : Bool) (q g Sinv : Matrix n n ℝ) : Matrix n n ℝ :=
  if completeBasis then -q else g * Sinv * g

/-- `boson.py` L1587-1592: `ph_exp_val = sum(h_od * outer(ci, ci))`, the two off-diagonals of
`h_od` written as one sum each. -/
noncomputable def phExpVal (mdim : ℕ) (c : ℕ → ℝ) : ℝ :=
  ∑ a ∈ Finset.range mdim, ∑ b ∈ Finset.range mdim,
    ((if b = a + 1 then Real.sqrt (a + 1) else 0) + (if a = b + 1 then Real.sqrt (b + 1) else 0)) *
      (c a * c b)

/-! ### Mode vectors -/

/-- `boson.py` L649-657: normalisation of the mode vectors in place.  `norm` is
`numpy.sqrt(numpy.dot(v, v))`.  Result: the caller's array after the call (a list argument is
copied by `asarray` first, an array is not), the stored vectors and the couplings. -/
noncomputable def normalise (vec : List (Fin 3 → ℝ)) : List (Fin 3 → ℝ) :=
  open Classical in
  vec.map fun v =>
    let cnst := Real.sqrt (∑ i, v i * v i)
    if cnst > 1e-15 then fun i => v i / cnst else v

/-- `boson.py` L629-657: `Boson.__init__` as far as the mode vectors are concerned. -/
noncomputable def buildModes (isArray : Bool) (vec : List (Fin 3 → ℝ)) (gfac : Option (List ℝ)) :
    List (Fin 3 → ℝ) × List (Fin 3 → ℝ) × List ℝ :=
  (if isArray then normalise vec else vec, normalise vec,
    gfac.getD (vec.map fun v => Real.sqrt (∑ i, v i * v i)))

end OpenMS.Photon
