import Verif.Model.Fdtd
import Verif.Model.FdtdGrid

/-!
# Energies and losses of the Maxwell solver

Model of `/repo/openms/lib/fdtd/energy.c`.  The fluxes `Sx`, `Sy`, `Sz` and the energy at the nodes
(`grid_value`, C158) are given functions.  Numbers are exact.  Not modelled: files; the losses by
`Drude_energy_loss_in_block2`.
-/

namespace OpenMS.FdtdEnergy

open OpenMS.Fdtd (Ix irange)
open OpenMS.FdtdGrid (trunc)

/-- `pFDTD.h` L246-250: sizes, absorbing layers and spacings. -/
structure Grid (K : Type*) where
  isize : ℤ
  jsize : ℤ
  ksize : ℤ
  pmlil : ℤ
  pmlir : ℤ
  pmljl : ℤ
  pmljr : ℤ
  pmlkl : ℤ
  pmlkr : ℤ
  lattice_x : ℤ
  lattice_y : ℤ
  lattice_z : ℤ
  ds_x : K
  ds_y : K
  ds_nz : ℤ → K

/-- The three components of the flux at the nodes. -/
structure Flux (K : Type*) where
  x : Ix → K
  y : Ix → K
  z : Ix → K

/-- `energy.c` L321: `pmlil + 0.2 * lattice_x`. -/
def lo (pml lattice : ℤ) : ℚ := pml + 1 / 5 * lattice

/-- `energy.c` L319: `isize - 2 - pmlir - 0.2 * lattice_x`. -/
def hi (size pml lattice : ℤ) : ℚ := size - 2 - pml - 1 / 5 * lattice

/-- `for (i = a; i <= b; i++)` with `int i` and real bounds. -/
def upTo (a b : ℚ) : List ℤ := irange (trunc a) (⌊b⌋ + 1)

/-- `for (k = a; k >= b; k--)` with `int k` and real bounds. -/
def downTo (a b : ℚ) : List ℤ := (irange ⌈b⌉ (trunc a + 1)).reverse

section

variable {K : Type*} [Field K]

/-- A sum over a double loop. -/
def sum2 (l m : List ℤ) (f : ℤ → ℤ → K) : K := (l.map fun a => (m.map fun b => f a b).sum).sum

/-- `energy.c` L323-324 and others: the loop over `i`. -/
def Grid.is (G : Grid K) : List ℤ := upTo (1 + lo G.pmlil G.lattice_x) (hi G.isize G.pmlir G.lattice_x)

/-- `energy.c` L316-317 and others: the loop over `j`. -/
def Grid.js (G : Grid K) : List ℤ := upTo (1 + lo G.pmljl G.lattice_y) (hi G.jsize G.pmljr G.lattice_y)

/-- `energy.c` L314-315: the loop over `k`. -/
def Grid.ks (G : Grid K) : List ℤ := downTo (hi G.ksize G.pmlkr G.lattice_z) (1 + lo G.pmlkl G.lattice_z)

/-- Net flux along `x` between the two planes for the layers `l`: `energy.c` L314-322,
L424-432, L483-491, L503-511. -/
def sideX (G : Grid K) (S : Flux K) (l : List ℤ) : K :=
  sum2 l G.js (fun k j => G.ds_y * G.ds_nz k * S.x (trunc (hi G.isize G.pmlir G.lattice_x), j, k)) -
    sum2 l G.js fun k j => G.ds_y * G.ds_nz k * S.x (trunc (lo G.pmlil G.lattice_x), j, k)

/-- Net flux along `y` for the layers `l`, with the width `pmlj` of the layer that gives the upper plane:
`energy.c` L323-331, L433-441, L492-500, L512-520. -/
def sideY (G : Grid K) (S : Flux K) (pmlj : ℤ) (l : List ℤ) : K :=
  sum2 G.is l (fun i k => G.ds_nz k * G.ds_x * S.y (i, trunc (hi G.jsize pmlj G.lattice_y), k)) -
    sum2 G.is l fun i k => G.ds_nz k * G.ds_x * S.y (i, trunc (lo G.pmljl G.lattice_y), k)

/-- Flux along `z` through the plane `k`: `energy.c` L332-339, L473-480. -/
def planeZ (G : Grid K) (S : Flux K) (k : ℤ) : K := sum2 G.is G.js fun i j => G.ds_x * G.ds_y * S.z (i, j, k)

/-- `energy.c` L310-343: the increments of `Sumx`, `Sumy`, `Sumz` in `Poynting_total`; the upper plane
along `y` is computed from `pmljl` (L328). -/
def poyntingTotal (G : Grid K) (S : Flux K) : K × K × K :=
  (sideX G S G.ks, sideY G S G.pmljl G.ks,
    planeZ G S (trunc (hi G.ksize G.pmlkr G.lattice_z)) - planeZ G S (trunc (lo G.pmlkl G.lattice_z)))

/-- `energy.c` L420-445: the increments of `SideSumx`, `SideSumy` in `Poynting_side`; `kl` and `ku` are the
two values of `non_uniform_z_to_i`. -/
def poyntingSide (G : Grid K) (S : Flux K) (kl ku : ℤ) : K × K :=
  (sideX G S (downTo ku kl), sideY G S G.pmljr (downTo ku kl))

/-- `energy.c` L466-526: the increments of `SumUpper`, `SumLower` in `Poynting_UpDown`.  The loops over `k` and
`i` of the strips along `y` are exchanged here. -/
def poyntingUpDown (G : Grid K) (S : Flux K) (kl ku : ℤ) : K × K :=
  let up := downTo (hi G.ksize G.pmlkr G.lattice_z) ku
  let dn := upTo (1 + lo G.pmlkl G.lattice_z) kl
  (planeZ G S (trunc (hi G.ksize G.pmlkr G.lattice_z)) + sideX G S up + sideY G S G.pmljr up,
   -planeZ G S (trunc (lo G.pmlkl G.lattice_z)) + sideX G S dn + sideY G S G.pmljr dn)

/-- `energy.c` L447-455: `Ev = Et - Eh` in `print_energy`, for one call of the functions. -/
def verticalLoss (G : Grid K) (S : Flux K) (kl ku : ℤ) : K :=
  let T := poyntingTotal G S
  let H := poyntingSide G S kl ku
  (T.1 + T.2.1 + T.2.2) - (H.1 + H.2)

/-- `energy.c` L386-418: the sum of the increments in `Poynting_block`, with the indices of the six sides. -/
def poyntingBlock (G : Grid K) (S : Flux K) (xn xp yn yp zn zp : ℤ) : K :=
  (sum2 (downTo zp zn) (upTo yn yp) (fun k j => G.ds_y * G.ds_nz k * S.x (xp, j, k)) -
    sum2 (downTo zp zn) (upTo yn yp) fun k j => G.ds_y * G.ds_nz k * S.x (xn, j, k)) +
  (sum2 (upTo xn xp) (downTo zp zn) (fun i k => G.ds_nz k * G.ds_x * S.y (i, yp, k)) -
    sum2 (upTo xn xp) (downTo zp zn) fun i k => G.ds_nz k * G.ds_x * S.y (i, yn, k)) +
  (sum2 (upTo xn xp) (upTo yn yp) (fun i j => G.ds_x * G.ds_y * S.z (i, j, zp)) -
    sum2 (upTo xn xp) (upTo yn yp) fun i j => G.ds_x * G.ds_y * S.z (i, j, zn))

/-- `energy.c` L23-46: `total_E_energy_block`, with the indices of the six sides and the energy `u`. -/
def energyBlock (G : Grid K) (u : Ix → K) (xn xp yn yp zn zp : ℤ) : K :=
  ((upTo xn xp).map fun i => sum2 (downTo zp zn) (upTo yn yp) fun k j =>
    G.ds_x * G.ds_y * G.ds_nz k * u (i, j, k)).sum

/-- `energy.c` L135-164: `max_E_Energy_detector`; `none` stands for indices that were never assigned. -/
def detector [LinearOrder K] (u : Ix → K) (xn xp yn yp zn zp : ℤ) : Option Ix × K :=
  ((upTo xn xp).flatMap fun i => (downTo zp zn).flatMap fun k => (upTo yn yp).map fun j => ((i, j, k) : Ix)).foldl
    (fun (r : Option Ix × K) c => if r.2 < u c then (some c, u c) else r) (none, -12345)

end

/-- `energy.c` L361: the index of a point of the sphere along `x`. -/
def sphereX (x xcenter : ℚ) (lattice_x : ℤ) : ℤ := ⌊1 / 2 + (x + xcenter) * lattice_x⌋

/-- `energy.c` L362: the index along `y`, with the same `xcenter`. -/
def sphereY (y xcenter _ycenter : ℚ) (lattice_y : ℤ) : ℤ := ⌊1 / 2 + (y + xcenter) * lattice_y⌋

/-- `energy.c` L365-379: the components `r`, `theta` and `phi` in `Poynting_half_sphere_point`, from the three
terms `a = ds_y ds_nz Sx`, `b = ds_nz ds_x Sy`, `c = ds_x ds_y Sz`. -/
noncomputable def sphereParts (a b c θ φ : ℝ) : ℝ × ℝ × ℝ :=
  (a * Real.sin θ * Real.cos φ + b * Real.sin θ * Real.sin φ + c * Real.cos θ,
   a * Real.cos θ * Real.cos φ + b * Real.cos θ * Real.sin φ - c * Real.sin θ,
   -a * Real.sin φ + b * Real.cos φ)

end OpenMS.FdtdEnergy
