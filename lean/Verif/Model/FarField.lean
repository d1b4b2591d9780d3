import Mathlib.Tactic
import Mathlib.Analysis.SpecialFunctions.Pow.Real

/-!
# Far field of the Maxwell solver

Model of the directions, currents, intensities and powers in `/repo/openms/lib/fdtd/farfield.c` and of the maps of
the fields written by `print_real_and_imag_2n_size` of `/repo/openms/lib/fdtd/output.c`.  Numbers are exact.  The
Fourier transform is C160.  Not modelled: files, so neither `"%g"` with the pointers `P_tot`, `P_the`, `P_phi`
(`farfield.c` L1705, L1711, L1717); the commented function `calc_polar`.
-/

namespace OpenMS.FarField

/-! ### Maps of the fields (`output.c`) -/

/-- Sizes and layers, `pFDTD.h`. -/
structure Grid where
  isize : ℤ
  jsize : ℤ
  pmlil : ℤ
  pmlir : ℤ
  pmljl : ℤ
  pmljr : ℤ

/-- `output.c` L1811: `deltac`. -/
def deltac (G : Grid) (NROW : ℤ) : ℤ :=
  (NROW - (G.isize - 2)).tdiv 2 + (G.pmlil + 10 + G.pmlir + 10).tdiv 2

/-- `output.c` L1808-1810: `deltar`. -/
def deltar (G : Grid) (NROW : ℤ) : ℤ :=
  (NROW - (G.jsize - 2)).tdiv 2 + (G.pmljl + 10 + G.pmljr + 10).tdiv 2

/-- `output.c` L1817-1923: the node whose field is written at column `i` and line `j` of the first seven maps;
`none`: zero is written. -/
def node (G : Grid) (NROW i j : ℤ) : Option (ℤ × ℤ) :=
  if (deltac G NROW ≤ i ∧ i < NROW - deltac G NROW) ∧ (deltar G NROW ≤ j ∧ j < NROW - deltar G NROW) then
    some (i - deltac G NROW + (G.pmlil + 10), j - deltar G NROW + (G.pmlir + 10))
  else none

/-- `output.c` L1926-1939: the same for the imaginary part of `Hy`, with other bounds. -/
def nodeHy (G : Grid) (NROW i j : ℤ) : Option (ℤ × ℤ) :=
  if (deltac G NROW < i ∧ i < NROW - deltac G NROW) ∧ (deltar G NROW < j ∧ j < NROW - deltar G NROW) then
    some (i - deltac G NROW + (G.pmlil + 10), j - deltar G NROW + (G.pmlir + 10))
  else none

/-! ### Radius and size of the pattern (`farfield.c`) -/

/-- `farfield.c` L724: `k = floor(NROW * OMEGA / lattice_x)`. -/
noncomputable def radius (NROW lattice_x : ℤ) (omega : ℝ) : ℤ := ⌊NROW * omega / lattice_x⌋

/-- `farfield.c` L200-201: `row_s = (int)(10 * Nfree * k)` for numbers that are not negative. -/
noncomputable def rowS (nfree : ℝ) (k : ℤ) : ℤ := ⌊10 * nfree * k⌋

/-- `farfield.c` L1242-1267: `Nx_data_shrink` for the matrix `v` with the indices from `0` to `NROW`.  `none`:
outside of this matrix, or not written.  The other three functions are the same (L1269-1348). -/
def shrink {α : Type*} (NROW row_s : ℤ) (v : ℤ → ℤ → α) (a b : ℤ) : Option α :=
  let half := NROW / 2
  let half_s := row_s / 2
  let i := a + half - half_s
  let j := b + half - half_s
  if (half - half_s ≤ i ∧ i ≤ half + half_s) ∧ (half - half_s ≤ j ∧ j ≤ half + half_s) then
    if (0 ≤ i ∧ i ≤ NROW) ∧ (0 ≤ j ∧ j ≤ NROW) then some (v i j) else none
  else none

/-! ### Directions and intensities (`farfield.c`) -/

/-- `farfield.c` L722: `Eta`. -/
noncomputable def etaOf (nfree : ℝ) : ℝ := 377 / nfree

/-- `farfield.c` L1473-1475 and others: the test of the light cone. -/
def Inside (nfree k : ℝ) (h i j : ℤ) : Prop :=
  (i - h : ℝ) * (i - h) + (j - h) * (j - h) < nfree * nfree * k * k

/-- `cosp`, `sinp` and `cost` at one point. -/
structure Direction where
  cosp : ℝ
  sinp : ℝ
  cost : ℝ

open Classical in
/-- `farfield.c` L1471-1494: the direction of the point `(i, j)`; the middle is overwritten at the end. -/
noncomputable def direction (nfree k : ℝ) (h i j : ℤ) : Direction :=
  if i = h ∧ j = h then ⟨1 / Real.sqrt 2, 1 / Real.sqrt 2, 1⟩
  else if Inside nfree k h i j then
    ⟨(i - h) / Real.sqrt ((i - h) * (i - h) + (j - h) * (j - h)),
     (j - h) / Real.sqrt ((i - h) * (i - h) + (j - h) * (j - h)),
     Real.sqrt (1 - ((i - h) * (i - h) + (j - h) * (j - h)) / (nfree * nfree * k * k))⟩
  else ⟨0, 0, 0⟩

/-- One part, real or imaginary, of the transforms `Nx`, `Ny`, `Lx`, `Ly` at one point. -/
structure Currents where
  nx : ℝ
  ny : ℝ
  lx : ℝ
  ly : ℝ

/-- `farfield.c` L866-1010: the signs in `fourier_transform_Nx_Hy`, `..._Ny_Hx`, `..._Lx_Ey`, `..._Ly_Ex`, for the
transforms `ex`, `ey`, `hx`, `hy` of the fields. -/
def currents (ex ey hx hy : ℝ) : Currents := ⟨-hy, hx, ey, -ex⟩

/-- `farfield.c` L1500-1505: `Nt`. -/
def nt (d : Direction) (v : Currents) : ℝ := (v.nx * d.cosp + v.ny * d.sinp) * d.cost

/-- `farfield.c` L1506-1509: `Np`. -/
def np (d : Direction) (v : Currents) : ℝ := -v.nx * d.sinp + v.ny * d.cosp

/-- `farfield.c` L1510-1515: `Lt`. -/
def lt (d : Direction) (v : Currents) : ℝ := (v.lx * d.cosp + v.ly * d.sinp) * d.cost

/-- `farfield.c` L1516-1519: `Lp`. -/
def lp (d : Direction) (v : Currents) : ℝ := -v.lx * d.sinp + v.ly * d.cosp

/-- `farfield.c` L1526-1531: `ex`, with the number `377` in the second term. -/
noncomputable def ex (eta : ℝ) (d : Direction) (v : Currents) : ℝ :=
  -(np d v - lt d v / eta) * d.sinp + (nt d v + lp d v / 377) * d.cost * d.cosp

/-- `farfield.c` L1532-1537: `ey`. -/
noncomputable def ey (eta : ℝ) (d : Direction) (v : Currents) : ℝ :=
  (np d v - lt d v / eta) * d.cosp + (nt d v + lp d v / eta) * d.cost * d.sinp

/-- The real and imaginary parts at all points. -/
structure Data where
  re : ℤ → ℤ → Currents
  im : ℤ → ℤ → Currents

open Classical in
/-- `farfield.c` L1600-1605: `etheta`. -/
noncomputable def etheta (nfree k eta : ℝ) (h : ℤ) (D : Data) (i j : ℤ) : ℝ :=
  let d := direction nfree k h i j
  if Inside nfree k h i j then
    (nt d (D.re i j) + lp d (D.re i j) / eta) * (nt d (D.re i j) + lp d (D.re i j) / eta) +
      (nt d (D.im i j) + lp d (D.im i j) / eta) * (nt d (D.im i j) + lp d (D.im i j) / eta)
  else 0

open Classical in
/-- `farfield.c` L1626-1631: `ephi`. -/
noncomputable def ephi (nfree k eta : ℝ) (h : ℤ) (D : Data) (i j : ℤ) : ℝ :=
  let d := direction nfree k h i j
  if Inside nfree k h i j then
    (np d (D.re i j) - lt d (D.re i j) / eta) * (np d (D.re i j) - lt d (D.re i j) / eta) +
      (np d (D.im i j) - lt d (D.im i j) / eta) * (np d (D.im i j) - lt d (D.im i j) / eta)
  else 0

open Classical in
/-- `farfield.c` L1566-1578: `radint`. -/
noncomputable def radint (nfree k eta : ℝ) (h : ℤ) (D : Data) (i j : ℤ) : ℝ :=
  let d := direction nfree k h i j
  if Inside nfree k h i j then
    (nt d (D.re i j) + lp d (D.re i j) / eta) * (nt d (D.re i j) + lp d (D.re i j) / eta) +
      (nt d (D.im i j) + lp d (D.im i j) / eta) * (nt d (D.im i j) + lp d (D.im i j) / eta) +
      (np d (D.re i j) - lt d (D.re i j) / eta) * (np d (D.re i j) - lt d (D.re i j) / eta) +
      (np d (D.im i j) - lt d (D.im i j) / eta) * (np d (D.im i j) - lt d (D.im i j) / eta)
  else 0

open Classical in
/-- `farfield.c` L1653-1656: `eintx`. -/
noncomputable def eintx (nfree k eta : ℝ) (h : ℤ) (D : Data) (i j : ℤ) : ℝ :=
  let d := direction nfree k h i j
  if Inside nfree k h i j then ex eta d (D.re i j) * ex eta d (D.re i j) + ex eta d (D.im i j) * ex eta d (D.im i j)
  else 0

open Classical in
/-- `farfield.c` L1666-1669: `einty`. -/
noncomputable def einty (nfree k eta : ℝ) (h : ℤ) (D : Data) (i j : ℤ) : ℝ :=
  let d := direction nfree k h i j
  if Inside nfree k h i j then ey eta d (D.re i j) * ey eta d (D.re i j) + ey eta d (D.im i j) * ey eta d (D.im i j)
  else 0

open Classical in
/-- `farfield.c` L1584-1592, L1610-1618, L1636-1644: the power of the intensity `u`; both indices run from `0` to
`row_s`. -/
noncomputable def power (nfree k : ℝ) (row_s : ℕ) (h : ℤ) (u : ℤ → ℤ → ℝ) : ℝ :=
  ((List.range (row_s + 1)).reverse.map fun j : ℕ => ((List.range (row_s + 1)).map fun i : ℕ =>
    if Inside nfree k h i j then u i j / (direction nfree k h i j).cost else 0).sum).sum

end OpenMS.FarField
