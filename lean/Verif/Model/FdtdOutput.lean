import Verif.Model.FdtdParity
import Verif.Model.FdtdBloch

/-!
# Values reported by the Maxwell solver

Model of the functions of `/repo/openms/lib/fdtd/output.c` that turn the arrays into values at the
nodes of the grid, also on the other side of a mirror plane and in other cells of a crystal.  The
imaginary arrays are read by the same formulas (`iefieldx` etc., L1369-1548).  Not modelled: files,
the choice of a component by its name, logarithms.
-/

namespace OpenMS.Fdtd

section

variable {K : Type*} [Field K]

/-- `output.c` L1192-1193: an index behind the end `p` of the loops is replaced by the one on the other
side, `n` being the size of the whole grid. -/
def otherSide (p σ n i : ℤ) : ℤ := if p ≤ i ∧ Parity.on σ then n - i else i

/-- `output.c` L1194: sign for a component half a cell behind its index. -/
def signHalf (p σ i : ℤ) : K := if p ≤ i ∧ Parity.on σ then (σ : K) else 1

/-- `output.c` L1198: sign for a component at its index. -/
def signInt (p σ i : ℤ) : K := if p ≤ i ∧ Parity.on σ then -(σ : K) else 1

/-- `output.c` L1189-1206: `efieldx`. -/
def efieldx (P : Par K) (M : Parity) (N : Ix) (e : Ix → EF K) : Ix → K := fun (i, j, k) =>
  let p : K := signHalf P.pisize M.x i * signInt P.pjsize M.y j * signInt P.pksize M.z k
  let i := otherSide P.pisize M.x N.1 i
  let j := otherSide P.pjsize M.y N.2.1 j
  let k := otherSide P.pksize M.z N.2.2 k
  p * ((e (i, j, k)).x + (e (i - 1, j, k)).x) / 2

/-- `output.c` L1208-1225: `efieldy`. -/
def efieldy (P : Par K) (M : Parity) (N : Ix) (e : Ix → EF K) : Ix → K := fun (i, j, k) =>
  let p : K := signInt P.pisize M.x i * signHalf P.pjsize M.y j * signInt P.pksize M.z k
  let i := otherSide P.pisize M.x N.1 i
  let j := otherSide P.pjsize M.y N.2.1 j
  let k := otherSide P.pksize M.z N.2.2 k
  p * ((e (i, j, k)).y + (e (i, j - 1, k)).y) / 2

/-- `output.c` L1227-1244: `efieldz`. -/
def efieldz (P : Par K) (M : Parity) (N : Ix) (e : Ix → EF K) : Ix → K := fun (i, j, k) =>
  let p : K := signInt P.pisize M.x i * signInt P.pjsize M.y j * signHalf P.pksize M.z k
  let i := otherSide P.pisize M.x N.1 i
  let j := otherSide P.pjsize M.y N.2.1 j
  let k := otherSide P.pksize M.z N.2.2 k
  p * ((e (i, j, k)).z + (e (i, j, k - 1)).z) / 2

/-- `output.c` L1246-1263: `jfieldx`. -/
def jfieldx (P : Par K) (M : Parity) (N : Ix) (e : Ix → EF K) : Ix → K := fun (i, j, k) =>
  let p : K := signHalf P.pisize M.x i * signInt P.pjsize M.y j * signInt P.pksize M.z k
  let i := otherSide P.pisize M.x N.1 i
  let j := otherSide P.pjsize M.y N.2.1 j
  let k := otherSide P.pksize M.z N.2.2 k
  p * ((e (i, j, k)).Jx + (e (i - 1, j, k)).Jx) / 2

/-- `output.c` L1265-1282: `jfieldy`. -/
def jfieldy (P : Par K) (M : Parity) (N : Ix) (e : Ix → EF K) : Ix → K := fun (i, j, k) =>
  let p : K := signInt P.pisize M.x i * signHalf P.pjsize M.y j * signInt P.pksize M.z k
  let i := otherSide P.pisize M.x N.1 i
  let j := otherSide P.pjsize M.y N.2.1 j
  let k := otherSide P.pksize M.z N.2.2 k
  p * ((e (i, j, k)).Jy + (e (i, j - 1, k)).Jy) / 2

/-- `output.c` L1284-1301: `jfieldz`. -/
def jfieldz (P : Par K) (M : Parity) (N : Ix) (e : Ix → EF K) : Ix → K := fun (i, j, k) =>
  let p : K := signInt P.pisize M.x i * signInt P.pjsize M.y j * signHalf P.pksize M.z k
  let i := otherSide P.pisize M.x N.1 i
  let j := otherSide P.pjsize M.y N.2.1 j
  let k := otherSide P.pksize M.z N.2.2 k
  p * ((e (i, j, k)).Jz + (e (i, j, k - 1)).Jz) / 2

/-- `output.c` L1303-1323: `hfieldx`. -/
def hfieldx (P : Par K) (M : Parity) (N : Ix) (h : Ix → HF K) : Ix → K := fun (i, j, k) =>
  let p : K := signInt P.pisize M.x i * signHalf P.pjsize M.y j * signHalf P.pksize M.z k
  let i := otherSide P.pisize M.x N.1 i
  let j := otherSide P.pjsize M.y N.2.1 j
  let k := otherSide P.pksize M.z N.2.2 k
  p * ((h (i, j, k)).x + (h (i, j - 1, k)).x + (h (i, j, k - 1)).x + (h (i, j - 1, k - 1)).x) / 4

/-- `output.c` L1325-1345: `hfieldy`. -/
def hfieldy (P : Par K) (M : Parity) (N : Ix) (h : Ix → HF K) : Ix → K := fun (i, j, k) =>
  let p : K := signHalf P.pisize M.x i * signInt P.pjsize M.y j * signHalf P.pksize M.z k
  let i := otherSide P.pisize M.x N.1 i
  let j := otherSide P.pjsize M.y N.2.1 j
  let k := otherSide P.pksize M.z N.2.2 k
  p * ((h (i, j, k)).y + (h (i, j, k - 1)).y + (h (i - 1, j, k)).y + (h (i - 1, j, k - 1)).y) / 4

/-- `output.c` L1347-1367: `hfieldz`. -/
def hfieldz (P : Par K) (M : Parity) (N : Ix) (h : Ix → HF K) : Ix → K := fun (i, j, k) =>
  let p : K := signHalf P.pisize M.x i * signHalf P.pjsize M.y j * signInt P.pksize M.z k
  let i := otherSide P.pisize M.x N.1 i
  let j := otherSide P.pjsize M.y N.2.1 j
  let k := otherSide P.pksize M.z N.2.2 k
  p * ((h (i, j, k)).z + (h (i - 1, j, k)).z + (h (i, j - 1, k)).z + (h (i - 1, j - 1, k)).z) / 4

/-- `output.c` L735-743: the components `Sx`, `Sy`, `Sz` of the flux in `grid_value`. -/
def gridS (P : Par K) (M : Parity) (N : Ix) (e : Ix → EF K) (h : Ix → HF K) (c : Ix) : K × K × K :=
  (efieldy P M N e c * hfieldz P M N h c - efieldz P M N e c * hfieldy P M N h c,
   efieldz P M N e c * hfieldx P M N h c - efieldx P M N e c * hfieldz P M N h c,
   efieldx P M N e c * hfieldy P M N h c - efieldy P M N e c * hfieldx P M N h c)

end

/-- `output.c` L834-835: a value in the cell number `h` along `x` from the real and the imaginary array. -/
noncomputable def periodicX (kx : ℝ) (h : ℤ) (re im : ℝ) : ℝ :=
  re * Real.cos (2 * Real.pi * h * kx) - im * Real.sin (2 * Real.pi * h * kx)

/-- `output.c` L953-954: the same along `y`. -/
noncomputable def periodicY (ky : ℝ) (h : ℤ) (re im : ℝ) : ℝ :=
  re * Real.cos (2 * Real.pi * h * ky) - im * Real.sin (2 * Real.pi * h * ky)

/-- `output.c` L1073-1074: the same for both directions. -/
noncomputable def periodicXY (kx ky : ℝ) (h v : ℤ) (re im : ℝ) : ℝ :=
  re * Real.cos (2 * Real.pi * h * kx + v * ky) - im * Real.sin (2 * Real.pi * h * kx + v * ky)

/-- `output.c` L369 and L404-408: the pairs of an index and a cell number along one printed row of
`out_plane_periodic`, with `i_range = isize - 1`. -/
def printedRow (isize : ℤ) (m : ℤ) : List (ℤ × ℤ) :=
  (irange 0 m).flatMap fun h => (irange 1 isize).map fun i => (i, h)

/-- `output.c` L417-418: the pairs of an index and a cell number down one printed column:
the cells upwards, the indices inside a cell downwards. -/
def printedColumn (jsize : ℤ) (m : ℤ) : List (ℤ × ℤ) :=
  (irange 0 m).flatMap fun v => (irange 1 jsize).reverse.map fun j => (j, v)

end OpenMS.Fdtd
