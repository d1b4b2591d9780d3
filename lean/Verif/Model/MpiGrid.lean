import Mathlib.Tactic
import Mathlib.Algebra.Order.Floor.Ring
import Mathlib.Data.Rat.Floor

/-!
# Distribution of the Maxwell grid over the processes (`openms/lib/mpifdtd/src/init_mpi.c`)

The code is modelled as compiled with `MPION`.  A process is its triple `mpi_grid_coords`; a run is the
set of all triples below `mpi_grid_proces`.  Sizes and numbers of processes are integers that are not
negative, for which the division and remainder of C are `/` and `%` of Lean.
-/

namespace OpenMS.MpiGrid

/-- The triples that `MPI_Cart_coords` can return (`init_mpi.c` L62-66). -/
def Valid (procs c : Fin 3 → ℤ) : Prop := ∀ i, 0 ≤ c i ∧ c i < procs i

/-! ### Neighbours -/

/-- `init_mpi.c` L85-92: the coordinate below, wrapping around. -/
def down (procs c : ℤ) : ℤ := if c = 0 then procs - 1 else c - 1

/-- `init_mpi.c` L94-101: the coordinate above, wrapping around. -/
def up (procs c : ℤ) : ℤ := if c = procs - 1 then 0 else c + 1

/-- `init_mpi.c` L77-105: `mpi_proc_send[i]` of the electric field, as coordinates. -/
def eSend (procs c : Fin 3 → ℤ) (i : Fin 3) : Fin 3 → ℤ := Function.update c i (down (procs i) (c i))

/-- `init_mpi.c` L77-105: `mpi_proc_recv[i]` of the electric field. -/
def eRecv (procs c : Fin 3 → ℤ) (i : Fin 3) : Fin 3 → ℤ := Function.update c i (up (procs i) (c i))

/-- `init_mpi.c` L117-148: `mpi_proc_send[i]` of the magnetic field. -/
def hSend (procs c : Fin 3 → ℤ) (i : Fin 3) : Fin 3 → ℤ := Function.update c i (up (procs i) (c i))

/-- `init_mpi.c` L117-148: `mpi_proc_recv[i]` of the magnetic field. -/
def hRecv (procs c : Fin 3 → ℤ) (i : Fin 3) : Fin 3 → ℤ := Function.update c i (down (procs i) (c i))

/-! ### Ranges -/

/-- `init_mpi.c` L173-193, the same lines in `parameter.c` L275-297: `(mpi_grid_n1[i], mpi_grid_n2[i])`
from the size of the grid and the number of processes along `i`, with `c0` the coordinate
`mpi_grid_coords[0]` that the test uses for every `i`. -/
def bounds (size procs c0 c : ℤ) : ℤ × ℤ :=
  let dn := size / procs
  let rem := size % procs
  if rem ≠ 0 then
    if c0 < rem then (c * (dn + 1) + 1, (c + 1) * (dn + 1))
    else (c * (dn + 1) + 1 + rem, (c + 1) * dn + rem)
  else (c * dn + 1, (c + 1) * dn)

/-- The range of the process `c` along `i`. -/
def ends (size procs c : Fin 3 → ℤ) (i : Fin 3) : ℤ × ℤ := bounds (size i) (procs i) (c 0) (c i)

/-- `init_mpi.c` L202-204: `mygrid_nx`, `mygrid_ny`, `mygrid_nz`. -/
def mySize (size procs c : Fin 3 → ℤ) (i : Fin 3) : ℤ :=
  (ends size procs c i).2 - (ends size procs c i).1 + 1

/-- `init_mpi.c` L229-246: `mygrid_x` and the other two, as the list of its elements. -/
def myGrid (size procs c : Fin 3 → ℤ) (i : Fin 3) : List ℤ :=
  (List.range (mySize size procs c i).toNat).map fun j : ℕ => (ends size procs c i).1 + (j : ℤ)

/-! ### Search of a point -/

/-- `init_mpi.c` L253, L264, L271, L282: the point of the whole grid nearest to a position. -/
def target (x center lattice : ℚ) : ℤ := ⌊1 / 2 + (x + center) * lattice⌋

/-- `init_mpi.c` L256-262, L274-280: the loop over `n` elements of an array; `none` when it reads past
the end. -/
def search (grid : List ℤ) (n : ℕ) (t : ℤ) : Option ℤ :=
  (List.range n).foldlM (fun (index : ℤ) (j : ℕ) =>
    (grid[j]?).map fun v : ℤ => if |(v : ℚ) - (t : ℚ)| < 1 / 10 then (j : ℤ) else index) (-1)

/-- `init_mpi.c` L251-267: `findgrid_x` with its target. -/
def findX (size procs c : Fin 3 → ℤ) (t : ℤ) : Option ℤ :=
  search (myGrid size procs c 0) (mySize size procs c 0).toNat t

/-- `init_mpi.c` L269-285: `findgrid_y`, whose loop runs to `mygrid_nx`. -/
def findY (size procs c : Fin 3 → ℤ) (t : ℤ) : Option ℤ :=
  search (myGrid size procs c 1) (mySize size procs c 0).toNat t

/-- `source.c` L209-214: a process adds the dipole source when both searches succeed. -/
def adds (size procs c : Fin 3 → ℤ) (tx ty : ℤ) : Option Bool :=
  (findX size procs c tx).bind fun i => (findY size procs c ty).map fun j => !(i == -1 || j == -1)

end OpenMS.MpiGrid
