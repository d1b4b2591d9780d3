import Mathlib.Algebra.Order.Floor.Ring
import Mathlib.Data.Nat.GCD.Basic
import Mathlib.Data.Rat.Floor
import Mathlib.Analysis.Real.Sqrt
import Mathlib.Tactic

/-!
# Grid of the Maxwell solver

Model of `/repo/openms/lib/fdtd/parameter.c`: common multiple of the lattice constants, order of the
regions with another lattice constant, and the maps between heights and grid points.  Heights are
rational numbers instead of `float`, and `int` does not overflow.
-/

namespace OpenMS.FdtdGrid

/-- `parameter.c` L458-462: the loop of `gcd2`; no value for a remainder by zero. -/
def euclid (m n : ℕ) : Option ℕ :=
  if _h : n = 0 then none
  else if m % n = 0 then some n
  else euclid n (m % n)
termination_by n
decreasing_by exact Nat.mod_lt _ (Nat.pos_of_ne_zero _h)

/-- `parameter.c` L448-465: `gcd2`. -/
def gcd2 (m n : ℕ) : Option ℕ := if n > m then euclid n m else euclid m n

/-- `parameter.c` L444-446: `lcm2`. -/
def lcm2 (m n : ℕ) : Option ℕ := (gcd2 m n).map fun g => m * n / g

/-- `parameter.c` L442: `lcm3`. -/
def lcm3 (a b c : ℕ) : Option ℕ := (lcm2 b c).bind fun l => lcm2 a l

/-- `parameter.c` L289-294 and L356: the integer division for `ds_x`, `ds_y`, `ds_z` and
`ds_nz`. -/
def cellSize (lx ly lmax l : ℕ) : Option ℕ := (lcm3 lx ly lmax).map fun c => c / l

/-- `parameter.c` L273 and L298-299: the time step from the constants and the parameter `S`. -/
noncomputable def timeStep (eo uo S : ℝ) : ℝ :=
  let light_speed := 1 / √(eo * uo)
  1 / light_speed / S

/-- Conversion of a number to `int`: towards zero. -/
def trunc (q : ℚ) : ℤ := if 0 ≤ q then ⌊q⌋ else ⌈q⌉

/-! ### Sorting -/

section sort

variable {α : Type*}

/-- `parameter.c` L81-82: first inner loop, from `i` upwards. -/
def scanUp (key : α → ℚ) (a : ℤ → α) (p : ℚ) (right : ℤ) (i : ℤ) : ℤ :=
  if key (a i) < p ∧ i < right then scanUp key a p right (i + 1) else i
termination_by (right - i).toNat
decreasing_by omega

/-- `parameter.c` L83-84: second inner loop, from `j` downwards; no value when an element before the
first one is read. -/
def scanDown (key : α → ℚ) (a : ℤ → α) (p : ℚ) (j : ℤ) : Option ℤ :=
  if j < 0 then none
  else if p < key (a j) then scanDown key a p (j - 1)
  else some j
termination_by (j + 1).toNat
decreasing_by omega

/-- `parameter.c` L80-92: the loop exchanging elements, with at most the given number of rounds. -/
def partitionLoop (key : α → ℚ) (p : ℚ) (right : ℤ) : ℕ → (ℤ → α) → ℤ → ℤ → Option ((ℤ → α) × ℤ × ℤ)
  | 0, _, _, _ => none
  | m + 1, a, i, j =>
    let i := scanUp key a p right i
    (scanDown key a p j).bind fun j =>
      if i ≥ j then some (a, i, j)
      else
        let temp := a i
        let a := Function.update a i (a j)
        let a := Function.update a j temp
        partitionLoop key p right m a (i + 1) (j - 1)

/-- `parameter.c` L74-97: `quick_sort_nz_start` with at most the given depth of calls; the variable
`pivot` is an `int`. -/
def quickSort (key : α → ℚ) : ℕ → (ℤ → α) → ℤ → ℤ → Option (ℤ → α)
  | 0, _, _, _ => none
  | m + 1, a, left, right =>
    let pivot : ℤ := trunc (key (a ((left + right) / 2)))
    (partitionLoop key pivot right (m + 2) a left right).bind fun (a, i, j) =>
      (if left < i - 1 then quickSort key m a left (i - 1) else some a).bind fun a =>
        if j + 1 < right then quickSort key m a (j + 1) right else some a

end sort

/-! ### Heights and grid points -/

/-- `struct ngrid_info`. -/
structure Region where
  start : ℚ
  stop : ℚ
  nz : ℚ

/-- `parameter.c` L492-512: the next `base_grid`, converted to `int`; `bz` and `bg` are the values
before it (for the first region `-zsize/2` and `0`). -/
def nextBase (lz : ℚ) (bz : ℚ) (bg : ℤ) (r : Region) : ℤ :=
  trunc (bg + (r.stop - r.start) * r.nz + (r.start - bz) * lz)

/-- `parameter.c` L99-153: `non_uniform_z_to_i`; the loop over the regions carries `base_z[n]` and
`base_grid[n]`. -/
def zToI (lz : ℚ) : List Region → ℚ → ℤ → ℚ → ℤ
  | [], bz, bg, z => ⌊1 / 2 + (z - bz) * lz⌋ + bg
  | r :: rs, bz, bg, z =>
    if z ≤ r.start then ⌊1 / 2 + (z - bz) * lz⌋ + bg
    else if z > r.start ∧ z ≤ r.stop then ⌊1 / 2 + ((r.start - bz) * lz + (z - r.start) * r.nz)⌋ + bg
    else zToI lz rs r.stop (nextBase lz bz bg r) z

/-- `parameter.c` L155-184: `non_uniform_i_to_z`; `f` is the map of the heights of the regions to
grid points. -/
def iToZ (lz : ℚ) (f : ℚ → ℤ) : List Region → ℚ → ℤ → ℤ → ℚ
  | [], bz, bg, i => ((i - bg : ℤ) : ℚ) / lz + bz
  | r :: rs, bz, bg, i =>
    if i ≤ f r.start then ((i - bg : ℤ) : ℚ) / lz + bz
    else if i > f r.start ∧ i ≤ f r.stop then
      ((f r.start - bg : ℤ) : ℚ) / lz + ((i - f r.start : ℤ) : ℚ) / r.nz + bz
    else iToZ lz f rs r.stop (nextBase lz bz bg r) i

end OpenMS.FdtdGrid
