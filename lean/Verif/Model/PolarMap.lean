import Mathlib.Tactic
import Mathlib.Analysis.SpecialFunctions.Trigonometric.Inverse
import Mathlib.Analysis.SpecialFunctions.Sqrt

/-!
# Polar maps of the far field

Model of `/repo/openms/lib/fdtd/transmap.c`.  The arrays are functions; a read outside of an array is `none`.  A file is
the list of its numbers and the number of its lines.  Numbers are exact, with `pi` the number π (`parameter.c` L269 has seven
digits).  Not modelled: names of files, printing with six digits, allocation, `tnum < 2` (division by zero).
-/

namespace OpenMS.PolarMap

/-- `transmap.c` L200-208: `circle_out`, with `true` for `1`. -/
noncomputable def circleOut (i j : ℤ) (tnum : ℕ) : Bool :=
  let tr : ℤ := (tnum / 2 : ℕ)
  decide (¬(((i - tr) * (i - tr) + (j - tr) * (j - tr) - (tr - 1) * (tr - 1) : ℤ) : ℝ) > 1 / 10)

/-- `transmap.c` L210-219: `calc_theta`. -/
noncomputable def calcTheta (i j : ℤ) (tnum : ℕ) : ℝ :=
  let tr : ℤ := (tnum / 2 : ℕ)
  let temp := Real.sqrt (((i - tr) * (i - tr) + (j - tr) * (j - tr) : ℤ) : ℝ)
  temp * Real.pi / 2 / tr

/-- `transmap.c` L221-236: `calc_phi`. -/
noncomputable def calcPhi (i j : ℤ) (tnum : ℕ) : ℝ :=
  let tr : ℤ := (tnum / 2 : ℕ)
  let temp := Real.sqrt (((i - tr) * (i - tr) + (j - tr) * (j - tr) : ℤ) : ℝ)
  let testphi := Real.arccos (((i - tr : ℤ) : ℝ) / temp)
  let gauge := ((j - tr : ℤ) : ℝ) - temp * Real.sin testphi
  if |gauge| < 1 / 100 then testphi else 2 * Real.pi - testphi

/-- `umdata[a][b]` for an array of `rcnum` rows and columns. -/
def read (rcnum : ℕ) (u : ℤ → ℤ → ℝ) (a b : ℤ) : Option ℝ :=
  if 0 ≤ a ∧ a < rcnum ∧ 0 ≤ b ∧ b < rcnum then some (u a b) else none

/-- `transmap.c` L253-255: `C`, from the four values. -/
noncomputable def mix (p q : ℝ) (r fp fq : ℤ) (uff ucf ufc ucc : ℝ) : ℝ :=
  let A := uff + (p + r - fp) * (ucf - uff)
  let B := ufc + (p + r - fp) * (ucc - ufc)
  A + (q + r - fq) * (B - A)

/-- `transmap.c` L245-257: the rest of `interpol`, for the place `p`, `q`. -/
noncomputable def interpolAt (p q : ℝ) (rcnum : ℕ) (u : ℤ → ℤ → ℝ) : Option ℝ :=
  let r : ℤ := (rcnum / 2 : ℕ)
  let fp := ⌊p⌋ + r
  let fq := ⌊q⌋ + r
  let cp := ⌈p⌉ + r
  let cq := ⌈q⌉ + r
  (read rcnum u fp fq).bind fun uff => (read rcnum u cp fq).bind fun ucf =>
    (read rcnum u fp cq).bind fun ufc => (read rcnum u cp cq).map fun ucc => mix p q r fp fq uff ucf ufc ucc

/-- `transmap.c` L238-257: `interpol`. -/
noncomputable def interpol (theta phi : ℝ) (rcnum : ℕ) (u : ℤ → ℤ → ℝ) : Option ℝ :=
  let r : ℤ := (rcnum / 2 : ℕ)
  interpolAt (r * Real.sin theta * Real.cos phi) (r * Real.sin theta * Real.sin phi) rcnum u

/-- `transmap.c` L138-160: `findata[i][j]` in `into_polar`. -/
noncomputable def intoPolar (u : ℤ → ℤ → ℝ) (rcnum tnum : ℕ) (i j : ℕ) : Option ℝ :=
  let r : ℤ := (rcnum / 2 : ℕ)
  if circleOut i j tnum = false then some 0
  else if |calcTheta i j tnum| < 2 / 100 then read rcnum u r r
  else interpol (calcTheta i j tnum) (calcPhi i j tnum) rcnum u

/-! ### Files -/

/-- `for (j = n - 1; j >= 0; j--) for (i = 0; i < n; i++)`. -/
def order (n : ℕ) : List (ℕ × ℕ) := (List.range n).reverse.flatMap fun j => (List.range n).map fun i => (i, j)

/-- `transmap.c` L174-178 and L192-196: the numbers of the file. -/
def write (n : ℕ) (f : ℕ × ℕ → ℝ) : List ℝ := (order n).map f

/-- `transmap.c` L106-111: `tr_reading_data`; where the file ends nothing is assigned here. -/
noncomputable def readMap (n : ℕ) (file : List ℝ) (u : ℕ × ℕ → ℝ) : ℕ × ℕ → ℝ :=
  ((order n).zip file).foldl (fun u a => Function.update u a.1 a.2) u

/-- `transmap.c` L129-134: `ad_reading_data`. -/
noncomputable def addMap (n : ℕ) (u : ℕ × ℕ → ℝ) (file : List ℝ) : ℕ × ℕ → ℝ :=
  ((order n).zip file).foldl (fun u a => Function.update u a.1 (u a.1 + a.2)) u

/-- `transmap.c` L43-59: `add_farfield`, the numbers of the file with the sum. -/
noncomputable def addFarfield (n : ℕ) (files : List (List ℝ)) : List ℝ := write n (files.foldl (addMap n) fun _ => 0)

end OpenMS.PolarMap
