import Mathlib.Tactic
import Mathlib.Analysis.SpecialFunctions.Pow.Real

/-!
# Fourier transform of the far field

Model of `FFT1D`, `FFT2D`, `pow_finder` and the shifts of `/repo/openms/lib/fdtd/farfield.c`.  Arrays are
functions on `ℕ`; numbers are exact.  Not modelled: allocation and printing.
-/

namespace OpenMS.Fft

/-- Real and imaginary part of an array: the arguments `x` and `y` of `FFT1D`. -/
abbrev Arrays := (ℕ → ℝ) × (ℕ → ℝ)

/-! ### Bit reversal -/

/-- `farfield.c` L608-612: `while (k <= j) { j -= k; k >>= 1; } j += k;`, the new `j`.  `none`: the loop
reaches `k = 0` and does not end. -/
def carry (k j : ℕ) : Option ℕ :=
  if k = 0 then none
  else if k ≤ j then carry (k / 2) (j - k)
  else some (j + k)
termination_by k
decreasing_by omega

/-- `farfield.c` L600-605: the elements `i` and `j` are exchanged. -/
def swap (i j : ℕ) (s : Arrays) : Arrays :=
  let tx := s.1 i
  let ty := s.2 i
  (Function.update (Function.update s.1 i (s.1 j)) j tx, Function.update (Function.update s.2 i (s.2 j)) j ty)

/-- `farfield.c` L598-613: one pass of the loop over `i`, with `i2 = nn >> 1`. -/
def reverseStep (i2 : ℕ) (s : Option (Arrays × ℕ)) (i : ℕ) : Option (Arrays × ℕ) :=
  s.bind fun a => (carry i2 a.2).map fun j => (if i < a.2 then swap i a.2 a.1 else a.1, j)

/-- `farfield.c` L596-613: the loop; its last state of the arrays. -/
def bitReversal (nn : ℕ) (s : Arrays) : Option Arrays :=
  ((List.range (nn - 1)).foldl (reverseStep (nn / 2)) (some (s, 0))).map Prod.fst

/-! ### Butterflies -/

/-- `farfield.c` L626-632: one butterfly. -/
def butterfly (l1 : ℕ) (u1 u2 : ℝ) (s : Arrays) (i : ℕ) : Arrays :=
  let i1 := i + l1
  let t1 := u1 * s.1 i1 - u2 * s.2 i1
  let t2 := u1 * s.2 i1 + u2 * s.1 i1
  let x := Function.update s.1 i1 (s.1 i - t1)
  let y := Function.update s.2 i1 (s.2 i - t2)
  (Function.update x i (x i + t1), Function.update y i (y i + t2))

/-- `farfield.c` L625: the values of `i` in `for (i = j; i < nn; i += l2)`. -/
def strides (j nn l2 : ℕ) : List ℕ := (List.range ((nn - j + (l2 - 1)) / l2)).map fun b => j + b * l2

/-- `farfield.c` L625-636: one pass of the loop over `j`; the state holds the arrays and `u1`, `u2`. -/
def column (nn l1 l2 : ℕ) (c1 c2 : ℝ) (s : Arrays × ℝ × ℝ) (j : ℕ) : Arrays × ℝ × ℝ :=
  ((strides j nn l2).foldl (butterfly l1 s.2.1 s.2.2) s.1, s.2.1 * c1 - s.2.2 * c2, s.2.1 * c2 + s.2.2 * c1)

/-- The variables of the loop over `l`: the arrays, `l2`, `c1` and `c2`. -/
structure Stage where
  a : Arrays
  l2 : ℕ
  c1 : ℝ
  c2 : ℝ

/-- `farfield.c` L620-641: one pass of the loop over `l`. -/
noncomputable def stage (dir : ℤ) (nn : ℕ) (s : Stage) : Stage where
  a := ((List.range s.l2).foldl (column nn s.l2 (2 * s.l2) s.c1 s.c2) (s.a, 1, 0)).1
  l2 := 2 * s.l2
  c1 := Real.sqrt ((1 + s.c1) / 2)
  c2 := if dir = 1 then -Real.sqrt ((1 - s.c1) / 2) else Real.sqrt ((1 - s.c1) / 2)

/-- `farfield.c` L586-653: `FFT1D`, with the numbers of points from L591-593. -/
noncomputable def fft1d (dir : ℤ) (m : ℕ) (s : Arrays) : Option Arrays :=
  (bitReversal (2 ^ m) s).map fun a =>
    let r := ((stage dir (2 ^ m))^[m] ⟨a, 1, -1, 0⟩).a
    if dir = 1 then
      (fun i => if i < 2 ^ m then r.1 i / (2 ^ m : ℕ) else r.1 i,
       fun i => if i < 2 ^ m then r.2 i / (2 ^ m : ℕ) else r.2 i)
    else r

/-- `farfield.c` L655-664: `pow_finder`.  `none`: the loop does not end. -/
def powFinder (n : ℕ) : Option ℕ :=
  if n = 0 then none
  else if n = 1 then some 0
  else (powFinder (n / 2)).map (· + 1)
termination_by n
decreasing_by omega

/-! ### Two dimensions -/

/-- A matrix of complex numbers, `struct COMPLEX **c`. -/
abbrev Image := ℕ → ℕ → ℝ × ℝ

/-- `farfield.c` L546-558: the transform of row `j`. -/
noncomputable def rowStep (dir : ℤ) (m nx : ℕ) (c : Option Image) (j : ℕ) : Option Image :=
  c.bind fun c => (fft1d dir m (fun i => (c i j).1, fun i => (c i j).2)).map fun r =>
    fun i j' => if j' = j ∧ i < nx then (r.1 i, r.2 i) else c i j'

/-- `farfield.c` L567-579: the transform of column `i`. -/
noncomputable def colStep (dir : ℤ) (m ny : ℕ) (c : Option Image) (i : ℕ) : Option Image :=
  c.bind fun c => (fft1d dir m (fun j => (c i j).1, fun j => (c i j).2)).map fun r =>
    fun i' j => if i' = i ∧ j < ny then (r.1 j, r.2 j) else c i' j

/-- `farfield.c` L536-584: `FFT2D`. -/
noncomputable def fft2d (dir : ℤ) (nx ny : ℕ) (c : Image) : Option Image :=
  (powFinder nx).bind fun mx => (powFinder ny).bind fun my =>
    (List.range nx).foldl (colStep dir my ny) ((List.range ny).foldl (rowStep dir mx nx) (some c))

/-- `farfield.c` L1014-1068: `data_shifting_Nx`; `temp` is a copy of the first `col` columns and `row` rows,
`none` elsewhere.  The other three functions are the same (L1070-1236). -/
def shift {α : Type*} (row col : ℕ) (v : ℕ → ℕ → α) : ℕ → ℕ → Option α := fun i j =>
  let temp : ℤ → ℤ → Option α := fun m n =>
    if 0 ≤ m ∧ m < col ∧ 0 ≤ n ∧ n < row then some (v m.toNat n.toNat) else none
  let m : ℤ := i - (col / 2 : ℕ)
  let n : ℤ := j - (row / 2 : ℕ)
  if 0 ≤ m ∧ 0 ≤ n then temp m n
  else if 0 ≤ m ∧ n < 0 then temp m (row + n)
  else if m < 0 ∧ 0 ≤ n then temp (col + m) n
  else temp (col + m) (row + n)

end OpenMS.Fft
