import Verif.Model.Displacement

/-!
# Compiled displacement matrix

Model of `packed_index`, `pack_symmetric` and `displacement_matrix_cpp` in
`/repo/openms/lib/qmclibs/src/qedhf.cpp` L21-121.

An array is its flat memory, a function of the position; a loop is a fold of writes.
`gsl_sf_laguerre_n(n, a, x)` is the generalised Laguerre polynomial (`laguerre`), `gsl_sf_fact`
the factorial.  The array `disp_mat` is not initialised by the library; `mem0` is its
content before the loops.  Real numbers stand for `double`, natural numbers for `int`.
-/

namespace OpenMS.DispCpp

open OpenMS.Boson

/-- `qedhf.cpp` L21-24: `packed_index`, with the exchange of the two arguments. -/
def packedIndexCpp (i j : ℕ) : ℕ :=
  let (i, j) := if i > j then (j, i) else (i, j)
  j * (j + 1) / 2 + i

/-- `qedhf.cpp` L27-39: `pack_symmetric`, a vector grown by `push_back`. -/
def packSymmetricCpp (r : ℕ → ℕ → ℝ) (dim : ℕ) : List ℝ :=
  (List.range dim).foldl (fun packed i =>
    (List.range (i + 1)).foldl (fun packed j => packed ++ [r i j]) packed) []

/-- `qedhf.cpp` L67-77: the vector `factor`; `eta` is the flat memory of the array of shape
(modes, `nao`). -/
noncomputable def factorCpp (nao imode : ℕ) (freq vsq eta : ℕ → ℝ) (shift : ℝ) (k : ℕ) : ℝ :=
  let tau := Real.exp (vsq imode)
  let tmp := tau / freq imode
  tmp * (eta (imode * nao + k / nao) - eta (imode * nao + k % nao) + shift)

/-- `qedhf.cpp` L87-96: the value written for the states `m`, `n` and one factor. -/
noncomputable def valCpp (f : ℝ) (m n : ℕ) : ℝ :=
  if m = n then laguerre m 0 (f * f)
  else
    let ratio := (n.factorial : ℝ) / m.factorial
    2 * Real.sqrt ratio * (-f) ^ (m - n) * laguerre n (m - n) (f * f)

/-- `qedhf.cpp` L79-101: the loops filling the displacement matrix. -/
noncomputable def fillCpp (N mdim : ℕ) (factor : ℕ → ℝ) (mem0 : ℕ → ℝ) : ℕ → ℝ :=
  (List.range mdim).foldl (fun mem m =>
    (List.range (m + 1)).foldl (fun mem n =>
      (List.range N).foldl (fun mem i =>
        Function.update mem (packedIndexCpp m n * N + i) (valCpp (factor i) m n)) mem) mem) mem0

/-- `qedhf.cpp` L103-109: the loops multiplying by the Gaussian. -/
noncomputable def scaleCpp (N packedDim : ℕ) (factor : ℕ → ℝ) (mem : ℕ → ℝ) : ℕ → ℝ :=
  (List.range N).foldl (fun mem i =>
    let g := Real.exp (-(1 / 2) * factor i * factor i)
    (List.range packedDim).foldl (fun mem idx =>
      Function.update mem (idx * N + i) (mem (idx * N + i) * g)) mem) mem

/-- `qedhf.cpp` L111-118: the contraction; `pdm` is the flat memory of the argument. -/
noncomputable def contractCpp (N packedDim : ℕ) (pdm mem : ℕ → ℝ) (pq : ℕ) : ℝ :=
  (List.range packedDim).foldl (fun acc idx => acc + pdm idx * mem (idx * N + pq)) 0

/-- `qedhf.cpp` L43-121: `displacement_matrix_cpp`, the flat memories of the two results. -/
noncomputable def displacementCpp (mem0 : ℕ → ℝ) (nbosonStates : ℕ → ℕ) (imode nao : ℕ)
    (freq vsq eta pdm : ℕ → ℝ) (shift : ℝ) : (ℕ → ℝ) × (ℕ → ℝ) :=
  let mdim := nbosonStates imode
  let packedDim := mdim * (mdim + 1) / 2
  let factor := factorCpp nao imode freq vsq eta shift
  let mem := scaleCpp (nao * nao) packedDim factor (fillCpp (nao * nao) mdim factor mem0)
  (mem, contractCpp (nao * nao) packedDim pdm mem)

end OpenMS.DispCpp
