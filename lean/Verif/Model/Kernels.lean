import Mathlib.LinearAlgebra.Matrix.NonsingularInverse
import Mathlib.Algebra.Star.Basic

/-!
# The compiled kernels of the Monte Carlo code

`openms/lib/qmclibs/src` (C++), chosen in `openms/qmc/propagators.py` L265-277, `openms/qmc/trial.py` L355-364 and
`openms/qmc/estimators.py` L547-553 whenever the library is present.  An array is the flat memory behind a pointer: what lies outside the
array is `none`, and so is every result computed from it.  The checks of shapes at the start of the functions are
left out.  OpenMP shares the loop over the walkers; the walkers write to disjoint places.
-/

namespace OpenMS.Kernels

variable {𝕜 : Type*} [Field 𝕜]

/-- Memory behind a pointer. -/
abbrev Ptr (𝕜 : Type*) := ℕ → Option 𝕜

/-- Pointer arithmetic. -/
def Ptr.shift (p : Ptr 𝕜) (k : ℕ) : Ptr 𝕜 := fun x => p (k + x)

/-- A two-dimensional array in C order. -/
def flat2 {b c : ℕ} (f : Matrix (Fin b) (Fin c) 𝕜) : Ptr 𝕜 := fun x =>
  if h : x < b * c then
    some (f ⟨x / c, Nat.div_lt_of_lt_mul (by rwa [Nat.mul_comm])⟩
      ⟨x % c, Nat.mod_lt _ (Nat.pos_of_ne_zero fun h0 => by simp [h0] at h)⟩)
  else none

/-- Blocks of `sz` elements, one for each walker. -/
def perWalker {nw : ℕ} (sz : ℕ) (f : Fin nw → Ptr 𝕜) : Ptr 𝕜 := fun x =>
  if h : x < nw * sz then f ⟨x / sz, Nat.div_lt_of_lt_mul (by rwa [Nat.mul_comm])⟩ (x % sz) else none

/-- A three-dimensional array in C order. -/
def flat3 {a b c : ℕ} (f : Fin a → Matrix (Fin b) (Fin c) 𝕜) : Ptr 𝕜 := perWalker (b * c) fun z => flat2 (f z)

/-- A loop that accumulates `n` terms. -/
def osum (n : ℕ) (f : ℕ → Option 𝕜) : Option 𝕜 :=
  (List.range n).foldl (fun acc k => acc.bind fun a => (f k).map fun b => a + b) (some 0)

/-- A product. -/
def omul (x y : Option 𝕜) : Option 𝕜 := x.bind fun a => y.map fun b => a * b

/-- `cblas_?gemm` with `CblasRowMajor`, `alpha = 1`, `beta = 0`, `CblasNoTrans` for `B`, and a result of `m * n` elements without gaps. -/
def gemm (tA : Bool) (m n k : ℕ) (A : Ptr 𝕜) (lda : ℕ) (B : Ptr 𝕜) (ldb : ℕ) : Ptr 𝕜 := fun x =>
  if x < m * n then
    osum k fun l => omul (A (if tA then l * lda + x / n else x / n * lda + l)) (B (l * ldb + x % n))
  else none

/-- `openms/lib/qmclibs/src/propagator.cpp` L69-113 `propagate_onebody_blas_complex_return` (bound as `propagate_onebody_complex`,
`openms/lib/qmclibs/src/bindings.cpp` L19), and with the copy back into `phi` the functions of `propagator.cpp` L20-67, L116-147 and
L150-187. -/
def onebody {nw : ℕ} (n m : ℕ) (op phi : Ptr 𝕜) : Ptr 𝕜 :=
  perWalker (nw := nw) (n * m) fun iw => gemm false n m n op n (phi.shift (iw * (n * m))) m

/-- `openms/lib/qmclibs/src/propagator.cpp` L302-327: the loop over the orders of `propagate_exp_op_taylor_complex` for one walker:
`phi` and `temp`. -/
def taylorC (n m : ℕ) (A phi : Ptr 𝕜) : ℕ → Ptr 𝕜 × Ptr 𝕜
  | 0 => (phi, phi)
  | k + 1 =>
    let s := taylorC n m A phi k
    let new := gemm false n m n A n s.2 m
    let new : Ptr 𝕜 := fun x => (new x).map fun v => (1 / ((k : 𝕜) + 1)) * v
    (fun x => (s.1 x).bind fun a => (new x).map fun b => a + b, new)

/-- `openms/lib/qmclibs/src/propagator.cpp` L259-274: the loop over the orders of `propagate_exp_op_taylor` (real) for one walker. -/
def taylorR (n m : ℕ) (A phi : Ptr 𝕜) : ℕ → Ptr 𝕜 × Ptr 𝕜
  | 0 => (phi, phi)
  | k + 1 =>
    let s := taylorR n m A phi k
    let new := gemm false n m n A n s.2 m
    (fun x => (s.1 x).bind fun a => (new x).map fun b => a + b / ((k : 𝕜) + 1), new)

/-- `openms/lib/qmclibs/src/propagator.cpp` L279-329: what `propagate_exp_op_taylor_complex` leaves in `phiw`. -/
def expOpComplex {nw : ℕ} (n m : ℕ) (phiw op : Ptr 𝕜) (order : ℕ) : Ptr 𝕜 :=
  perWalker (nw := nw) (n * m) fun iw => (taylorC n m (op.shift (iw * (n * n))) (phiw.shift (iw * (n * m))) order).1

/-- `openms/lib/qmclibs/src/propagator.cpp` L239-276: what `propagate_exp_op_taylor` leaves in `phiw`. -/
def expOpReal {nw : ℕ} (n m : ℕ) (phiw op : Ptr 𝕜) (order : ℕ) : Ptr 𝕜 :=
  perWalker (nw := nw) (n * m) fun iw => (taylorR n m (op.shift (iw * (n * n))) (phiw.shift (iw * (n * m))) order).1

/-- An array as the Python side holds it: `native` if it is complex and contiguous in C order.  Otherwise `forcecast` hands a
converted copy to the function. -/
structure Arr (𝕜 : Type*) where
  data : Ptr 𝕜
  native : Bool

/-- `openms/qmc/propagators.py` L545 with L268: the array that replaces `walkers.phiwa`. -/
def onebodyCall {nw : ℕ} (n m : ℕ) (op : Ptr 𝕜) (phi : Arr 𝕜) : Arr 𝕜 := ⟨onebody (nw := nw) n m op phi.data, true⟩

/-- `openms/qmc/propagators.py` L575 with L269: `walkers.phiwa` after the call, whose result is not used. -/
def hsCall {nw : ℕ} (n m : ℕ) (phi : Arr 𝕜) (op : Ptr 𝕜) (order : ℕ) : Arr 𝕜 :=
  if phi.native then ⟨expOpComplex (nw := nw) n m phi.data op order, true⟩ else phi

section
variable [StarRing 𝕜]

/-- `openms/lib/qmclibs/src/trial.cpp` L21-61 `trial_walker_ovlp_base`. -/
def ovlpBase {nw : ℕ} (n no : ℕ) (phiw psi : Ptr 𝕜) : Ptr 𝕜 :=
  let psiConj : Ptr 𝕜 := fun x => (psi x).map star
  perWalker (nw := nw) (no * no) fun z => gemm true no no n (phiw.shift (z * (n * no))) no psiConj no

/-- `openms/lib/qmclibs/src/trial.cpp` L64-118 `trial_walker_ovlp_gf_base` with equal numbers of orbitals: the second array; `inv` is
the inversion by Eigen (L109). -/
def ghalfBase {nw : ℕ} (inv : Ptr 𝕜 → Ptr 𝕜) (n no : ℕ) (phiw psi : Ptr 𝕜) : Ptr 𝕜 :=
  let psiConj : Ptr 𝕜 := fun x => (psi x).map star
  perWalker (nw := nw) (n * no) fun z =>
    let phi := phiw.shift (z * (n * no))
    let S := gemm true no no n phi no psiConj no
    fun x => if x < n * no then osum no fun k => omul (phi (x / no * no + k)) (inv S (x % no * no + k)) else none

end

/-- `openms/lib/qmclibs/src/estimators.cpp` L17-81 `exx_rltensor_Ghalf_complex` and L84-143 (real): element `i` of the result. -/
def exx (nchol nao no : ℕ) (rl gh : Ptr 𝕜) (i : ℕ) : Option 𝕜 :=
  (osum nchol fun l =>
    let LG := gemm true no no nao (rl.shift (l * (nao * no))) no (gh.shift (i * (nao * no))) no
    osum no fun x => osum no fun y => omul (LG (x * no + y)) (LG (y * no + x))).map fun acc => 1 / 2 * acc

/-- `cblas_zdotu_sub` with unit strides. -/
def dotu (n : ℕ) (x y : Ptr 𝕜) : Option 𝕜 := osum n fun k => omul (x k) (y k)

/-- `openms/lib/qmclibs/src/estimators.cpp` L147-192 `ecoul_rltensor_uhf_complex`: element `iw`; `nb` is the last dimension of the two arrays
for the second spin, which enters their pointers only: `ndim` is that of the first spin. -/
def ecoulUhf (nchol nao na nb : ℕ) (rla gha rlb ghb : Ptr 𝕜) (iw : ℕ) : Option 𝕜 :=
  let ndim := nao * na
  (osum nchol fun l =>
    let LG := (dotu ndim (gha.shift (iw * (nao * na))) (rla.shift (l * (nao * na)))).bind fun a =>
      (dotu ndim (ghb.shift (iw * (nao * nb))) (rlb.shift (l * (nao * nb)))).map fun b => a + b
    omul LG LG).map fun acc => 1 / 2 * acc

/-- `openms/lib/qmclibs/src/estimators.cpp` L195-246 `ecoul_rltensor_Ghalf_complex`: element `iw`. -/
def ecoulRhf (nchol nao no : ℕ) (rl gh : Ptr 𝕜) (iw : ℕ) : Option 𝕜 :=
  (osum nchol fun l =>
    let LG := dotu (nao * no) (gh.shift (iw * (nao * no))) (rl.shift (l * (nao * no)))
    omul LG LG).map fun acc => 1 / 2 * acc

/-- `openms/lib/qmclibs/src/linalg.cpp` L19-69 `tensordot_complex`. -/
def tensordot {z : ℕ} (n p q : ℕ) (A B : Ptr 𝕜) : Ptr 𝕜 :=
  perWalker (nw := z) (p * q) fun zi x => if x < p * q then
    osum n fun ni => omul (A (zi * n + ni)) (B (ni * (p * q) + x)) else none

end OpenMS.Kernels
