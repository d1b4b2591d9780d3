/-
Variational Monte Carlo, openms/qmc/vmc.py.

Samples are numbered by `Fin N`; `E` are the local energies and `O i k` the logarithmic derivatives with
respect to parameter `k` at sample `i`.  Sampler, wave function and optimiser are objects of the user.
-/
import Mathlib.Algebra.BigOperators.Field
import Mathlib.Algebra.Star.BigOperators
import Mathlib.Data.Matrix.Basic

namespace OpenMS.Vmc

variable {K : Type*} [Field K] [StarRing K] {N : ℕ} {p : Type*}

/-- `np.mean` of the values at the samples. -/
def mean (x : Fin N → K) : K := (∑ i, x i) / N

/-- openms/qmc/vmc.py L184 `E_mean`. -/
def eMean (E : Fin N → K) : K := mean E

/-- openms/qmc/vmc.py L185 `Ok_mean`. -/
def oMean (O : Fin N → p → K) (k : p) : K := mean fun i => O i k

/-- openms/qmc/vmc.py L188 `S = np.cov(grad_Oks.T, bias=True)`; `np.cov` conjugates the second factor. -/
def S (O : Fin N → p → K) : Matrix p p K :=
  Matrix.of fun k l => (∑ i, (O i k - oMean O k) * star (O i l - oMean O l)) / N

/-- openms/qmc/vmc.py L189 `g`. -/
def g (E : Fin N → K) (O : Fin N → p → K) (k : p) : K :=
  mean (fun i => E i * O i k) - eMean E * oMean O k

/-! ### Reads of the object -/

/-- openms/qmc/vmc.py L104-L109: attributes set by `__init__`. -/
def initAttrs : List String := ["_ansatz", "_sampler", "_optimizer", "ham", "obs", "_step"]

/-- openms/qmc/vmc.py L112-L199: names defined by the class. -/
def classAttrs : List String :=
  ["__repr__", "ansatz", "optimizer", "step_count", "preconditioner", "energy", "dump_flags", "kernel"]

/-- Reading an attribute of an object on which `extra` has been set from outside. -/
def read (extra : List String) (a : String) : Except String Unit :=
  if a ∈ initAttrs ++ classAttrs ++ extra then .ok () else .error a

/-- openms/qmc/vmc.py L162-L192: one iteration over `m` samples. -/
def iteration (extra : List String) (m : ℕ) : Except String Unit := do
  read extra "sampler"
  read extra "psi"
  read extra "obs"
  (List.replicate m ()).forM fun _ => do
    read extra "psi"
    read extra "ham"
    read extra "psi"
    read extra "psi"
    read extra "obs"
  read extra "opt"

/-- openms/qmc/vmc.py L156-L199 `kernel`: `ms` are the numbers of samples the sampler returns. -/
def kernel (extra : List String) : List ℕ → Except String Unit
  | [] => .ok ()
  | m :: ms => do
    iteration extra m
    kernel extra ms

end OpenMS.Vmc
