import Verif.Model.Packing
import Mathlib.Analysis.SpecialFunctions.Exp
import Mathlib.Analysis.SpecialFunctions.Pow.Real
import Mathlib.Data.Nat.Choose.Basic

/-!
# Expectation values of the displacement operator

Model of `displacement_matrix`, `displacement_exp_val`, `displacement_deriv_kernel`,
`displacement_deriv`, `displacement_deriv_vt` and `displacement_deriv_vsq` in
`/repo/openms/lib/boson.py` L799-986, for one entry `A` of the array `factor` (all operations
are elementwise in `factor`).
-/

namespace OpenMS.Boson

/-- `scipy.special.genlaguerre(n, alpha)(x)` for a natural `alpha`: the generalised Laguerre
polynomial by its closed formula. -/
noncomputable def laguerre (n α : ℕ) (x : ℝ) : ℝ :=
  ∑ k ∈ Finset.range (n + 1), (-1) ^ k * ((n + α).choose (n - k) : ℝ) / (k.factorial : ℝ) * x ^ k

/-- `numpy.tril_indices(mdim, k=-1)`. -/
def trilStrict (mdim : ℕ) : List (ℕ × ℕ) :=
  (List.range mdim).flatMap fun m => (List.range m).map fun n => (m, n)

/-- `numpy.tril_indices(mdim)`. -/
def tril (mdim : ℕ) : List (ℕ × ℕ) :=
  (List.range mdim).flatMap fun m => (List.range (m + 1)).map fun n => (m, n)

/-- `boson.py` L822-832: the packed matrix element `val` for `i_m`, `i_n`. -/
noncomputable def dispVal (A : ℝ) (m n : ℕ) : ℝ :=
  if m = n then laguerre m 0 (A ^ 2)
  else 2 * Real.sqrt ((n.factorial : ℝ) / m.factorial) * (-A) ^ (m - n) *
    laguerre n (m - n) (A ^ 2)

/-- `boson.py` L816-833: the array `disp_mat`, filled entry by entry. -/
noncomputable def dispMat (mdim : ℕ) (A : ℝ) : List ℝ :=
  (tril mdim).foldl (fun l p => l.set (packedIndex p.1 p.2) (dispVal A p.1 p.2))
    (List.replicate (mdim * (mdim + 1) / 2) 0)

/-- The Gaussian factor, if requested. -/
noncomputable def gfact (scale : Bool) (A : ℝ) : ℝ := if scale then Real.exp (-(1 / 2) * A ^ 2) else 1

/-- `boson.py` L799-846: `displacement_matrix`. -/
noncomputable def displacementMatrix (mdim : ℕ) (A : ℝ) (pdm : ℕ → ℕ → ℝ) (scale : Bool) : ℝ :=
  ((packSymmetric pdm mdim).zipWith (· * ·) ((dispMat mdim A).map (· * gfact scale A))).sum

/-- `boson.py` L849-888: `displacement_exp_val`. -/
noncomputable def displacementExpVal (mdim : ℕ) (A : ℝ) (pdm : ℕ → ℕ → ℝ) (scale : Bool) : ℝ :=
  (((trilStrict mdim).map fun p =>
      2 * pdm p.1 p.2 * Real.sqrt ((p.2.factorial : ℝ) / p.1.factorial) * (-A) ^ (p.1 - p.2) *
        laguerre p.2 (p.1 - p.2) (A ^ 2)).sum +
    ((List.range mdim).map fun m => pdm m m * laguerre m 0 (A ^ 2)).sum) * gfact scale A

/-- `boson.py` L921-942: the contribution of one pair below the diagonal to the derivative,
without the Gaussian factor.  Note the condition `i_m - i_n > 1`. -/
noncomputable def derivPair (A : ℝ) (pdm : ℕ → ℕ → ℝ) (m n : ℕ) : ℝ :=
  let LA := laguerre n (m - n) (A ^ 2)
  let Ga := LA * (-A) ^ (m - n)
  let tmp1 := -A * Ga
  let tmp2 := if m - n > 1 then -((m - n : ℕ) : ℝ) * (-A) ^ (m - n - 1) * LA else 0
  let tmp2 := if n > 0 then
    tmp2 - (-A) ^ (m - n) * (2 * A) * laguerre (n - 1) (m - n + 1) (A ^ 2) else tmp2
  2 * (Real.sqrt ((n.factorial : ℝ) / m.factorial) * (tmp1 + tmp2)) * pdm m n

/-- `boson.py` L945-950: the contribution of one diagonal element. -/
noncomputable def derivDiag (A : ℝ) (pdm : ℕ → ℕ → ℝ) (m : ℕ) : ℝ :=
  let t := pdm m m * laguerre m 0 (A ^ 2) * (-A)
  if m > 0 then t - pdm m m * (2 * A) * laguerre (m - 1) 1 (A ^ 2) else t

/-- `boson.py` L891-953: `displacement_deriv_kernel`; `displacement_deriv` (L956-960) returns
the same. -/
noncomputable def displacementDeriv (mdim : ℕ) (A : ℝ) (pdm : ℕ → ℕ → ℝ) : ℝ :=
  (((trilStrict mdim).map fun p => derivPair A pdm p.1 p.2).sum +
    ((List.range mdim).map fun m => derivDiag A pdm m).sum) * Real.exp (-(1 / 2) * A ^ 2)

/-- `boson.py` L963-986: `displacement_deriv_vt` and `displacement_deriv_vsq`, both the kernel
times `factor`. -/
noncomputable def displacementDerivScaled (mdim : ℕ) (A : ℝ) (pdm : ℕ → ℕ → ℝ) : ℝ :=
  displacementDeriv mdim A pdm * A

end OpenMS.Boson
