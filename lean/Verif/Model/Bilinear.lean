import Mathlib.Analysis.Complex.Basic
import Mathlib.Analysis.SpecialFunctions.Pow.Real
import Mathlib.LinearAlgebra.Matrix.Notation

/-!
# Decomposition of the bilinear coupling

Model of `bilinear_decomposition` in `/repo/openms/qmc/tools.py` L192-293.  Arrays are
functions of the index together with the number of rows; writes are `Function.update`.
-/

namespace OpenMS.Bilinear

open Complex

/-- Square matrices of size `nao`, as arrays. -/
abbrev Mat (nao : ℕ) := Matrix (Fin nao) (Fin nao) ℂ

/-- `backend.linalg.norm`: the Frobenius norm. -/
noncomputable def frob {n : ℕ} (M : Mat n) : ℝ := Real.sqrt (∑ a, ∑ b, ‖M a b‖ ^ 2)

/-- The two output arrays while they are being filled: electronic matrices and bosonic
factors, one row per auxiliary field. -/
structure Fields (n : ℕ) where
  e : ℕ → Mat n
  b : ℕ → ℂ

/-- `backend.zeros(...)`. -/
def Fields.zero (n : ℕ) : Fields n := ⟨fun _ => 0, fun _ => 0⟩

/-- `chol_bilinear_e[k] = M`. -/
def Fields.setE {n : ℕ} (f : Fields n) (k : ℕ) (M : Mat n) : Fields n :=
  { f with e := Function.update f.e k M }

/-- `chol_bilinear_b[k] = x`. -/
def Fields.setB {n : ℕ} (f : Fields n) (k : ℕ) (x : ℂ) : Fields n :=
  { f with b := Function.update f.b k x }

/-- Number of auxiliary fields per mode in each scheme (L251, L267, L283). -/
def fieldsPerMode (scheme : ℤ) : ℕ := if scheme = 1 then 3 else if scheme = 2 then 2 else 1

/-- L253-264, L269-281, L285-290: what one mode writes. -/
noncomputable def writeMode {n : ℕ} (scheme : ℤ) (Lga : Mat n) (B : ℂ) (m : ℕ)
    (f : Fields n) : Fields n :=
  if scheme = 1 then
    (((f.setE (m * 3) Lga).setB (m * 3) B).setE (m * 3 + 1) (I • Lga)).setB (m * 3 + 2) (I * B)
  else if scheme = 2 then
    (((f.setE (m * 2) ((1 / (Real.sqrt 2 : ℂ)) • Lga)).setB (m * 2) (B * (1 / (Real.sqrt 2 : ℂ)))).setE
      (m * 2 + 1) ((I / (Real.sqrt 2 : ℂ)) • Lga)).setB (m * 2 + 1) (-(I / (Real.sqrt 2 : ℂ)) * B)
  else
    (f.setE m Lga).setB m B

/-- L225-293.  `chol` is `chol_eb`; a row of the result is
`(chol_bilinear_e[k], chol_bilinear_b[k])`.  The assertion of L226 is the first branch. -/
noncomputable def bilinearDecomposition {n : ℕ} (Afac Bfac : List ℂ) (chol : List (Mat n))
    (scheme : ℤ) : Option (ℕ × Fields n) :=
  if chol.length = Afac.length ∧ Afac.length = Bfac.length then
    some (fieldsPerMode scheme * chol.length,
      (List.range chol.length).foldl (fun f m =>
        let Lga := (Afac.getD m 0) • (chol.getD m 0)
        if frob Lga > 1e-10 then writeMode scheme Lga (Bfac.getD m 0) m f else f)
        (Fields.zero n))
  else none

end OpenMS.Bilinear
