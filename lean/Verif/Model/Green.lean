import Mathlib.LinearAlgebra.Matrix.NonsingularInverse
import Mathlib.LinearAlgebra.Matrix.Trace
import Mathlib.Analysis.Complex.Basic

/-!
# Overlaps, Green's functions and force bias

Model of `GF` in `/repo/openms/qmc/estimators.py`, of the overlap functions, of the
half rotation and of the force bias in `/repo/openms/qmc/trial.py`, and of
`orthogonalization` in `/repo/openms/qmc/qmc.py`.  `p` indexes basis functions, `i`
occupied orbitals, `g` auxiliary fields.
-/

namespace OpenMS.Green

open Matrix

variable {p i g : Type*} [Fintype p] [Fintype i] [DecidableEq i]

/-- Entrywise complex conjugate (`.conj()`). -/
def conj {a b : Type*} (M : Matrix a b ℂ) : Matrix a b ℂ := M.map (starRingEnd ℂ)

/-- `estimators.py` L191: `TW = W.T @ T.conj()`; `trial.py` L299, L314: the same matrix as
`einsum("zpi,pj->zij", phiw, psi.conj())`. -/
noncomputable def ovlpMatrix (T W : Matrix p i ℂ) : Matrix i i ℂ := Wᵀ * conj T

/-- `linalg.inv`: `none` is `LinAlgError` for a singular matrix. -/
noncomputable def inv (M : Matrix i i ℂ) : Option (Matrix i i ℂ) :=
  open Classical in if M.det = 0 then none else some M⁻¹

/-- `estimators.py` L164-196: `GF(T, W)` returns `(Green, Ghalf)`. -/
noncomputable def GF (T W : Matrix p i ℂ) : Option (Matrix p p ℂ × Matrix i p ℂ) :=
  (inv (ovlpMatrix T W)).map fun m => (conj T * (m * Wᵀ), m * Wᵀ)

/-- `trial.py` L302-318: `trial_walker_ovlp_gf_base` for one walker:
`einsum("zij,zpj->zpi", inv_ovlp, phiw)`. -/
noncomputable def ghalf (T W : Matrix p i ℂ) : Option (Matrix p i ℂ) :=
  (inv (ovlpMatrix T W)).map fun m => Matrix.of fun a b => ∑ j, m b j * W a j

/-- `trial.py` L419: `einsum("pi,nqi->npq", psia.conj(), Ghalfa)` for one walker. -/
noncomputable def fullG (T : Matrix p i ℂ) (h : Matrix p i ℂ) : Matrix p p ℂ :=
  Matrix.of fun a b => ∑ k, conj T a k * h b k

/-- `trial.py` L207, L217 (one-electron part) and L212, L218 (fields): half rotation
`einsum("Jpi, pq->Jqi", psi.conj(), h)` for one determinant `J` and one field. -/
noncomputable def halfRotate (T : Matrix p i ℂ) (h : Matrix p p ℂ) : Matrix p i ℂ :=
  Matrix.of fun q k => ∑ a, conj T a k * h a q

/-- `trial.py` L904: one entry of the force bias of one spin component, without the factor
`2 / ncomponents`. -/
noncomputable def vbias (rl : Matrix p i ℂ) (h : Matrix p i ℂ) : ℂ := ∑ q, ∑ k, h q k * rl q k

/-- `trial.py` L904-907: the force bias; the second component is present for
`ncomponents = 2`. -/
noncomputable def getVbias {i' : Type*} [Fintype i'] (L : g → Matrix p p ℂ)
    (Ta : Matrix p i ℂ) (ha : Matrix p i ℂ) (beta : Option (Matrix p i' ℂ × Matrix p i' ℂ))
    (γ : g) : ℂ :=
  match beta with
  | none => 2 / 1 * vbias (halfRotate Ta (L γ)) ha
  | some (Tb, hb) => 2 / 2 * vbias (halfRotate Ta (L γ)) ha + vbias (halfRotate Tb (L γ)) hb

/-- `trial.py` L367-392: the overlap.  `slogdet` gives sign and logarithm of the modulus, and
`sign * exp(logdet)` is the determinant again (the log shifts are zero); one component is
squared. -/
noncomputable def overlap {i' : Type*} [Fintype i'] [DecidableEq i'] (Ta Wa : Matrix p i ℂ)
    (beta : Option (Matrix p i' ℂ × Matrix p i' ℂ)) : ℂ :=
  match beta with
  | none => (ovlpMatrix Ta Wa).det * (ovlpMatrix Ta Wa).det
  | some (Tb, Wb) => (ovlpMatrix Ta Wa).det * (ovlpMatrix Tb Wb).det

/-- The result of `qr(phi)` (`qmc.py` L72): `phi = Q R` with orthonormal columns and an upper
triangular `R`.  LAPACK makes no promise about the signs of the diagonal. -/
structure IsQR {k : ℕ} (phi Q : Matrix p (Fin k) ℂ) (R : Matrix (Fin k) (Fin k) ℂ) : Prop where
  factor : phi = Q * R
  orth : (conj Q)ᵀ * Q = 1
  upper : ∀ a b, b < a → R a b = 0

/-- `qmc.py` L68-79, L710-721: the stored overlap of a walker after orthogonalisation:
divided by `exp(Σ log|R_ii|)` of the alpha part and, for two components, of the beta part. -/
noncomputable def storedOverlap {k k' : ℕ} (ovlp : ℂ) (Ra : Matrix (Fin k) (Fin k) ℂ)
    (Rb : Option (Matrix (Fin k') (Fin k') ℂ)) : ℂ :=
  match Rb with
  | none => ovlp / ((∏ a, ‖Ra a a‖ : ℝ) : ℂ)
  | some R => ovlp / (((∏ a, ‖Ra a a‖) * ∏ a, ‖R a a‖ : ℝ) : ℂ)

/-- `qmc.py` L733-737: the boson state after orthogonalisation:
`abs(boson_phiw / norm)`. -/
noncomputable def orthBoson {b : Type*} [Fintype b] (v : b → ℂ) : b → ℂ :=
  fun n => ((‖v n / ((Real.sqrt (∑ m, ‖v m‖ ^ 2) : ℝ) : ℂ)‖ : ℝ) : ℂ)

end OpenMS.Green
