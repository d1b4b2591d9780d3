import Verif.Model.Propagate
import Mathlib.LinearAlgebra.Matrix.ConjTranspose
import Mathlib.Data.Matrix.ColumnRowPartitioned
import Mathlib.Analysis.Complex.Basic

/-!
# Building the propagator

Model of `PropagatorBase.build` and of the decoupled branch of `PhaselessElecBoson.build` in
`/repo/openms/qmc/propagators.py`.  `n` indexes basis functions, `i` occupied orbitals, `s`
spins, `b` boson occupation states; `nf` is the number of auxiliary fields.
-/

namespace OpenMS.PropBuild

open Matrix OpenMS.Propagators

variable {n i s b : Type*} [Fintype n] [Fintype i] [Fintype b]

/-- `propagators.py` L371: `rho_mf = psi.dot(psi.T.conj()) * 2.0 / ncomponents`. -/
noncomputable def rhoMf (ncomponents : ℕ) (psi : Matrix n i ℂ) : Matrix n n ℂ :=
  (2 / (ncomponents : ℂ)) • (psi * psiᴴ)

/-- The number `Σ_pq L_pq ρ_pq` inside L374, `einsum("npq,pq->n", ltensor, rho_mf)`. -/
def trace {nf : ℕ} {m : Type*} [Fintype m] (L : Fin nf → Matrix m m ℂ) (rho : Matrix m m ℂ)
    (γ : Fin nf) : ℂ := ∑ p, ∑ q, L γ p q * rho p q

/-- L371-374 with `trial.psi` as `trial.py` L783-791 sets it: the orbitals of both spins next to
each other (`hstack`), or the first spin only. -/
noncomputable def builtLbar {nf : ℕ} {i' : Type*} [Fintype i'] (two : Bool)
    (L : Fin nf → Matrix n n ℂ) (Ta : Matrix n i ℂ) (Tb : Matrix n i' ℂ) : Fin nf → ℂ :=
  if two then trace L (rhoMf 2 (Matrix.fromCols Ta Tb)) else trace L (rhoMf 1 Ta)

/-- `propagators.py` L381-384: the fields which enter `trace_eri`: the first `nbarefields`, or all of them if
that number is zero. -/
def bare (nf nbare : ℕ) : Finset (Fin nf) :=
  if nbare > 0 then Finset.univ.filter (fun γ => γ.val < nbare) else Finset.univ

/-- L381-384: `trace_eri = einsum("npr,nrq->pq", ltensor.conj(), ltensor)`. -/
noncomputable def traceEri {nf : ℕ} (nbare : ℕ) (L : Fin nf → Matrix n n ℂ) : Matrix n n ℂ :=
  ∑ γ ∈ bare nf nbare, ((L γ).map (starRingEnd ℂ)) * L γ

/-- L385, L399-401: `shifted_h1e`, for every spin block of `h1e` (the other terms are
broadcast over the spin index). -/
noncomputable def shiftedH1e {nf : ℕ} (ncomponents nbare : ℕ) (h : s → Matrix n n ℂ)
    (L : Fin nf → Matrix n n ℂ) (psi : Matrix n i ℂ) (σ : s) : Matrix n n ℂ :=
  h σ - (1 / 2 : ℂ) • traceEri nbare L -
    ∑ γ, mfShift (trace L (rhoMf ncomponents psi)) γ • (Complex.I • L γ)

/-- L1150: `boson_rhomf = outer(boson_psi, boson_psi.conj())`. -/
noncomputable def bosonRho (psi : b → ℂ) : Matrix b b ℂ :=
  Matrix.of fun p q => psi p * starRingEnd ℂ (psi q)

/-- L1160-1163: `chol_B[X] = chol_bilinear_b[X] * Hq`, `Hq` being the matrix of `a† + a`. -/
def cholB {nb : ℕ} (cholb : Fin nb → ℂ) (Hq : Matrix b b ℂ) (γ : Fin nb) : Matrix b b ℂ :=
  cholb γ • Hq

/-- L1167-1168: `shifted_Hb = Hb - Σ_n boson_mfshift_n * (1j * chol_B_n)`. -/
noncomputable def shiftedHb {nb : ℕ} (Hb : Matrix b b ℂ) (B : Fin nb → Matrix b b ℂ)
    (psi : b → ℂ) : Matrix b b ℂ :=
  Hb - ∑ γ, mfShift (trace B (bosonRho psi)) γ • (Complex.I • B γ)

end OpenMS.PropBuild
