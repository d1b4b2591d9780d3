import Mathlib.Data.Complex.Basic
import Mathlib.Data.Matrix.Mul
import Mathlib.Data.Fintype.Card

/-!
# Low-rank factors of a Cholesky matrix

`openms/qmc/tools.py` L50-84 (`build_Ltensor_plan`), for one Cholesky matrix.  `U`, `s`, `Vh` are what `numpy.linalg.svd` returns, numbers
are exact.  The use of the factors is in `Model/Energy`.
-/

namespace OpenMS.LowRankPlan

variable {N : ℕ}

/-- `tools.py` L52-59: `numerical_rank_svals`, the number of singular values above the tolerance. -/
noncomputable def numericalRank (s : Fin N → ℝ) (tol : ℝ) : ℕ := (Finset.univ.filter fun i => tol < s i).card

/-- `tools.py` L71-76: `X = U[:, :k] * s[:k]`; the columns from `k` on are not there. -/
noncomputable def factorX (U : Matrix (Fin N) (Fin N) ℂ) (s : Fin N → ℝ) (k : ℕ) (hk : k ≤ N) : Matrix (Fin N) (Fin k) ℂ :=
  fun a i => U a (Fin.castLE hk i) * s (Fin.castLE hk i)

/-- `tools.py` L73-74: `Uright = Vh[:k, :].T`. -/
def factorU (Vh : Matrix (Fin N) (Fin N) ℂ) (k : ℕ) (hk : k ≤ N) : Matrix (Fin N) (Fin k) ℂ :=
  fun b i => Vh (Fin.castLE hk i) b

theorem numericalRank_le (s : Fin N → ℝ) (tol : ℝ) : numericalRank s tol ≤ N := by
  unfold numericalRank
  exact (Finset.card_le_univ _).trans (by simp)

/-- `tools.py` L67-80: the entry of the plan for one matrix; `none` is the entry `banded`, for which the matrix itself is used. -/
noncomputable def entry (U Vh : Matrix (Fin N) (Fin N) ℂ) (s : Fin N → ℝ) (tol : ℝ) (maxRank : ℕ) :
    Option ((k : ℕ) × Matrix (Fin N) (Fin k) ℂ × Matrix (Fin N) (Fin k) ℂ) :=
  if numericalRank s tol ≤ maxRank ∧ 0 < numericalRank s tol then
    some ⟨numericalRank s tol, factorX U s _ (numericalRank_le s tol), factorU Vh _ (numericalRank_le s tol)⟩
  else none

end OpenMS.LowRankPlan
