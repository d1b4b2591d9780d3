import Verif.Model.LowRankPlan
import Mathlib.LinearAlgebra.Matrix.ConjTranspose
import Mathlib.LinearAlgebra.Matrix.Trace
import Mathlib.Data.Complex.BigOperators
import Mathlib.Tactic

/-! C182: low-rank factors of a Cholesky matrix. -/

namespace OpenMS.LowRankPlan

open Matrix

variable {N : ℕ}

theorem above_iff (s : Fin N → ℝ) (hs : Antitone s) (tol : ℝ) (i : Fin N) : tol < s i ↔ i.val < numericalRank s tol := by
  constructor
  · intro h
    have hsub : (Finset.univ.filter fun j : Fin N => j ≤ i) ⊆ Finset.univ.filter fun j => tol < s j := by
      intro j hj
      simp only [Finset.mem_filter, Finset.mem_univ, true_and] at hj ⊢
      exact h.trans_le (hs hj)
    have hc := Finset.card_le_card hsub
    have : (Finset.univ.filter fun j : Fin N => j ≤ i).card = i.val + 1 := by
      rw [show (Finset.univ.filter fun j : Fin N => j ≤ i) = Finset.Iic i by ext j; simp, Fin.card_Iic]
    unfold numericalRank; omega
  · intro h
    by_contra hn
    have hsub : (Finset.univ.filter fun j => tol < s j) ⊆ Finset.univ.filter fun j : Fin N => j < i := by
      intro j hj
      simp only [Finset.mem_filter, Finset.mem_univ, true_and] at hj ⊢
      by_contra hji
      exact hn (hj.trans_le (hs (not_lt.1 hji)))
    have hc := Finset.card_le_card hsub
    have : (Finset.univ.filter fun j : Fin N => j < i).card = i.val := by
      rw [show (Finset.univ.filter fun j : Fin N => j < i) = Finset.Iio i by ext j; simp, Fin.card_Iio]
    unfold numericalRank at h; omega

theorem product_eq (U Vh : Matrix (Fin N) (Fin N) ℂ) (s : Fin N → ℝ) (k : ℕ) (hk : k ≤ N) :
    factorX U s k hk * (factorU Vh k hk)ᵀ = U * diagonal (fun i => if i.val < k then (s i : ℂ) else 0) * Vh := by
  ext a b
  rw [Matrix.mul_apply, Matrix.mul_apply]
  simp only [mul_diagonal, factorX, factorU, transpose_apply]
  have h : ∀ f : Fin N → ℂ, ∑ i : Fin k, f (Fin.castLE hk i) = ∑ i : Fin N, if i.val < k then f i else 0 := by
    intro f
    rw [← Finset.sum_filter]
    refine Finset.sum_bij (fun i _ => Fin.castLE hk i) ?_ ?_ ?_ ?_
    · intro i _; simp
    · intro i _ j _ h; exact Fin.castLE_injective hk h
    · intro j hj
      simp only [Finset.mem_filter, Finset.mem_univ, true_and] at hj
      exact ⟨⟨j, hj⟩, Finset.mem_univ _, rfl⟩
    · intro i _; rfl
  rw [h fun i => U a i * s i * Vh i b]
  refine Finset.sum_congr rfl fun i _ => ?_
  split <;> simp

theorem frobenius (U Vh : Matrix (Fin N) (Fin N) ℂ) (hU : Uᴴ * U = 1) (hV : Vh * Vhᴴ = 1) (d : Fin N → ℝ) :
    ∑ a, ∑ b, Complex.normSq ((U * diagonal (fun i => (d i : ℂ)) * Vh) a b) = ∑ i, d i ^ 2 := by
  obtain ⟨E, hE⟩ : ∃ E, E = U * diagonal (fun i => (d i : ℂ)) * Vh := ⟨_, rfl⟩
  have h1 : ((∑ a, ∑ b, Complex.normSq (E a b) : ℝ) : ℂ) = (Eᴴ * E).trace := by
    rw [Matrix.trace, Complex.ofReal_sum, Finset.sum_congr rfl fun a _ => Complex.ofReal_sum _ _, Finset.sum_comm]
    refine Finset.sum_congr rfl fun b _ => ?_
    rw [diag_apply, mul_apply]
    exact Finset.sum_congr rfl fun a _ => by rw [conjTranspose_apply, Complex.normSq_eq_conj_mul_self]; rfl
  have hD : (diagonal (fun i => (d i : ℂ)))ᴴ = diagonal (fun i => (d i : ℂ)) := by
    rw [diagonal_conjTranspose]; congr 1; ext i; simp
  have h2 : (Eᴴ * E).trace = ((∑ i, d i ^ 2 : ℝ) : ℂ) := by
    rw [hE, conjTranspose_mul, conjTranspose_mul, hD]
    rw [show Vhᴴ * (diagonal (fun i => (d i : ℂ)) * Uᴴ) * (U * diagonal (fun i => (d i : ℂ)) * Vh) =
      Vhᴴ * (diagonal (fun i => (d i : ℂ)) * (Uᴴ * U) * diagonal (fun i => (d i : ℂ)) * Vh) by simp only [Matrix.mul_assoc]]
    rw [hU, Matrix.mul_one, diagonal_mul_diagonal, trace_mul_comm, Matrix.mul_assoc, hV, Matrix.mul_one, trace_diagonal,
      Complex.ofReal_sum]
    exact Finset.sum_congr rfl fun i _ => by push_cast; ring
  rw [← hE]
  exact_mod_cast h1.trans h2

/-- C182: whatever the plan, the factors of an entry that has some reproduce the matrix but for the singular values up to the
tolerance: the squares of the deviations add up to those of these values. -/
theorem error_eq (L U Vh : Matrix (Fin N) (Fin N) ℂ) (s : Fin N → ℝ) (hU : Uᴴ * U = 1) (hV : Vh * Vhᴴ = 1)
    (hL : L = U * diagonal (fun i => (s i : ℂ)) * Vh) (hs : Antitone s) (tol : ℝ) (maxRank k : ℕ)
    (X Ur : Matrix (Fin N) (Fin k) ℂ) (h : entry U Vh s tol maxRank = some ⟨k, X, Ur⟩) :
    ∑ a, ∑ b, Complex.normSq ((L - X * Urᵀ) a b) = ∑ i, if s i ≤ tol then s i ^ 2 else 0 := by
  unfold entry at h
  split at h
  swap
  · cases h
  cases h
  rw [product_eq, hL, ← Matrix.sub_mul, ← Matrix.mul_sub, diagonal_sub]
  have e : (fun i : Fin N => (s i : ℂ) - if i.val < numericalRank s tol then (s i : ℂ) else 0) =
      fun i => ((if s i ≤ tol then s i else 0 : ℝ) : ℂ) := by
    ext i
    by_cases hi : i.val < numericalRank s tol
    · rw [if_pos hi, if_neg (not_le.2 ((above_iff s hs tol i).2 hi)), sub_self, Complex.ofReal_zero]
    · rw [if_neg hi, if_pos (not_lt.1 fun h' => hi ((above_iff s hs tol i).1 h')), sub_zero]
  rw [e, frobenius U Vh hU hV]
  exact Finset.sum_congr rfl fun i _ => by split <;> simp

/-- C182: the factors have as many columns as there are singular values above the tolerance, at least one and at most the bound, and no
element of the matrix is wrong by more than the tolerance times the root of the number of those left out. -/
theorem error_le (L U Vh : Matrix (Fin N) (Fin N) ℂ) (s : Fin N → ℝ) (hU : Uᴴ * U = 1) (hV : Vh * Vhᴴ = 1)
    (hL : L = U * diagonal (fun i => (s i : ℂ)) * Vh) (hs : Antitone s) (h0 : ∀ i, 0 ≤ s i) (tol : ℝ) (maxRank k : ℕ)
    (X Ur : Matrix (Fin N) (Fin k) ℂ) (h : entry U Vh s tol maxRank = some ⟨k, X, Ur⟩) :
    0 < k ∧ k ≤ maxRank ∧ k = (Finset.univ.filter fun i => tol < s i).card ∧
      ∀ a b, Complex.normSq ((L - X * Urᵀ) a b) ≤ (N - k) * tol ^ 2 := by
  have he := error_eq L U Vh s hU hV hL hs tol maxRank k X Ur h
  have hk : k = numericalRank s tol ∧ k ≤ maxRank ∧ 0 < k := by
    unfold entry at h
    split at h
    · rename_i hc; cases h; exact ⟨rfl, hc.1, hc.2⟩
    · cases h
  refine ⟨hk.2.2, hk.2.1, hk.1, fun a b => ?_⟩
  have h1 : Complex.normSq ((L - X * Urᵀ) a b) ≤ ∑ a, ∑ b, Complex.normSq ((L - X * Urᵀ) a b) :=
    (Finset.single_le_sum (f := fun b => Complex.normSq ((L - X * Urᵀ) a b)) (fun _ _ => Complex.normSq_nonneg _) (Finset.mem_univ b)).trans
      (Finset.single_le_sum (f := fun a => ∑ b, Complex.normSq ((L - X * Urᵀ) a b))
        (fun _ _ => Finset.sum_nonneg fun _ _ => Complex.normSq_nonneg _) (Finset.mem_univ a))
  refine h1.trans (he.le.trans ?_)
  rw [← Finset.sum_filter]
  have h2 : ∑ i ∈ Finset.univ.filter (fun i => s i ≤ tol), s i ^ 2 ≤ ∑ _i ∈ Finset.univ.filter (fun i => s i ≤ tol), tol ^ 2 := by
    refine Finset.sum_le_sum fun i hi => ?_
    simp only [Finset.mem_filter, Finset.mem_univ, true_and] at hi
    exact pow_le_pow_left₀ (h0 i) hi 2
  refine h2.trans (le_of_eq ?_)
  rw [Finset.sum_const, nsmul_eq_mul]
  congr 1
  have hc := Finset.card_filter_add_card_filter_not (s := (Finset.univ : Finset (Fin N))) (fun i => tol < s i)
  simp only [not_lt, Finset.card_univ, Fintype.card_fin] at hc
  rw [hk.1]
  unfold numericalRank
  rw [eq_sub_iff_add_eq]
  exact_mod_cast (by omega : (Finset.univ.filter fun i => s i ≤ tol).card + (Finset.univ.filter fun i => tol < s i).card = N)

/-- C182 fails: the tolerance is not relative to the largest singular value: a matrix of small enough numbers never gets factors, while
every matrix of rank one does in some units. -/
theorem scale_fails (U Vh : Matrix (Fin N) (Fin N) ℂ) (s : Fin N → ℝ) (h0 : ∀ i, 0 ≤ s i) (tol : ℝ) (ht : 0 < tol) (maxRank : ℕ) :
    (∃ c : ℝ, 0 < c ∧ entry U Vh (fun i => c * s i) tol maxRank = none) ∧
      ((∃ i, s i ≠ 0 ∧ ∀ j, j ≠ i → s j = 0) → 1 ≤ maxRank → ∃ c : ℝ, 0 < c ∧ entry U Vh (fun i => c * s i) tol maxRank ≠ none) := by
  constructor
  swap
  · rintro ⟨i, hi, hj⟩ hm
    have hpos : 0 < s i := lt_of_le_of_ne (h0 i) (Ne.symm hi)
    refine ⟨2 * tol / s i, by positivity, ?_⟩
    unfold entry
    rw [if_pos]
    · exact Option.some_ne_none _
    · refine ⟨le_trans ?_ hm, Finset.card_pos.2 ⟨i, ?_⟩⟩
      · unfold numericalRank
        have : Nonempty (Fin N) := ⟨i⟩
        rw [Finset.card_le_one_iff_subset_singleton]
        refine ⟨i, fun j hjm => ?_⟩
        · rw [Finset.mem_singleton]
          by_contra hne
          rw [Finset.mem_filter] at hjm
          dsimp only at hjm
          rw [hj j hne, mul_zero] at hjm
          exact absurd hjm.2 (not_lt.2 ht.le)
      rw [Finset.mem_filter]
      refine ⟨Finset.mem_univ _, ?_⟩
      dsimp only
      rw [div_mul_cancel₀ _ hi]
      linarith
  have hp : 0 < 1 + ∑ i, s i := by have := Finset.sum_nonneg fun i (_ : i ∈ Finset.univ) => h0 i; linarith
  refine ⟨tol / (1 + ∑ i, s i), div_pos ht hp, ?_⟩
  have hz : numericalRank (fun i => tol / (1 + ∑ i, s i) * s i) tol = 0 := by
    unfold numericalRank
    rw [Finset.card_eq_zero, Finset.filter_eq_empty_iff]
    intro i _
    dsimp only
    rw [not_lt, div_mul_eq_mul_div, div_le_iff₀ hp]
    have := Finset.single_le_sum (fun j _ => h0 j) (Finset.mem_univ i)
    nlinarith
  unfold entry
  rw [if_neg]
  rintro ⟨_, h⟩
  omega

/-- Two singular values, one of them above the tolerance. -/
example : (1 : Matrix (Fin 2) (Fin 2) ℂ)ᴴ * 1 = 1 ∧ Antitone (![1, 0] : Fin 2 → ℝ) ∧
    (Finset.univ.filter fun i => (1 / 2 : ℝ) < (![1, 0] : Fin 2 → ℝ) i).card = 1 := by
  refine ⟨by simp, ?_, ?_⟩
  · intro i j h
    fin_cases i <;> fin_cases j <;> simp_all
  · rw [Finset.card_eq_one]
    refine ⟨0, ?_⟩
    ext i
    fin_cases i <;> norm_num

end OpenMS.LowRankPlan
