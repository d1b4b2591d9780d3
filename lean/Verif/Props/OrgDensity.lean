import Verif.Model.ScQedHF
import Mathlib.Tactic.Linarith
import Mathlib.Tactic.Ring
import Mathlib.Tactic.NormNum
import Mathlib.Tactic.FieldSimp
import Mathlib.Tactic.Positivity
import Mathlib.Tactic.IntervalCases
import Mathlib.Algebra.BigOperators.Ring.Finset
import Mathlib.Algebra.BigOperators.Field
import Mathlib.Algebra.Order.BigOperators.Ring.Finset

/-!
# C46: the density matrix in the original representation
-/

namespace OpenMS.ScQed

open Matrix

set_option linter.unusedSectionVars false

variable {a : Type*} [Fintype a]

/-- A block of the transformed density matrix is a sum of products of displaced orbitals. -/
theorem orgDO_entry {i : Type*} [Fintype i] (sgn : ℝ) (U Uinv : Matrix a a ℝ) (C : Matrix a i ℝ)
    (occ : i → ℝ) (z : a → ℝ) (m k : ℕ) (p q : a) :
    orgDO sgn U Uinv (mkRho C occ) z m k p q =
      ∑ x, occ x * (∑ r, Uinv r p * (zAmp 1 (z r) m * (Uᵀ * C) r x)) *
        (∑ t, Uinv t q * (zAmp sgn (z t) k * (Uᵀ * C) t x)) := by
  have hrho : ∀ r t, (Uᵀ * mkRho C occ * U) r t = ∑ x, occ x * (Uᵀ * C) r x * (Uᵀ * C) t x := by
    intro r t
    simp only [Matrix.mul_apply, mkRho, Matrix.of_apply, Matrix.transpose_apply, Finset.sum_mul,
      Finset.mul_sum]
    rw [Finset.sum_comm]
    simp only [Finset.sum_comm (s := (Finset.univ : Finset a)) (t := (Finset.univ : Finset i))]
    refine Finset.sum_congr rfl fun x _ => ?_
    rw [Finset.sum_comm]
    refine Finset.sum_congr rfl fun u _ => Finset.sum_congr rfl fun v _ => ?_
    ring
  unfold orgDO unitaryTransform
  simp only [Matrix.mul_apply (M := Uinvᵀ * _), Matrix.mul_apply (M := Uinvᵀ), Matrix.of_apply,
    Matrix.transpose_apply, hrho]
  simp only [Finset.sum_mul, Finset.mul_sum]
  simp only [Finset.sum_comm (s := (Finset.univ : Finset a)) (t := (Finset.univ : Finset i))]
  refine Finset.sum_congr rfl fun x _ => ?_
  refine Finset.sum_congr rfl fun u _ => Finset.sum_congr rfl fun v _ => ?_
  ring

/-- C46: without displacement the electrons are untouched and there are no photons, in all three
methods and for every basis change. -/
theorem org_density_undisplaced [DecidableEq a] (U Uinv rho : Matrix a a ℝ) (hU : U * Uinv = 1) (sgn : ℝ)
    (m k : ℕ) :
    orgHF rho 0 m k = (if m = 0 ∧ k = 0 then rho else 0) ∧
    orgDO sgn U Uinv rho (fun _ => 0) m k = if m = 0 ∧ k = 0 then rho else 0 := by
  have hz : ∀ (s : ℝ) (j : ℕ), zAmp s 0 j = if j = 0 then 1 else 0 := by
    intro s j
    by_cases hj : j = 0
    · subst hj; simp [zAmp]
    · simp [zAmp, hj]
  constructor
  · ext p q
    by_cases hm : m = 0 <;> by_cases hk : k = 0 <;> simp [orgHF, hz, hm, hk]
  · unfold orgDO
    by_cases hm : m = 0 ∧ k = 0
    · rw [if_pos hm]
      have : (Matrix.of fun p q => unitaryTransform U rho p q * (zAmp 1 0 m * zAmp sgn 0 k)) =
          unitaryTransform U rho := by
        ext p q; simp [hz, hm.1, hm.2]
      rw [this]
      unfold unitaryTransform
      have ht : Uinvᵀ * Uᵀ = 1 := by rw [← Matrix.transpose_mul, hU, Matrix.transpose_one]
      calc Uinvᵀ * (Uᵀ * rho * U) * Uinv = (Uinvᵀ * Uᵀ) * rho * (U * Uinv) := by
            simp only [Matrix.mul_assoc]
        _ = rho := by rw [ht, hU, Matrix.one_mul, Matrix.mul_one]
    · rw [if_neg hm]
      have : (Matrix.of fun p q => unitaryTransform U rho p q * (zAmp 1 0 m * zAmp sgn 0 k)) = 0 := by
        ext p q
        rcases not_and_or.1 hm with h | h <;> simp [hz, h]
      rw [this]
      simp [unitaryTransform]

/-- C46 (part), Hermiticity and positivity for QED-HF and VT-QED-HF: for every density made of
orbitals with non-negative occupations, every basis change, displacements and photon numbers, the
matrix is symmetric under exchange of both indices and non-negative on the diagonal. -/
theorem org_density_partial {i : Type*} [Fintype i] (C : Matrix a i ℝ) (occ : i → ℝ)
    (hocc : ∀ x, 0 ≤ occ x) (U Uinv : Matrix a a ℝ) (z : a → ℝ) (z0 : ℝ) (m k : ℕ) (p q : a) :
    (orgHF (mkRho C occ) z0 m k p q = orgHF (mkRho C occ) z0 k m q p ∧
      0 ≤ orgHF (mkRho C occ) z0 m m p p) ∧
    (orgDO 1 U Uinv (mkRho C occ) z m k p q = orgDO 1 U Uinv (mkRho C occ) z k m q p ∧
      0 ≤ orgDO 1 U Uinv (mkRho C occ) z m m p p) := by
  refine ⟨⟨?_, ?_⟩, ?_, ?_⟩
  · have : mkRho C occ p q = mkRho C occ q p := by
      simp only [mkRho, Matrix.of_apply]
      exact Finset.sum_congr rfl fun x _ => by ring
    simp only [orgHF, Matrix.of_apply]
    rw [this]; ring
  · simp only [orgHF, Matrix.of_apply, mul_assoc]
    refine mul_nonneg ?_ (mul_self_nonneg _)
    simp only [mkRho, Matrix.of_apply]
    refine Finset.sum_nonneg fun x _ => ?_
    rw [mul_right_comm, mul_comm]
    exact mul_nonneg (hocc x) (mul_self_nonneg _)
  · rw [orgDO_entry, orgDO_entry]
    exact Finset.sum_congr rfl fun x _ => by ring
  · rw [orgDO_entry]
    refine Finset.sum_nonneg fun x _ => ?_
    rw [mul_assoc]
    exact mul_nonneg (hocc x) (mul_self_nonneg _)

/-- SC-QED-HF: the block for `m`, `k` photons is the one VT-QED-HF would give with the sign
`(-1)^k`. -/
theorem orgSC_sign (U Uinv rho : Matrix a a ℝ) (z : a → ℝ) (m k : ℕ) :
    orgDO (-1) U Uinv rho z m k = (-1 : ℝ) ^ k • orgDO 1 U Uinv rho z m k := by
  have h : ∀ x, zAmp (-1) x k = (-1) ^ k * zAmp 1 x k := by
    intro x; unfold zAmp; rw [one_mul, neg_one_mul, neg_pow]; ring
  unfold orgDO unitaryTransform
  rw [← Matrix.smul_mul, ← Matrix.mul_smul]
  congr 2
  ext p q
  simp only [Matrix.of_apply, Matrix.smul_apply, smul_eq_mul, h]
  ring

/-- C46 fails for SC-QED-HF: populations of odd photon numbers are never positive, and blocks with
one odd and one even photon number are antisymmetric instead of symmetric; both for every system.
-/
theorem org_density_sc_fails {i : Type*} [Fintype i] (C : Matrix a i ℝ) (occ : i → ℝ)
    (hocc : ∀ x, 0 ≤ occ x) (U Uinv : Matrix a a ℝ) (z : a → ℝ) (m k : ℕ) (hm : Odd m) (hk : Even k)
    (p q : a) :
    orgDO (-1) U Uinv (mkRho C occ) z m m p p ≤ 0 ∧
    orgDO (-1) U Uinv (mkRho C occ) z m k p q = -orgDO (-1) U Uinv (mkRho C occ) z k m q p := by
  obtain ⟨_, _, h2⟩ := org_density_partial C occ hocc U Uinv z 0 m k p q
  obtain ⟨_, h1, _⟩ := org_density_partial C occ hocc U Uinv z 0 m k p q
  have h3 := (org_density_partial C occ hocc U Uinv z 0 m m p p).2.2
  simp only [orgSC_sign, hm.neg_one_pow, hk.neg_one_pow, Matrix.smul_apply, smul_eq_mul]
  exact ⟨by linarith, by rw [h1]; ring⟩

/-- One orbital, displacement 1: the one-photon population is `-2 / e` (occupation 2). -/
example : orgDO (-1) (1 : Matrix (Fin 1) (Fin 1) ℝ) 1 (mkRho (1 : Matrix (Fin 1) (Fin 1) ℝ) fun _ => 2) (fun _ => 1) 1 1 0 0 =
    -(2 * (Real.exp (-(1 / 2)) * Real.exp (-(1 / 2)))) := by
  rw [orgDO_entry]
  simp [zAmp]
  ring

/-! ### Photon populations -/

theorem zAmp_sq (z : ℝ) (m : ℕ) :
    zAmp 1 z m * zAmp 1 z m = Real.exp (-(1 / 2) * z ^ 2) ^ 2 * (z ^ (2 * m) * (m.factorial : ℝ)) := by
  unfold zAmp
  have h : Real.sqrt (m.factorial : ℝ) * Real.sqrt (m.factorial : ℝ) = m.factorial :=
    Real.mul_self_sqrt (Nat.cast_nonneg _)
  calc _ = Real.exp (-(1 / 2) * z ^ 2) ^ 2 * (z ^ m * z ^ m *
        (Real.sqrt (m.factorial : ℝ) * Real.sqrt (m.factorial : ℝ))) := by rw [one_mul]; ring
    _ = _ := by rw [h, ← pow_add, two_mul]

/-- What the photon populations are: weights `z^(2m) m!` instead of `z^(2m) / m!`. -/
theorem populations_value (rho : Matrix a a ℝ) (h : rho.trace ≠ 0) (z : ℝ) (nfock m : ℕ) :
    rhoB (orgHF rho z) nfock m m =
      z ^ (2 * m) * (m.factorial : ℝ) / ∑ k ∈ Finset.range nfock, z ^ (2 * k) * (k.factorial : ℝ) := by
  have ht : ∀ k, (orgHF rho z k k).trace =
      rho.trace * Real.exp (-(1 / 2) * z ^ 2) ^ 2 * (z ^ (2 * k) * (k.factorial : ℝ)) := by
    intro k
    unfold orgHF Matrix.trace
    simp only [Matrix.diag_apply, Matrix.of_apply, mul_assoc, ← Finset.sum_mul]
    rw [zAmp_sq]
  unfold rhoB rhoE
  rw [Matrix.trace_sum]
  simp only [ht, ← Finset.mul_sum]
  have he : Real.exp (-(1 / 2) * z ^ 2) ^ 2 ≠ 0 := pow_ne_zero _ (Real.exp_pos _).ne'
  rw [mul_div_mul_left _ _ (mul_ne_zero h he)]

/-- Specification: Poisson weights of a coherent state `z`, renormalised to the retained photon
numbers. -/
noncomputable def poisson (z : ℝ) (nfock m : ℕ) : ℝ :=
  z ^ (2 * m) / (m.factorial : ℝ) / ∑ k ∈ Finset.range nfock, z ^ (2 * k) / (k.factorial : ℝ)

/-- C46 (part), populations: with at most two retained photon states (the default) the photon
populations are those of a coherent state.  Missing: three or more. -/
theorem populations_poisson_partial (rho : Matrix a a ℝ) (h : rho.trace ≠ 0) (z : ℝ) (nfock : ℕ)
    (hn : nfock ≤ 2) (m : ℕ) (hm : m < nfock) :
    rhoB (orgHF rho z) nfock m m = poisson z nfock m := by
  rw [populations_value rho h]
  unfold poisson
  have : ∀ k, k < 2 → z ^ (2 * k) * (k.factorial : ℝ) = z ^ (2 * k) / (k.factorial : ℝ) := by
    intro k hk
    interval_cases k <;> simp
  rw [this m (by omega)]
  congr 1
  exact Finset.sum_congr rfl fun k hk => this k (by have := Finset.mem_range.1 hk; omega)

example : (1 : Matrix (Fin 2) (Fin 2) ℝ).trace ≠ 0 := by simp

/-- C46 fails: with three or more retained photon states the weight of two photons relative to
none is four times that of a coherent state, for every density and every displacement. -/
theorem populations_poisson_fails (rho : Matrix a a ℝ) (h : rho.trace ≠ 0) (z : ℝ) (hz : z ≠ 0)
    (nfock : ℕ) (hn : 3 ≤ nfock) :
    rhoB (orgHF rho z) nfock 2 2 / rhoB (orgHF rho z) nfock 0 0 =
      4 * (poisson z nfock 2 / poisson z nfock 0) ∧
    poisson z nfock 2 / poisson z nfock 0 ≠ 0 := by
  have hpos : ∀ w : ℕ → ℝ, (∀ k, 0 < w k) → (∑ k ∈ Finset.range nfock, z ^ (2 * k) * w k) ≠ 0 := by
    intro w hw
    apply ne_of_gt
    refine Finset.sum_pos (fun k _ => ?_) ⟨0, Finset.mem_range.2 (by omega)⟩
    rw [pow_mul]
    have := hw k
    positivity
  have h1 := hpos (fun k => (k.factorial : ℝ)) fun k => by positivity
  have h2 := hpos (fun k => (k.factorial : ℝ)⁻¹) fun k => by positivity
  simp only [← div_eq_mul_inv] at h2
  rw [populations_value rho h, populations_value rho h]
  unfold poisson
  constructor
  · rw [div_div_div_cancel_right₀ h1, div_div_div_cancel_right₀ h2]
    norm_num
    ring
  · rw [div_div_div_cancel_right₀ h2]
    norm_num
    exact hz

end OpenMS.ScQed
