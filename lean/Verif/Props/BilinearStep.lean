import Verif.Model.BilinearStep
import Mathlib.Analysis.SpecialFunctions.Exponential
import Mathlib.Analysis.SpecificLimits.Basic
import Mathlib.Tactic

/-!
# C145: expansion of the bilinear propagator
-/

namespace OpenMS.BilinearStep

open Filter Topology

set_option linter.unusedSectionVars false

variable {𝕜 : Type*} [Field 𝕜] {n r b : Type*} [Fintype n] [DecidableEq n] [Fintype b] [DecidableEq b]

/-- C145: the electronic part is the truncated exponential series, for both components. -/
theorem elec_series [CharZero 𝕜] (A : Matrix n n 𝕜) (B : Matrix b b 𝕜) (phi : Matrix n r 𝕜) (psi : b → 𝕜) (k : ℕ) :
    (orders A B phi psi k).phi = ∑ j ∈ Finset.range (k + 1), ((j.factorial : 𝕜)⁻¹) • (A ^ j * phi) ∧
      (ordersB A phi k).2 = ∑ j ∈ Finset.range (k + 1), ((j.factorial : 𝕜)⁻¹) • (A ^ j * phi) := by
  have ht : ∀ k, (orders A B phi psi k).temp = ((k.factorial : 𝕜)⁻¹) • (A ^ k * phi) ∧
      (ordersB A phi k).1 = ((k.factorial : 𝕜)⁻¹) • (A ^ k * phi) := by
    intro k
    induction k with
    | zero => simp [orders, ordersB]
    | succ k ih =>
      have e : (((k : 𝕜) + 1)⁻¹) • (A * ((k.factorial : 𝕜)⁻¹) • (A ^ k * phi)) =
          (((k + 1).factorial : 𝕜)⁻¹) • (A ^ (k + 1) * phi) := by
        rw [Matrix.mul_smul, smul_smul, ← Matrix.mul_assoc, ← pow_succ', Nat.factorial_succ]
        push_cast
        rw [mul_inv]
      refine ⟨?_, ?_⟩
      · change (((k : 𝕜) + 1)⁻¹) • (A * (orders A B phi psi k).temp) = _
        rw [ih.1, e]
      · change (((k : 𝕜) + 1)⁻¹) • (A * (ordersB A phi k).1) = _
        rw [ih.2, e]
  induction k with
  | zero => simp [orders, ordersB]
  | succ k ih =>
    rw [Finset.sum_range_succ, ← (ht (k + 1)).1]
    refine ⟨?_, ?_⟩
    · rw [← ih.1]; rfl
    · rw [← ih.2, (ht (k + 1)).1, ← (ht (k + 1)).2]; rfl

/-- C145: the bosonic part is the geometric series. -/
theorem boson_series (A : Matrix n n 𝕜) (B : Matrix b b 𝕜) (phi : Matrix n r 𝕜) (psi : b → 𝕜) (k : ℕ) :
    (orders A B phi psi k).psi = ∑ j ∈ Finset.range (k + 1), (B ^ j).mulVec psi := by
  have ht : ∀ k, (orders A B phi psi k).temp2 = (B ^ k).mulVec psi := by
    intro k
    induction k with
    | zero => simp [orders]
    | succ k ih =>
      change B.mulVec (orders A B phi psi k).temp2 = _
      rw [ih, Matrix.mulVec_mulVec, ← pow_succ']
  induction k with
  | zero => simp [orders]
  | succ k ih =>
    rw [Finset.sum_range_succ, ← ih, ← ht (k + 1)]
    rfl

/-- C145: at orders zero and one the bosonic part is the truncated exponential series. -/
theorem boson_exp_partial (A : Matrix n n 𝕜) (B : Matrix b b 𝕜) (phi : Matrix n r 𝕜) (psi : b → 𝕜) (k : ℕ) (hk : k ≤ 1) :
    (orders A B phi psi k).psi = ∑ j ∈ Finset.range (k + 1), ((j.factorial : 𝕜)⁻¹) • (B ^ j).mulVec psi := by
  rw [boson_series]
  refine Finset.sum_congr rfl fun j hj => ?_
  have : j ≤ 1 := by have := Finset.mem_range.1 hj; omega
  interval_cases j <;> simp

/-- Powers of a matrix on an eigenvector. -/
theorem pow_eig (B : Matrix b b 𝕜) (x : 𝕜) (psi : b → 𝕜) (h : B.mulVec psi = x • psi) (j : ℕ) :
    (B ^ j).mulVec psi = x ^ j • psi := by
  induction j with
  | zero => simp
  | succ j ih => rw [pow_succ', ← Matrix.mulVec_mulVec, ih, Matrix.mulVec_smul, h, smul_smul, pow_succ]

/-- C145 fails: on an eigenvector with positive eigenvalue every order above the first differs from the truncated
exponential series, and the bosonic part grows faster. -/
theorem boson_exp_fails (A : Matrix n n ℝ) (B : Matrix b b ℝ) (phi : Matrix n r ℝ) (psi : b → ℝ) (x : ℝ) (hx : 0 < x)
    (h : B.mulVec psi = x • psi) (h0 : psi ≠ 0) (k : ℕ) (hk : 2 ≤ k) :
    ∃ d : ℝ, 0 < d ∧ (orders A B phi psi k).psi =
        (∑ j ∈ Finset.range (k + 1), ((j.factorial : ℝ)⁻¹) • (B ^ j).mulVec psi) + d • psi ∧
      (orders A B phi psi k).psi ≠ ∑ j ∈ Finset.range (k + 1), ((j.factorial : ℝ)⁻¹) • (B ^ j).mulVec psi := by
  set d : ℝ := ∑ j ∈ Finset.range (k + 1), (1 - (j.factorial : ℝ)⁻¹) * x ^ j with hd
  have hpos : 0 < d := by
    refine Finset.sum_pos' (fun j _ => ?_) ⟨2, Finset.mem_range.2 (by omega), ?_⟩
    · have h1 : (1 : ℝ) ≤ (j.factorial : ℝ) := by exact_mod_cast Nat.factorial_pos j
      have := inv_le_one_of_one_le₀ h1
      have := pow_pos hx j
      exact mul_nonneg (by linarith) this.le
    · norm_num [Nat.factorial]; positivity
  have he : (orders A B phi psi k).psi =
      (∑ j ∈ Finset.range (k + 1), ((j.factorial : ℝ)⁻¹) • (B ^ j).mulVec psi) + d • psi := by
    rw [boson_series, hd, Finset.sum_smul, ← Finset.sum_add_distrib]
    refine Finset.sum_congr rfl fun j _ => ?_
    rw [pow_eig B x psi h, smul_smul, ← add_smul]
    congr 1; ring
  refine ⟨d, hpos, he, ?_⟩
  rw [he]
  intro hc
  have : d • psi = 0 := by simpa using hc
  rcases smul_eq_zero.1 this with h1 | h1
  · exact hpos.ne' h1
  · exact h0 h1

/-- C145: on a common eigenvalue the electronic part converges to the exponential. -/
theorem elec_limit (A : Matrix n n ℝ) (B : Matrix b b ℝ) (phi : Matrix n r ℝ) (psi : b → ℝ) (x : ℝ)
    (h : A * phi = x • phi) (p : n) (i : r) :
    Tendsto (fun k => (orders A B phi psi k).phi p i) atTop (𝓝 (Real.exp x * phi p i)) := by
  have hp : ∀ j, A ^ j * phi = x ^ j • phi := by
    intro j
    induction j with
    | zero => simp
    | succ j ih => rw [pow_succ', Matrix.mul_assoc, ih, Matrix.mul_smul, h, smul_smul, pow_succ]
  have hs : ∀ k, (orders A B phi psi k).phi p i = (∑ j ∈ Finset.range (k + 1), x ^ j / (j.factorial : ℝ)) * phi p i := by
    intro k
    rw [(elec_series A B phi psi k).1, Matrix.sum_apply, Finset.sum_mul]
    refine Finset.sum_congr rfl fun j _ => ?_
    rw [hp, smul_smul, Matrix.smul_apply, smul_eq_mul]
    ring
  simp only [hs]
  refine Tendsto.mul_const _ ?_
  have h1 := (NormedSpace.expSeries_div_hasSum_exp x).tendsto_sum_nat
  rw [← Real.exp_eq_exp_ℝ] at h1
  exact h1.comp (tendsto_add_atTop_nat 1)

/-- C145 fails: the bosonic part does not converge to the exponential as the order grows: for an eigenvalue between zero and one
its limit is the resolvent, for an eigenvalue of one or more it is unbounded. -/
theorem boson_limit_fails (A : Matrix n n ℝ) (B : Matrix b b ℝ) (phi : Matrix n r ℝ) (psi : b → ℝ) (x : ℝ) (hx : 0 < x)
    (h : B.mulVec psi = x • psi) (p : b) (hp : psi p ≠ 0) :
    (x < 1 → Tendsto (fun k => (orders A B phi psi k).psi p) atTop (𝓝 ((1 - x)⁻¹ * psi p)) ∧
      Real.exp x < (1 - x)⁻¹) ∧
    (1 ≤ x → Tendsto (fun k => |(orders A B phi psi k).psi p|) atTop atTop) ∧
    ¬ Tendsto (fun k => (orders A B phi psi k).psi p) atTop (𝓝 (Real.exp x * psi p)) := by
  have hs : ∀ k, (orders A B phi psi k).psi p = (∑ j ∈ Finset.range (k + 1), x ^ j) * psi p := by
    intro k
    rw [boson_series, Finset.sum_apply, Finset.sum_mul]
    exact Finset.sum_congr rfl fun j _ => by rw [pow_eig B x psi h]; rfl
  have c1 : x < 1 → Tendsto (fun k => (orders A B phi psi k).psi p) atTop (𝓝 ((1 - x)⁻¹ * psi p)) ∧
      Real.exp x < (1 - x)⁻¹ := by
    intro h1
    refine ⟨?_, ?_⟩
    · simp only [hs]
      refine Tendsto.mul_const _ ?_
      exact (hasSum_geometric_of_lt_one hx.le h1).tendsto_sum_nat.comp (tendsto_add_atTop_nat 1)
    · have h2 : 1 - x < Real.exp (-x) := by
        have := Real.add_one_lt_exp (show -x ≠ 0 by linarith)
        linarith
      rw [Real.exp_neg] at h2
      exact (lt_inv_comm₀ (by linarith) (Real.exp_pos x)).1 h2
  have c2 : 1 ≤ x → Tendsto (fun k => |(orders A B phi psi k).psi p|) atTop atTop := by
    intro h1
    have hb : ∀ k : ℕ, (k : ℝ) * |psi p| ≤ |(orders A B phi psi k).psi p| := by
      intro k
      rw [hs, abs_mul]
      refine mul_le_mul_of_nonneg_right ?_ (abs_nonneg _)
      refine le_trans ?_ (le_abs_self _)
      have : (∑ j ∈ Finset.range (k + 1), (1 : ℝ)) ≤ ∑ j ∈ Finset.range (k + 1), x ^ j :=
        Finset.sum_le_sum fun j _ => one_le_pow₀ h1
      simp at this
      linarith
    exact tendsto_atTop_mono hb (tendsto_natCast_atTop_atTop.atTop_mul_const (abs_pos.2 hp))
  refine ⟨c1, c2, fun hc => ?_⟩
  rcases lt_or_ge x 1 with h1 | h1
  · have e := tendsto_nhds_unique hc (c1 h1).1
    exact (c1 h1).2.ne (mul_right_cancel₀ hp e)
  · have := c2 h1
    exact not_tendsto_atTop_of_tendsto_nhds (hc.abs) this

/-- One mode with two states and `dt z = -1/2`: the symmetric vector has eigenvalue one half. -/
example : (!![0, 1 / 2; 1 / 2, 0] : Matrix (Fin 2) (Fin 2) ℝ).mulVec ![1, 1] = (1 / 2 : ℝ) • ![1, 1] := by
  ext i; fin_cases i <;> simp [Matrix.mulVec, dotProduct, Fin.sum_univ_two]

/-- There `exp` is replaced by 2. -/
example (phi : Matrix (Fin 1) (Fin 1) ℝ) : Tendsto (fun k => (orders (1 : Matrix (Fin 1) (Fin 1) ℝ)
    (!![0, 1 / 2; 1 / 2, 0] : Matrix (Fin 2) (Fin 2) ℝ) phi ![1, 1] k).psi 0) atTop (𝓝 2) := by
  have h : (!![0, 1 / 2; 1 / 2, 0] : Matrix (Fin 2) (Fin 2) ℝ).mulVec ![1, 1] = (1 / 2 : ℝ) • ![1, 1] := by
    ext i; fin_cases i <;> simp [Matrix.mulVec, dotProduct, Fin.sum_univ_two]
  have := ((boson_limit_fails (1 : Matrix (Fin 1) (Fin 1) ℝ) _ phi ![1, 1] (1 / 2) (by norm_num) h 0 (by simp)).1
    (by norm_num)).1
  norm_num at this
  exact this

end OpenMS.BilinearStep
