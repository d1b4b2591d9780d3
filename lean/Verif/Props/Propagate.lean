import Verif.Model.Propagate
import Mathlib.Analysis.Normed.Algebra.MatrixExponential
import Mathlib.Analysis.SpecialFunctions.Gaussian.FourierTransform
import Mathlib.MeasureTheory.Integral.Pi
import Mathlib.MeasureTheory.Group.Integral
import Mathlib.Topology.Instances.Matrix
import Mathlib.Analysis.Complex.Basic
import Mathlib.Tactic.Ring
import Mathlib.Tactic.FieldSimp
import Mathlib.Tactic.Linarith

/-!
# Taylor propagation (C20) and auxiliary fields (C21, C69)
-/

set_option linter.unusedSectionVars false

namespace OpenMS.Propagators

open Matrix

/-! ## C20 -/

section
variable {K : Type*} [Field K] [CharZero K] {n m : Type*} [Fintype n] [DecidableEq n]

theorem taylorLoop_eq (A : Matrix n n K) (count i : ℕ) (phi0 phi : Matrix n m K) :
    taylorLoop A count i ((i.factorial : K)⁻¹ • (A ^ i * phi0)) phi =
      phi + ∑ k ∈ Finset.range count,
        (((i + 1 + k).factorial : K)⁻¹ • (A ^ (i + 1 + k) * phi0)) := by
  induction count generalizing i phi with
  | zero => simp [taylorLoop]
  | succ c ih =>
    have e : (((i : K) + 1)⁻¹ • (A * ((i.factorial : K)⁻¹ • (A ^ i * phi0)))) =
        (((i + 1).factorial : K)⁻¹ • (A ^ (i + 1) * phi0)) := by
      rw [Matrix.mul_smul, smul_smul, ← Matrix.mul_assoc, ← pow_succ', Nat.factorial_succ]
      push_cast
      rw [mul_inv]
    unfold taylorLoop
    simp only
    rw [e, ih, add_assoc, Finset.sum_range_succ', add_comm (∑ k ∈ Finset.range c, _)]
    congr 3
    ext k
    rw [show i + 1 + (k + 1) = i + 1 + 1 + k by ring]

/-- **C20.** The Taylor propagation of order `order` is the sum of `A^k φ / k!` for `k ≤ order`. -/
theorem taylor_sum (A : Matrix n n K) (phi : Matrix n m K) (order : ℕ) :
    expOpOne A phi order =
      ∑ k ∈ Finset.range (order + 1), ((k.factorial : K)⁻¹ • (A ^ k * phi)) := by
  unfold expOpOne
  have h := taylorLoop_eq A order 0 phi phi
  simp only [Nat.factorial_zero, Nat.cast_one, inv_one, pow_zero, Matrix.one_mul, one_smul] at h
  rw [h, Finset.sum_range_succ', add_comm]
  simp [add_comm]

/-- **C20, linearity** in the walker. -/
theorem taylor_linear (A : Matrix n n K) (phi psi : Matrix n m K) (a b : K) (order : ℕ) :
    expOpOne A (a • phi + b • psi) order =
      a • expOpOne A phi order + b • expOpOne A psi order := by
  simp only [taylor_sum, Matrix.mul_add, Matrix.mul_smul, smul_add, Finset.sum_add_distrib,
    Finset.smul_sum]
  congr 1 <;> (apply Finset.sum_congr rfl; intro k _; rw [smul_comm])

/-- **C20, all walkers.** With one operator per walker, walker `i` is propagated by its own
operator and by nothing else. -/
theorem taylor_walkers (order : ℕ) (ops : List (Matrix n n K)) (phis : List (Matrix n m K))
    (h : phis.length ≤ ops.length) :
    ∃ out, propagateExpOp order ops phis = some out ∧ out.length = phis.length ∧
      ∀ (i : ℕ) (A : Matrix n n K) (phi : Matrix n m K), ops[i]? = some A → phis[i]? = some phi →
        out[i]? = some (∑ k ∈ Finset.range (order + 1), ((k.factorial : K)⁻¹ • (A ^ k * phi))) := by
  induction phis generalizing ops with
  | nil => exact ⟨[], by cases ops <;> rfl, rfl, by simp⟩
  | cons p ps ih =>
    cases ops with
    | nil => simp at h
    | cons A As =>
      obtain ⟨out, h1, h2, h3⟩ := ih As (by simpa using h)
      refine ⟨expOpOne A p order :: out, by simp [propagateExpOp, h1], by simp [h2], ?_⟩
      intro i B phi hB hphi
      cases i with
      | zero =>
        simp only [List.getElem?_cons_zero, Option.some.injEq] at hB hphi ⊢
        rw [← hB, ← hphi, taylor_sum]
      | succ i =>
        simp only [List.getElem?_cons_succ] at hB hphi ⊢
        exact h3 i B phi hB hphi

end

open Filter Topology in
/-- **C20, convergence.** As the order grows the result tends to `exp(A) φ`. -/
theorem taylor_tendsto {n m : Type*} [Fintype n] [DecidableEq n] [Fintype m]
    (A : Matrix n n ℂ) (phi : Matrix n m ℂ) :
    Tendsto (fun order => expOpOne A phi order) atTop (𝓝 (NormedSpace.exp A * phi)) := by
  let _ : NormedRing (Matrix n n ℂ) := Matrix.linftyOpNormedRing
  let _ : NormedAlgebra ℂ (Matrix n n ℂ) := Matrix.linftyOpNormedAlgebra
  have h : HasSum (fun k => ((k.factorial : ℂ)⁻¹) • A ^ k) (NormedSpace.exp A) :=
    NormedSpace.exp_series_hasSum_exp' (𝕂 := ℂ) A
  have h1 := h.tendsto_sum_nat
  have h2 : Tendsto (fun order => ∑ k ∈ Finset.range (order + 1), ((k.factorial : ℂ)⁻¹) • A ^ k) atTop
      (𝓝 (NormedSpace.exp A)) := h1.comp (tendsto_add_atTop_nat 1)
  have h3 : Continuous fun B : Matrix n n ℂ => B * phi := continuous_id.matrix_mul continuous_const
  have h4 := (h3.tendsto (NormedSpace.exp A)).comp h2
  refine h4.congr fun order => ?_
  simp only [Function.comp]
  rw [taylor_sum, Matrix.sum_mul]
  simp [Matrix.smul_mul]

/-- Second order for a 2×2 nilpotent operator. -/
example : expOpOne (!![0, 1; 0, 0] : Matrix (Fin 2) (Fin 2) ℚ) !![2; 3] 2 = !![5; 3] := by
  ext i j
  fin_cases i <;> fin_cases j <;>
    norm_num [expOpOne, taylorLoop, Matrix.mul_apply, Fin.sum_univ_two]

/-! ## C21 -/

section
variable {g : Type*} [Fintype g]

/-- Specification: the density of independent standard normal fields. -/
noncomputable def normalDensity (x : g → ℝ) : ℝ :=
  (Real.sqrt (2 * Real.pi))⁻¹ ^ Fintype.card g * Real.exp (-(∑ γ, x γ ^ 2) / 2)

theorem normalDensity_pos (x : g → ℝ) : 0 < normalDensity x := by
  unfold normalDensity
  have : 0 < Real.sqrt (2 * Real.pi) := Real.sqrt_pos.2 (by positivity)
  positivity

/-- **C21.** The factor `exp(cfb)` is the ratio of the normal density at the shifted fields and
at the sampled fields. -/
theorem cfb_ratio (x xbar : g → ℝ) :
    Complex.exp (cfb x (fun γ => (xbar γ : ℂ))) =
      ((normalDensity (fun γ => x γ - xbar γ) / normalDensity x : ℝ) : ℂ) := by
  have h : cfb x (fun γ => (xbar γ : ℂ)) =
      ((-(∑ γ, (x γ - xbar γ) ^ 2) / 2 - (-(∑ γ, x γ ^ 2) / 2) : ℝ) : ℂ) := by
    unfold cfb
    push_cast
    rw [← sub_div, eq_div_iff (by norm_num), Finset.sum_mul, neg_sub_neg,
      ← Finset.sum_sub_distrib]
    apply Finset.sum_congr rfl
    intro γ _
    ring
  have hc : (Real.sqrt (2 * Real.pi))⁻¹ ^ Fintype.card g ≠ 0 := by
    have : 0 < Real.sqrt (2 * Real.pi) := Real.sqrt_pos.2 (by positivity)
    positivity
  unfold normalDensity
  rw [mul_div_mul_left _ _ hc, ← Real.exp_sub, Complex.ofReal_exp, h]

open MeasureTheory in
/-- **C21, integral.** Averaging over the sampled fields with the factor `exp(cfb)` and the
shifted fields gives the same as averaging with the unshifted fields, for every real shift
and every function `f` of the fields (for example the matrix elements of the propagated
walker). -/
theorem shift_invariant {E : Type*} [NormedAddCommGroup E] [NormedSpace ℂ E] (xbar : g → ℝ) (f : (g → ℝ) → E) :
    (∫ x : g → ℝ, normalDensity x • (Complex.exp (cfb x fun γ => (xbar γ : ℂ)) •
        f (fun γ => x γ - xbar γ))) = ∫ x : g → ℝ, normalDensity x • f x := by
  have h : ∀ x : g → ℝ, normalDensity x • (Complex.exp (cfb x fun γ => (xbar γ : ℂ)) •
      f (fun γ => x γ - xbar γ)) = (fun y => normalDensity y • f y) (x - xbar) := by
    intro x
    have hx := (normalDensity_pos x).ne'
    have e : x - xbar = fun γ => x γ - xbar γ := rfl
    rw [cfb_ratio, e]
    simp only
    rw [Complex.coe_smul, smul_smul, mul_div_cancel₀ _ hx]
  simp_rw [h]
  exact integral_sub_right_eq_self (fun y => normalDensity y • f y) xbar

/-- One field, sampled value 1, shift 1/2. -/
example : cfb (fun _ : Fin 1 => 1) (fun _ => ((1 / 2 : ℝ) : ℂ)) = 3 / 8 := by
  norm_num [cfb]

/-! ## C69 -/

theorem total_exponent (dt : ℝ) (x : g → ℝ) (xbar lbar l : g → ℂ) :
    cfb x xbar + cmf dt x xbar lbar + eriOp dt x xbar l =
      (∑ γ, (xbar γ + Complex.I * (Real.sqrt dt : ℂ) * (l γ - lbar γ)) * (x γ : ℂ)) -
      ∑ γ, (1 / 2 * xbar γ ^ 2 + Complex.I * (Real.sqrt dt : ℂ) * (l γ - lbar γ) * xbar γ) := by
  unfold cfb cmf eriOp xshift mfShift
  rw [Finset.mul_sum, Finset.mul_sum, ← Finset.sum_add_distrib, ← Finset.sum_add_distrib,
    ← Finset.sum_sub_distrib]
  apply Finset.sum_congr rfl
  intro γ _
  ring

open MeasureTheory in
/-- **C69.** Averaged over the fields, the two-body step together with its factors `cfb` and
`cmf` acts on a common eigenvector of the operators (eigenvalues `l`) as
`exp(-dt/2 Σ (l - ⟨l⟩)²)`, whatever the force bias `xbar` (complex, bounded or not) and the
mean-field shift `lbar` are. -/
theorem hs_average (dt : ℝ) (hdt : 0 ≤ dt) (xbar lbar l : g → ℂ) :
    (∫ x : g → ℝ, (normalDensity x : ℂ) *
      Complex.exp (cfb x xbar + cmf dt x xbar lbar + eriOp dt x xbar l)) =
    Complex.exp (-(dt : ℂ) / 2 * ∑ γ, (l γ - lbar γ) ^ 2) := by
  have hpi : (0 : ℝ) < 2 * Real.pi := by positivity
  set c : g → ℂ := fun γ => xbar γ + Complex.I * (Real.sqrt dt : ℂ) * (l γ - lbar γ) with hc
  set d : ℂ := ∑ γ, (1 / 2 * xbar γ ^ 2 + Complex.I * (Real.sqrt dt : ℂ) * (l γ - lbar γ) * xbar γ)
    with hd
  have hint : ∀ x : g → ℝ, (normalDensity x : ℂ) *
      Complex.exp (cfb x xbar + cmf dt x xbar lbar + eriOp dt x xbar l) =
      (((Real.sqrt (2 * Real.pi))⁻¹ : ℝ) : ℂ) ^ Fintype.card g * Complex.exp (-d) *
        Complex.exp (-∑ γ, (1 / 2 : ℂ) * (x γ : ℂ) ^ 2 + ∑ γ, c γ * x γ) := by
    intro x
    rw [total_exponent]
    unfold normalDensity
    push_cast
    rw [mul_assoc, mul_assoc]
    congr 1
    rw [← Complex.exp_add, ← Complex.exp_add]
    congr 1
    rw [← Finset.mul_sum]
    ring
  simp_rw [hint]
  rw [integral_const_mul, GaussianFourier.integral_cexp_neg_sum_mul_add (by intro i; norm_num)]
  have hroot : ((Real.pi : ℂ) / (1 / 2)) ^ (1 / 2 : ℂ) = ((Real.sqrt (2 * Real.pi) : ℝ) : ℂ) := by
    rw [Real.sqrt_eq_rpow, Complex.ofReal_cpow hpi.le]
    push_cast
    congr 1
    ring
  rw [hroot, Finset.prod_mul_distrib, Finset.prod_const, Finset.card_univ, ← Complex.exp_sum]
  have hne : ((Real.sqrt (2 * Real.pi) : ℝ) : ℂ) ≠ 0 := by
    exact_mod_cast (Real.sqrt_pos.2 hpi).ne'
  push_cast
  rw [inv_pow, mul_mul_mul_comm, inv_mul_cancel₀ (pow_ne_zero _ hne), one_mul, ← Complex.exp_add]
  congr 1
  have hsq : ((Real.sqrt dt : ℝ) : ℂ) ^ 2 = (dt : ℂ) := by
    rw [← Complex.ofReal_pow, Real.sq_sqrt hdt]
  rw [hd, ← Finset.sum_neg_distrib, ← Finset.sum_add_distrib, Finset.mul_sum]
  apply Finset.sum_congr rfl
  intro γ _
  have hI := Complex.I_sq
  simp only [hc]
  linear_combination ((l γ - lbar γ) ^ 2 / 2 * Complex.I ^ 2) * hsq +
    ((l γ - lbar γ) ^ 2 / 2 * dt) * hI

/-! ## C95 -/

/-- **C95.** With the unbounded force bias computed from the exact expectation values `l`, the
factors `cfb`, `cmf` and the two-body step multiply to the same number for every field: the
random fields produce no fluctuation at all. -/
theorem force_bias_optimal (dt : ℝ) (hdt : 0 ≤ dt) (lbar l : g → ℂ) (x : g → ℝ) :
    cfb x (xbarRaw dt l lbar) + cmf dt x (xbarRaw dt l lbar) lbar +
      eriOp dt x (xbarRaw dt l lbar) l = -(dt : ℂ) / 2 * ∑ γ, (l γ - lbar γ) ^ 2 := by
  rw [total_exponent]
  have hsq : ((Real.sqrt dt : ℝ) : ℂ) ^ 2 = (dt : ℂ) := by
    rw [← Complex.ofReal_pow, Real.sq_sqrt hdt]
  have hI := Complex.I_sq
  rw [← Finset.sum_sub_distrib, Finset.mul_sum]
  apply Finset.sum_congr rfl
  intro γ _
  unfold xbarRaw mfShift
  linear_combination ((l γ - lbar γ) ^ 2 / 2 * Complex.I ^ 2) * hsq +
    ((l γ - lbar γ) ^ 2 / 2 * dt) * hI

/-- **C95, uniqueness.** The force bias of the code is the only one
with this property. -/
theorem force_bias_unique (dt : ℝ) (lbar l xbar : g → ℂ)
    (h : ∀ x y : g → ℝ,
      cfb x xbar + cmf dt x xbar lbar + eriOp dt x xbar l =
        cfb y xbar + cmf dt y xbar lbar + eriOp dt y xbar l) :
    xbar = xbarRaw dt l lbar := by
  classical
  funext γ
  have h1 := h (Pi.single γ 1) 0
  rw [total_exponent, total_exponent] at h1
  simp only [Pi.zero_apply, Complex.ofReal_zero, mul_zero, Finset.sum_const_zero] at h1
  have h2 : (∑ γ', (xbar γ' + Complex.I * (Real.sqrt dt : ℂ) * (l γ' - lbar γ')) *
      (((Pi.single γ 1 : g → ℝ) γ' : ℝ) : ℂ)) =
      xbar γ + Complex.I * (Real.sqrt dt : ℂ) * (l γ - lbar γ) := by
    rw [Finset.sum_eq_single γ]
    · simp
    · intro b _ hb
      simp [Pi.single_eq_of_ne hb]
    · simp
  rw [h2] at h1
  unfold xbarRaw mfShift
  linear_combination h1

/-- One field with a real bias, at time step 4. -/
example : xbarRaw 4 (fun _ : Fin 1 => 3) (fun _ => 1) 0 = -4 * Complex.I := by
  unfold xbarRaw mfShift
  rw [show (4 : ℝ) = 2 ^ 2 by norm_num, Real.sqrt_sq (by norm_num)]
  push_cast
  ring

end

end OpenMS.Propagators
