import Verif.Props.ForceBias
import Mathlib.Analysis.Normed.Algebra.Exponential
import Mathlib.MeasureTheory.Group.Integral
import Mathlib.Tactic

/-!
# Averages of exponentials of Gaussian fields
-/

set_option linter.unusedSectionVars false

namespace OpenMS.GaussMean

open OpenMS.Propagators OpenMS.Step MeasureTheory

variable {g : Type*} [Fintype g]

/-- Sum of the absolute values. -/
def size (x : g → ℝ) : ℝ := ∑ γ, |x γ|

theorem size_nonneg (x : g → ℝ) : 0 ≤ size x := Finset.sum_nonneg fun _ _ => abs_nonneg _

theorem size_smul (τ : ℝ) (x : g → ℝ) : size (τ • x) = |τ| * size x := by
  simp [size, abs_mul, Finset.mul_sum]

theorem size_continuous : Continuous (size : (g → ℝ) → ℝ) := by
  unfold size
  fun_prop

theorem density_continuous : Continuous (normalDensity : (g → ℝ) → ℝ) := by
  unfold normalDensity
  fun_prop

theorem expSize_integrable (c : ℝ) :
    Integrable fun x : g → ℝ => normalDensity x * Real.exp (c * size x) := by
  have h1 : ∀ c : ℝ, Integrable fun x : ℝ => Real.exp (-(x ^ 2) / 2 + c * x) := by
    intro c
    refine ((gauss_integrable (c : ℂ) 0 0).norm).congr (Filter.Eventually.of_forall fun x => ?_)
    simp only [gauss, pow_zero, mul_one, sub_zero]
    rw [Complex.norm_exp]
    congr 1
    have : (-(1 / 2) * (x : ℂ) ^ 2 + (c : ℂ) * (x : ℂ)) = ((-(x ^ 2) / 2 + c * x : ℝ) : ℂ) := by
      push_cast
      ring
    rw [this, Complex.ofReal_re]
  have h2 : Integrable fun x : ℝ => Real.exp (-(x ^ 2) / 2 + c * |x|) := by
    refine ((h1 c).add (h1 (-c))).mono' (by fun_prop) (Filter.Eventually.of_forall fun x => ?_)
    rw [Real.norm_eq_abs, abs_of_pos (Real.exp_pos _)]
    simp only [Pi.add_apply]
    rcases abs_cases x with ⟨h, _⟩ | ⟨h, _⟩ <;> rw [h]
    · linarith [Real.exp_pos (-(x ^ 2) / 2 + -c * x)]
    · have : c * -x = -c * x := by ring
      rw [this]
      linarith [Real.exp_pos (-(x ^ 2) / 2 + c * x)]
  have h3 : Integrable fun x : g → ℝ => ∏ γ, Real.exp (-(x γ ^ 2) / 2 + c * |x γ|) :=
    Integrable.fintype_prod fun _ => h2
  refine (h3.const_mul ((Real.sqrt (2 * Real.pi))⁻¹ ^ Fintype.card g)).congr
    (Filter.Eventually.of_forall fun x => ?_)
  simp only [normalDensity, size]
  rw [mul_assoc, ← Real.exp_add, ← Real.exp_sum, Finset.sum_add_distrib, Finset.mul_sum,
    ← Finset.sum_neg_distrib, Finset.sum_div]

/-! ### Moments -/

theorem moment_prod (d : g → ℕ) :
    ∫ x : g → ℝ, ((normalDensity x : ℝ) : ℂ) * ∏ γ, (x γ : ℂ) ^ d γ =
      (((Real.sqrt (2 * Real.pi))⁻¹ : ℝ) : ℂ) ^ Fintype.card g * ∏ γ, ∫ x, gauss 0 0 (d γ) x := by
  have e : ∀ x : g → ℝ, ((normalDensity x : ℝ) : ℂ) * ∏ γ, (x γ : ℂ) ^ d γ =
      (((Real.sqrt (2 * Real.pi))⁻¹ : ℝ) : ℂ) ^ Fintype.card g * ∏ γ, gauss 0 0 (d γ) (x γ) := by
    intro x
    have := weights_prod 0 (0 : g → ℂ) 0 x d
    simpa [cfb, cmf, xshift, mfShift] using this
  simp_rw [e]
  rw [integral_const_mul, integral_fintype_prod_volume_eq_prod]

theorem moment_zero : ∫ x : g → ℝ, ((normalDensity x : ℝ) : ℂ) = 1 := by
  have := hs_average 0 le_rfl (0 : g → ℂ) 0 0
  simpa [cfb, cmf, eriOp, xshift, mfShift] using this

theorem gauss_one : ∫ x, gauss 0 0 1 x = 0 := by
  have := gauss_rec 0 0 0
  simpa using this

theorem gauss_two : ∫ x, gauss 0 0 2 x = ∫ x, gauss 0 0 0 x := by
  have := gauss_rec 0 0 1
  simpa using this

theorem moment_two [DecidableEq g] (a b : g) :
    ∫ x : g → ℝ, ((normalDensity x : ℝ) : ℂ) * ((x a : ℂ) * (x b : ℂ)) = if a = b then 1 else 0 := by
  by_cases h : a = b
  · subst h
    have h0 := moment_prod (0 : g → ℕ)
    have h2 := moment_prod (Pi.single a 2 : g → ℕ)
    have e : ∀ x : g → ℝ, ∏ γ, (x γ : ℂ) ^ (Pi.single a 2 : g → ℕ) γ = (x a : ℂ) * (x a : ℂ) := by
      intro x
      rw [Finset.prod_eq_single a]
      · simp [pow_two]
      · intro c _ hc; simp [Pi.single_eq_of_ne hc]
      · simp
    simp_rw [e] at h2
    rw [h2, if_pos rfl]
    simp only [Pi.zero_apply, pow_zero, Finset.prod_const_one, mul_one] at h0
    rw [moment_zero] at h0
    rw [h0]
    congr 1
    refine Finset.prod_congr rfl fun γ _ => ?_
    by_cases hγ : γ = a
    · subst hγ; rw [Pi.single_eq_same, gauss_two]
    · rw [Pi.single_eq_of_ne hγ]
  · rw [if_neg h]
    have h2 := moment_prod (Pi.single a 1 + Pi.single b 1 : g → ℕ)
    have e : ∀ x : g → ℝ, ∏ γ, (x γ : ℂ) ^ (Pi.single a 1 + Pi.single b 1 : g → ℕ) γ =
        (x a : ℂ) * (x b : ℂ) := by
      intro x
      simp only [Pi.add_apply, pow_add, Finset.prod_mul_distrib]
      have : ∀ c : g, ∏ γ, (x γ : ℂ) ^ (Pi.single c 1 : g → ℕ) γ = (x c : ℂ) := by
        intro c
        rw [Finset.prod_eq_single c]
        · simp
        · intro d _ hd; simp [Pi.single_eq_of_ne hd]
        · simp
      rw [this, this]
    simp_rw [e] at h2
    rw [h2, Finset.prod_eq_zero (Finset.mem_univ a), mul_zero]
    rw [Pi.add_apply, Pi.single_eq_same, Pi.single_eq_of_ne h, add_zero, gauss_one]

/-! ### Exponentials in an algebra -/

variable {A : Type*} [NormedRing A] [NormedAlgebra ℂ A] [CompleteSpace A]

/-- `Σ x_γ V_γ`. -/
noncomputable def field (V : g → A) (x : g → ℝ) : A := ∑ γ, (x γ : ℂ) • V γ

theorem field_continuous (V : g → A) : Continuous (field V) := by
  unfold field
  fun_prop

theorem field_norm (V : g → A) (x : g → ℝ) : ‖field V x‖ ≤ (∑ γ, ‖V γ‖) * size x := by
  unfold field size
  refine (norm_sum_le _ _).trans ?_
  rw [Finset.sum_mul]
  refine Finset.sum_le_sum fun γ _ => ?_
  rw [norm_smul, Complex.norm_real, Real.norm_eq_abs, mul_comm]
  exact mul_le_mul_of_nonneg_left
    (Finset.single_le_sum (f := fun γ => |x γ|) (fun _ _ => abs_nonneg _) (Finset.mem_univ γ))
    (norm_nonneg _)

theorem field_smul (V : g → A) (τ : ℝ) (x : g → ℝ) : field V (τ • x) = (τ : ℂ) • field V x := by
  unfold field
  rw [Finset.smul_sum]
  refine Finset.sum_congr rfl fun γ _ => ?_
  rw [smul_smul, Pi.smul_apply, smul_eq_mul, Complex.ofReal_mul]

theorem field_neg (V : g → A) (x : g → ℝ) : field V (-x) = -field V x := by
  simp [field]

theorem pow_le_exp (s : ℝ) (hs : 0 ≤ s) (k : ℕ) : s ^ k ≤ k.factorial * Real.exp s := by
  have h := Real.pow_div_factorial_le_exp (x := s) hs k
  rw [div_le_iff₀ (by positivity)] at h
  linarith

theorem pow_norm (X : A) (k : ℕ) : ‖X ^ k‖ ≤ (‖(1 : A)‖ + 1) * ‖X‖ ^ k := by
  cases k with
  | zero => simp
  | succ k =>
    have h : ‖X ^ (k + 1)‖ ≤ ‖X‖ ^ (k + 1) := norm_pow_le' X (Nat.succ_pos k)
    have h1 : 0 ≤ ‖(1 : A)‖ * ‖X‖ ^ (k + 1) := by positivity
    rw [add_mul, one_mul]
    exact h.trans (by linarith)

theorem pow_integrable (V : g → A) (k : ℕ) :
    Integrable fun x : g → ℝ => (normalDensity x : ℝ) • field V x ^ k := by
  refine ((expSize_integrable (g := g) 1).const_mul ((‖(1 : A)‖ + 1) *
    ((∑ γ, ‖V γ‖) ^ k * k.factorial))).mono' ?_
    (Filter.Eventually.of_forall fun x => ?_)
  · exact (density_continuous.smul ((field_continuous V).pow k)).aestronglyMeasurable
  · rw [norm_smul, Real.norm_eq_abs, abs_of_pos (normalDensity_pos x)]
    have h1 : ‖field V x ^ k‖ ≤ (‖(1 : A)‖ + 1) * ((∑ γ, ‖V γ‖) * size x) ^ k :=
      (pow_norm _ _).trans (mul_le_mul_of_nonneg_left
        (pow_le_pow_left₀ (norm_nonneg _) (field_norm V x) k) (by positivity))
    rw [mul_pow] at h1
    have h2 := pow_le_exp (size x) (size_nonneg x) k
    have h3 : (∑ γ, ‖V γ‖) ^ k * size x ^ k ≤ (∑ γ, ‖V γ‖) ^ k * (k.factorial * Real.exp (size x)) :=
      mul_le_mul_of_nonneg_left h2 (pow_nonneg (Finset.sum_nonneg fun _ _ => norm_nonneg _) k)
    calc normalDensity x * ‖field V x ^ k‖ ≤ normalDensity x * ((‖(1 : A)‖ + 1) *
          ((∑ γ, ‖V γ‖) ^ k * (k.factorial * Real.exp (size x)))) :=
          mul_le_mul_of_nonneg_left (h1.trans (mul_le_mul_of_nonneg_left h3 (by positivity)))
            (normalDensity_pos x).le
      _ = _ := by rw [one_mul]; ring

theorem odd_moment (V : g → A) (k : ℕ) (hk : Odd k) :
    ∫ x : g → ℝ, (normalDensity x : ℝ) • field V x ^ k = 0 := by
  have h := integral_neg_eq_self (fun x : g → ℝ => (normalDensity x : ℝ) • field V x ^ k) volume
  have e : ∀ x : g → ℝ, (normalDensity (-x) : ℝ) • field V (-x) ^ k =
      -((normalDensity x : ℝ) • field V x ^ k) := by
    intro x
    rw [field_neg, hk.neg_pow, smul_neg]
    congr 2
    simp [normalDensity]
  simp_rw [e] at h
  rw [integral_neg] at h
  have h2 : (2 : ℂ) • ∫ x : g → ℝ, (normalDensity x : ℝ) • field V x ^ k = 0 := by
    rw [two_smul]
    nth_rewrite 1 [← h]
    exact neg_add_cancel _
  exact (smul_eq_zero.1 h2).resolve_left two_ne_zero

theorem second_moment (V : g → A) :
    ∫ x : g → ℝ, (normalDensity x : ℝ) • field V x ^ 2 = ∑ γ, V γ ^ 2 := by
  classical
  have e : ∀ x : g → ℝ, (normalDensity x : ℝ) • field V x ^ 2 =
      ∑ a, ∑ b, (((normalDensity x : ℝ) : ℂ) * ((x a : ℂ) * (x b : ℂ))) • (V a * V b) := by
    intro x
    unfold field
    rw [pow_two, Finset.sum_mul_sum, Finset.smul_sum]
    refine Finset.sum_congr rfl fun a _ => ?_
    rw [Finset.smul_sum]
    refine Finset.sum_congr rfl fun b _ => ?_
    rw [smul_mul_smul_comm, ← Complex.coe_smul, smul_smul]
  have hi : ∀ a b : g, Integrable fun x : g → ℝ =>
      (((normalDensity x : ℝ) : ℂ) * ((x a : ℂ) * (x b : ℂ))) • (V a * V b) := by
    intro a b
    refine Integrable.smul_const ?_ _
    refine ((expSize_integrable (g := g) 1).const_mul 2).mono' ?_
      (Filter.Eventually.of_forall fun x => ?_)
    · have : Continuous fun x : g → ℝ => ((normalDensity x : ℝ) : ℂ) * ((x a : ℂ) * (x b : ℂ)) := by
        have := density_continuous (g := g)
        fun_prop
      exact this.aestronglyMeasurable
    · rw [norm_mul, norm_mul, Complex.norm_real, Complex.norm_real, Complex.norm_real,
        Real.norm_eq_abs, Real.norm_eq_abs, Real.norm_eq_abs, abs_of_pos (normalDensity_pos x)]
      have ha : ∀ c, |x c| ≤ size x := fun c =>
        Finset.single_le_sum (f := fun γ => |x γ|) (fun _ _ => abs_nonneg _) (Finset.mem_univ c)
      have h1 : |x a| * |x b| ≤ size x ^ 2 := by
        rw [pow_two]
        exact mul_le_mul (ha a) (ha b) (abs_nonneg _) (size_nonneg x)
      have h2 := pow_le_exp (size x) (size_nonneg x) 2
      have h3 : normalDensity x * (|x a| * |x b|) ≤ normalDensity x * (2 * Real.exp (size x)) := by
        refine mul_le_mul_of_nonneg_left (h1.trans ?_) (normalDensity_pos x).le
        simpa using h2
      rw [one_mul]
      linarith
  simp_rw [e]
  rw [integral_finsetSum _ fun a _ => integrable_finsetSum _ fun b _ => hi a b]
  refine Finset.sum_congr rfl fun a _ => ?_
  rw [integral_finsetSum _ fun b _ => hi a b]
  have e2 : ∀ b, ∫ x : g → ℝ, (((normalDensity x : ℝ) : ℂ) * ((x a : ℂ) * (x b : ℂ))) • (V a * V b) =
      if a = b then V a * V b else 0 := by
    intro b
    rw [integral_smul_const, moment_two]
    split_ifs <;> simp
  simp_rw [e2]
  rw [Finset.sum_ite_eq]
  simp [pow_two]

/-- The first four terms of the exponential series. -/
noncomputable def cubic (X : A) : A := ∑ k ∈ Finset.range 4, ((k.factorial : ℂ)⁻¹) • X ^ k

/-- Average of a function that agrees with `exp(i Σ u_γ V_γ)` up to fourth order. -/
theorem gaussian_mean (G : (g → ℝ) → A) (hG : Continuous G) (V : g → A) (C c : ℝ)
    (hC : ∀ u, ‖G u - cubic (Complex.I • field V u)‖ ≤ C * size u ^ 4 * Real.exp (c * size u)) :
    ∃ K : ℝ, ∀ τ : ℝ, 0 ≤ τ → τ ≤ 1 →
      ‖(∫ x : g → ℝ, (normalDensity x : ℝ) • G (τ • x)) - (1 - ((τ : ℂ) ^ 2 / 2) • ∑ γ, V γ ^ 2)‖ ≤
        K * τ ^ 4 := by
  have hsum : ∀ (τ : ℝ) (x : g → ℝ), cubic (Complex.I • field V (τ • x)) =
      ∑ k ∈ Finset.range 4, ((k.factorial : ℂ)⁻¹ * (Complex.I * τ) ^ k) • field V x ^ k := by
    intro τ x
    unfold cubic
    refine Finset.sum_congr rfl fun k _ => ?_
    rw [field_smul, smul_smul, smul_pow, smul_smul]
  have hterm : ∀ (τ : ℝ) (x : g → ℝ),
      (normalDensity x : ℝ) • cubic (Complex.I • field V (τ • x)) =
      ∑ k ∈ Finset.range 4, ((k.factorial : ℂ)⁻¹ * (Complex.I * τ) ^ k) •
        ((normalDensity x : ℝ) • field V x ^ k) := by
    intro τ x
    rw [hsum, Finset.smul_sum]
    exact Finset.sum_congr rfl fun k _ => smul_comm _ _ _
  have hint : ∀ τ : ℝ, Integrable fun x : g → ℝ =>
      (normalDensity x : ℝ) • cubic (Complex.I • field V (τ • x)) := by
    intro τ
    simp_rw [hterm]
    exact integrable_finsetSum _ fun k _ =>
      (pow_integrable V k).smul ((k.factorial : ℂ)⁻¹ * (Complex.I * τ) ^ k)
  have hval : ∀ τ : ℝ, ∫ x : g → ℝ, (normalDensity x : ℝ) • cubic (Complex.I • field V (τ • x)) =
      1 - ((τ : ℂ) ^ 2 / 2) • ∑ γ, V γ ^ 2 := by
    intro τ
    simp_rw [hterm]
    have hs : ∫ x : g → ℝ, ∑ k ∈ Finset.range 4, ((k.factorial : ℂ)⁻¹ * (Complex.I * τ) ^ k) •
        ((normalDensity x : ℝ) • field V x ^ k) =
        ∑ k ∈ Finset.range 4, ∫ x : g → ℝ, ((k.factorial : ℂ)⁻¹ * (Complex.I * τ) ^ k) •
        ((normalDensity x : ℝ) • field V x ^ k) :=
      integral_finsetSum _ fun k _ =>
        (pow_integrable V k).smul ((k.factorial : ℂ)⁻¹ * (Complex.I * τ) ^ k)
    rw [hs]
    simp_rw [integral_smul]
    rw [Finset.sum_range_succ, Finset.sum_range_succ, Finset.sum_range_succ, Finset.sum_range_one,
      second_moment, odd_moment V 1 (by decide), odd_moment V 3 (by decide), smul_zero, smul_zero,
      add_zero, add_zero]
    have h0 : ∫ x : g → ℝ, (normalDensity x : ℝ) • field V x ^ 0 = 1 := by
      simp_rw [pow_zero, ← Complex.coe_smul]
      rw [integral_smul_const, moment_zero, one_smul]
    rw [h0]
    have hI : ((Nat.factorial 2 : ℂ)⁻¹ * (Complex.I * τ) ^ 2) = -((τ : ℂ) ^ 2 / 2) := by
      rw [mul_pow, Complex.I_sq]
      norm_num [Nat.factorial]
      ring
    rw [hI, neg_smul, ← sub_eq_add_neg]
    simp
  have hR : ∀ τ : ℝ, 0 ≤ τ → τ ≤ 1 → ∀ x : g → ℝ,
      ‖(normalDensity x : ℝ) • (G (τ • x) - cubic (Complex.I • field V (τ • x)))‖ ≤
        (|C| * 24 * τ ^ 4) * (normalDensity x * Real.exp ((|c| + 1) * size x)) := by
    intro τ h0 h1 x
    rw [norm_smul, Real.norm_eq_abs, abs_of_pos (normalDensity_pos x)]
    have hs := size_nonneg x
    have e1 : C * size (τ • x) ^ 4 * Real.exp (c * size (τ • x)) ≤
        |C| * (τ ^ 4 * (24 * Real.exp (size x))) * Real.exp (|c| * size x) := by
      rw [size_smul, abs_of_nonneg h0, mul_pow]
      have a1 : size x ^ 4 ≤ 24 * Real.exp (size x) := by
        have := pow_le_exp (size x) hs 4
        simpa [Nat.factorial] using this
      have a2 : Real.exp (c * (τ * size x)) ≤ Real.exp (|c| * size x) := by
        refine Real.exp_le_exp.2 ?_
        have : c * (τ * size x) ≤ |c| * (τ * size x) :=
          mul_le_mul_of_nonneg_right (le_abs_self c) (by positivity)
        refine this.trans (mul_le_mul_of_nonneg_left ?_ (abs_nonneg _))
        nlinarith
      refine mul_le_mul ?_ a2 (Real.exp_pos _).le (by positivity)
      refine mul_le_mul (le_abs_self C) ?_ (by positivity) (abs_nonneg _)
      exact mul_le_mul_of_nonneg_left a1 (by positivity)
    have e2 := (hC (τ • x)).trans e1
    calc normalDensity x * ‖G (τ • x) - cubic (Complex.I • field V (τ • x))‖ ≤
          normalDensity x * (|C| * (τ ^ 4 * (24 * Real.exp (size x))) * Real.exp (|c| * size x)) :=
          mul_le_mul_of_nonneg_left e2 (normalDensity_pos x).le
      _ = _ := by
        rw [add_mul, Real.exp_add, one_mul]
        ring
  refine ⟨|C| * 24 * ∫ x : g → ℝ, normalDensity x * Real.exp ((|c| + 1) * size x), fun τ h0 h1 => ?_⟩
  have hRi : Integrable fun x : g → ℝ =>
      (normalDensity x : ℝ) • (G (τ • x) - cubic (Complex.I • field V (τ • x))) := by
    refine ((expSize_integrable (g := g) (|c| + 1)).const_mul (|C| * 24 * τ ^ 4)).mono' ?_
      (Filter.Eventually.of_forall (hR τ h0 h1))
    have hf := field_continuous V
    have hd := density_continuous (g := g)
    have hcub : Continuous fun X : A => cubic X := by
      unfold cubic
      fun_prop
    have hs : Continuous fun x : g → ℝ => τ • x := continuous_const_smul τ
    exact (hd.smul ((hG.comp hs).sub (hcub.comp ((hf.comp hs).const_smul _)))).aestronglyMeasurable
  have hsplit : ∫ x : g → ℝ, (normalDensity x : ℝ) • G (τ • x) =
      (∫ x : g → ℝ, (normalDensity x : ℝ) • (G (τ • x) - cubic (Complex.I • field V (τ • x)))) +
      ∫ x : g → ℝ, (normalDensity x : ℝ) • cubic (Complex.I • field V (τ • x)) := by
    rw [← integral_add hRi (hint τ)]
    congr 1
    funext x
    rw [← smul_add, sub_add_cancel]
  rw [hsplit, hval, add_sub_cancel_right]
  refine (norm_integral_le_of_norm_le
    ((expSize_integrable (g := g) (|c| + 1)).const_mul (|C| * 24 * τ ^ 4))
    (Filter.Eventually.of_forall (hR τ h0 h1))).trans (le_of_eq ?_)
  rw [integral_const_mul]
  ring

/-! ### Functions of the fields that agree up to fourth order -/

/-- Grows at most exponentially. -/
def Bdd (F : (g → ℝ) → A) : Prop := ∃ C c : ℝ, 0 ≤ C ∧ 0 ≤ c ∧ ∀ u, ‖F u‖ ≤ C * Real.exp (c * size u)

/-- The difference is of fourth order and grows at most exponentially. -/
def Close (F G : (g → ℝ) → A) : Prop :=
  ∃ C c : ℝ, 0 ≤ C ∧ 0 ≤ c ∧ ∀ u, ‖F u - G u‖ ≤ C * size u ^ 4 * Real.exp (c * size u)

section

variable {A : Type*} [NormedRing A]

theorem Close.symm {F G : (g → ℝ) → A} (h : Close F G) : Close G F := by
  obtain ⟨C, c, hC, hc, h⟩ := h
  exact ⟨C, c, hC, hc, fun u => by rw [norm_sub_rev]; exact h u⟩

theorem Close.refl (F : (g → ℝ) → A) : Close F F := ⟨0, 0, le_rfl, le_rfl, fun u => by simp⟩

theorem exp_mono {a b s : ℝ} (hs : 0 ≤ s) (h : a ≤ b) : Real.exp (a * s) ≤ Real.exp (b * s) :=
  Real.exp_le_exp.2 (mul_le_mul_of_nonneg_right h hs)

theorem Close.trans {F G H : (g → ℝ) → A} (h1 : Close F G) (h2 : Close G H) : Close F H := by
  obtain ⟨C, c, hC, hc, h1⟩ := h1
  obtain ⟨D, d, hD, hd, h2⟩ := h2
  refine ⟨C + D, c + d, by positivity, by positivity, fun u => ?_⟩
  have hs := size_nonneg u
  have e1 := exp_mono hs (show c ≤ c + d by linarith)
  have e2 := exp_mono hs (show d ≤ c + d by linarith)
  have a1 := mul_le_mul_of_nonneg_left e1 (show 0 ≤ C * size u ^ 4 by positivity)
  have a2 := mul_le_mul_of_nonneg_left e2 (show 0 ≤ D * size u ^ 4 by positivity)
  calc ‖F u - H u‖ ≤ ‖F u - G u‖ + ‖G u - H u‖ := norm_sub_le_norm_sub_add_norm_sub _ _ _
    _ ≤ C * size u ^ 4 * Real.exp ((c + d) * size u) +
        D * size u ^ 4 * Real.exp ((c + d) * size u) :=
      add_le_add ((h1 u).trans a1) ((h2 u).trans a2)
    _ = _ := by ring

theorem Bdd.mul {F G : (g → ℝ) → A} (h1 : Bdd F) (h2 : Bdd G) : Bdd fun u => F u * G u := by
  obtain ⟨C, c, hC, hc, h1⟩ := h1
  obtain ⟨D, d, hD, hd, h2⟩ := h2
  refine ⟨C * D, c + d, by positivity, by positivity, fun u => ?_⟩
  calc ‖F u * G u‖ ≤ ‖F u‖ * ‖G u‖ := norm_mul_le _ _
    _ ≤ (C * Real.exp (c * size u)) * (D * Real.exp (d * size u)) :=
      mul_le_mul (h1 u) (h2 u) (norm_nonneg _) (by positivity)
    _ = _ := by rw [add_mul, Real.exp_add]; ring

theorem Close.mul {F G F' G' : (g → ℝ) → A} (h1 : Close F G) (h2 : Close F' G') (hF : Bdd F')
    (hG : Bdd G) : Close (fun u => F u * F' u) (fun u => G u * G' u) := by
  obtain ⟨C, c, hC, hc, h1⟩ := h1
  obtain ⟨D, d, hD, hd, h2⟩ := h2
  obtain ⟨P, p, hP, hp, h3⟩ := hF
  obtain ⟨Q, q, hQ, hq, h4⟩ := hG
  have k1 : Close (fun u => F u * F' u) (fun u => G u * F' u) := by
    refine ⟨C * P, c + p, by positivity, by positivity, fun u => ?_⟩
    rw [← sub_mul]
    calc ‖(F u - G u) * F' u‖ ≤ ‖F u - G u‖ * ‖F' u‖ := norm_mul_le _ _
      _ ≤ (C * size u ^ 4 * Real.exp (c * size u)) * (P * Real.exp (p * size u)) :=
        mul_le_mul (h1 u) (h3 u) (norm_nonneg _) ((norm_nonneg _).trans (h1 u))
      _ = _ := by rw [add_mul, Real.exp_add]; ring
  have k2 : Close (fun u => G u * F' u) (fun u => G u * G' u) := by
    refine ⟨D * Q, d + q, by positivity, by positivity, fun u => ?_⟩
    rw [← mul_sub]
    calc ‖G u * (F' u - G' u)‖ ≤ ‖G u‖ * ‖F' u - G' u‖ := norm_mul_le _ _
      _ ≤ (Q * Real.exp (q * size u)) * (D * size u ^ 4 * Real.exp (d * size u)) :=
        mul_le_mul (h4 u) (h2 u) (norm_nonneg _) (by positivity)
      _ = _ := by rw [add_mul, Real.exp_add]; ring
  exact k1.trans k2

end

theorem prod_bdd {a : Type*} (s : Finset a) {F : a → (g → ℝ) → ℂ} (h : ∀ i, Bdd (F i)) :
    Bdd fun u => ∏ i ∈ s, F i u := by
  classical
  induction s using Finset.induction_on with
  | empty => exact ⟨1, 0, by norm_num, le_rfl, fun u => by simp⟩
  | insert i s hi ih =>
    simp only [Finset.prod_insert hi]
    exact (h i).mul ih

theorem prod_close {a : Type*} (s : Finset a) {F G : a → (g → ℝ) → ℂ} (h : ∀ i, Close (F i) (G i))
    (hF : ∀ i, Bdd (F i)) (hG : ∀ i, Bdd (G i)) :
    Close (fun u => ∏ i ∈ s, F i u) (fun u => ∏ i ∈ s, G i u) := by
  classical
  induction s using Finset.induction_on with
  | empty => exact Close.refl _
  | insert i s hi ih =>
    simp only [Finset.prod_insert hi]
    exact (h i).mul ih (prod_bdd s hF) (hG i)

theorem taylor_norm (X : A) (N : ℕ) :
    ‖∑ k ∈ Finset.range N, ((k.factorial : ℂ)⁻¹) • X ^ k‖ ≤ (‖(1 : A)‖ + 1) * Real.exp ‖X‖ := by
  refine (norm_sum_le _ _).trans ?_
  have h : ∀ k ∈ Finset.range N, ‖((k.factorial : ℂ)⁻¹) • X ^ k‖ ≤
      (‖(1 : A)‖ + 1) * (‖X‖ ^ k / k.factorial) := by
    intro k _
    rw [norm_smul, norm_inv, Complex.norm_natCast, div_eq_inv_mul, mul_left_comm]
    exact mul_le_mul_of_nonneg_left (pow_norm X k) (by positivity)
  refine (Finset.sum_le_sum h).trans ?_
  rw [← Finset.mul_sum]
  exact mul_le_mul_of_nonneg_left (Real.sum_le_exp_of_nonneg (norm_nonneg X) N) (by positivity)

theorem taylor_cubic (X : A) (m : ℕ) :
    ‖(∑ k ∈ Finset.range (m + 4), ((k.factorial : ℂ)⁻¹) • X ^ k) - cubic X‖ ≤
      ‖X‖ ^ 4 * Real.exp ‖X‖ := by
  have e : (∑ k ∈ Finset.range (m + 4), ((k.factorial : ℂ)⁻¹) • X ^ k) - cubic X =
      ∑ j ∈ Finset.range m, (((4 + j).factorial : ℂ)⁻¹) • X ^ (4 + j) := by
    rw [add_comm m 4, Finset.sum_range_add, cubic, add_sub_cancel_left]
  rw [e]
  refine (norm_sum_le _ _).trans ?_
  have h : ∀ j ∈ Finset.range m, ‖(((4 + j).factorial : ℂ)⁻¹) • X ^ (4 + j)‖ ≤
      ‖X‖ ^ 4 * (‖X‖ ^ j / j.factorial) := by
    intro j _
    rw [norm_smul, norm_inv, Complex.norm_natCast]
    have h1 : ‖X ^ (4 + j)‖ ≤ ‖X‖ ^ (4 + j) := norm_pow_le' X (by omega)
    have h2 : (((4 + j).factorial : ℝ))⁻¹ ≤ ((j.factorial : ℝ))⁻¹ :=
      inv_anti₀ (by positivity) (by exact_mod_cast Nat.factorial_le (by omega))
    calc ((4 + j).factorial : ℝ)⁻¹ * ‖X ^ (4 + j)‖ ≤ (j.factorial : ℝ)⁻¹ * ‖X‖ ^ (4 + j) :=
          mul_le_mul h2 h1 (norm_nonneg _) (by positivity)
      _ = _ := by rw [pow_add]; ring
  refine (Finset.sum_le_sum h).trans ?_
  rw [← Finset.mul_sum]
  exact mul_le_mul_of_nonneg_left (Real.sum_le_exp_of_nonneg (norm_nonneg X) m) (by positivity)

theorem exp_tendsto (X : A) : Filter.Tendsto
    (fun m => ∑ k ∈ Finset.range (m + 4), ((k.factorial : ℂ)⁻¹) • X ^ k) Filter.atTop
    (nhds (NormedSpace.exp X)) :=
  ((NormedSpace.exp_series_hasSum_exp' (𝕂 := ℂ) X).tendsto_sum_nat).comp
    (Filter.tendsto_add_atTop_nat 4)

theorem exp_cubic (X : A) : ‖NormedSpace.exp X - cubic X‖ ≤ ‖X‖ ^ 4 * Real.exp ‖X‖ :=
  le_of_tendsto ((exp_tendsto X).sub_const _).norm (Filter.Eventually.of_forall (taylor_cubic X))

theorem exp_norm (X : A) : ‖NormedSpace.exp X‖ ≤ (‖(1 : A)‖ + 1) * Real.exp ‖X‖ :=
  le_of_tendsto (exp_tendsto X).norm (Filter.Eventually.of_forall fun _ => taylor_norm X _)

theorem field_bound (V : g → A) (u : g → ℝ) :
    ‖Complex.I • field V u‖ ≤ (∑ γ, ‖V γ‖) * size u := by
  rw [norm_smul, Complex.norm_I, one_mul]
  exact field_norm V u

theorem close_of_bound {F : A → A} (h : ∀ X, ‖F X - cubic X‖ ≤ ‖X‖ ^ 4 * Real.exp ‖X‖) (V : g → A) :
    Close (fun u => F (Complex.I • field V u)) (fun u => cubic (Complex.I • field V u)) := by
  have hv : 0 ≤ ∑ γ, ‖V γ‖ := Finset.sum_nonneg fun _ _ => norm_nonneg _
  refine ⟨(∑ γ, ‖V γ‖) ^ 4, ∑ γ, ‖V γ‖, by positivity, hv, fun u => (h _).trans ?_⟩
  have hb := field_bound V u
  have hs := size_nonneg u
  rw [← mul_pow]
  exact mul_le_mul (pow_le_pow_left₀ (norm_nonneg _) hb 4) (Real.exp_le_exp.2 hb) (Real.exp_pos _).le
    (by positivity)

theorem bdd_of_bound {F : A → A} {D : ℝ} (hD : 0 ≤ D) (h : ∀ X, ‖F X‖ ≤ D * Real.exp ‖X‖) (V : g → A) :
    Bdd fun u => F (Complex.I • field V u) := by
  refine ⟨D, ∑ γ, ‖V γ‖, hD, Finset.sum_nonneg fun _ _ => norm_nonneg _, fun u => (h _).trans ?_⟩
  exact mul_le_mul_of_nonneg_left (Real.exp_le_exp.2 (field_bound V u)) hD

/-- Taylor sum and exponential of the field operator. -/
theorem taylor_close (V : g → A) (m : ℕ) :
    Close (fun u => ∑ k ∈ Finset.range (m + 4), ((k.factorial : ℂ)⁻¹) • (Complex.I • field V u) ^ k)
      (fun u => NormedSpace.exp (Complex.I • field V u)) :=
  (close_of_bound (F := fun X => ∑ k ∈ Finset.range (m + 4), ((k.factorial : ℂ)⁻¹) • X ^ k)
    (fun X => taylor_cubic X m) V).trans (close_of_bound exp_cubic V).symm

/-- Average of a function that agrees with the exponential up to fourth order. -/
theorem close_mean (G : (g → ℝ) → A) (hG : Continuous G) (V : g → A)
    (h : Close G fun u => NormedSpace.exp (Complex.I • field V u)) :
    ∃ K : ℝ, ∀ τ : ℝ, 0 ≤ τ → τ ≤ 1 →
      ‖(∫ x : g → ℝ, (normalDensity x : ℝ) • G (τ • x)) - (1 - ((τ : ℂ) ^ 2 / 2) • ∑ γ, V γ ^ 2)‖ ≤
        K * τ ^ 4 := by
  obtain ⟨C, c, _, _, h⟩ := h.trans (close_of_bound exp_cubic V)
  exact gaussian_mean G hG V C c h

end OpenMS.GaussMean
