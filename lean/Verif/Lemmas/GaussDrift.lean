import Verif.Lemmas.GaussMean
import Mathlib.Tactic

/-!
# Averages of exponentials of Gaussian fields with a drift
-/

set_option linter.unusedSectionVars false

namespace OpenMS.GaussMean

open OpenMS.Propagators OpenMS.Step MeasureTheory

variable {g : Type*} [Fintype g]
variable {A : Type*} [NormedRing A] [NormedAlgebra ℂ A] [CompleteSpace A]

/-- Fields `τ x` together with the drift variable `τ²`. -/
def lift (τ : ℝ) (x : g → ℝ) : Option g → ℝ := fun o => o.elim (τ ^ 2) fun γ => τ * x γ

theorem size_lift (τ : ℝ) (hτ : 0 ≤ τ) (x : g → ℝ) : size (lift τ x) = τ ^ 2 + τ * size x := by
  unfold size lift
  rw [Fintype.sum_option]
  simp [abs_mul, abs_of_nonneg hτ, Finset.mul_sum]

theorem field_lift (V : Option g → A) (τ : ℝ) (x : g → ℝ) :
    field V (lift τ x) = (τ : ℂ) • field (fun γ => V (some γ)) x + ((τ : ℂ) ^ 2) • V none := by
  unfold field lift
  rw [Fintype.sum_option, add_comm]
  simp [mul_smul, Finset.smul_sum]

theorem lift_continuous (τ : ℝ) : Continuous (lift τ : (g → ℝ) → Option g → ℝ) := by
  refine continuous_pi fun o => ?_
  cases o with
  | none => exact continuous_const
  | some γ => exact continuous_const.mul (continuous_apply γ)

theorem bdd_integrable (H : (g → ℝ) → A) (hH : Continuous H) (hB : Bdd H) :
    Integrable fun x : g → ℝ => (normalDensity x : ℝ) • H x := by
  obtain ⟨C, c, hC, hc, h⟩ := hB
  refine ((expSize_integrable (g := g) c).const_mul C).mono' ?_
    (Filter.Eventually.of_forall fun x => ?_)
  · exact (density_continuous.smul hH).aestronglyMeasurable
  · rw [norm_smul, Real.norm_eq_abs, abs_of_pos (normalDensity_pos x)]
    refine (mul_le_mul_of_nonneg_left (h x) (normalDensity_pos x).le).trans (le_of_eq ?_)
    ring

theorem odd_zero (H : (g → ℝ) → A) (hH : ∀ x, H (-x) = -H x) :
    ∫ x : g → ℝ, (normalDensity x : ℝ) • H x = 0 := by
  have h := integral_neg_eq_self (fun x : g → ℝ => (normalDensity x : ℝ) • H x) volume
  have e : ∀ x : g → ℝ, (normalDensity (-x) : ℝ) • H (-x) = -((normalDensity x : ℝ) • H x) := by
    intro x
    rw [hH, smul_neg]
    congr 2
    simp [normalDensity]
  simp_rw [e] at h
  rw [integral_neg] at h
  have h2 : (2 : ℂ) • ∫ x : g → ℝ, (normalDensity x : ℝ) • H x = 0 := by
    rw [two_smul]
    nth_rewrite 1 [← h]
    exact neg_add_cancel _
  exact (smul_eq_zero.1 h2).resolve_left (by norm_num)

theorem Bdd.const (a : A) : Bdd fun _ : g → ℝ => a :=
  ⟨‖a‖, 0, norm_nonneg _, le_rfl, fun u => by simp⟩

theorem Bdd.field (V : g → A) : Bdd (field V) := by
  refine ⟨∑ γ, ‖V γ‖, 1, Finset.sum_nonneg fun _ _ => norm_nonneg _, by norm_num, fun u => ?_⟩
  refine (field_norm V u).trans (mul_le_mul_of_nonneg_left ?_
    (Finset.sum_nonneg fun _ _ => norm_nonneg _))
  have := Real.add_one_le_exp (size u)
  rw [one_mul]
  linarith

theorem Bdd.add {F G : (g → ℝ) → A} (h1 : Bdd F) (h2 : Bdd G) : Bdd fun u => F u + G u := by
  obtain ⟨C, c, hC, hc, h1⟩ := h1
  obtain ⟨D, d, hD, hd, h2⟩ := h2
  refine ⟨C + D, c + d, by positivity, by positivity, fun u => ?_⟩
  have hs := size_nonneg u
  have e1 := mul_le_mul_of_nonneg_left (exp_mono hs (show c ≤ c + d by linarith)) hC
  have e2 := mul_le_mul_of_nonneg_left (exp_mono hs (show d ≤ c + d by linarith)) hD
  refine (norm_add_le _ _).trans ?_
  rw [add_mul]
  exact add_le_add ((h1 u).trans e1) ((h2 u).trans e2)

theorem Bdd.smul {F : (g → ℝ) → A} (h : Bdd F) (a : ℂ) : Bdd fun u => a • F u := by
  obtain ⟨C, c, hC, hc, h⟩ := h
  refine ⟨‖a‖ * C, c, by positivity, hc, fun u => ?_⟩
  rw [norm_smul, mul_assoc]
  exact mul_le_mul_of_nonneg_left (h u) (norm_nonneg _)

/-- The cubic polynomial with drift, sorted by powers of `τ`. -/
theorem cubic_drift (F D : A) (τ : ℂ) :
    cubic (Complex.I • (τ • F + τ ^ 2 • D)) =
      (1 + τ ^ 2 • (Complex.I • D) - (τ ^ 2 / 2) • F ^ 2) +
      (τ • (Complex.I • F) + (τ ^ 3) • (-((1 / 2 : ℂ) • (F * D + D * F)) - (Complex.I / 6) • F ^ 3)) +
      (τ ^ 4 • (-((1 / 2 : ℂ) • (D * D)) - (Complex.I / 6) • (F * F * D + F * D * F + D * F * F)) +
        τ ^ 5 • (-((Complex.I / 6) • (F * D * D + D * F * D + D * D * F))) +
        τ ^ 6 • (-((Complex.I / 6) • (D * D * D)))) := by
  have h2 : Complex.I ^ 2 = -1 := Complex.I_sq
  have h3 : Complex.I ^ 3 = -Complex.I := Complex.I_pow_three
  unfold cubic
  rw [Finset.sum_range_succ, Finset.sum_range_succ, Finset.sum_range_succ, Finset.sum_range_one]
  simp only [pow_zero, pow_one, smul_pow, h2, h3, Nat.factorial]
  rw [pow_two (τ • F + τ ^ 2 • D), pow_succ (τ • F + τ ^ 2 • D) 2, pow_two (τ • F + τ ^ 2 • D)]
  simp only [add_mul, mul_add, smul_mul_smul_comm, pow_succ, pow_zero, one_mul]
  push_cast
  module


/-- Average of a function that agrees with `exp(i Σ u_γ V_γ)` up to fourth order, at fields `τ x`
together with the drift `τ²`. -/
theorem drift_mean (G : (Option g → ℝ) → A) (hG : Continuous G) (V : Option g → A) (C c : ℝ)
    (hC0 : 0 ≤ C) (hc0 : 0 ≤ c)
    (hC : ∀ u, ‖G u - cubic (Complex.I • field V u)‖ ≤ C * size u ^ 4 * Real.exp (c * size u)) :
    ∃ K : ℝ, ∀ τ : ℝ, 0 ≤ τ → τ ≤ 1 →
      ‖(∫ x : g → ℝ, (normalDensity x : ℝ) • G (lift τ x)) -
          (1 + (τ : ℂ) ^ 2 • (Complex.I • V none) -
            ((τ : ℂ) ^ 2 / 2) • ∑ γ, V (some γ) ^ 2)‖ ≤ K * τ ^ 4 := by
  set F : (g → ℝ) → A := field fun γ => V (some γ) with hF
  set D : A := V none with hD
  have hFc : Continuous F := field_continuous _
  have hFb : Bdd F := Bdd.field _
  have hDb : Bdd fun _ : g → ℝ => D := Bdd.const D
  -- the polynomial
  let P4 : (g → ℝ) → A := fun x => (-((1 / 2 : ℂ) • (D * D)) -
    (Complex.I / 6) • (F x * F x * D + F x * D * F x + D * F x * F x))
  let P5 : (g → ℝ) → A := fun x => -((Complex.I / 6) • (F x * D * D + D * F x * D + D * D * F x))
  let P6 : (g → ℝ) → A := fun _ => -((Complex.I / 6) • (D * D * D))
  let P1 : (g → ℝ) → A := fun x => Complex.I • F x
  let P3 : (g → ℝ) → A := fun x => -((1 / 2 : ℂ) • (F x * D + D * F x)) - (Complex.I / 6) • F x ^ 3
  have hcub : ∀ (τ : ℝ) (x : g → ℝ), cubic (Complex.I • field V (lift τ x)) =
      (1 + (τ : ℂ) ^ 2 • (Complex.I • D) - ((τ : ℂ) ^ 2 / 2) • F x ^ 2) +
      ((τ : ℂ) • P1 x + (τ : ℂ) ^ 3 • P3 x) +
      ((τ : ℂ) ^ 4 • P4 x + (τ : ℂ) ^ 5 • P5 x + (τ : ℂ) ^ 6 • P6 x) := by
    intro τ x
    rw [field_lift, cubic_drift]
  have c1 : Continuous P1 := by fun_prop
  have c3 : Continuous P3 := by fun_prop
  have c4 : Continuous P4 := by fun_prop
  have c5 : Continuous P5 := by fun_prop
  have c6 : Continuous P6 := by fun_prop
  have bneg : ∀ {H : (g → ℝ) → A}, Bdd H → Bdd fun x => -H x := fun h => by
    simpa using h.smul (-1)
  have b1 : Bdd P1 := hFb.smul _
  have b3 : Bdd P3 := by
    have := (bneg (((hFb.mul hDb).add (hDb.mul hFb)).smul (1 / 2))).add
      (bneg (((hFb.mul hFb).mul hFb).smul (Complex.I / 6)))
    simpa [P3, sub_eq_add_neg, pow_succ] using this
  have b4 : Bdd P4 := by
    have := (bneg ((hDb.mul hDb).smul (1 / 2))).add (bneg ((((hFb.mul hFb).mul hDb).add
      ((hFb.mul hDb).mul hFb) |>.add ((hDb.mul hFb).mul hFb)).smul (Complex.I / 6)))
    simpa [P4, sub_eq_add_neg] using this
  have b5 : Bdd P5 := bneg ((((hFb.mul hDb).mul hDb).add ((hDb.mul hFb).mul hDb) |>.add
    ((hDb.mul hDb).mul hFb)).smul (Complex.I / 6))
  have b6 : Bdd P6 := bneg (((hDb.mul hDb).mul hDb).smul (Complex.I / 6))
  have i1 := bdd_integrable P1 c1 b1
  have i3 := bdd_integrable P3 c3 b3
  have i4 := bdd_integrable P4 c4 b4
  have i5 := bdd_integrable P5 c5 b5
  have i6 := bdd_integrable P6 c6 b6
  have i0 : Integrable fun x : g → ℝ => (normalDensity x : ℝ) • (1 : A) :=
    bdd_integrable (fun _ => (1 : A)) continuous_const (Bdd.const 1)
  have iD : Integrable fun x : g → ℝ => (normalDensity x : ℝ) • (Complex.I • D) :=
    bdd_integrable (fun _ => Complex.I • D) continuous_const (Bdd.const _)
  have i2 : Integrable fun x : g → ℝ => (normalDensity x : ℝ) • F x ^ 2 := pow_integrable _ 2
  have z1 : ∫ x : g → ℝ, (normalDensity x : ℝ) • P1 x = 0 := by
    refine odd_zero P1 fun x => ?_
    simp [P1, hF, field_neg]
  have z3 : ∫ x : g → ℝ, (normalDensity x : ℝ) • P3 x = 0 := by
    refine odd_zero P3 fun x => ?_
    simp only [P3, hF, field_neg]
    rw [Odd.neg_pow (by decide)]
    simp only [neg_mul, mul_neg, smul_neg, ← neg_add]
    abel
  have hterm : ∀ (τ : ℝ) (x : g → ℝ),
      (normalDensity x : ℝ) • cubic (Complex.I • field V (lift τ x)) =
      (((normalDensity x : ℝ) • (1 : A) + (τ : ℂ) ^ 2 • ((normalDensity x : ℝ) • (Complex.I • D)) -
        ((τ : ℂ) ^ 2 / 2) • ((normalDensity x : ℝ) • F x ^ 2)) +
      ((τ : ℂ) • ((normalDensity x : ℝ) • P1 x) + (τ : ℂ) ^ 3 • ((normalDensity x : ℝ) • P3 x))) +
      ((τ : ℂ) ^ 4 • ((normalDensity x : ℝ) • P4 x) + (τ : ℂ) ^ 5 • ((normalDensity x : ℝ) • P5 x) +
        (τ : ℂ) ^ 6 • ((normalDensity x : ℝ) • P6 x)) := by
    intro τ x
    rw [hcub]
    simp only [smul_add, smul_sub, smul_comm (normalDensity x : ℝ) (_ : ℂ) (_ : A)]
  have hA : ∀ τ : ℝ, Integrable fun x : g → ℝ =>
      ((normalDensity x : ℝ) • (1 : A) + (τ : ℂ) ^ 2 • ((normalDensity x : ℝ) • (Complex.I • D)) -
        ((τ : ℂ) ^ 2 / 2) • ((normalDensity x : ℝ) • F x ^ 2)) := fun τ =>
    (i0.add (iD.smul ((τ : ℂ) ^ 2))).sub (i2.smul ((τ : ℂ) ^ 2 / 2))
  have hB : ∀ τ : ℝ, Integrable fun x : g → ℝ =>
      ((τ : ℂ) • ((normalDensity x : ℝ) • P1 x) + (τ : ℂ) ^ 3 • ((normalDensity x : ℝ) • P3 x)) :=
    fun τ => (i1.smul (τ : ℂ)).add (i3.smul ((τ : ℂ) ^ 3))
  have hE : ∀ τ : ℝ, Integrable fun x : g → ℝ =>
      ((τ : ℂ) ^ 4 • ((normalDensity x : ℝ) • P4 x) + (τ : ℂ) ^ 5 • ((normalDensity x : ℝ) • P5 x) +
        (τ : ℂ) ^ 6 • ((normalDensity x : ℝ) • P6 x)) := fun τ =>
    ((i4.smul ((τ : ℂ) ^ 4)).add (i5.smul ((τ : ℂ) ^ 5))).add (i6.smul ((τ : ℂ) ^ 6))
  have hint : ∀ τ : ℝ, Integrable fun x : g → ℝ =>
      (normalDensity x : ℝ) • cubic (Complex.I • field V (lift τ x)) := by
    intro τ
    simp_rw [hterm]
    exact ((hA τ).add (hB τ)).add (hE τ)
  have hval : ∀ τ : ℝ, ∫ x : g → ℝ, (normalDensity x : ℝ) • cubic (Complex.I • field V (lift τ x)) =
      (1 + (τ : ℂ) ^ 2 • (Complex.I • D) - ((τ : ℂ) ^ 2 / 2) • ∑ γ, V (some γ) ^ 2) +
      ((τ : ℂ) ^ 4 • (∫ x : g → ℝ, (normalDensity x : ℝ) • P4 x) +
        (τ : ℂ) ^ 5 • (∫ x : g → ℝ, (normalDensity x : ℝ) • P5 x) +
        (τ : ℂ) ^ 6 • (∫ x : g → ℝ, (normalDensity x : ℝ) • P6 x)) := by
    intro τ
    have hconst : ∀ a : A, ∫ x : g → ℝ, (normalDensity x : ℝ) • a = a := by
      intro a
      simp_rw [← Complex.coe_smul]
      rw [integral_smul_const, moment_zero, one_smul]
    have hAB : Integrable fun x : g → ℝ =>
        ((normalDensity x : ℝ) • (1 : A) + (τ : ℂ) ^ 2 • ((normalDensity x : ℝ) • (Complex.I • D)) -
          ((τ : ℂ) ^ 2 / 2) • ((normalDensity x : ℝ) • F x ^ 2)) +
        ((τ : ℂ) • ((normalDensity x : ℝ) • P1 x) + (τ : ℂ) ^ 3 • ((normalDensity x : ℝ) • P3 x)) :=
      (hA τ).add (hB τ)
    have h0D : Integrable fun x : g → ℝ =>
        (normalDensity x : ℝ) • (1 : A) + (τ : ℂ) ^ 2 • ((normalDensity x : ℝ) • (Complex.I • D)) :=
      i0.add (iD.smul ((τ : ℂ) ^ 2))
    have h45 : Integrable fun x : g → ℝ =>
        (τ : ℂ) ^ 4 • ((normalDensity x : ℝ) • P4 x) + (τ : ℂ) ^ 5 • ((normalDensity x : ℝ) • P5 x) :=
      (i4.smul ((τ : ℂ) ^ 4)).add (i5.smul ((τ : ℂ) ^ 5))
    have j1 : Integrable fun x : g → ℝ => (τ : ℂ) • ((normalDensity x : ℝ) • P1 x) := i1.smul (τ : ℂ)
    have j2 : Integrable fun x : g → ℝ => ((τ : ℂ) ^ 2 / 2) • ((normalDensity x : ℝ) • F x ^ 2) :=
      i2.smul ((τ : ℂ) ^ 2 / 2)
    have jD : Integrable fun x : g → ℝ =>
      (τ : ℂ) ^ 2 • ((normalDensity x : ℝ) • (Complex.I • D)) := iD.smul ((τ : ℂ) ^ 2)
    have j3 : Integrable fun x : g → ℝ => (τ : ℂ) ^ 3 • ((normalDensity x : ℝ) • P3 x) := i3.smul ((τ : ℂ) ^ 3)
    have j4 : Integrable fun x : g → ℝ => (τ : ℂ) ^ 4 • ((normalDensity x : ℝ) • P4 x) := i4.smul ((τ : ℂ) ^ 4)
    have j5 : Integrable fun x : g → ℝ => (τ : ℂ) ^ 5 • ((normalDensity x : ℝ) • P5 x) := i5.smul ((τ : ℂ) ^ 5)
    have j6 : Integrable fun x : g → ℝ => (τ : ℂ) ^ 6 • ((normalDensity x : ℝ) • P6 x) := i6.smul ((τ : ℂ) ^ 6)
    simp_rw [hterm]
    rw [integral_add hAB (hE τ), integral_add (hA τ) (hB τ), integral_sub h0D j2,
      integral_add i0 jD, integral_add j1 j3, integral_add h45 j6, integral_add j4 j5]
    simp_rw [integral_smul]
    rw [z1, z3, hconst, hconst, second_moment, smul_zero, smul_zero, add_zero, add_zero]
  have hR : ∀ τ : ℝ, 0 ≤ τ → τ ≤ 1 → ∀ x : g → ℝ,
      ‖(normalDensity x : ℝ) • (G (lift τ x) - cubic (Complex.I • field V (lift τ x)))‖ ≤
        (C * 24 * Real.exp (c + 1) * τ ^ 4) * (normalDensity x * Real.exp ((c + 1) * size x)) := by
    intro τ h0 h1 x
    rw [norm_smul, Real.norm_eq_abs, abs_of_pos (normalDensity_pos x)]
    have hs := size_nonneg x
    have hl : size (lift τ x) ≤ τ * (1 + size x) := by
      rw [size_lift τ h0]
      nlinarith
    have hl0 : 0 ≤ size (lift τ x) := size_nonneg _
    have hl1 : size (lift τ x) ≤ 1 + size x := by nlinarith
    have a1 : (1 + size x) ^ 4 ≤ 24 * Real.exp (1 + size x) := by
      have := pow_le_exp (1 + size x) (by linarith) 4
      simpa [Nat.factorial] using this
    have a2 : size (lift τ x) ^ 4 ≤ τ ^ 4 * (24 * Real.exp (1 + size x)) := by
      refine (pow_le_pow_left₀ hl0 hl 4).trans ?_
      rw [mul_pow]
      exact mul_le_mul_of_nonneg_left a1 (by positivity)
    have a3 : Real.exp (c * size (lift τ x)) ≤ Real.exp (c * (1 + size x)) :=
      Real.exp_le_exp.2 (mul_le_mul_of_nonneg_left hl1 hc0)
    have e1 : C * size (lift τ x) ^ 4 * Real.exp (c * size (lift τ x)) ≤
        C * (τ ^ 4 * (24 * Real.exp (1 + size x))) * Real.exp (c * (1 + size x)) :=
      mul_le_mul (mul_le_mul_of_nonneg_left a2 hC0) a3 (Real.exp_pos _).le (by positivity)
    calc normalDensity x * ‖G (lift τ x) - cubic (Complex.I • field V (lift τ x))‖ ≤
          normalDensity x * (C * (τ ^ 4 * (24 * Real.exp (1 + size x))) *
            Real.exp (c * (1 + size x))) :=
          mul_le_mul_of_nonneg_left ((hC (lift τ x)).trans e1) (normalDensity_pos x).le
      _ = _ := by
        have : Real.exp (c + 1) * Real.exp ((c + 1) * size x) =
            Real.exp (1 + size x) * Real.exp (c * (1 + size x)) := by
          rw [← Real.exp_add, ← Real.exp_add]
          congr 1
          ring
        linear_combination (-(24 * C * τ ^ 4 * normalDensity x)) * this
  set M4 := ∫ x : g → ℝ, (normalDensity x : ℝ) • P4 x
  set M5 := ∫ x : g → ℝ, (normalDensity x : ℝ) • P5 x
  set M6 := ∫ x : g → ℝ, (normalDensity x : ℝ) • P6 x
  refine ⟨C * 24 * Real.exp (c + 1) * (∫ x : g → ℝ, normalDensity x * Real.exp ((c + 1) * size x)) +
    (‖M4‖ + ‖M5‖ + ‖M6‖), fun τ h0 h1 => ?_⟩
  have hRi : Integrable fun x : g → ℝ =>
      (normalDensity x : ℝ) • (G (lift τ x) - cubic (Complex.I • field V (lift τ x))) := by
    refine ((expSize_integrable (g := g) (c + 1)).const_mul
      (C * 24 * Real.exp (c + 1) * τ ^ 4)).mono' ?_ (Filter.Eventually.of_forall (hR τ h0 h1))
    have hf := field_continuous V
    have hd := density_continuous (g := g)
    have hcub : Continuous fun X : A => cubic X := by
      unfold cubic
      fun_prop
    have hs : Continuous fun x : g → ℝ => lift τ x := lift_continuous τ
    exact (hd.smul ((hG.comp hs).sub (hcub.comp ((hf.comp hs).const_smul _)))).aestronglyMeasurable
  have hsplit : ∫ x : g → ℝ, (normalDensity x : ℝ) • G (lift τ x) =
      (∫ x : g → ℝ, (normalDensity x : ℝ) • (G (lift τ x) - cubic (Complex.I • field V (lift τ x)))) +
      ∫ x : g → ℝ, (normalDensity x : ℝ) • cubic (Complex.I • field V (lift τ x)) := by
    rw [← integral_add hRi (hint τ)]
    congr 1
    funext x
    rw [← smul_add, sub_add_cancel]
  have hp : ∀ (k : ℕ) (M : A), 4 ≤ k → ‖(τ : ℂ) ^ k • M‖ ≤ ‖M‖ * τ ^ 4 := by
    intro k M hk
    rw [norm_smul, norm_pow, Complex.norm_real, Real.norm_eq_abs, abs_of_nonneg h0, mul_comm]
    exact mul_le_mul_of_nonneg_left (pow_le_pow_of_le_one h0 h1 hk) (norm_nonneg _)
  rw [hsplit, hval, add_comm (1 + (τ : ℂ) ^ 2 • (Complex.I • D) - _) _, ← add_assoc,
    add_sub_cancel_right]
  refine (norm_add_le _ _).trans ?_
  rw [add_mul]
  refine add_le_add ?_ ?_
  · refine (norm_integral_le_of_norm_le
      ((expSize_integrable (g := g) (c + 1)).const_mul (C * 24 * Real.exp (c + 1) * τ ^ 4))
      (Filter.Eventually.of_forall (hR τ h0 h1))).trans (le_of_eq ?_)
    rw [integral_const_mul]
    ring
  · refine (norm_add_le _ _).trans ?_
    rw [add_mul]
    refine add_le_add ((norm_add_le _ _).trans ?_) (hp 6 _ (by norm_num))
    rw [add_mul]
    exact add_le_add (hp 4 _ (by norm_num)) (hp 5 _ (by norm_num))

/-- The same for functions close to the exponential. -/
theorem close_drift (G : (Option g → ℝ) → A) (hG : Continuous G) (V : Option g → A)
    (h : Close G fun u => NormedSpace.exp (Complex.I • field V u)) :
    ∃ K : ℝ, ∀ τ : ℝ, 0 ≤ τ → τ ≤ 1 →
      ‖(∫ x : g → ℝ, (normalDensity x : ℝ) • G (lift τ x)) -
          (1 + (τ : ℂ) ^ 2 • (Complex.I • V none) -
            ((τ : ℂ) ^ 2 / 2) • ∑ γ, V (some γ) ^ 2)‖ ≤ K * τ ^ 4 := by
  obtain ⟨C, c, hC, hc, h⟩ := h.trans (close_of_bound exp_cubic V)
  exact drift_mean G hG V C c hC hc h

end OpenMS.GaussMean
