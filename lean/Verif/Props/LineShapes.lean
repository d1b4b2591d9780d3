import Verif.Model.LineShapes
import Mathlib.Analysis.SpecialFunctions.Gaussian.GaussianIntegral
import Mathlib.Analysis.SpecialFunctions.ImproperIntegrals
import Mathlib.MeasureTheory.Measure.Haar.NormedSpace
import Mathlib.Tactic

/-! C178: line shapes. -/

namespace OpenMS.LineShapes

open MeasureTheory Real

/-- C178: for positive width `gaussian1d` is a line of area `const`, highest at `x0` and symmetric about it, that has fallen by
`exp (-½)` at the distance `sigma`. -/
theorem gauss_spec (const σ x0 : ℝ) (hσ : 0 < σ) :
    ∃ f : ℝ → ℝ, (∀ x, gaussian1d x const σ x0 = some (f x)) ∧ ∫ x, f x = const ∧ (∀ d, f (x0 + d) = f (x0 - d)) ∧
      f (x0 + σ) = f x0 * exp (-1 / 2) ∧ (0 < const → ∀ x, 0 < f x ∧ (x ≠ x0 → f x < f x0)) := by
  refine ⟨fun x => const / (σ * sqrt (2 * π)) * exp (-(x - x0) ^ 2 / (2 * σ ^ 2)), ?_, ?_, ?_, ?_, ?_⟩
  · intro x
    unfold gaussian1d
    rw [if_neg (not_lt.2 hσ.le), if_neg hσ.ne']
  · rw [integral_const_mul, integral_sub_right_eq_self (fun x => exp (-x ^ 2 / (2 * σ ^ 2))) x0]
    have h : ∀ x : ℝ, exp (-x ^ 2 / (2 * σ ^ 2)) = exp (-(1 / (2 * σ ^ 2)) * x ^ 2) := fun x => by congr 1; ring
    simp only [h]
    rw [integral_gaussian]
    have h2 : π / (1 / (2 * σ ^ 2)) = σ ^ 2 * (2 * π) := by field_simp
    rw [h2, sqrt_mul (sq_nonneg σ), sqrt_sq hσ.le]
    have : 0 < σ * sqrt (2 * π) := by positivity
    field_simp
  · intro d
    simp only
    congr 2
    ring
  · simp only
    rw [mul_assoc, ← exp_add]
    congr 2
    field_simp
    ring
  · intro hc x
    have hk : 0 < const / (σ * sqrt (2 * π)) := by positivity
    refine ⟨by positivity, fun hx => ?_⟩
    simp only
    refine mul_lt_mul_of_pos_left (exp_lt_exp.2 ?_) hk
    have : 0 < (x - x0) ^ 2 := by have := sub_ne_zero.2 hx; positivity
    rw [sub_self, div_lt_div_iff_of_pos_right (by positivity)]
    linarith

/-- C178 partial: for positive width `Lorentz1d` is a line with its maximum at `x0`, symmetric about it, that has fallen to the half at the
distance `sigma`; its area is `π const`.  Missing: the area `const`. -/
theorem lorentz_partial (const σ x0 : ℝ) (hσ : 0 < σ) :
    ∃ f : ℝ → ℝ, (∀ x, lorentz1d x const σ x0 = some (f x)) ∧ ∫ x, f x = π * const ∧ (∀ d, f (x0 + d) = f (x0 - d)) ∧
      f (x0 + σ) = f x0 / 2 ∧ (0 < const → ∀ x, 0 < f x ∧ (x ≠ x0 → f x < f x0)) := by
  have hden : ∀ x, 0 < (x - x0) ^ 2 + σ * σ := fun x => by positivity
  refine ⟨fun x => const * σ / ((x - x0) ^ 2 + σ * σ), ?_, ?_, ?_, ?_, ?_⟩
  · intro x
    unfold lorentz1d
    rw [if_neg (not_lt.2 hσ.le), if_neg (hden x).ne']
  · rw [integral_sub_right_eq_self (fun x => const * σ / (x ^ 2 + σ * σ)) x0]
    have h : ∀ x : ℝ, const * σ / (x ^ 2 + σ * σ) = const / σ * (1 + (x / σ) ^ 2)⁻¹ := by
      intro x
      have : 0 < x ^ 2 + σ * σ := by positivity
      have : 0 < 1 + (x / σ) ^ 2 := by positivity
      field_simp
      ring
    simp only [h]
    rw [integral_const_mul, Measure.integral_comp_div (fun x => (1 + x ^ 2)⁻¹) σ, integral_univ_inv_one_add_sq, abs_of_pos hσ,
      smul_eq_mul]
    field_simp
  · intro d
    simp only
    congr 2
    ring
  · simp only
    rw [add_sub_cancel_left, sub_self]
    field_simp
    ring
  · intro hc x
    refine ⟨div_pos (mul_pos hc hσ) (hden x), fun hx => ?_⟩
    simp only
    refine div_lt_div_of_pos_left (mul_pos hc hσ) (hden x0) ?_
    have : 0 < (x - x0) ^ 2 := by have := sub_ne_zero.2 hx; positivity
    rw [sub_self]
    linarith

/-- C178 fails: the area of `Lorentz1d` is not `const`, unlike that of `gaussian1d`, unless both vanish. -/
theorem lorentz_area_fails (const σ x0 : ℝ) (hσ : 0 < σ) (f : ℝ → ℝ) (hf : ∀ x, lorentz1d x const σ x0 = some (f x)) :
    ∫ x, f x = const ↔ const = 0 := by
  obtain ⟨g, hg, hi, -⟩ := lorentz_partial const σ x0 hσ
  have : f = g := funext fun x => Option.some.inj ((hf x).symm.trans (hg x))
  rw [this, hi]
  constructor
  · intro h
    have h3 : (π - 1) * const = 0 := by linarith
    exact (mul_eq_zero.1 h3).resolve_left (fun h => by have := two_le_pi; linarith)
  · intro h; rw [h, mul_zero]

/-- C178 fails: a negative width is not refused; both lines are then `-1` everywhere, below zero and not integrable.  A width of zero
divides by zero, in `Lorentz1d` at `x0` only. -/
theorem width_fails (const x0 : ℝ) :
    (∀ σ < 0, ∀ x, gaussian1d x const σ x0 = some (-1) ∧ lorentz1d x const σ x0 = some (-1)) ∧
      ¬Integrable (fun _ : ℝ => (-1 : ℝ)) ∧ (∀ x, gaussian1d x const 0 x0 = none) ∧
      lorentz1d x0 const 0 x0 = none ∧ ∀ x, x ≠ x0 → lorentz1d x const 0 x0 = some 0 := by
  refine ⟨fun σ hσ x => ?_, ?_, fun x => ?_, ?_, fun x hx => ?_⟩
  · unfold gaussian1d lorentz1d
    exact ⟨if_pos hσ, if_pos hσ⟩
  · rw [integrable_const_iff]
    simp [isFiniteMeasure_iff]
  · unfold gaussian1d; rw [if_neg (lt_irrefl _), if_pos rfl]
  · unfold lorentz1d; rw [if_neg (lt_irrefl _), if_pos (by ring)]
  · unfold lorentz1d
    have : 0 < (x - x0) ^ 2 := by have := sub_ne_zero.2 hx; positivity
    rw [if_neg (lt_irrefl _), if_neg (by simpa using this.ne')]
    simp

/-- Width one, strength two. -/
example : ∃ f : ℝ → ℝ, (∀ x, lorentz1d x 2 1 0 = some (f x)) ∧ ∫ x, f x = π * 2 ∧ ∫ x, f x ≠ 2 := by
  obtain ⟨f, hf, hi, -⟩ := lorentz_partial 2 1 0 one_pos
  exact ⟨f, hf, hi, fun h => by have := (lorentz_area_fails 2 1 0 one_pos f hf).1 h; norm_num at this⟩

end OpenMS.LineShapes
