import Verif.Model.WeightUpdate
import Mathlib.Analysis.SpecialFunctions.Trigonometric.Bounds
import Mathlib.Tactic.NormNum
import Mathlib.Tactic.Linarith
import Mathlib.Tactic.Positivity

/-!
# Force bias bound and weight update (C18, C19)
-/

namespace OpenMS.Propagators

open Complex

/-! ## C18 -/

/-- **C18 (partial).** For a bound of at least one, the modulus of the result never
exceeds the bound, components within the bound are unchanged, and the result is a
positive multiple of the input, so the phase is kept.  Missing: bounds below one,
for which the claim is false, see `fbias_bound_fails`. -/
theorem fbias_bound_partial (bound : ℝ) (hb : 1 ≤ bound) (f : ℂ) :
    ‖rescaleFbias bound f‖ ≤ bound ∧
    (‖f‖ ≤ bound → rescaleFbias bound f = f) ∧
    ∃ c : ℝ, 0 < c ∧ rescaleFbias bound f = c * f := by
  unfold rescaleFbias
  by_cases h : ‖f‖ > bound
  · have hpos : 0 < ‖f‖ := by linarith
    have h2 : ‖f‖ > 1e-12 := by
      have : (1e-12 : ℝ) < 1 := by norm_num
      linarith
    rw [if_pos h, if_pos h2]
    refine ⟨?_, fun h' => absurd h (not_lt.2 h'), ‖f‖⁻¹, inv_pos.2 hpos, ?_⟩
    · rw [norm_div, norm_real, norm_norm, div_self hpos.ne']
      exact hb
    · push_cast
      rw [div_eq_inv_mul]
  · rw [if_neg h]
    exact ⟨not_lt.1 h, fun _ => rfl, 1, one_pos, by simp⟩

/-- A component that is really rescaled under the default bound. -/
example : rescaleFbias 1 (3 * I) = I := by
  have : ‖(3 * I : ℂ)‖ = 3 := by simp
  unfold rescaleFbias
  rw [this, if_pos (by norm_num), if_pos (by norm_num)]
  push_cast
  field_simp

/-- **C18, negation.** With bound `1/2` a component of modulus `3/4` is *enlarged* to modulus 1. -/
theorem fbias_bound_fails : ∃ (bound : ℝ) (f : ℂ), 0 < bound ∧ bound < ‖rescaleFbias bound f‖ ∧
    ‖f‖ < ‖rescaleFbias bound f‖ := by
  refine ⟨1 / 2, 3 / 4, by norm_num, ?_⟩
  have : ‖(3 / 4 : ℂ)‖ = 3 / 4 := by
    rw [norm_div]; norm_num
  have h : rescaleFbias (1 / 2) (3 / 4) = 1 := by
    unfold rescaleFbias
    rw [this, if_pos (by norm_num), if_pos (by norm_num)]
    push_cast
    norm_num
  rw [h, this]
  norm_num

/-! ## C19 -/

theorem clipTo_mem (lo hi x : ℝ) (h : lo ≤ hi) : lo ≤ clipTo lo hi x ∧ clipTo lo hi x ≤ hi := by
  unfold clipTo
  exact ⟨le_min (le_max_right _ _) h, min_le_right _ _⟩

theorem clipTo_eq (lo hi x : ℝ) (h1 : lo ≤ x) (h2 : x ≤ hi) : clipTo lo hi x = x := by
  unfold clipTo
  rw [max_eq_left h1, min_eq_left h2]

/-- Explicit form of the hybrid update: only the imaginary part of the force-bias factor
`cfb` enters the phase. -/
theorem updateHybrid_eq (dt w ehybOld : ℝ) (ovlp newovlp cfb cmf eshift : ℂ) :
    (updateHybrid dt w ehybOld ovlp newovlp cfb cmf eshift).1 =
      w * (Real.exp (-dt * (1 / 2 * ((updateHybrid dt w ehybOld ovlp newovlp cfb cmf eshift).2
        + ehybOld) - eshift.re)) * max 0 (Real.cos cfb.im)) := by
  unfold updateHybrid
  simp only
  rw [norm_exp]
  have h1 : (-(dt : ℂ) * (1 / 2 * ((hybridEnergy dt ovlp newovlp cfb cmf eshift : ℂ) + ehybOld)
      - eshift)).re = -dt * (1 / 2 * (hybridEnergy dt ovlp newovlp cfb cmf eshift + ehybOld)
      - eshift.re) := by
    simp
  have h2 : (-(dt : ℂ) * (hybridEnergy dt ovlp newovlp cfb cmf eshift : ℂ) - cfb).im = -cfb.im := by
    simp
  rw [h1, h2, Real.cos_neg]

/-- **C19, hybrid scheme (partial).** The weight is multiplied by a real non-negative
factor; the stored hybrid energy lies in the window of half-width `sqrt(2/dt)` around the
shift, and equals the unclipped value whenever that lies in the window; if the
previous hybrid energy lies in the window too, the factor is at most `exp(sqrt(2 dt))`.
Missing: the phase projection on the overlap ratio, which is false, see
`hybrid_phase_projection_fails`. -/
theorem update_hybrid_partial (dt w ehybOld : ℝ) (hdt : 0 < dt) (ovlp newovlp cfb cmf eshift : ℂ) :
    let out := updateHybrid dt w ehybOld ovlp newovlp cfb cmf eshift
    (∃ c : ℝ, 0 ≤ c ∧ out.1 = w * c ∧
      (|ehybOld - eshift.re| ≤ Real.sqrt (2 / dt) → c ≤ Real.exp (Real.sqrt (2 * dt)))) ∧
    |out.2 - eshift.re| ≤ Real.sqrt (2 / dt) ∧
    (|(-(log (newovlp / ovlp) + cfb + cmf) / dt).re - eshift.re| ≤ Real.sqrt (2 / dt) →
      out.2 = (-(log (newovlp / ovlp) + cfb + cmf) / dt).re) := by
  intro out
  have hwin : |out.2 - eshift.re| ≤ Real.sqrt (2 / dt) := by
    have h := clipTo_mem (eshift.re - ebound dt) (eshift.re + ebound dt)
      (-(log (newovlp / ovlp) + cfb + cmf) / dt).re
      (by have : 0 ≤ ebound dt := Real.sqrt_nonneg _
          linarith)
    rw [abs_le]
    simp only [out, updateHybrid, hybridEnergy]
    unfold ebound at h ⊢
    constructor <;> linarith [h.1, h.2]
  refine ⟨⟨_, ?_, updateHybrid_eq dt w ehybOld ovlp newovlp cfb cmf eshift, ?_⟩, hwin, ?_⟩
  · exact mul_nonneg (Real.exp_pos _).le (le_max_left _ _)
  · intro hold
    have hcos : max 0 (Real.cos cfb.im) ≤ 1 := max_le zero_le_one (Real.cos_le_one _)
    have hs : dt * Real.sqrt (2 / dt) = Real.sqrt (2 * dt) := by
      have h1 : dt = Real.sqrt (dt * dt) := (Real.sqrt_mul_self hdt.le).symm
      calc dt * Real.sqrt (2 / dt) = Real.sqrt (dt * dt) * Real.sqrt (2 / dt) := by rw [← h1]
        _ = Real.sqrt (dt * dt * (2 / dt)) := (Real.sqrt_mul (by positivity) _).symm
        _ = Real.sqrt (2 * dt) := by congr 1; field_simp
    have hexp : -dt * (1 / 2 * (out.2 + ehybOld) - eshift.re) ≤ Real.sqrt (2 * dt) := by
      rw [← hs]
      rw [abs_le] at hwin hold
      have : -(1 / 2 * (out.2 + ehybOld) - eshift.re) ≤ Real.sqrt (2 / dt) := by
        linarith [hwin.1, hold.1]
      have := mul_le_mul_of_nonneg_left this hdt.le
      linarith
    calc _ ≤ Real.exp (-dt * (1 / 2 * (out.2 + ehybOld) - eshift.re)) * 1 :=
          mul_le_mul_of_nonneg_left hcos (Real.exp_pos _).le
      _ ≤ _ := by rw [mul_one]; exact Real.exp_le_exp.2 hexp
  · intro h
    rw [abs_le] at h
    exact clipTo_eq _ _ _ (by unfold ebound; linarith [h.1]) (by unfold ebound; linarith [h.2])

/-- Hypotheses met by time step `1/50` and an unrotated walker. -/
example : (0 : ℝ) < 1 / 50 ∧ |(0 : ℝ) - (0 : ℂ).re| ≤ Real.sqrt (2 / (1 / 50)) := by
  norm_num

/-- **C19, hybrid scheme, negation.** A walker whose overlap changes sign (phase `π`, so it
should be removed) keeps its weight: the imaginary part of the hybrid energy has been
dropped before the phase is computed. -/
theorem hybrid_phase_projection_fails :
    ∃ (dt w ehybOld : ℝ) (ovlp newovlp cfb cmf eshift : ℂ), 0 < dt ∧ 0 < w ∧
      arg (newovlp / ovlp * exp cmf) = Real.pi ∧
      0 < (updateHybrid dt w ehybOld ovlp newovlp cfb cmf eshift).1 := by
  refine ⟨1 / 50, 1, 0, 1, -1, 0, 0, 0, by norm_num, by norm_num, ?_, ?_⟩
  · simp [arg_neg_one]
  · rw [updateHybrid_eq]
    simp only [one_mul, zero_im, Real.cos_zero]
    have := Real.exp_pos (-(1 / 50) * (1 / 2 * ((updateHybrid (1 / 50) 1 0 1 (-1) 0 0 0).2 + 0)
      - (0 : ℂ).re))
    rw [max_eq_right zero_le_one, mul_one]
    exact this

/-- More generally the overlap phase has no influence: two updates whose overlap ratios have the
same modulus give the same weight. -/
theorem hybrid_ignores_overlap_phase (dt w ehybOld : ℝ) (ovlp newovlp newovlp' cfb cmf eshift : ℂ)
    (h : ‖newovlp‖ = ‖newovlp'‖) :
    updateHybrid dt w ehybOld ovlp newovlp cfb cmf eshift =
      updateHybrid dt w ehybOld ovlp newovlp' cfb cmf eshift := by
  have : hybridEnergy dt ovlp newovlp cfb cmf eshift =
      hybridEnergy dt ovlp newovlp' cfb cmf eshift := by
    unfold hybridEnergy
    congr 1
    have e : ∀ z : ℂ, (-(log z + cfb + cmf) / (dt : ℂ)).re =
        -(Real.log ‖z‖ + cfb.re + cmf.re) / dt := by
      intro z
      rw [div_ofReal_re]
      simp [log_re]
    rw [e, e, norm_div, norm_div, h]
  unfold updateHybrid
  rw [this]

example : ‖(1 : ℂ)‖ = ‖(-1 : ℂ)‖ := by simp

/-- **C19, local scheme.** Real non-negative factor; a walker whose overlap (with the
mean-field factor) rotates by at least `π/2` gets weight zero; the factor never exceeds
`exp(-dt Re E)` and reaches it when the overlap does not rotate. -/
theorem update_local (dt w : ℝ) (ovlp newovlp cmf eloc : ℂ) :
    (∃ c : ℝ, 0 ≤ c ∧ updateLocal dt w ovlp newovlp cmf eloc = w * c) ∧
    (Real.pi / 2 ≤ |arg (newovlp / ovlp * exp cmf)| →
      updateLocal dt w ovlp newovlp cmf eloc = 0) ∧
    |updateLocal dt w ovlp newovlp cmf eloc| ≤ |w| * Real.exp (-(dt * eloc.re)) ∧
    (arg (newovlp / ovlp * exp cmf) = 0 →
      updateLocal dt w ovlp newovlp cmf eloc = w * Real.exp (-(dt * eloc.re))) := by
  refine ⟨⟨_, mul_nonneg (Real.exp_pos _).le (le_max_left _ _), rfl⟩, fun h => ?_, ?_, fun h => ?_⟩
  rotate_left
  · unfold updateLocal
    simp only
    rw [abs_mul, neg_mul]
    refine mul_le_mul_of_nonneg_left ?_ (abs_nonneg _)
    have h1 : 0 ≤ max 0 (Real.cos (arg (newovlp / ovlp * exp cmf))) := le_max_left _ _
    have h2 : max 0 (Real.cos (arg (newovlp / ovlp * exp cmf))) ≤ 1 :=
      max_le zero_le_one (Real.cos_le_one _)
    rw [abs_of_nonneg (mul_nonneg (Real.exp_pos _).le h1)]
    exact mul_le_of_le_one_right (Real.exp_pos _).le h2
  · unfold updateLocal
    simp only
    rw [h, Real.cos_zero, max_eq_right zero_le_one, mul_one, neg_mul]
  unfold updateLocal
  simp only
  have hcos : Real.cos (arg (newovlp / ovlp * exp cmf)) ≤ 0 := by
    rw [← Real.cos_abs]
    exact Real.cos_nonpos_of_pi_div_two_le_of_le h
      (by have := abs_arg_le_pi (newovlp / ovlp * exp cmf); linarith [Real.pi_pos])
  rw [max_eq_left hcos]
  simp

/-- A sign change of the overlap meets the hypothesis. -/
example : Real.pi / 2 ≤ |arg ((-1 : ℂ) / 1 * exp 0)| := by
  simp [abs_of_pos Real.pi_pos]
  linarith [Real.pi_pos]

/-- **C19, schemes.** Any scheme other than the two known ones is rejected. -/
theorem update_scheme (scheme : Option String) (dt w ehyb : ℝ) (eshift : ℂ) (x : UpdateInput) :
    (∃ r, updateWeight scheme dt eshift w ehyb x = .ok r) ↔
      scheme = some "hybrid" ∨ scheme = some "local" := by
  unfold updateWeight
  by_cases h1 : scheme = some "hybrid"
  · simp [h1]
  · by_cases h2 : scheme = some "local"
    · simp [h2]
    · simp [h1, h2]

end OpenMS.Propagators
