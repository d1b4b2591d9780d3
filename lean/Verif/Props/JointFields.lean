import Verif.Model.JointFields
import Verif.Props.Propagate

/-!
# C98: averaging over the shared fields
-/

namespace OpenMS.Joint

open OpenMS.Propagators MeasureTheory

variable {g : Type*} [Fintype g]

theorem jointExponent_eq (dt : ℝ) (x : g → ℝ) (xf fbar f xb bbar b : g → ℂ) :
    jointExponent dt x xf fbar f xb bbar b =
      (cfb x (fun γ => xf γ + xb γ) + cmf dt x (fun γ => xf γ + xb γ) (fun γ => fbar γ + bbar γ)
        + eriOp dt x (fun γ => xf γ + xb γ) (fun γ => f γ + b γ)) +
      ∑ γ, (Complex.I * (Real.sqrt dt : ℂ) * (xf γ * (b γ - bbar γ) + xb γ * (f γ - fbar γ)) +
        xf γ * xb γ) := by
  unfold jointExponent
  have e1 : bosonCfb x xb = cfb x xb := by
    unfold bosonCfb cfb
    rw [Finset.mul_sum, ← Finset.sum_sub_distrib]
    exact Finset.sum_congr rfl fun γ _ => by ring
  have e2 : bosonCmf dt x xb bbar = cmf dt x xb bbar := rfl
  have e3 : bosonOp dt x xb b = eriOp dt x xb b := rfl
  rw [e1, e2, e3]
  unfold cfb cmf eriOp xshift mfShift
  simp only [Finset.mul_sum, ← Finset.sum_add_distrib]
  refine Finset.sum_congr rfl fun γ _ => ?_
  ring

/-- The average of the joint step over the shared fields, for any two force biases. -/
theorem joint_average (dt : ℝ) (hdt : 0 ≤ dt) (xf fbar f xb bbar b : g → ℂ) :
    (∫ x : g → ℝ, (normalDensity x : ℂ) * Complex.exp (jointExponent dt x xf fbar f xb bbar b)) =
    Complex.exp (-(dt : ℂ) / 2 * ∑ γ, ((f γ + b γ) - (fbar γ + bbar γ)) ^ 2) *
    Complex.exp (∑ γ, (Complex.I * (Real.sqrt dt : ℂ) *
      (xf γ * (b γ - bbar γ) + xb γ * (f γ - fbar γ)) + xf γ * xb γ)) := by
  simp only [jointExponent_eq dt, Complex.exp_add _ (∑ _, _), ← mul_assoc]
  rw [integral_mul_const, hs_average dt hdt]

/-- **C98 (partial).** Without force bias the average of the joint step is the exponential of
the square of the joint operator.  Missing: any force bias, see `joint_average_fails`. -/
theorem joint_average_partial (dt : ℝ) (hdt : 0 ≤ dt) (fbar f bbar b : g → ℂ) :
    (∫ x : g → ℝ, (normalDensity x : ℂ) * Complex.exp (jointExponent dt x 0 fbar f 0 bbar b)) =
    Complex.exp (-(dt : ℂ) / 2 * ∑ γ, ((f γ + b γ) - (fbar γ + bbar γ)) ^ 2) := by
  rw [joint_average dt hdt]; simp

/-- **C98, disagreement.** With the force biases of the code (mixed estimates `vf`, `vb`, below
the bound), the average is not the propagator of the shared-field square.  The product `f b`
which the decomposition stands for is replaced by `(f - vf) (b - vb)`: the coupling of each part
to the mean value of the other one has dropped out. -/
theorem joint_average_code (dt : ℝ) (hdt : 0 ≤ dt) (vf fbar f vb bbar b : g → ℂ) (bound : ℝ)
    (hf : ∀ γ, ‖xbarRaw dt vf fbar γ‖ ≤ bound) (hb : ∀ γ, ‖xbarRaw dt vb bbar γ‖ ≤ bound) :
    (∫ x : g → ℝ, (normalDensity x : ℂ) * Complex.exp (jointExponent dt x
      (fun γ => rescaleFbias bound (xbarRaw dt vf fbar γ)) fbar f
      (bosonXbar dt bound vb bbar) bbar b)) =
    Complex.exp (-(dt : ℂ) * ∑ γ, (1 / 2 * (f γ - fbar γ) ^ 2 + 1 / 2 * (b γ - bbar γ) ^ 2 +
      (f γ - vf γ) * (b γ - vb γ))) := by
  have e1 : (fun γ => rescaleFbias bound (xbarRaw dt vf fbar γ)) = xbarRaw dt vf fbar := by
    funext γ; unfold rescaleFbias; rw [if_neg (not_lt.2 (hf γ))]
  have e2 : bosonXbar dt bound vb bbar = xbarRaw dt vb bbar := by
    funext γ
    have e : bosonXbar dt bound vb bbar γ = rescaleFbias bound (xbarRaw dt vb bbar γ) := rfl
    rw [e]; unfold rescaleFbias
    rw [if_neg (not_lt.2 (hb γ))]
  have hsq : ((Real.sqrt dt : ℝ) : ℂ) ^ 2 = (dt : ℂ) := by
    rw [← Complex.ofReal_pow, Real.sq_sqrt hdt]
  have hI := Complex.I_sq
  rw [e1, e2, joint_average dt hdt, ← Complex.exp_add]
  congr 1
  simp only [Finset.mul_sum, ← Finset.sum_add_distrib]
  refine Finset.sum_congr rfl fun γ _ => ?_
  unfold xbarRaw mfShift
  set r : ℂ := ((Real.sqrt dt : ℝ) : ℂ)
  linear_combination (Complex.I ^ 2 * (-(vf γ - fbar γ) * (b γ - bbar γ) - (vb γ - bbar γ) * (f γ - fbar γ)
    + (vf γ - fbar γ) * (vb γ - bbar γ))) * hsq +
    (dt * (-(vf γ - fbar γ) * (b γ - bbar γ) - (vb γ - bbar γ) * (f γ - fbar γ)
    + (vf γ - fbar γ) * (vb γ - bbar γ))) * hI

/-- **C98, disagreement**, in numbers: one field, electron and boson operator both equal to one
and both mixed estimates exact, no mean-field shift, any step below `1`.  The joint propagator is
`exp(-2 dt)`, the average of the code is `exp(-dt)`. -/
theorem joint_average_fails (dt : ℝ) (h0 : 0 < dt) (h1 : dt ≤ 1) :
    (∫ x : Fin 1 → ℝ, (normalDensity x : ℂ) * Complex.exp (jointExponent dt x
      (fun γ => rescaleFbias 1 (xbarRaw dt 1 0 γ)) 0 1 (bosonXbar dt 1 1 0) 0 1)) =
      Complex.exp (-(dt : ℂ)) ∧
    Complex.exp (-(dt : ℂ)) ≠
      Complex.exp (-(dt : ℂ) / 2 * ∑ _γ : Fin 1, (((1 : ℂ) + 1) - (0 + 0)) ^ 2) := by
  have hn : ∀ γ : Fin 1, ‖xbarRaw dt 1 0 γ‖ ≤ 1 := by
    intro γ
    have : xbarRaw (g := Fin 1) dt 1 0 γ = -(((Real.sqrt dt : ℝ) : ℂ) * Complex.I) := by
      simp [xbarRaw, mfShift]
    rw [this, norm_neg, norm_mul, Complex.norm_I, mul_one, Complex.norm_real, Real.norm_eq_abs,
      abs_of_nonneg (Real.sqrt_nonneg _)]
    exact Real.sqrt_le_one.2 h1
  refine ⟨?_, ?_⟩
  · rw [joint_average_code dt h0.le 1 0 1 1 0 1 1 hn hn]
    congr 1
    simp
    norm_num
  · have e : (-(dt : ℂ) / 2 * ∑ _γ : Fin 1, (((1 : ℂ) + 1) - (0 + 0)) ^ 2) = ((-2 * dt : ℝ) : ℂ) := by
      simp; ring
    rw [e, ← Complex.ofReal_neg, ← Complex.ofReal_exp, ← Complex.ofReal_exp]
    intro h
    have := Real.exp_injective (Complex.ofReal_injective h)
    linarith

end OpenMS.Joint
