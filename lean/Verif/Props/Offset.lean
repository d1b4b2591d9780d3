import Verif.Model.Offset
import Verif.Props.Resampling
import Mathlib.Tactic

/-!
# C133: population control by an energy offset
-/

namespace OpenMS.Offset
open OpenMS.PopulationControl

variable {α : Type*}

theorem zip_sum (weights e : List ℝ) (dt o : ℝ) :
    (List.zipWith (fun w x => w * Real.exp (-dt * (x - o))) weights e).sum =
      Real.exp (dt * o) * (List.zipWith (fun w x => w * Real.exp (-dt * x)) weights e).sum := by
  induction weights generalizing e with
  | nil => simp
  | cons w l ih =>
    cases e with
    | nil => simp
    | cons x e =>
      simp only [List.zipWith_cons_cons, List.sum_cons, ih, mul_add]
      congr 1
      rw [show -dt * (x - o) = dt * o + -dt * x by ring, Real.exp_add]; ring

/-- C133: the offset multiplies the total weight of the plain step by a power of mean over target. -/
theorem offset_total (weights e : List ℝ) (dt target : ℝ)
    (h : 0 < weights.sum / weights.length / target) :
    (offsetWeights weights e dt target).sum =
      (weights.sum / weights.length / target) ^ dt *
        (List.zipWith (fun w x => w * Real.exp (-dt * x)) weights e).sum := by
  unfold offsetWeights
  rw [zip_sum, Real.rpow_def_of_pos h, energyOffset, mul_comm dt]

theorem zip_zero (weights : List ℝ) (dt : ℝ) :
    (List.zipWith (fun w x => w * Real.exp (-dt * x)) weights (List.replicate weights.length 0)) = weights := by
  induction weights with
  | nil => rfl
  | cons w l ih => simp only [List.length_cons, List.replicate_succ, List.zipWith_cons_cons, ih]; simp

theorem zip_nonneg (weights e : List ℝ) (dt o : ℝ) (hpos : ∀ w ∈ weights, 0 ≤ w) :
    ∀ w ∈ List.zipWith (fun w x => w * Real.exp (-dt * (x - o))) weights e, 0 ≤ w := by
  induction weights generalizing e with
  | nil => simp
  | cons v l ih =>
    cases e with
    | nil => simp
    | cons x e =>
      intro w hw
      rw [List.zipWith_cons_cons, List.mem_cons] at hw
      rcases hw with rfl | hw
      · exact mul_nonneg (hpos v List.mem_cons_self) (Real.exp_pos _).le
      · exact ih e (fun w hw => hpos w (List.mem_cons_of_mem _ hw)) w hw

/-- Result of the function for a population without local energies. -/
theorem offset_result (start : ℝ) (phiw : List α) (weights : List ℝ) (dt target : ℝ)
    (hlen : phiw.length = weights.length) (hpos : ∀ w ∈ weights, 0 ≤ w) (htot : 0 < weights.sum)
    (ht : 0 < target) (h1 : start < 1 / weights.length) :
    ∃ l ws, offsetResampling start phiw weights (List.replicate weights.length 0) dt target = .ok (l, ws) ∧
      ws.length = weights.length ∧ ∀ w ∈ ws, w =
        (weights.sum / weights.length / target) ^ dt * (weights.sum / weights.length) := by
  have hN : 0 < weights.length := length_pos_of_sum_pos weights htot
  have hNR : (0 : ℝ) < weights.length := by exact_mod_cast hN
  have hr : 0 < weights.sum / weights.length / target := by positivity
  have hs := offset_total weights (List.replicate weights.length 0) dt target hr
  rw [zip_zero] at hs
  have hl : (offsetWeights weights (List.replicate weights.length 0) dt target).length = weights.length := by
    simp [offsetWeights]
  have hpw : 0 < (weights.sum / weights.length / target) ^ dt := Real.rpow_pos_of_pos hr _
  obtain ⟨l, ws, h, -, -, h2, h3, -⟩ := reconfiguration_size start phiw
    (offsetWeights weights (List.replicate weights.length 0) dt target) (by rw [hl, hlen])
    (zip_nonneg _ _ _ _ hpos) (by rw [hs]; positivity) (by rw [hl]; exact h1)
  refine ⟨l, ws, h, by rw [h2, hl], fun w hw => ?_⟩
  rw [h3 w hw, hs, hl]; ring

/-- C133: a population above the target grows and one below the target shrinks: the offset has the wrong
sign.  (For every population of nonnegative weights, target, positive time step and draw.) -/
theorem offset_fails (start : ℝ) (phiw : List α) (weights : List ℝ) (dt target : ℝ)
    (hlen : phiw.length = weights.length) (hpos : ∀ w ∈ weights, 0 ≤ w) (htot : 0 < weights.sum)
    (ht : 0 < target) (hdt : 0 < dt) (h1 : start < 1 / weights.length)
    (hne : weights.sum / weights.length ≠ target) :
    ∃ l ws, offsetResampling start phiw weights (List.replicate weights.length 0) dt target = .ok (l, ws) ∧
      ws ≠ [] ∧ ∀ w ∈ ws, |weights.sum / weights.length - target| < |w - target| := by
  obtain ⟨l, ws, h, h2, h3⟩ := offset_result start phiw weights dt target hlen hpos htot ht h1
  have hN : 0 < weights.length := length_pos_of_sum_pos weights htot
  have hNR : (0 : ℝ) < weights.length := by exact_mod_cast hN
  refine ⟨l, ws, h, fun h0 => by rw [h0] at h2; simp at h2; omega, fun w hw => ?_⟩
  rw [h3 w hw]
  set a := weights.sum / weights.length with ha
  have ha0 : 0 < a := by positivity
  rcases lt_or_gt_of_ne hne with hlt | hgt
  · have : (a / target) ^ dt < 1 := Real.rpow_lt_one (by positivity) (by rw [div_lt_one ht]; exact hlt) hdt
    have h4 : (a / target) ^ dt * a < a := by nlinarith
    rw [abs_of_neg (by linarith), abs_of_neg (by linarith)]
    linarith
  · have : 1 < (a / target) ^ dt := Real.one_lt_rpow (by rw [one_lt_div ht]; exact hgt) hdt
    have h4 : a < (a / target) ^ dt * a := by nlinarith
    rw [abs_of_pos (by linarith), abs_of_pos (by linarith)]
    linarith

/-- C133: at the target the step is the plain one. -/
theorem offset_partial (start : ℝ) (phiw : List α) (weights e : List ℝ) (dt target : ℝ) (ht : target ≠ 0)
    (h : weights.sum / weights.length = target) :
    offsetResampling start phiw weights e dt target =
      stochasticReconfiguration start phiw (List.zipWith (fun w x => w * Real.exp (-dt * x)) weights e) := by
  unfold offsetResampling offsetWeights energyOffset
  rw [h, div_self ht, Real.log_one]
  simp only [sub_zero]

/-- With the opposite sign one step of unit length reaches the target, so the property can be met. -/
theorem opposite_sign (weights : List ℝ) (target : ℝ) (htot : 0 < weights.sum) (ht : 0 < target) :
    (List.zipWith (fun w x => w * Real.exp (-1 * (x - -energyOffset weights target))) weights
      (List.replicate weights.length 0)).sum / weights.length = target := by
  have hN : 0 < weights.length := length_pos_of_sum_pos weights htot
  have hNR : (0 : ℝ) < weights.length := by exact_mod_cast hN
  rw [zip_sum, zip_zero, one_mul, Real.exp_neg, energyOffset, Real.exp_log (by positivity)]
  field_simp

/-- C133: both offset functions agree. -/
theorem adjust_eq (walkers : List α) (weights : List ℝ) (target : ℝ) (h : walkers.length = weights.length) :
    adjustEnergyOffset walkers weights target = energyOffset weights target := by
  unfold adjustEnergyOffset energyOffset
  rw [h]

/-- C133: `systematic_resampling` is `stochastic_reconfiguration`. -/
theorem systematic_eq (start : ℝ) (walkers : List α) (weights : List ℝ)
    (hlen : walkers.length = weights.length) (hpos : ∀ w ∈ weights, 0 ≤ w) (htot : 0 < weights.sum)
    (h1 : start < 1 / weights.length) :
    systematicResampling start walkers weights = stochasticReconfiguration start walkers weights := by
  obtain ⟨l, ws, h, -, h2, -, -, -⟩ := reconfiguration_size start walkers weights hlen hpos htot h1
  have hN : 0 < weights.length := length_pos_of_sum_pos weights htot
  unfold systematicResampling
  unfold stochasticReconfiguration at h ⊢
  simp only [hlen]
  simp only [if_neg hN.ne', if_neg htot.ne'] at h ⊢
  cases hl : reconfLoop weights.length (fun i => start + (i : ℝ) / weights.length)
      (cumsumFrom 0 (weights.map (· / weights.sum))) walkers 0 0 [] with
  | error e => rw [hl] at h
  | ok l' =>
    rw [hl] at h
    simp only [Except.ok.injEq, Prod.mk.injEq] at h
    simp only [h.1, h2]

/-- Two walkers of weights 3 and 1 (mean 2) with target 1 satisfy the hypotheses. -/
example : ∃ l ws, offsetResampling 0 ["a", "b"] [3, 1] (List.replicate 2 0) 1 1 = .ok (l, ws) ∧
    ws ≠ [] ∧ ∀ w ∈ ws, |(2 : ℝ) - 1| < |w - 1| := by
  have := offset_fails 0 ["a", "b"] [3, 1] 1 1 rfl (by simp) (by norm_num) one_pos one_pos (by norm_num)
    (by norm_num)
  norm_num at this ⊢
  exact this

end OpenMS.Offset
