import Verif.Model.DiscreteField
import Mathlib.LinearAlgebra.Matrix.SchurComplement
import Mathlib.LinearAlgebra.Matrix.NonsingularInverse
import Mathlib.MeasureTheory.Integral.IntervalIntegral.Basic
import Mathlib.Tactic

/-! C179: discrete auxiliary field of a site. -/

set_option linter.unusedSectionVars false

namespace OpenMS.DiscreteField

open Matrix MeasureTheory

variable {p i j : Type*} [DecidableEq p]

theorem phaseless_nonneg (probs : Fin 2 → ℂ) (s : Fin 2) : 0 ≤ phaseless probs s := le_max_right _ _

/-- Integral of a step function over the unit interval. -/
theorem integral_step (c : ℝ) (A B : ℂ) (h0 : 0 ≤ c) (h1 : c ≤ 1) :
    ∫ r in (0 : ℝ)..1, (if r < c then A else B) = (c : ℂ) * A + (1 - (c : ℂ)) * B := by
  have e1 : ∫ r in (0 : ℝ)..c, (if r < c then A else B) = ∫ _r in (0 : ℝ)..c, A := by
    refine intervalIntegral.integral_congr_ae ?_
    have hne : ∀ᵐ r : ℝ, r ≠ c := by simp [ae_iff]
    filter_upwards [hne] with r hr hm
    rw [Set.uIoc_of_le h0] at hm
    rw [if_pos (lt_of_le_of_ne hm.2 hr)]
  have e2 : ∫ r in c..(1 : ℝ), (if r < c then A else B) = ∫ _r in c..(1 : ℝ), B := by
    refine intervalIntegral.integral_congr fun r hm => ?_
    rw [Set.uIcc_of_le h1] at hm
    exact if_neg (not_lt.2 hm.1)
  have hint : ∀ a b, IntervalIntegrable (fun r => if r < c then A else B) volume a b := by
    intro a b
    have : (fun r => if r < c then A else B) = Set.piecewise (Set.Iio c) (fun _ => A) (fun _ => B) := by
      funext r; simp [Set.piecewise]
    rw [intervalIntegrable_iff, this]
    have hc : ∀ z : ℂ, IntegrableOn (fun _ : ℝ => z) (Set.uIoc a b) := fun z =>
      intervalIntegrable_iff.1 intervalIntegrable_const
    exact Integrable.piecewise measurableSet_Iio (hc A).integrableOn (hc B).integrableOn
  rw [← intervalIntegral.integral_add_adjacent_intervals (hint 0 c) (hint c 1), e1, e2]
  simp

/-- C179: for a uniform random number, the weight times any quantity of the new orbitals is on average the sum over both fields
with the positive parts of the probabilities; also if neither is positive. -/
theorem mean_spec (δ : Fin 2 → Fin 2 → ℂ) (x : p) (probs : Fin 2 → ℂ) (w : Walker p i j)
    (f : Matrix p i ℂ → Matrix p j ℂ → ℂ) :
    ∫ r in (0 : ℝ)..1, ((siteStep δ x probs r w).weight : ℂ) * f (siteStep δ x probs r w).up (siteStep δ x probs r w).down =
      ∑ s, (w.weight : ℂ) * ((max (probs s).re 0 : ℝ) : ℂ) * f (scaleRow x (δ s 0) w.up) (scaleRow x (δ s 1) w.down) := by
  have hp0 := phaseless_nonneg probs 0
  have hp1 := phaseless_nonneg probs 1
  rw [Fin.sum_univ_two]
  change _ = (w.weight : ℂ) * (phaseless probs 0 : ℂ) * _ + (w.weight : ℂ) * (phaseless probs 1 : ℂ) * _
  by_cases hn : phaseless probs 0 + phaseless probs 1 > 0
  · have h : ∀ r, ((siteStep δ x probs r w).weight : ℂ) * f (siteStep δ x probs r w).up (siteStep δ x probs r w).down =
        if r < phaseless probs 0 / (phaseless probs 0 + phaseless probs 1) then
          ((w.weight * (phaseless probs 0 + phaseless probs 1) : ℝ) : ℂ) * f (scaleRow x (δ 0 0) w.up) (scaleRow x (δ 0 1) w.down)
        else ((w.weight * (phaseless probs 0 + phaseless probs 1) : ℝ) : ℂ) * f (scaleRow x (δ 1 0) w.up) (scaleRow x (δ 1 1) w.down) := by
      intro r
      unfold siteStep choose
      dsimp only
      rw [if_pos hn]
      by_cases hr : r < phaseless probs 0 / (phaseless probs 0 + phaseless probs 1)
      · simp only [if_pos hr]
      · simp only [if_neg hr]
    simp only [h]
    rw [integral_step _ _ _ (div_nonneg hp0 hn.le) ((div_le_one hn).2 (by linarith))]
    have hc : ((phaseless probs 0 : ℂ) + (phaseless probs 1 : ℂ)) ≠ 0 := by exact_mod_cast hn.ne'
    push_cast
    field_simp
    ring
  · have h0 : phaseless probs 0 = 0 := by linarith
    have h1 : phaseless probs 1 = 0 := by linarith
    have h : ∀ r, (siteStep δ x probs r w).weight = 0 := by
      intro r
      unfold siteStep
      dsimp only
      rw [if_neg hn]
    simp [h, h0, h1]

theorem scaleRow_eq [Fintype p] (x : p) (δ : ℂ) (W : Matrix p i ℂ) :
    scaleRow x δ W = (1 + Matrix.diagonal fun a => if a = x then δ else 0) * W := by
  ext a b
  rw [Matrix.add_mul, Matrix.one_mul, Matrix.add_apply, Matrix.diagonal_mul]
  unfold scaleRow
  rw [Matrix.of_apply]
  by_cases h : a = x
  · rw [if_pos h, if_pos h]; ring
  · rw [if_neg h, if_neg h]; ring

/-- C179: the overlap of the scaled orbitals with a trial is that of the old ones times `1 + δ G`, `G` the diagonal entry of the
Green's function at the site. -/
theorem overlap_spec [Fintype p] [Fintype i] [DecidableEq i] (x : p) (δ : ℂ) (T : Matrix i p ℂ) (W : Matrix p i ℂ)
    (hd : (T * W).det ≠ 0) :
    (T * scaleRow x δ W).det = (T * W).det * (1 + δ * (W * (T * W)⁻¹ * T) x x) := by
  have hu : IsUnit (T * W).det := isUnit_iff_ne_zero.2 hd
  obtain ⟨U, hU⟩ : ∃ U : Matrix i (Fin 1) ℂ, U = Matrix.of fun a _ => δ * ((T * W)⁻¹ * T) a x := ⟨_, rfl⟩
  obtain ⟨V, hV⟩ : ∃ V : Matrix (Fin 1) i ℂ, V = Matrix.of fun _ b => W x b := ⟨_, rfl⟩
  have h1 : T * scaleRow x δ W = T * W * (1 + U * V) := by
    rw [scaleRow_eq, Matrix.add_mul, Matrix.one_mul, Matrix.mul_add, Matrix.mul_add, Matrix.mul_one]
    congr 1
    have hUV : T * W * (U * V) = Matrix.of fun a b => δ * T a x * W x b := by
      have : T * W * U = Matrix.of fun a _ => δ * T a x := by
        have hs : U = δ • Matrix.of fun a (_ : Fin 1) => ((T * W)⁻¹ * T) a x := by
          rw [hU]; ext a b; simp
        have hc : (T * W * Matrix.of fun a (_ : Fin 1) => ((T * W)⁻¹ * T) a x) = Matrix.of fun a (_ : Fin 1) => T a x := by
          ext a b
          have := congrFun (congrFun (Matrix.mul_nonsing_inv_cancel_left (T * W) T hu) a) x
          rw [Matrix.mul_apply] at this
          rw [Matrix.mul_apply, Matrix.of_apply, ← this]
          rfl
        rw [hs, Matrix.mul_smul, hc]
        ext a b; simp
      rw [← Matrix.mul_assoc, this, hV]
      ext a b
      simp [Matrix.mul_apply]
    rw [hUV]
    ext a b
    rw [Matrix.mul_apply, Matrix.of_apply, Finset.sum_eq_single x]
    · rw [Matrix.diagonal_mul, if_pos rfl]; ring
    · intro c _ hc; rw [Matrix.diagonal_mul, if_neg hc]; ring
    · simp
  rw [h1, Matrix.det_mul, Matrix.det_one_add_mul_comm, Matrix.det_fin_one]
  congr 1
  rw [Matrix.add_apply, Matrix.one_apply_eq, Matrix.mul_apply, hU, hV, Matrix.mul_assoc, Matrix.mul_apply, Finset.mul_sum]
  congr 1
  refine Finset.sum_congr rfl fun a _ => ?_
  rw [Matrix.of_apply, Matrix.of_apply]
  ring

/-- C179 partial: with the probabilities `½ (1 + δ G↑) (1 + δ G↓)`, all of them positive numbers, weight over overlap times any
quantity of the orbitals is on average half the sum over both fields, as the discrete transformation wants it.  Missing: the names,
other probabilities. -/
theorem importance_partial [Fintype p] [Fintype i] [DecidableEq i] [Fintype j] [DecidableEq j] (δ : Fin 2 → Fin 2 → ℂ) (x : p)
    (Ta : Matrix i p ℂ) (Tb : Matrix j p ℂ) (w : Walker p i j) (ha : (Ta * w.up).det ≠ 0) (hb : (Tb * w.down).det ≠ 0)
    (q : Fin 2 → ℝ) (hq : ∀ s, 0 < q s)
    (hr : ∀ s, (q s : ℂ) = 1 / 2 * (1 + δ s 0 * (w.up * (Ta * w.up)⁻¹ * Ta) x x) *
      (1 + δ s 1 * (w.down * (Tb * w.down)⁻¹ * Tb) x x))
    (f : Matrix p i ℂ → Matrix p j ℂ → ℂ) :
    ∫ r in (0 : ℝ)..1, ((siteStep δ x (fun s => (q s : ℂ)) r w).weight : ℂ) *
        (f (siteStep δ x (fun s => (q s : ℂ)) r w).up (siteStep δ x (fun s => (q s : ℂ)) r w).down /
          ((Ta * (siteStep δ x (fun s => (q s : ℂ)) r w).up).det * (Tb * (siteStep δ x (fun s => (q s : ℂ)) r w).down).det)) =
      (w.weight : ℂ) / ((Ta * w.up).det * (Tb * w.down).det) *
        (1 / 2 * ∑ s, f (scaleRow x (δ s 0) w.up) (scaleRow x (δ s 1) w.down)) := by
  rw [mean_spec δ x (fun s => (q s : ℂ)) w (fun A B => f A B / ((Ta * A).det * (Tb * B).det)), Finset.mul_sum, Finset.mul_sum]
  refine Finset.sum_congr rfl fun s _ => ?_
  rw [Complex.ofReal_re, max_eq_left (hq s).le, overlap_spec x (δ s 0) Ta w.up ha, overlap_spec x (δ s 1) Tb w.down hb, hr s]
  have hs : (q s : ℂ) ≠ 0 := by exact_mod_cast (hq s).ne'
  rw [hr s] at hs
  have h1 : 1 + δ s 0 * (w.up * (Ta * w.up)⁻¹ * Ta) x x ≠ 0 := fun h => hs (by rw [h]; ring)
  have h2 : 1 + δ s 1 * (w.down * (Tb * w.down)⁻¹ * Tb) x x ≠ 0 := fun h => hs (by rw [h]; ring)
  field_simp

/-- C179: no weight is created or turned negative, and a walker without positive probability keeps its orbitals. -/
theorem weight_spec (δ : Fin 2 → Fin 2 → ℂ) (x : p) (probs : Fin 2 → ℂ) (r : ℝ) (w : Walker p i j) (hw : 0 ≤ w.weight) :
    (siteStep δ x probs r w).weight = w.weight * (max (probs 0).re 0 + max (probs 1).re 0) ∧
      0 ≤ (siteStep δ x probs r w).weight ∧
      ((probs 0).re ≤ 0 → (probs 1).re ≤ 0 → (siteStep δ x probs r w).up = w.up ∧ (siteStep δ x probs r w).down = w.down) ∧
      (r < 1 → 0 ≤ r → (probs 1).re ≤ 0 → 0 < (probs 0).re → choose probs r = 0) ∧
      (0 ≤ r → (probs 0).re ≤ 0 → choose probs r = 1) := by
  have hp0 := phaseless_nonneg probs 0
  have hp1 := phaseless_nonneg probs 1
  have e : (siteStep δ x probs r w).weight = w.weight * (phaseless probs 0 + phaseless probs 1) := by
    unfold siteStep
    dsimp only
    by_cases hn : phaseless probs 0 + phaseless probs 1 > 0
    · rw [if_pos hn]
    · rw [if_neg hn]
      have : phaseless probs 0 + phaseless probs 1 = 0 := le_antisymm (not_lt.1 hn) (add_nonneg hp0 hp1)
      rw [this, mul_zero]
  refine ⟨e, by rw [e]; exact mul_nonneg hw (add_nonneg hp0 hp1), fun h0 h1 => ?_, fun hr1 hr0 h1 h0 => ?_, fun hr0 h0 => ?_⟩
  · have n0 : phaseless probs 0 = 0 := max_eq_right h0
    have n1 : phaseless probs 1 = 0 := max_eq_right h1
    unfold siteStep
    dsimp only
    rw [if_neg (by rw [n0, n1]; simp)]
    exact ⟨rfl, rfl⟩
  · have n0 : phaseless probs 0 = (probs 0).re := max_eq_left h0.le
    have n1 : phaseless probs 1 = 0 := max_eq_right h1
    unfold choose
    rw [n1, n0, add_zero, div_self h0.ne', if_pos hr1]
  · have n0 : phaseless probs 0 = 0 := max_eq_right h0
    unfold choose
    rw [n0, zero_div, if_neg (not_lt.2 hr0)]

/-- C179 fails: the function raises for every walker. -/
theorem names_fails (δ : Fin 2 → Fin 2 → ℂ) (w : Walker p i j) : twobodyFirst δ none w = .error "NameError" := rfl

/-- C179: were the names there, the sites would be visited one after the other, each with the probabilities of the walker that the
sites before it left; the weight would never become negative, and once zero it would stay so. -/
theorem sites_spec (δ : Fin 2 → Fin 2 → ℂ) (l : List (p × (Walker p i j → Fin 2 → ℂ) × ℝ)) (w : Walker p i j) (hw : 0 ≤ w.weight) :
    ∃ w', twobodyFirst δ (some l) w = .ok w' ∧ 0 ≤ w'.weight ∧ (w.weight = 0 → w'.weight = 0) ∧
      ∀ s, twobodyFirst δ (some (l ++ [s])) w = .ok (siteStep δ s.1 (s.2.1 w') s.2.2 w') := by
  refine ⟨_, rfl, ?_, ?_, fun s => by unfold twobodyFirst; dsimp only; rw [List.foldl_append]; rfl⟩
  · induction l generalizing w with
    | nil => exact hw
    | cons s l ih => exact ih _ (weight_spec δ s.1 (s.2.1 w) s.2.2 w hw).2.1
  · induction l generalizing w with
    | nil => exact id
    | cons s l ih =>
      intro h
      have hs := weight_spec δ s.1 (s.2.1 w) s.2.2 w hw
      exact ih _ hs.2.1 (by rw [hs.1, h, zero_mul])

/-- One basis function, one electron of each spin, fields one and minus one half: both probabilities are one half. -/
example : ∃ (w : Walker (Fin 1) (Fin 1) (Fin 1)) (q : Fin 2 → ℝ), ((1 : Matrix (Fin 1) (Fin 1) ℂ) * w.up).det ≠ 0 ∧
    ((1 : Matrix (Fin 1) (Fin 1) ℂ) * w.down).det ≠ 0 ∧ (∀ s, 0 < q s) ∧
    ∀ s : Fin 2, (q s : ℂ) = 1 / 2 *
      (1 + (if s = 0 then 1 else -1 / 2) * (w.up * ((1 : Matrix (Fin 1) (Fin 1) ℂ) * w.up)⁻¹ * (1 : Matrix (Fin 1) (Fin 1) ℂ)) 0 0) *
      (1 + (if s = 0 then -1 / 2 else 1) *
        (w.down * ((1 : Matrix (Fin 1) (Fin 1) ℂ) * w.down)⁻¹ * (1 : Matrix (Fin 1) (Fin 1) ℂ)) 0 0) := by
  refine ⟨⟨1, 1, 1⟩, fun _ => 1 / 2, by simp, by simp, fun _ => by norm_num, fun s => ?_⟩
  fin_cases s <;> norm_num

end OpenMS.DiscreteField
