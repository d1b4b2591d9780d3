import Verif.Model.Hopping
import Verif.Props.Qmd

/-!
# C139: hopping probabilities
-/

namespace OpenMS.Qmd

open scoped BigOperators

section hop
set_option linter.unusedSectionVars false
variable {n : Type*} [Fintype n] [DecidableEq n]

/-- Population that the coupling moves from `k` to `j` per unit time in the documented equation of motion. -/
noncomputable def outflow (tau : n → n → ℝ) (c : n → ℂ) (k j : n) : ℝ :=
  2 * tau k j * ((starRingEnd ℂ) (c k) * c j).re

/-- Fewest switches: the probability to leave `k` for `j` during `edt`. -/
noncomputable def fewestSwitches (edt : ℝ) (tau : n → n → ℝ) (c : n → ℂ) (k j : n) : ℝ :=
  edt * outflow tau c k j / Complex.normSq (c k)

omit [Fintype n] [DecidableEq n] in
/-- What leaves one state for another arrives there. -/
theorem outflow_antisymm (tau : n → n → ℝ) (h : ∀ j k, tau j k = -tau k j) (c : n → ℂ) (j k : n) :
    outflow tau c j k = -outflow tau c k j := by
  unfold outflow
  rw [h j k]
  simp only [Complex.mul_re, Complex.conj_re, Complex.conj_im]
  ring

omit [DecidableEq n] in
/-- C139: the populations of the documented equation change by these flows. -/
theorem population_rate (e : n → ℝ) (tau : n → n → ℝ) (c : n → ℂ) (k : n) :
    2 * ((starRingEnd ℂ) (c k) * documentedDot e tau c k).re = -∑ j, outflow tau c k j := by
  have h0 : ((starRingEnd ℂ) (c k) * (-Complex.I * (↑(e k) * c k))).re = 0 := by
    simp [Complex.mul_re, Complex.mul_im]
    ring
  simp only [documentedDot, mul_sub, Complex.sub_re, Finset.mul_sum, Complex.re_sum, outflow]
  rw [h0, mul_zero, zero_sub]
  congr 1
  refine Finset.sum_congr rfl fun j _ => ?_
  simp [Complex.mul_re, Complex.mul_im]
  ring

omit [Fintype n] [DecidableEq n] in
/-- C139: the densities are those of a pure state: hermitian, with the populations on the diagonal, of rank one. -/
theorem densities_spec (c : n → ℂ) (j k l m : n) :
    densities c j k = (starRingEnd ℂ) (densities c k j) ∧ densities c j j = (Complex.normSq (c j) : ℂ) ∧
      densities c j k * densities c l m = densities c j m * densities c l k := by
  refine ⟨?_, ?_, ?_⟩
  · simp [densities, mul_comm]
  · unfold densities; rw [mul_comm, Complex.mul_conj]
  · unfold densities; ring

/-- The entry as a formula. -/
theorem hopEntry_eq (edt : ℝ) (e : n → ℝ) (tau : n → n → ℝ) (c : n → ℂ) (k j : n) (hjk : j ≠ k) :
    hopEntry edt (hamOf e tau) (densities c) k j = -(edt * outflow tau c k j / Complex.normSq (c j)) := by
  have hd := (densities_spec c j j j j).2.1
  unfold hopEntry
  simp only [if_neg hjk, hd, hamOf, if_neg (Ne.symm hjk)]
  rw [← Complex.ofReal_div, Complex.ofReal_re]
  unfold outflow densities
  rw [Complex.re_mul_ofReal]
  ring

/-- C139: the entry for the target `j` of the current state `k` is the fewest switches probability of the reverse hop, from
`j` to `k`, for all antisymmetric couplings, coefficients and steps. -/
theorem hop_reverse (edt : ℝ) (e : n → ℝ) (tau : n → n → ℝ) (h : ∀ j k, tau j k = -tau k j) (c : n → ℂ) (k j : n)
    (hjk : j ≠ k) : hopEntry edt (hamOf e tau) (densities c) k j = fewestSwitches edt tau c j k := by
  rw [hopEntry_eq edt e tau c k j hjk, fewestSwitches, outflow_antisymm tau h c j k]
  ring

/-- C139: so the entry is the probability of the hop itself only when nothing flows between the two states. -/
theorem hop_correct_iff (edt : ℝ) (hdt : edt ≠ 0) (e : n → ℝ) (tau : n → n → ℝ) (c : n → ℂ) (k j : n) (hjk : j ≠ k)
    (hk : c k ≠ 0) (hj : c j ≠ 0) :
    hopEntry edt (hamOf e tau) (densities c) k j = fewestSwitches edt tau c k j ↔ outflow tau c k j = 0 := by
  rw [hopEntry_eq edt e tau c k j hjk, fewestSwitches]
  have h1 : 0 < Complex.normSq (c k) := Complex.normSq_pos.2 hk
  have h2 : 0 < Complex.normSq (c j) := Complex.normSq_pos.2 hj
  constructor
  · intro h
    have : edt * outflow tau c k j * (Complex.normSq (c k) + Complex.normSq (c j)) = 0 := by
      field_simp at h
      linear_combination -h * edt
    rcases mul_eq_zero.1 this with h3 | h3
    · exact (mul_eq_zero.1 h3).resolve_left hdt
    · linarith
  · intro h; rw [h]; simp

/-- C139 fails: a hop that should happen with positive probability gets a negative entry, so it is never drawn, whatever the
random numbers in `[0, 1)`. -/
theorem hop_sign_fails (edt : ℝ) (e : n → ℝ) (tau : n → n → ℝ) (c : n → ℂ) (k j : n) (hjk : j ≠ k) (hk : c k ≠ 0) (hj : c j ≠ 0)
    (hpos : 0 < fewestSwitches edt tau c k j) (rnd : ℝ) (hr : 0 ≤ rnd) :
    hopEntry edt (hamOf e tau) (densities c) k j < 0 ∧ ¬ (rnd < hopEntry edt (hamOf e tau) (densities c) k j) := by
  have h1 : 0 < Complex.normSq (c k) := Complex.normSq_pos.2 hk
  have h2 : 0 < Complex.normSq (c j) := Complex.normSq_pos.2 hj
  have h3 : 0 < edt * outflow tau c k j := by
    unfold fewestSwitches at hpos
    exact (div_pos_iff_of_pos_right h1).1 hpos
  have h4 : hopEntry edt (hamOf e tau) (densities c) k j < 0 := by
    rw [hopEntry_eq edt e tau c k j hjk]
    have := div_pos h3 h2
    linarith
  exact ⟨h4, by linarith⟩

/-- A hop that should happen: two states with equal populations and coupling one. -/
example : 0 < fewestSwitches (1 / 10) (fun a b : Fin 2 => if a = b then 0 else if a = 0 then 1 else -1)
    (fun _ => 1) 0 1 := by
  norm_num [fewestSwitches, outflow]

end hop

/-- C139 fails: with the array of current states given to `range` the method raises whenever there is a molecule. -/
theorem hop_raises_fails (edt : ℝ) (s : ℕ) (states : List ℕ) (h : ℕ → ℕ → ℝ) (ham : List (ℕ → ℕ → ℝ)) (d : ℕ → ℕ → ℂ)
    (dens : List (ℕ → ℕ → ℂ)) :
    hoppingProbability (.array (s :: states)) edt (s :: states) (h :: ham) (d :: dens) = .error "TypeError" := by
  simp [hoppingProbability, List.mapM_cons, pyRange, bind, Except.bind]

/-- C139: with the number of states given to `range` there is one row for each molecule, with an entry for each state and zero
for the current one. -/
theorem hop_rows_partial (N : ℕ) (edt : ℝ) (states : List ℕ) (ham : List (ℕ → ℕ → ℝ)) (dens : List (ℕ → ℕ → ℂ)) :
    hoppingProbability (.int N) edt states ham dens =
      .ok ((states.zip (ham.zip dens)).map fun x => (List.range N).map fun j =>
        if j = x.1 then 0 else hopEntry edt x.2.1 x.2.2 x.1 j) := by
  unfold hoppingProbability
  generalize states.zip (ham.zip dens) = l
  induction l with
  | nil => rfl
  | cons x l ih =>
    rw [List.mapM_cons, ih]
    simp only [pyRange, List.map_cons]
    refine congrArg Except.ok ?_
    congr 1
    refine List.map_congr_left fun j _ => ?_
    by_cases hj : j = x.1
    · rw [if_pos hj, hopEntry, if_pos hj]
    · rw [if_neg hj]

end OpenMS.Qmd
