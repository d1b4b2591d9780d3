import Verif.Model.BosonStart
import Mathlib.Tactic

/-!
# C149: energy of the initial coherent state
-/

namespace OpenMS.BosonStart

/-- Energy of the boson state `c` with `N` states: `w b†b + g (b + b†)` for an expectation value `g` of the coupling. -/
noncomputable def bosonEnergy (w g : ℝ) (N : ℕ) (c : ℕ → ℝ) : ℝ :=
  (∑ k ∈ Finset.range N, w * k * c k ^ 2) + 2 * g * ∑ k ∈ Finset.range (N - 1), √((k : ℝ) + 1) * c k * c (k + 1)

theorem amp_succ (z : ℝ) (k : ℕ) : √((k : ℝ) + 1) * amp z (k + 1) = z * amp z k := by
  unfold amp
  rw [Nat.factorial_succ]
  push_cast
  rw [Real.sqrt_mul (by positivity)]
  have h1 : √((k : ℝ) + 1) ≠ 0 := (Real.sqrt_pos.2 (by positivity)).ne'
  have h2 : √(k.factorial : ℝ) ≠ 0 := (Real.sqrt_pos.2 (by positivity)).ne'
  field_simp
  ring

/-- Norm of the amplitudes. -/
noncomputable def weight (z : ℝ) (N : ℕ) : ℝ := ∑ k ∈ Finset.range N, amp z k ^ 2

theorem weight_pos (z : ℝ) (N : ℕ) : 0 < weight z (N + 1) := by
  unfold weight
  refine Finset.sum_pos' (fun k _ => sq_nonneg _) ⟨0, by simp, ?_⟩
  have : amp z 0 ≠ 0 := by
    unfold amp
    simp
  positivity

/-- C149: the energy of the truncated, normalised coherent state. -/
theorem coherent_energy (w g z : ℝ) (N : ℕ) :
    bosonEnergy w g (N + 1) (start z (N + 1)) = (w * z ^ 2 + 2 * g * z) * (weight z N / weight z (N + 1)) := by
  have hs : ∀ k, start z (N + 1) k = amp z k / √(weight z (N + 1)) := by
    intro k
    unfold start weight
    simp only [sq_abs]
  have hw : √(weight z (N + 1)) ^ 2 = weight z (N + 1) := Real.sq_sqrt (weight_pos z N).le
  have e1 : (∑ k ∈ Finset.range (N + 1), w * k * start z (N + 1) k ^ 2) = w * z ^ 2 * (weight z N / weight z (N + 1)) := by
    rw [Finset.sum_range_succ']
    simp only [Nat.cast_zero, mul_zero, zero_mul, add_zero]
    unfold weight
    rw [Finset.sum_div, Finset.mul_sum]
    refine Finset.sum_congr rfl fun k _ => ?_
    have h := amp_succ z k
    have hk : (√((k : ℝ) + 1)) ^ 2 = (k : ℝ) + 1 := Real.sq_sqrt (by positivity)
    rw [hs, div_pow, hw]
    have : ((k : ℝ) + 1) * amp z (k + 1) ^ 2 = z ^ 2 * amp z k ^ 2 := by
      rw [← hk, ← mul_pow, h, mul_pow]
    unfold weight
    push_cast
    rw [mul_assoc w, ← mul_div_assoc, this]
    ring
  have e2 : (∑ k ∈ Finset.range (N + 1 - 1), √((k : ℝ) + 1) * start z (N + 1) k * start z (N + 1) (k + 1)) =
      z * (weight z N / weight z (N + 1)) := by
    rw [Nat.add_sub_cancel]
    conv_rhs => unfold weight
    rw [Finset.sum_div, Finset.mul_sum]
    refine Finset.sum_congr rfl fun k _ => ?_
    have h := amp_succ z k
    rw [hs, hs]
    have : √((k : ℝ) + 1) * (amp z k / √(weight z (N + 1))) * (amp z (k + 1) / √(weight z (N + 1))) =
        amp z k * (√((k : ℝ) + 1) * amp z (k + 1)) / √(weight z (N + 1)) ^ 2 := by ring
    rw [this, h, hw]
    unfold weight
    ring
  unfold bosonEnergy
  rw [e1, e2]
  ring

/-- Energy of the state without bosons. -/
theorem vacuum_energy (w g : ℝ) (N : ℕ) : bosonEnergy w g N (fun k => if k = 0 then 1 else 0) = 0 := by
  unfold bosonEnergy
  rw [Finset.sum_eq_zero, Finset.sum_eq_zero]
  · simp
  · intro k _; simp
  · intro k _
    by_cases h : k = 0 <;> simp [h]

variable {n : Type*} [Fintype n]

/-- C149: with two or more states the initial state is not above the state without bosons exactly when
`w z² + 2 g z ≤ 0`, where `z` is the trace with the first component and `g` the trace with both. -/
theorem start_iff (w : ℝ) (geb Ga Gb : n → n → ℝ) (N : ℕ) (hN : 1 ≤ N) :
    bosonEnergy w (∑ p, ∑ q, geb p q * Ga p q + ∑ p, ∑ q, geb p q * Gb p q) (N + 1) (start (zalpha geb Ga) (N + 1)) ≤ 0 ↔
      (∑ p, ∑ q, geb p q * Ga p q) * ((w + 2) * (∑ p, ∑ q, geb p q * Ga p q) + 2 * ∑ p, ∑ q, geb p q * Gb p q) ≤ 0 := by
  change bosonEnergy w (zalpha geb Ga + zalpha geb Gb) (N + 1) (start (zalpha geb Ga) (N + 1)) ≤ 0 ↔
      zalpha geb Ga * ((w + 2) * zalpha geb Ga + 2 * zalpha geb Gb) ≤ 0
  obtain ⟨M, rfl⟩ : ∃ M, N = M + 1 := ⟨N - 1, by omega⟩
  rw [coherent_energy]
  have h := div_pos (weight_pos (zalpha geb Ga) M) (weight_pos (zalpha geb Ga) (M + 1))
  have e : w * zalpha geb Ga ^ 2 + 2 * (zalpha geb Ga + zalpha geb Gb) * zalpha geb Ga =
      zalpha geb Ga * ((w + 2) * zalpha geb Ga + 2 * zalpha geb Gb) := by ring
  rw [e]
  exact ⟨fun hc => by by_contra hcon; push Not at hcon; exact absurd hc (not_le.2 (mul_pos hcon h)),
    fun hc => mul_nonpos_of_nonpos_of_nonneg hc h.le⟩

/-- C149 fails: for every closed-shell trial with a nonzero coupling the initial state has a higher energy than no bosons at
all; the displacement `-g/w` has a lower one. -/
theorem start_above_fails (w : ℝ) (hw : 0 < w) (geb G : n → n → ℝ) (hg : ∑ p, ∑ q, geb p q * G p q ≠ 0) (N : ℕ) (hN : 1 ≤ N) :
    let g := ∑ p, ∑ q, geb p q * (G p q + G p q)
    0 < bosonEnergy w g (N + 1) (start (zalpha geb G) (N + 1)) ∧
      bosonEnergy w g (N + 1) (fun k => if k = 0 then 1 else 0) = 0 ∧
      bosonEnergy w g (N + 1) (start (-g / w) (N + 1)) < 0 := by
  intro g0
  obtain ⟨g, hgg⟩ : ∃ g, g = zalpha geb G + zalpha geb G := ⟨_, rfl⟩
  have hg0 : g0 = g := by
    rw [hgg]
    simp only [g0, zalpha, mul_add, Finset.sum_add_distrib]
  rw [hg0]
  change zalpha geb G ≠ 0 at hg
  obtain ⟨M, rfl⟩ : ∃ M, N = M + 1 := ⟨N - 1, by omega⟩
  have h0 : 0 < zalpha geb G ^ 2 := by positivity
  refine ⟨?_, vacuum_energy _ _ _, ?_⟩
  · rw [coherent_energy]
    refine mul_pos ?_ (div_pos (weight_pos _ M) (weight_pos _ (M + 1)))
    have : w * zalpha geb G ^ 2 + 2 * g * zalpha geb G = (w + 4) * zalpha geb G ^ 2 := by
      rw [hgg]; ring
    rw [this]; positivity
  · rw [coherent_energy]
    refine mul_neg_of_neg_of_pos ?_ (div_pos (weight_pos _ M) (weight_pos _ (M + 1)))
    have : w * (-g / w) ^ 2 + 2 * g * (-g / w) = -(4 * zalpha geb G ^ 2 / w) := by
      rw [hgg]; field_simp; ring
    rw [this]
    have : 0 < 4 * zalpha geb G ^ 2 / w := by positivity
    linarith

/-- One orbital with coupling one, frequency one and two boson states: the start is above the vacuum. -/
example : 0 < bosonEnergy 1 2 2 (start 1 2) := by
  have := (start_above_fails (n := Fin 1) 1 one_pos (fun _ _ => 1) (fun _ _ => 1) (by simp) 1 le_rfl).1
  have h : zalpha (n := Fin 1) (fun _ _ => 1) (fun _ _ => 1) = 1 := by simp [zalpha]
  rw [h] at this
  norm_num at this
  exact this

end OpenMS.BosonStart
