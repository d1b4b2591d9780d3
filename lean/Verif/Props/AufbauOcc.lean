import Verif.Model.AufbauOcc
import Mathlib.Tactic
import Mathlib.Algebra.BigOperators.Fin
import Mathlib.Algebra.Order.BigOperators.Group.Finset

/-! C181: occupation numbers of the Gutzwiller codes. -/

namespace OpenMS.AufbauOcc

/-- C181: every orbital is empty or has two electrons, and no empty orbital lies below an occupied one. -/
theorem aufbau {n : ℕ} (nelec : ℕ) (e : Fin n → ℝ) (σ : Equiv.Perm (Fin n)) (hσ : Monotone (e ∘ σ)) :
    (∀ i, moOcc nelec σ i = 0 ∨ moOcc nelec σ i = 2) ∧
      ∀ i j, moOcc nelec σ i = 2 → moOcc nelec σ j = 0 → e i ≤ e j := by
  constructor
  · intro i; unfold moOcc; split <;> simp
  intro i j hi hj
  have h1 : (σ.symm i).val < nocc nelec := by
    by_contra h; rw [moOcc, if_neg h] at hi; norm_num at hi
  have h2 : ¬ (σ.symm j).val < nocc nelec := by
    intro h; rw [moOcc, if_pos h] at hj; norm_num at hj
  have h3 : σ.symm i ≤ σ.symm j := by rw [Fin.le_def]; omega
  have := hσ h3
  simpa using this

theorem sum_occ {n : ℕ} (nelec : ℕ) (σ : Equiv.Perm (Fin n)) :
    ∑ i, moOcc nelec σ i = 2 * (min (nocc nelec) n : ℕ) := by
  have h : ∑ i, moOcc nelec σ i = ∑ k : Fin n, if k.val < nocc nelec then (2 : ℝ) else 0 := by
    rw [← Equiv.sum_comp σ]
    refine Finset.sum_congr rfl fun k _ => ?_
    unfold moOcc; rw [Equiv.symm_apply_apply]
  rw [h, Fin.sum_univ_eq_sum_range (fun k => if k < nocc nelec then (2 : ℝ) else 0), ← Finset.sum_filter, Finset.sum_const, nsmul_eq_mul]
  have : (Finset.range n).filter (fun k => k < nocc nelec) = Finset.range (min (nocc nelec) n) := by
    ext k; simp only [Finset.mem_filter, Finset.mem_range, lt_min_iff]; tauto
  rw [this, Finset.card_range, mul_comm]

/-- C181 partial: an even number of electrons that the orbitals can hold is placed completely.  Missing: odd numbers. -/
theorem count_partial {n : ℕ} (m : ℕ) (hm : m ≤ n) (σ : Equiv.Perm (Fin n)) : ∑ i, moOcc (2 * m) σ i = (2 * m : ℕ) := by
  rw [sum_occ, nocc, Nat.mul_div_cancel_left _ (by norm_num), min_eq_left hm]; push_cast; ring

/-- C181 fails: of an odd number of electrons one is lost, and electrons that have no place are left out in silence. -/
theorem count_fails {n : ℕ} (σ : Equiv.Perm (Fin n)) :
    (∀ m, m ≤ n → ∑ i, moOcc (2 * m + 1) σ i = (2 * m + 1 : ℕ) - 1) ∧
      ∀ nelec, 2 * n ≤ nelec → ∑ i, moOcc nelec σ i = 2 * n ∧ ∀ e, warns nelec e σ = none := by
  refine ⟨fun m hm => ?_, fun nelec h => ⟨?_, ?_⟩⟩
  · rw [sum_occ, nocc, show (2 * m + 1) / 2 = m by omega, min_eq_left hm]; push_cast; ring
  · rw [sum_occ, nocc, min_eq_right (by omega)]
  · intro e; rw [warns, dif_neg (by unfold nocc; omega)]

/-- C181: no occupation by numbers from zero to two with as many electrons has a lower sum of orbital energies. -/
theorem minimal {n : ℕ} (nelec : ℕ) (e : Fin n → ℝ) (σ : Equiv.Perm (Fin n)) (hσ : Monotone (e ∘ σ)) (f : Fin n → ℝ)
    (h0 : ∀ i, 0 ≤ f i) (h2 : ∀ i, f i ≤ 2) (hs : ∑ i, f i = ∑ i, moOcc nelec σ i) :
    ∑ i, moOcc nelec σ i * e i ≤ ∑ i, f i * e i := by
  obtain ⟨μ, hμ⟩ : ∃ μ : ℝ, ∀ i, (moOcc nelec σ i = 2 → e i ≤ μ) ∧ (moOcc nelec σ i = 0 → μ ≤ e i) := by
    obtain ⟨_, ha⟩ := aufbau nelec e σ hσ
    by_cases hn : nocc nelec < n
    · refine ⟨e (σ ⟨nocc nelec, hn⟩), fun i => ⟨fun hi => ha _ _ hi ?_, fun hi => ?_⟩⟩
      · unfold moOcc; rw [Equiv.symm_apply_apply, if_neg (lt_irrefl _)]
      · have hi' : ¬ (σ.symm i).val < nocc nelec := by
          intro h; rw [moOcc, if_pos h] at hi; norm_num at hi
        have := hσ (show (⟨nocc nelec, hn⟩ : Fin n) ≤ σ.symm i by rw [Fin.le_def]; exact not_lt.1 hi')
        simpa using this
    · refine ⟨∑ i, |e i|, fun i => ⟨fun _ => ?_, fun hi => ?_⟩⟩
      · exact (le_abs_self _).trans (Finset.single_le_sum (f := fun i => |e i|) (fun j _ => abs_nonneg _) (Finset.mem_univ i))
      · rw [moOcc, if_pos (by have := (σ.symm i).isLt; omega)] at hi; norm_num at hi
  have key : ∀ i, 0 ≤ (f i - moOcc nelec σ i) * (e i - μ) := by
    intro i
    rcases (aufbau nelec e σ hσ).1 i with h | h
    · rw [h, sub_zero]; exact mul_nonneg (h0 i) (sub_nonneg.2 ((hμ i).2 h))
    · rw [h]; exact mul_nonneg_of_nonpos_of_nonpos (sub_nonpos.2 (h2 i)) (sub_nonpos.2 ((hμ i).1 h))
  have hsum : 0 ≤ ∑ i, (f i - moOcc nelec σ i) * (e i - μ) := Finset.sum_nonneg fun i _ => key i
  have e1 : ∑ i, (f i - moOcc nelec σ i) * (e i - μ) =
      ∑ i, f i * e i - ∑ i, moOcc nelec σ i * e i - (∑ i, f i - ∑ i, moOcc nelec σ i) * μ := by
    rw [← Finset.sum_sub_distrib, ← Finset.sum_sub_distrib, Finset.sum_mul, ← Finset.sum_sub_distrib]
    exact Finset.sum_congr rfl fun i _ => by ring
  rw [e1, hs, sub_self, zero_mul, sub_zero] at hsum
  linarith

/-- C181 partial: if some but not all orbitals are occupied, the warning says that an empty orbital lies less than `0.001` above an
occupied one.  Missing: no electrons. -/
theorem warns_partial {n : ℕ} (nelec : ℕ) (e : Fin n → ℝ) (σ : Equiv.Perm (Fin n)) (hσ : Monotone (e ∘ σ)) (h1 : 2 ≤ nelec)
    (hn : nelec / 2 < n) : ∃ w, warns nelec e σ = some w ∧
      (w ↔ ∃ i j, moOcc nelec σ i = 2 ∧ moOcc nelec σ j = 0 ∧ e j - e i < 1 / 1000) := by
  have hp : nocc nelec ≠ 0 := by unfold nocc; omega
  have hb : before n (nocc nelec) = nocc nelec - 1 := by rw [before, if_neg hp]
  have hlt : nocc nelec < n := hn
  refine ⟨_, by rw [warns, dif_pos hlt], ⟨fun h => ?_, ?_⟩⟩
  · refine ⟨_, _, ?_, ?_, sub_lt_iff_lt_add'.2 h⟩
    · unfold moOcc; rw [Equiv.symm_apply_apply, if_pos]; simp only [hb]; omega
    · unfold moOcc; rw [Equiv.symm_apply_apply, if_neg (lt_irrefl _)]
  · rintro ⟨i, j, hi, hj, h⟩
    have hi' : (σ.symm i).val < nocc nelec := by
      by_contra h; rw [moOcc, if_neg h] at hi; norm_num at hi
    have hj' : ¬ (σ.symm j).val < nocc nelec := by
      intro h; rw [moOcc, if_pos h] at hj; norm_num at hj
    have a := hσ (show (⟨nocc nelec, hlt⟩ : Fin n) ≤ σ.symm j by rw [Fin.le_def]; exact not_lt.1 hj')
    have b := hσ (show σ.symm i ≤ (⟨before n (nocc nelec), by omega⟩ : Fin n) by rw [Fin.le_def]; simp only [hb]; omega)
    simp only [Function.comp_apply, Equiv.apply_symm_apply] at a b
    linarith

/-- C181 fails: without a pair of electrons the warning is always given, since the HOMO is read from the end of the array. -/
theorem warns_fails {n : ℕ} (nelec : ℕ) (e : Fin n → ℝ) (σ : Equiv.Perm (Fin n)) (hσ : Monotone (e ∘ σ)) (h0 : nelec ≤ 1)
    (hn : 0 < n) : ∃ w, warns nelec e σ = some w ∧ w := by
  have hz : nocc nelec = 0 := by unfold nocc; omega
  refine ⟨_, by rw [warns, dif_pos (by omega)], ?_⟩
  have a := hσ (show (⟨nocc nelec, by omega⟩ : Fin n) ≤ ⟨before n (nocc nelec), by unfold before; split <;> omega⟩ by
    rw [Fin.le_def]; simp only [hz]; omega)
  simp only [Function.comp_apply] at a
  linarith

/-- Three orbitals, two of them out of order. -/
example : Monotone ((![1, 0, 2] : Fin 3 → ℝ) ∘ Equiv.swap (0 : Fin 3) 1) ∧ 2 ≤ 4 ∧ 4 / 2 < 3 := by
  refine ⟨?_, by norm_num, by norm_num⟩
  intro i j h
  fin_cases i <;> fin_cases j <;> simp_all [Equiv.swap_apply_def]

end OpenMS.AufbauOcc
