import Verif.Model.QedFci
import Mathlib.Tactic

namespace OpenMS.QedFci
set_option linter.unusedSectionVars false
variable {m : ℕ} {S : Type*}

theorem mem_box {N σ : Fin m → ℕ} : σ ∈ box N ↔ InBox N σ := by
  simp [box, InBox, Fintype.mem_piFinset]

theorem creBoson_succ (N : Fin m → ℕ) (x : Fin m) (c : S → (Fin m → ℕ) → ℝ) (s : S) (σ : Fin m → ℕ)
    (h : σ x ≤ N x) :
    creBoson N x c s σ = Real.sqrt (σ x) * c s (Function.update σ x (σ x - 1)) := by
  unfold creBoson
  rcases Nat.eq_zero_or_pos (σ x) with h0 | h0
  · rw [h0]
    simp
  · obtain ⟨k, hk⟩ : ∃ k, σ x = k + 1 := ⟨σ x - 1, by omega⟩
    rw [Finset.sum_eq_single k]
    · simp [hk]
    · intro b _ hb
      rw [if_neg]
      omega
    · intro hb
      simp at hb
      omega

theorem desBoson_eq (N : Fin m → ℕ) (x : Fin m) (c : S → (Fin m → ℕ) → ℝ) (s : S) (σ : Fin m → ℕ) :
    desBoson N x c s σ =
      if σ x < N x then Real.sqrt ((σ x : ℝ) + 1) * c s (Function.update σ x (σ x + 1)) else 0 := by
  unfold desBoson
  rw [Finset.sum_ite_eq]
  simp

/-- Weighted sum of excitation matrix elements: a sum over one string's table entries. -/
theorem sum_entries {n S : Type*} [Fintype n] [DecidableEq n] [DecidableEq S] (f : n → n → ℝ)
    (l : List (n × n × S × ℝ)) (s : S) (y : ℝ) :
    (∑ a, ∑ i, f a i * (l.map fun t => if t.1 = a ∧ t.2.1 = i ∧ t.2.2.1 = s then t.2.2.2 * y else 0).sum) =
      (l.map fun t => if t.2.2.1 = s then t.2.2.2 * y * f t.1 t.2.1 else 0).sum := by
  induction l with
  | nil => simp
  | cons t l ih =>
    simp only [List.map_cons, List.sum_cons, mul_add, Finset.sum_add_distrib, ih]
    congr 1
    by_cases h : t.2.2.1 = s
    · simp only [h, and_true, if_true]
      rw [Finset.sum_eq_single t.1, Finset.sum_eq_single t.2.1]
      · simp; ring
      · intro b _ hb; simp [Ne.symm hb]
      · simp
      · intro b _ hb; simp [Ne.symm hb]
      · simp
    · simp [h]

end OpenMS.QedFci
