import Verif.Model.DressedJK
import Mathlib.Analysis.SpecialFunctions.Exp
import Mathlib.Tactic

/-! C180: Coulomb and exchange matrices with dressing factors. -/

set_option linter.unusedSectionVars false

namespace OpenMS.DressedJK

variable {n X : Type*} [Fintype n] [Fintype X] [LinearOrder n]

/-- Dressed integral `(pq|rs)` of a Cholesky tensor. -/
def dressed (G : ℝ → ℝ) (L : X → n → n → ℝ) (η : n → ℝ) (p q r s : n) : ℝ :=
  (∑ x, L x p q * L x r s) * G (η p - η q + η r - η s)

theorem jPair_eq (G : ℝ → ℝ) (hG : ∀ x, G (-x) = G x) (L : X → n → n → ℝ) (hL : ∀ x p q, L x p q = L x q p) (D : n → n → ℝ)
    (hD : ∀ p q, D p q = D q p) (η : n → ℝ) (p q : n) : jPair G L D η p q = ∑ r, ∑ s, dressed G L η p q r s * D r s := by
  unfold jPair dressed
  rw [Finset.sum_comm]
  refine Finset.sum_congr rfl fun r _ => Finset.sum_congr rfl fun s _ => ?_
  rw [hD s r, ← hG, Finset.sum_congr rfl fun x _ => by rw [hL x s r]]
  rw [show -(η s - η r + (η q - η p)) = η p - η q + η r - η s by ring]
  ring

/-- C180 partial: were the names there, `compute_JK_numba` would return the Coulomb matrix of the dressed integrals, for symmetric
tensors and density matrices and an even factor.  Missing: the names, the exchange matrix. -/
theorem numba_j_partial (G : ℝ → ℝ) (hG : ∀ x, G (-x) = G x) (L : X → n → n → ℝ) (hL : ∀ x p q, L x p q = L x q p)
    (D : n → n → ℝ) (hD : ∀ p q, D p q = D q p) (η : n → ℝ) :
    ∃ vj vk, computeJK true G L D η = .ok (vj, vk) ∧ ∀ p q, vj p q = ∑ r, ∑ s, dressed G L η p q r s * D r s := by
  refine ⟨_, _, rfl, fun p q => ?_⟩
  by_cases h : p ≤ q
  · rw [if_pos h, jPair_eq G hG L hL D hD]
  · rw [if_neg h, jPair_eq G hG L hL D hD, Finset.sum_comm]
    refine Finset.sum_congr rfl fun r _ => Finset.sum_congr rfl fun s _ => ?_
    unfold dressed
    rw [hD s r, ← hG, Finset.sum_congr rfl fun x _ => by rw [hL x s r, hL x q p]]
    rw [show -(η q - η p + η s - η r) = η p - η q + η r - η s by ring]

/-- C180 partial: the exchange matrix would be right if all displacements were equal. -/
theorem numba_k_partial (G : ℝ → ℝ) (L : X → n → n → ℝ) (hL : ∀ x p q, L x p q = L x q p)
    (D : n → n → ℝ) (hD : ∀ p q, D p q = D q p) (η : n → ℝ) (hη : ∀ p q, η p = η q) :
    ∃ vj vk, computeJK true G L D η = .ok (vj, vk) ∧ ∀ p q, vk p q = ∑ r, ∑ s, dressed G L η p s r q * D r s := by
  have h0 : ∀ p q : n, η p - η q = 0 := fun p q => by rw [hη p q, sub_self]
  refine ⟨_, _, rfl, fun p q => ?_⟩
  have e : ∀ p q, kPair G L D η p q = ∑ r, ∑ s, dressed G L η p s r q * D r s := by
    intro p q
    unfold kPair dressed
    refine Finset.sum_congr rfl fun r _ => Finset.sum_congr rfl fun s _ => ?_
    rw [h0, h0, add_sub_assoc, h0, h0, Finset.sum_congr rfl fun x _ => mul_comm (L x r q) (L x p s)]
    ring
  by_cases h : p ≤ q
  · rw [if_pos h, e]
  · rw [if_neg h, e, Finset.sum_comm]
    refine Finset.sum_congr rfl fun r _ => Finset.sum_congr rfl fun s _ => ?_
    unfold dressed
    rw [hD s r, add_sub_assoc, h0, h0, add_sub_assoc, h0, h0,
      Finset.sum_congr rfl fun x _ => by rw [hL x q r, hL x s p, mul_comm]]

/-- C180 fails: for any two orbitals with displacements between which the factor falls there are a tensor and a density matrix with
which the exchange matrix is wrong: the shift of the factor has the wrong sign. -/
theorem numba_k_fails (G : ℝ → ℝ) (η : n → ℝ) (p q : n) (hpq : p < q) (hf : G (2 * (η q - η p)) ≠ G 0) :
    ∃ (L : Unit → n → n → ℝ) (D : n → n → ℝ), (∀ x a b, L x a b = L x b a) ∧ (∀ a b, D a b = D b a) ∧
      ∃ vj vk, computeJK true G L D η = .ok (vj, vk) ∧ vk p q ≠ ∑ r, ∑ s, dressed G L η p s r q * D r s := by
  refine ⟨fun _ a b => if a = b then 1 else 0,
    fun a b => if (a = p ∧ b = q) ∨ (a = q ∧ b = p) then 1 else 0, ?_, ?_, _, _, rfl, ?_⟩
  · intro _ a b; exact if_congr eq_comm rfl rfl
  · intro a b; exact if_congr (by tauto) rfl rfl
  dsimp only
  rw [if_pos hpq.le]
  have h1 : kPair G (fun (_ : Unit) a b => if a = b then (1 : ℝ) else 0)
      (fun a b => if (a = p ∧ b = q) ∨ (a = q ∧ b = p) then 1 else 0) η p q = G (2 * (η q - η p)) := by
    unfold kPair
    rw [Finset.sum_eq_single q, Finset.sum_eq_single p]
    · simp only [Finset.univ_unique, Finset.sum_const, Finset.card_singleton, one_smul, and_self, or_true, if_true, mul_one, one_mul]
      congr 1; ring
    · intro s _ hs; simp [Ne.symm hs]
    · simp
    · intro r _ hr
      refine Finset.sum_eq_zero fun s _ => ?_
      simp [hr]
    · simp
  have h2 : ∑ r, ∑ s, dressed G (fun (_ : Unit) a b => if a = b then (1 : ℝ) else 0) η p s r q *
      (if (r = p ∧ s = q) ∨ (r = q ∧ s = p) then 1 else 0) = G 0 := by
    unfold dressed
    rw [Finset.sum_eq_single q, Finset.sum_eq_single p]
    · simp only [Finset.univ_unique, Finset.sum_const, Finset.card_singleton, one_smul, and_self, or_true, if_true, mul_one, one_mul]
      congr 1; ring
    · intro s _ hs; simp [Ne.symm hs]
    · simp
    · intro r _ hr
      refine Finset.sum_eq_zero fun s _ => ?_
      simp [hr]
    · simp
  rw [h1, h2]
  exact hf

/-- C180 fails: neither function gets to its end. -/
theorem names_fails (G : ℝ → ℝ) (L : X → n → n → ℝ) (D : n → n → ℝ) (η : n → ℝ) (eri : n → n → n → n → ℝ)
    (modes : List ((ℝ → ℝ) × (n → ℝ))) :
    computeJK false G L D η = .error "TypeError" ∧ getJKchols false eri D modes = .error "UnboundLocalError" := ⟨rfl, rfl⟩

/-- C180 partial: were `imode` given, `get_jk_chols` would return the Coulomb and the exchange matrix of the dressed integrals if there
is one mode, for a symmetric density matrix, integrals with the symmetry `(pq|rs) = (rs|pq)`.  Missing: the name, several modes. -/
theorem chols_partial (eri : n → n → n → n → ℝ) (hs : ∀ p q r s, eri p q r s = eri r s p q) (D : n → n → ℝ)
    (hD : ∀ p q, D p q = D q p) (G : ℝ → ℝ) (η : n → ℝ) :
    ∃ vj vk, getJKchols true eri D [(G, η)] = .ok (some (vj, vk)) ∧
      (∀ p q, vj p q = ∑ r, ∑ s, eri p q r s * G (η p - η q + η r - η s) * D r s) ∧
      ∀ p q, vk p q = ∑ r, ∑ s, eri p s r q * G (η p - η s + η r - η q) * D r s := by
  refine ⟨_, _, rfl, fun p q => ?_, fun p q => ?_⟩
  · refine Finset.sum_congr rfl fun r _ => Finset.sum_congr rfl fun s _ => ?_
    dsimp only
    rw [hs r s p q, hD s r, show η r - η s + η p - η q = η p - η q + η r - η s by ring]
  · rw [Finset.sum_comm]
    refine Finset.sum_congr rfl fun r _ => Finset.sum_congr rfl fun s _ => ?_
    rw [hD s r]

/-- C180 fails: with several modes the result is that of the last one alone, without modes it is `None`. -/
theorem last_mode (eri : n → n → n → n → ℝ) (D : n → n → ℝ) (modes : List ((ℝ → ℝ) × (n → ℝ))) (m : (ℝ → ℝ) × (n → ℝ)) :
    getJKchols true eri D (modes ++ [m]) = getJKchols true eri D [m] ∧ getJKchols true eri D [] = .ok none := by
  refine ⟨?_, rfl⟩
  unfold getJKchols modeLoop
  rw [List.foldl_append]
  rfl

/-- C180 fails: if the factor of the first of two modes is not one for some integral, that of the second not zero, there are
integrals and a density matrix with which the Coulomb matrix is not that of the integrals dressed by both modes. -/
theorem modes_fails (G G' : ℝ → ℝ) (η η' : n → ℝ) (p q : n) (h1 : G (2 * (η p - η q)) ≠ 1) (h2 : G' (2 * (η' p - η' q)) ≠ 0) :
    ∃ (eri : n → n → n → n → ℝ) (D : n → n → ℝ), (∀ a b c d, eri a b c d = eri c d a b) ∧ (∀ a b, D a b = D b a) ∧
      ∃ vj vk, getJKchols true eri D [(G, η), (G', η')] = .ok (some (vj, vk)) ∧
        vj p q ≠ ∑ r, ∑ s, eri p q r s * (G (η p - η q + η r - η s) * G' (η' p - η' q + η' r - η' s)) * D r s := by
  refine ⟨fun a b c d => if a = p ∧ b = q ∧ c = p ∧ d = q then 1 else 0, fun _ _ => 1, ?_, fun _ _ => rfl, _, _, rfl, ?_⟩
  · intro a b c d; exact if_congr (by tauto) rfl rfl
  have e : ∀ F : n → n → ℝ, ∑ r, ∑ s, (if p = p ∧ q = q ∧ r = p ∧ s = q then (1 : ℝ) else 0) * F r s * 1 = F p q := by
    intro F
    rw [Finset.sum_eq_single p, Finset.sum_eq_single q]
    · simp
    · intro s _ hs; simp [hs]
    · simp
    · intro r _ hr; exact Finset.sum_eq_zero fun s _ => by simp [hr]
    · simp
  have e' : ∑ i, ∑ j, (if i = p ∧ j = q ∧ p = p ∧ q = q then (1 : ℝ) else 0) * G' (η' i - η' j + η' p - η' q) * 1 =
      G' (η' p - η' q + η' p - η' q) := by
    rw [Finset.sum_eq_single p, Finset.sum_eq_single q]
    · simp
    · intro s _ hs; simp [hs]
    · simp
    · intro r _ hr; exact Finset.sum_eq_zero fun s _ => by simp [hr]
    · simp
  dsimp only
  rw [e fun r s => G (η p - η q + η r - η s) * G' (η' p - η' q + η' r - η' s)]
  intro h
  have h3 := e'.symm.trans h
  rw [show η p - η q + η p - η q = 2 * (η p - η q) by ring, show η' p - η' q + η' p - η' q = 2 * (η' p - η' q) by ring] at h3
  exact h1 (mul_right_cancel₀ h2 (by rw [one_mul]; exact h3.symm))

/-- The Gaussian factor of one photon state. -/
example : (∀ x : ℝ, Real.exp (-(1 / 2) * (-x) ^ 2) = Real.exp (-(1 / 2) * x ^ 2)) ∧
    Real.exp (-(1 / 2) * (2 * (1 - 0)) ^ 2) ≠ Real.exp (-(1 / 2) * 0 ^ 2) := by
  refine ⟨fun x => by rw [neg_sq], fun h => ?_⟩
  have := Real.exp_injective h
  norm_num at this

end OpenMS.DressedJK
