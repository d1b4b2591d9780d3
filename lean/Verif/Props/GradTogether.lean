import Verif.Model.GradTogether
import Verif.Props.ScQedHF
import Mathlib.Tactic

/-!
# C143: gradients in one loop
-/

namespace OpenMS.ScQed

variable {n : Type*} [Fintype n] [LinearOrder n]

theorem togOneEta_eq (s : Sys n) (f : ℝ) (eta : n → ℝ) (dG : ℝ → ℝ) (D : n → n → ℝ) (p : n) :
    togOneEta s f eta dG D p = onebodyDeta s f eta dG D p := by
  unfold togOneEta onebodyDeta
  simp only [zero_sub]

theorem togOneF_eq (s : Sys n) (f : ℝ) (eta : n → ℝ) (dF : ℝ → ℝ) (D : n → n → ℝ) :
    togOneF s f eta dF D = (if |f| > 1e-5 then 2 * (∑ p, D p p * gDipole s f eta p ^ 2) / s.omega / f else 0) +
      ((∑ p, ∑ q, h1eDO s f eta p q * dF (eta p - eta q) * D p q) +
        (2 * (∑ p, ∑ q, (D p p * gDipole s f eta p) * (D q q * gDipole s f eta q)) -
          ∑ p, ∑ q, D p q * D p q * gDipole s f eta p * gDipole s f eta q) / s.omega / f) := by
  unfold togOneF
  have h1 : (∑ p, ∑ q, h1eDO s f eta p q * D p q * dF (eta p - eta q)) =
      ∑ p, ∑ q, h1eDO s f eta p q * dF (eta p - eta q) * D p q :=
    Finset.sum_congr rfl fun p _ => Finset.sum_congr rfl fun q _ => by ring
  have h2 : (∑ p, ∑ q, gDipole s f eta p * gDipole s f eta q * D p q * D p q) =
      ∑ p, ∑ q, D p q * D p q * gDipole s f eta p * gDipole s f eta q :=
    Finset.sum_congr rfl fun p _ => Finset.sum_congr rfl fun q _ => by ring
  simp only [zero_add, h1, h2]

/-- C143: with four-index integrals the single loop stores the same three gradients as the separate functions, for all
switches. -/
theorem together_eri {X : Type*} [Fintype X] (s : Sys n) (varf vsq : Bool) (f : ℝ) (eta : n → ℝ) (dG dF dS : ℝ → ℝ)
    (D : n → n → ℝ) (eb dse : ℝ) (old : Grads n) :
    gradTogether (X := X) s none varf vsq f eta dG dF dS D eb dse old =
      gradSeparate (X := X) s none varf vsq f eta dG dF dS D eb dse old := by
  have h3 : togOneSq s f eta dS D = ∑ p, ∑ q, h1eDO s f eta p q * dS (eta q - eta p) * D p q :=
    Finset.sum_congr rfl fun p _ => Finset.sum_congr rfl fun q _ => by ring
  unfold gradTogether gradSeparate
  simp only [togOneF_eq, h3, Grads.mk.injEq]
  refine ⟨?_, ?_, ?_⟩
  · funext p
    rw [togOneEta_eq]; rfl
  · cases varf <;> rfl
  · cases vsq <;> rfl

/-- C143: with the Cholesky tensor the squeezing gradient is the one of the separate function. -/
theorem together_chol_sq {X : Type*} [Fintype X] (s : Sys n) (L : X → n → n → ℝ) (varf vsq : Bool) (f : ℝ) (eta : n → ℝ)
    (dG dF dS : ℝ → ℝ) (D : n → n → ℝ) (eb dse : ℝ) (old : Grads n) :
    (gradTogether s (some L) varf vsq f eta dG dF dS D eb dse old).vsq =
      (gradSeparate s (some L) varf vsq f eta dG dF dS D eb dse old).vsq := by
  have h3 : togOneSq s f eta dS D = ∑ p, ∑ q, h1eDO s f eta p q * dS (eta q - eta p) * D p q :=
    Finset.sum_congr rfl fun p _ => Finset.sum_congr rfl fun q _ => by ring
  have h4 : togTwoSqChol L eta dS D = vsqTwoChol L eta dS D := by
    unfold togTwoSqChol vsqTwoChol togID
    refine Finset.sum_congr rfl fun p _ => Finset.sum_congr rfl fun q _ => ?_
    congr 2
    exact Finset.sum_congr rfl fun r _ => Finset.sum_congr rfl fun t _ => by ring
  unfold gradTogether gradSeparate
  simp only [h3, h4]

/-- C143: what the single loop computes from the Cholesky tensor: the Coulomb part of the displacement gradient has the
wrong sign (first sum), the exchange part has the wrong argument. -/
theorem together_chol_eta {X : Type*} [Fintype X] (L : X → n → n → ℝ) (hL : ∀ x p q, L x p q = L x q p)
    (eta : n → ℝ) (dG : ℝ → ℝ) (ho : ∀ x, dG (-x) = -dG x) (D : n → n → ℝ) (hD : ∀ p q, D p q = D q p) (p : n) :
    togTwoEtaChol L eta dG D p =
      -(∑ q, ∑ r, ∑ t, 2 * (∑ x, L x p q * L x r t) * D r t * D p q * dG (eta p - eta q + eta r - eta t)) +
        ∑ q, ∑ r, ∑ t, (∑ x, L x p t * L x r q) * D r t * D p q * dG (eta p - eta q + eta t - eta r) := by
  have h1 : togTwoEtaChol L eta dG D p =
      (∑ q, ∑ r, ∑ t, 2 * (∑ x, L x p q * L x r t) * D r t * D p q * dG (eta r - eta t + (eta q - eta p))) -
        ∑ q, ∑ r, ∑ t, (∑ x, L x p t * L x r q) * D r t * D p q * dG (eta r - eta t + (eta q - eta p)) := by
    unfold togTwoEtaChol togID
    rw [← Finset.sum_sub_distrib]
    refine Finset.sum_congr rfl fun q _ => ?_
    rw [← Finset.sum_sub_distrib, Finset.sum_mul]
    refine Finset.sum_congr rfl fun r _ => ?_
    rw [← Finset.sum_sub_distrib, Finset.sum_mul]
    exact Finset.sum_congr rfl fun t _ => by ring
  rw [h1, ← Finset.sum_neg_distrib, sub_eq_add_neg, ← Finset.sum_neg_distrib]
  congr 1
  · refine Finset.sum_congr rfl fun q _ => ?_
    rw [← Finset.sum_neg_distrib, Finset.sum_comm]
    refine Finset.sum_congr rfl fun r _ => ?_
    rw [← Finset.sum_neg_distrib]
    refine Finset.sum_congr rfl fun t _ => ?_
    have e : eta t - eta r + (eta q - eta p) = -(eta p - eta q + eta r - eta t) := by ring
    rw [e, ho, hD t r]
    simp only [hL _ t r]
    ring
  · refine Finset.sum_congr rfl fun q _ => ?_
    rw [← Finset.sum_neg_distrib]
    refine Finset.sum_congr rfl fun r _ => ?_
    rw [← Finset.sum_neg_distrib]
    refine Finset.sum_congr rfl fun t _ => ?_
    have e : eta r - eta t + (eta q - eta p) = -(eta p - eta q + eta t - eta r) := by ring
    rw [e, ho]
    ring

/-- C143 fails: two orbitals coupled by one Cholesky vector: the single loop gives minus twice the displacement gradient of
the two-electron part, and twice the gradient in the fraction. -/
theorem together_chol_two (c : ℝ) (eta : Fin 2 → ℝ) (dG dF : ℝ → ℝ) (ho : ∀ x, dG (-x) = -dG x) (he : ∀ x, dF (-x) = dF x)
    (h0 : dF 0 = 0) (D : Fin 2 → Fin 2 → ℝ) (hD : D 0 1 = D 1 0) :
    let L : Fin 1 → Fin 2 → Fin 2 → ℝ := fun _ p q => if p = q then 0 else c
    (∀ p, togTwoEtaChol L eta dG D p = -2 * twobodyDetaChol L eta dG D p) ∧
      togTwoFChol L eta dF D = 2 * (∑ p, ∑ q, (∑ r, ∑ t, (2 * (∑ x, L x p q * L x r t) - ∑ x, L x p t * L x r q) *
        dF (eta r - eta t + (eta p - eta q)) * D r t) * D p q / 4) := by
  have g0 : dG 0 = 0 := by have := ho 0; rw [neg_zero] at this; linarith
  intro L
  have e1 : dG (eta 1 - eta 0 + (eta 1 - eta 0)) = -dG (eta 0 - eta 1 + (eta 0 - eta 1)) := by
    rw [← ho]; congr 1; ring
  have e2 : dF (eta 1 - eta 0 + (eta 1 - eta 0)) = dF (eta 0 - eta 1 + (eta 0 - eta 1)) := by
    rw [← he]; congr 1; ring
  have e3 : eta 1 - eta 0 + (eta 0 - eta 1) = 0 := by ring
  have e4 : eta 0 - eta 1 + (eta 1 - eta 0) = 0 := by ring
  refine ⟨fun p => ?_, ?_⟩
  · fin_cases p <;>
      simp [togTwoEtaChol, togID, twobodyDetaChol, L, Fin.sum_univ_two, e1, e3, e4, g0, hD] <;> ring
  · simp [togTwoFChol, togID, L, Fin.sum_univ_two, e2, e3, e4, h0, hD]
    ring

/-- C143 fails: with the vacuum factors of the code, two different displacements and a density matrix that is not diagonal,
both gradients of the single loop differ from those of the separate functions. -/
theorem together_chol_fails (s : Sys (Fin 2)) (ho : 0 < s.omega) (f F c : ℝ) (hf : f ≠ 0) (hc : c ≠ 0) (eta : Fin 2 → ℝ)
    (hne : eta 0 ≠ eta 1) (D : Fin 2 → Fin 2 → ℝ) (hD : D 0 1 = D 1 0) (hD0 : D 0 1 ≠ 0) (pdm : ℕ → ℕ → ℝ)
    (dS : ℝ → ℝ) (vsq : Bool) (eb dse : ℝ) (old : Grads (Fin 2)) :
    let L : Fin 1 → Fin 2 → Fin 2 → ℝ := fun _ p q => if p = q then 0 else c
    let a := gradTogether s (some L) true vsq f eta (fcDeriv s.omega F 1 pdm) (fcDerivF s.omega F 1 pdm f) dS D eb dse old
    let b := gradSeparate s (some L) true vsq f eta (fcDeriv s.omega F 1 pdm) (fcDerivF s.omega F 1 pdm f) dS D eb dse old
    (∀ p, a.eta p ≠ b.eta p) ∧ a.vlf ≠ b.vlf := by
  intro L a b
  have ht := tmpFac_pos s.omega F ho
  have hgo : ∀ x, fcDeriv s.omega F 1 pdm (-x) = -fcDeriv s.omega F 1 pdm x := by
    intro x; unfold fcDeriv; norm_num
  have hfe : ∀ x, fcDerivF s.omega F 1 pdm f (-x) = fcDerivF s.omega F 1 pdm f x := by
    intro x; unfold fcDerivF; norm_num
  have hf0 : fcDerivF s.omega F 1 pdm f 0 = 0 := by unfold fcDerivF; norm_num
  have h := together_chol_two c eta (fcDeriv s.omega F 1 pdm) (fcDerivF s.omega F 1 pdm f) hgo hfe hf0 D hD
  have g0 : fcDeriv s.omega F 1 pdm 0 = 0 := by unfold fcDeriv; norm_num
  set y := eta 0 - eta 1 + (eta 0 - eta 1) with hy
  have hy0 : y ≠ 0 := by
    intro h0; apply hne; rw [hy] at h0; linarith
  have gy : fcDeriv s.omega F 1 pdm y ≠ 0 := by
    unfold fcDeriv; norm_num
    exact ⟨ht.ne', hy0⟩
  have fy : fcDerivF s.omega F 1 pdm f y ≠ 0 := by
    unfold fcDerivF; norm_num
    exact ⟨⟨ht.ne', hy0⟩, hf⟩
  have e1 : fcDeriv s.omega F 1 pdm (eta 1 - eta 0 + (eta 1 - eta 0)) = -fcDeriv s.omega F 1 pdm y := by
    rw [← hgo]; congr 1; rw [hy]; ring
  have e2 : fcDerivF s.omega F 1 pdm f (eta 1 - eta 0 + (eta 1 - eta 0)) = fcDerivF s.omega F 1 pdm f y := by
    rw [← hfe]; congr 1; rw [hy]; ring
  have e3 : eta 1 - eta 0 + (eta 0 - eta 1) = 0 := by ring
  have e4 : eta 0 - eta 1 + (eta 1 - eta 0) = 0 := by ring
  have hD1 : D 1 0 ≠ 0 := hD ▸ hD0
  refine ⟨fun p => ?_, ?_⟩
  · intro hab
    have h1 : togTwoEtaChol L eta (fcDeriv s.omega F 1 pdm) D p = twobodyDetaChol L eta (fcDeriv s.omega F 1 pdm) D p := by
      have : togOneEta s f eta (fcDeriv s.omega F 1 pdm) D p + togTwoEtaChol L eta (fcDeriv s.omega F 1 pdm) D p =
        onebodyDeta s f eta (fcDeriv s.omega F 1 pdm) D p + twobodyDetaChol L eta (fcDeriv s.omega F 1 pdm) D p := hab
      rw [togOneEta_eq] at this
      exact add_left_cancel this
    rw [h.1 p] at h1
    have h2 : twobodyDetaChol L eta (fcDeriv s.omega F 1 pdm) D p = 0 := by
      change -2 * twobodyDetaChol L eta (fcDeriv s.omega F 1 pdm) D p = twobodyDetaChol L eta (fcDeriv s.omega F 1 pdm) D p at h1
      linarith
    fin_cases p
    · simp [twobodyDetaChol, L, Fin.sum_univ_two, e3, g0, hD, ← hy] at h2
      ring_nf at h2
      simp [hc, hD1] at h2
      exact gy h2
    · simp [twobodyDetaChol, L, Fin.sum_univ_two, e1, e4, g0, hD] at h2
      ring_nf at h2
      simp [hc, hD1] at h2
      exact gy h2
  · intro hab
    have h1 : togOneF s f eta (fcDerivF s.omega F 1 pdm f) D + togTwoFChol L eta (fcDerivF s.omega F 1 pdm f) D + dse =
        togOneF s f eta (fcDerivF s.omega F 1 pdm f) D +
          (∑ p, ∑ q, (∑ r, ∑ t, (2 * (∑ x, L x p q * L x r t) - ∑ x, L x p t * L x r q) *
            fcDerivF s.omega F 1 pdm f (eta r - eta t + (eta p - eta q)) * D r t) * D p q / 4) + dse := by
      refine Eq.trans hab ?_
      rw [togOneF_eq]; rfl
    have h2 := h.2
    change togTwoFChol L eta (fcDerivF s.omega F 1 pdm f) D = 2 * _ at h2
    rw [h2] at h1
    have h3 : (∑ p, ∑ q, (∑ r, ∑ t, (2 * (∑ x, L x p q * L x r t) - ∑ x, L x p t * L x r q) *
            fcDerivF s.omega F 1 pdm f (eta r - eta t + (eta p - eta q)) * D r t) * D p q / 4) = 0 := by linarith
    simp [L, Fin.sum_univ_two, e2, e3, e4, hf0, hD, ← hy] at h3
    ring_nf at h3
    simp [hc, hD1] at h3
    exact fy h3

/-- Orbitals displaced by 1 and 0, half an electron off the diagonal. -/
example : ∃ (s : Sys (Fin 2)) (eta : Fin 2 → ℝ) (D : Fin 2 → Fin 2 → ℝ), 0 < s.omega ∧ eta 0 ≠ eta 1 ∧ D 0 1 = D 1 0 ∧
    D 0 1 ≠ 0 :=
  ⟨⟨fun _ _ => 1, fun _ => 1, fun _ _ _ _ => 0, 1⟩, ![1, 0], fun _ _ => 1 / 2, by norm_num, by norm_num, rfl, by norm_num⟩

end OpenMS.ScQed
