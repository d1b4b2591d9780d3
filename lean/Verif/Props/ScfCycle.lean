import Verif.Model.ScfCycle
import Verif.Props.ScQedHF
import Mathlib.Tactic

/-!
# C144: Fock matrix and energy of one cycle
-/

namespace OpenMS.ScQed

variable {n : Type*} [Fintype n] [LinearOrder n]

/-- Self energy of the electrons for couplings `g` and a symmetric density: expectation value of `(∑ g n)²/ω`. -/
noncomputable def dseOf (omega : ℝ) (g : n → ℝ) (D : n → n → ℝ) : ℝ :=
  (∑ p, g p ^ 2 * D p p + (∑ p, g p * D p p) ^ 2 - 1 / 2 * ∑ p, ∑ q, g p * g q * D p q * D p q) / omega

theorem dse_closed (s : Sys n) (f : ℝ) (eta : n → ℝ) (D : n → n → ℝ) (hD : ∀ p q, D p q = D q p) :
    (∑ p, gDipole s f eta p ^ 2 / s.omega * D p p) + 1 / 2 * ∑ p, ∑ q, vDse s f eta D p q * D q p =
      dseOf s.omega (gDipole s f eta) D := by
  have h1 : ∀ p q, vDse s f eta D p q * D q p =
      (if p = q then 2 * gDipole s f eta p * (∑ r, D r r * gDipole s f eta r) / s.omega * D p p else 0) -
        gDipole s f eta p * gDipole s f eta q * D p q * D p q / s.omega := by
    intro p q
    unfold vDse
    by_cases h : p = q
    · subst h; simp only [if_true]; ring
    · simp only [h, if_false]
      by_cases h2 : p < q
      · simp only [h2, if_true]; rw [hD q p]; ring
      · simp only [h2, if_false]; rw [hD q p]; ring
  simp only [h1, Finset.sum_sub_distrib, Finset.sum_ite_eq, Finset.mem_univ, if_true]
  unfold dseOf
  have e1 : (∑ p, 2 * gDipole s f eta p * (∑ r, D r r * gDipole s f eta r) / s.omega * D p p) =
      2 * (∑ p, gDipole s f eta p * D p p) ^ 2 / s.omega := by
    have : (∑ r, D r r * gDipole s f eta r) = ∑ p, gDipole s f eta p * D p p :=
      Finset.sum_congr rfl fun p _ => mul_comm _ _
    rw [this, pow_two, ← mul_assoc, mul_div_assoc, Finset.mul_sum, Finset.sum_mul]
    refine Finset.sum_congr rfl fun p _ => ?_
    ring
  have e2 : (∑ p, gDipole s f eta p ^ 2 / s.omega * D p p) = (∑ p, gDipole s f eta p ^ 2 * D p p) / s.omega := by
    rw [Finset.sum_div]; exact Finset.sum_congr rfl fun p _ => by ring
  have e3 : (∑ p, ∑ q, gDipole s f eta p * gDipole s f eta q * D p q * D p q / s.omega) =
      (∑ p, ∑ q, gDipole s f eta p * gDipole s f eta q * D p q * D p q) / s.omega := by
    rw [Finset.sum_div]; exact Finset.sum_congr rfl fun p _ => by rw [Finset.sum_div]
  rw [e1, e2, e3]
  ring

/-- Energy with the self energy part of `etaH` and the factors of `eta`. -/
theorem energyOf_mixed (s : Sys n) (f : ℝ) (G : ℝ → ℝ) (h0 : G 0 = 1) (etaH eta : n → ℝ) (D : n → n → ℝ)
    (hD : ∀ p q, D p q = D q p) :
    energyOf D (hcoreNow s f G etaH eta) (veffNow s f G etaH eta D) =
      (∑ p, ∑ q, s.h p q * G (eta p - eta q) * D q p) + dseOf s.omega (gDipole s f etaH) D +
        1 / 2 * ∑ p, ∑ q, vEri s eta G D p q * D q p := by
  have h1 : (∑ p, ∑ q, hcoreNow s f G etaH eta p q * D q p) =
      (∑ p, ∑ q, s.h p q * G (eta p - eta q) * D q p) + ∑ p, gDipole s f etaH p ^ 2 / s.omega * D p p := by
    rw [← Finset.sum_add_distrib]
    refine Finset.sum_congr rfl fun p _ => ?_
    have : ∀ q, hcoreNow s f G etaH eta p q * D q p = s.h p q * G (eta p - eta q) * D q p +
        (if p = q then gDipole s f etaH p ^ 2 / s.omega * D p p else 0) := by
      intro q
      unfold hcoreNow h1eDO
      by_cases h : p = q
      · subst h; simp only [if_true, sub_self, h0]; ring
      · simp only [h, if_false]; ring
    rw [Finset.sum_congr rfl fun q _ => this q, Finset.sum_add_distrib, Finset.sum_ite_eq]
    simp
  have h2 : (∑ p, ∑ q, veffNow s f G etaH eta D p q * D q p) =
      (∑ p, ∑ q, vDse s f etaH D p q * D q p) + ∑ p, ∑ q, vEri s eta G D p q * D q p := by
    rw [← Finset.sum_add_distrib]
    refine Finset.sum_congr rfl fun p _ => ?_
    rw [← Finset.sum_add_distrib]
    exact Finset.sum_congr rfl fun q _ => by unfold veffNow; ring
  unfold energyOf
  rw [h1, h2, ← dse_closed s f etaH D hD]
  ring

theorem energy_eq_energyOf (s : Sys n) (f : ℝ) (eta : n → ℝ) (G : ℝ → ℝ) (D : n → n → ℝ) :
    energy s f eta G D = energyOf D (hcoreNow s f G eta eta) (veffNow s f G eta eta D) := rfl

/-- C144: the energy of a cycle is the energy functional at the new displacements and density plus the self energy of the old
displacements minus that of the new ones. -/
theorem cycle_energy (s : Sys n) (f precond : ℝ) (G dG : ℝ → ℝ) (h0 : G 0 = 1) (dens : (n → n → ℝ) → n → n → ℝ)
    (hd : ∀ F p q, dens F p q = dens F q p) (diis : Option ((n → n → ℝ) → (n → ℝ) → (n → n → ℝ) × (n → ℝ))) (st : Cyc n) :
    let o := cycleStep s f precond G dG dens diis st
    o.e = energy s f o.st.eta G o.st.dm +
      (dseOf s.omega (gDipole s f st.eta) o.st.dm - dseOf s.omega (gDipole s f o.st.eta) o.st.dm) := by
  intro o
  have hs : ∀ p q, o.st.dm p q = o.st.dm q p := fun p q => hd _ p q
  rw [energy_eq_energyOf, energyOf_mixed s f G h0 _ _ _ hs]
  have : o.e = energyOf o.st.dm (hcoreNow s f G st.eta o.st.eta) (veffNow s f G st.eta o.st.eta o.st.dm) := rfl
  rw [this, energyOf_mixed s f G h0 _ _ _ hs]
  ring

/-- C144: when a cycle does not change the displacements its energy is the energy functional. -/
theorem cycle_energy_partial (s : Sys n) (f precond : ℝ) (G dG : ℝ → ℝ) (dens : (n → n → ℝ) → n → n → ℝ)
    (diis : Option ((n → n → ℝ) → (n → ℝ) → (n → n → ℝ) × (n → ℝ))) (st : Cyc n)
    (hfix : (cycleStep s f precond G dG dens diis st).st.eta = st.eta) :
    (cycleStep s f precond G dG dens diis st).e =
      energy s f st.eta G (cycleStep s f precond G dG dens diis st).st.dm := by
  have : (cycleStep s f precond G dG dens diis st).e =
      energyOf (cycleStep s f precond G dG dens diis st).st.dm
        (hcoreNow s f G st.eta (cycleStep s f precond G dG dens diis st).st.eta)
        (veffNow s f G st.eta (cycleStep s f precond G dG dens diis st).st.eta
          (cycleStep s f precond G dG dens diis st).st.dm) := rfl
  rw [this, hfix, energy_eq_energyOf]

/-- C144: the Fock matrix of a cycle mixes three sets of displacements: those before the previous cycle, those after
it, and those of the step just made. -/
theorem fock_three (s : Sys n) (f precond : ℝ) (G dG : ℝ → ℝ) (dens : (n → n → ℝ) → n → n → ℝ) (st : Cyc n) (p q : n) :
    let o1 := cycleStep s f precond G dG dens none st
    let o2 := cycleStep s f precond G dG dens none o1.st
    o2.fock p q = h1eDO s f o1.st.eta p q * G (o2.st.eta p - o2.st.eta q) +
      (vDse s f st.eta o1.st.dm p q + vEri s o1.st.eta G o1.st.dm p q) := rfl

/-- C144: the displacements of a cycle without extrapolation are one step along the gradient at the old ones. -/
theorem cycle_eta (s : Sys n) (f precond : ℝ) (G dG : ℝ → ℝ) (dens : (n → n → ℝ) → n → n → ℝ) (st : Cyc n) (p : n) :
    (cycleStep s f precond G dG dens none st).st.eta p = st.eta p - precond * etaGrad s f st.eta dG st.dm p := rfl

/-- Two orbitals of equal energy `a` and hopping `-t`, no repulsion. -/
noncomputable def hopSys (a t om : ℝ) (gt : Fin 2 → ℝ) : Sys (Fin 2) :=
  ⟨fun p q => if p = q then a else -t, gt, fun _ _ _ _ => 0, om⟩

/-- C144 fails: two electrons on two orbitals of different coupling, started as the code starts, with the vacuum factors.  For the
step length below the energy reported by the first cycle is lower than the energy functional of the same density at
every choice of displacements. -/
theorem cycle_below_fails (a t om F f precond : ℝ) (ho : 0 < om) (ht : 0 < t) (gt : Fin 2 → ℝ) (hf : f ≠ 0)
    (hg : gt 0 ≠ gt 1) (pdm : ℕ → ℕ → ℝ) (dens : (Fin 2 → Fin 2 → ℝ) → Fin 2 → Fin 2 → ℝ)
    (hd : ∀ M : Fin 2 → Fin 2 → ℝ, M 0 0 = M 1 1 → M 0 1 = M 1 0 → M 0 1 < 0 → dens M = fun _ _ => 1)
    (hp : 4 * precond * t * tmpFac om F ^ 2 * fcFactor om F 1 pdm (gt 0 * f - gt 1 * f) = 1) :
    let s := hopSys a t om gt
    let G := fcFactor om F 1 pdm
    let o := cycleStep s f precond G (fcDeriv om F 1 pdm) dens none (cycStart s f G fun _ _ => 1)
    (o.st.dm = fun _ _ => 1) ∧ ∀ eta, o.e < energy s f eta G o.st.dm := by
  intro s G o
  have G0 : G 0 = 1 := by
    change fcFactor om F 1 pdm 0 = 1
    unfold fcFactor; norm_num
  have Gpos : ∀ x, 0 < G x := by
    intro x
    change 0 < fcFactor om F 1 pdm x
    unfold fcFactor; norm_num; exact Real.exp_pos _
  have Geven : ∀ x, G (-x) = G x := by
    intro x
    change fcFactor om F 1 pdm (-x) = fcFactor om F 1 pdm x
    unfold fcFactor; norm_num
  have Glt : ∀ x, x ≠ 0 → G x < 1 := by
    intro x hx
    change fcFactor om F 1 pdm x < 1
    unfold fcFactor; norm_num
    have := (tmpFac_pos om F ho)
    positivity
  have dG0 : fcDeriv om F 1 pdm 0 = 0 := by unfold fcDeriv; norm_num
  have dGx : ∀ x, fcDeriv om F 1 pdm x = -(tmpFac om F ^ 2 * x * G x) := by
    intro x
    change _ = -(tmpFac om F ^ 2 * x * fcFactor om F 1 pdm x)
    unfold fcDeriv fcFactor; norm_num; ring
  -- couplings vanish at the start
  have g0 : ∀ p, gDipole s f (fun p => gt p * f) p = 0 := by
    intro p; change gt p * f - gt p * f = 0; ring
  have hst : (cycStart s f G fun _ _ => 1).eta = fun p => gt p * f := rfl
  have hv : ∀ (D : Fin 2 → Fin 2 → ℝ) (eta : Fin 2 → ℝ) p q, vEri s eta G D p q = 0 := by
    intro D eta p q
    simp [vEri, s, hopSys]
  have hvd : ∀ (D : Fin 2 → Fin 2 → ℝ) p q, vDse s f (fun p => gt p * f) D p q = 0 := by
    intro D p q
    simp [vDse, g0]
  have hvhf : ∀ p q, (cycStart s f G fun _ _ => 1).vhf p q = 0 := by
    intro p q
    change vDse s f (fun p => gt p * f) _ p q + vEri s (fun p => gt p * f) G _ p q = 0
    rw [hvd, hv, add_zero]
  have hh : ∀ p q, h1eDO s f (fun p => gt p * f) p q = if p = q then a else -t := by
    intro p q
    unfold h1eDO
    rw [g0]
    simp [s, hopSys]
  -- gradient
  set x := gt 0 * f - gt 1 * f with hx
  have hgrad : ∀ p, etaGrad s f (fun p => gt p * f) (fcDeriv om F 1 pdm) (fun _ _ => 1) p =
      if p = 0 then 2 * t * (tmpFac om F ^ 2 * x * G x) else -(2 * t * (tmpFac om F ^ 2 * x * G x)) := by
    intro p
    have htw : twobodyDeta s (fun p => gt p * f) (fcDeriv om F 1 pdm) (fun _ _ => 1) p = 0 := by
      simp [twobodyDeta, s, hopSys]
    have hx' : gt 1 * f - gt 0 * f = -x := by rw [hx]; ring
    unfold etaGrad
    rw [htw, add_zero]
    unfold onebodyDeta
    simp only [g0, hh, Fin.sum_univ_two]
    fin_cases p
    · simp [dG0, ← hx]
      rw [dGx]; ring
    · simp [dG0, hx']
      left; rw [dGx, Geven]; ring
  have heta : o.st.eta 0 = o.st.eta 1 := by
    change gt 0 * f - precond * etaGrad s f (fun p => gt p * f) (fcDeriv om F 1 pdm) (fun _ _ => 1) 0 =
      gt 1 * f - precond * etaGrad s f (fun p => gt p * f) (fcDeriv om F 1 pdm) (fun _ _ => 1) 1
    rw [hgrad, hgrad]
    simp only [if_true, if_neg (show (1 : Fin 2) ≠ 0 by decide)]
    have : x = 4 * precond * t * tmpFac om F ^ 2 * G x * x := by
      change x = 4 * precond * t * tmpFac om F ^ 2 * fcFactor om F 1 pdm x * x
      rw [hp, one_mul]
    have h2 : gt 0 * f = gt 1 * f + x := by rw [hx]; ring
    rw [h2]
    linarith
  have hdm : o.st.dm = fun _ _ => 1 := by
    have hF : ∀ p q, o.fock p q = (if p = q then a else -t) * G (o.st.eta p - o.st.eta q) := by
      intro p q
      change h1eDO s f (fun p => gt p * f) p q * G (o.st.eta p - o.st.eta q) + (cycStart s f G fun _ _ => 1).vhf p q = _
      rw [hvhf, hh, add_zero]
    refine hd o.fock ?_ ?_ ?_
    · rw [hF, hF]; simp
    · rw [hF, hF, heta]; simp
    · rw [hF, heta]; simp [G0, ht]
  refine ⟨hdm, fun eta => ?_⟩
  rw [hdm]
  have sym : ∀ p q : Fin 2, (fun _ _ => 1 : Fin 2 → Fin 2 → ℝ) p q = (fun _ _ => 1 : Fin 2 → Fin 2 → ℝ) q p := fun _ _ => rfl
  have he : o.e = 2 * a - 2 * t := by
    have : o.e = energyOf o.st.dm (hcoreNow s f G (fun p => gt p * f) o.st.eta)
      (veffNow s f G (fun p => gt p * f) o.st.eta o.st.dm) := rfl
    rw [this, hdm, energyOf_mixed s f G G0 _ _ _ sym]
    simp only [hv, dseOf, g0, Fin.sum_univ_two, heta, sub_self, G0]
    simp [s, hopSys]
    ring
  rw [he, energy_eq_energyOf, energyOf_mixed s f G G0 _ _ _ sym]
  have hval : (∑ p, ∑ q, s.h p q * G (eta p - eta q) * 1) + dseOf s.omega (gDipole s f eta) (fun _ _ => 1) +
      1 / 2 * ∑ p, ∑ q, vEri s eta G (fun _ _ => 1) p q * 1 =
      2 * a - 2 * t * G (eta 0 - eta 1) +
        ((gt 0 * f - eta 0) ^ 2 + (gt 1 * f - eta 1) ^ 2 + 1 / 2 * ((gt 0 * f - eta 0) + (gt 1 * f - eta 1)) ^ 2) / om := by
    have e1 : G (eta 1 - eta 0) = G (eta 0 - eta 1) := by rw [← Geven]; congr 1; ring
    simp only [hv, dseOf, Fin.sum_univ_two, e1, sub_self, G0, gDipole]
    simp [s, hopSys]
    ring
  rw [hval]
  by_cases h : eta 0 = eta 1
  · rw [h, sub_self, G0]
    have hpos : 0 < (gt 0 * f - eta 1) ^ 2 + (gt 1 * f - eta 1) ^ 2 +
        1 / 2 * ((gt 0 * f - eta 1) + (gt 1 * f - eta 1)) ^ 2 := by
      by_contra hcon
      have q0 : (gt 0 * f - eta 1) ^ 2 = 0 := by nlinarith [sq_nonneg (gt 0 * f - eta 1), sq_nonneg (gt 1 * f - eta 1), sq_nonneg ((gt 0 * f - eta 1) + (gt 1 * f - eta 1))]
      have q1 : (gt 1 * f - eta 1) ^ 2 = 0 := by nlinarith [sq_nonneg (gt 0 * f - eta 1), sq_nonneg (gt 1 * f - eta 1), sq_nonneg ((gt 0 * f - eta 1) + (gt 1 * f - eta 1))]
      have r0 := pow_eq_zero_iff (two_ne_zero) |>.1 q0
      have r1 := pow_eq_zero_iff (two_ne_zero) |>.1 q1
      apply hg
      have : gt 0 * f = gt 1 * f := by linarith
      exact mul_right_cancel₀ hf this
    have := div_pos hpos ho
    linarith
  · have h1 := Glt (eta 0 - eta 1) (sub_ne_zero.2 h)
    have h2 : 0 ≤ ((gt 0 * f - eta 0) ^ 2 + (gt 1 * f - eta 1) ^ 2 +
        1 / 2 * ((gt 0 * f - eta 0) + (gt 1 * f - eta 1)) ^ 2) / om := by positivity
    nlinarith

/-- The step length of the code, 0.1, and a hopping for which the condition of the last theorem holds. -/
example (pdm : ℕ → ℕ → ℝ) : ∃ t : ℝ, 0 < t ∧
    4 * 0.1 * t * tmpFac 1 0 ^ 2 * fcFactor 1 0 1 pdm (1 * 1 - 0 * 1) = 1 := by
  have h : 0 < fcFactor 1 0 1 pdm (1 * 1 - 0 * 1) := by
    unfold fcFactor; norm_num; exact Real.exp_pos _
  refine ⟨1 / (4 * 0.1 * tmpFac 1 0 ^ 2 * fcFactor 1 0 1 pdm (1 * 1 - 0 * 1)), ?_, ?_⟩
  · have := tmpFac_pos 1 0 one_pos
    positivity
  · have := tmpFac_pos 1 0 one_pos
    generalize fcFactor 1 0 1 pdm (1 * 1 - 0 * 1) = y at h
    field_simp

/-- The density of the lower orbital, which the hypothesis on `dens` asks for. -/
example : ∃ dens : (Fin 2 → Fin 2 → ℝ) → Fin 2 → Fin 2 → ℝ,
    ∀ M : Fin 2 → Fin 2 → ℝ, M 0 0 = M 1 1 → M 0 1 = M 1 0 → M 0 1 < 0 → dens M = fun _ _ => 1 :=
  ⟨fun _ _ _ => 1, fun _ _ _ _ => rfl⟩

end OpenMS.ScQed
