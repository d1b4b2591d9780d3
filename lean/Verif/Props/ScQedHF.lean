import Verif.Model.ScQedHF
import Verif.Props.Displacement
import Verif.Props.Photon
import Mathlib.Tactic.Linarith
import Mathlib.Tactic.FieldSimp
import Mathlib.Tactic.Ring
import Mathlib.Algebra.BigOperators.Ring.Finset
import Mathlib.Algebra.BigOperators.Field
import Mathlib.Analysis.SpecialFunctions.ExpDeriv

/-!
# Franck-Condon factors and gradients of SC/VT-QED-HF (C39, C40, C41, C82)
-/

namespace OpenMS.ScQed

set_option linter.unusedSectionVars false

variable {n : Type*} [Fintype n] [LinearOrder n]

/-! ### C39 -/

/-- The photon vacuum. -/
def vacuum (i j : ℕ) : ℝ := if i = 0 ∧ j = 0 then 1 else 0

/-- In the vacuum the factor does not depend on the number of retained photon states. -/
theorem factor_vacuum (omega F : ℝ) (mdim : ℕ) (hm : 1 ≤ mdim) (x : ℝ) :
    fcFactor omega F mdim vacuum x = Real.exp (-(1 / 2) * (tmpFac omega F * x) ^ 2) := by
  unfold fcFactor
  split_ifs with h
  · rw [Boson.packed_eq_direct]
    unfold Boson.displacementExpVal Boson.gfact
    have h1 : ((Boson.trilStrict mdim).map fun p : ℕ × ℕ =>
        2 * vacuum p.1 p.2 * Real.sqrt ((p.2.factorial : ℝ) / p.1.factorial) *
          (-(tmpFac omega F * x)) ^ (p.1 - p.2) *
          Boson.laguerre p.2 (p.1 - p.2) ((tmpFac omega F * x) ^ 2)).sum = 0 := by
      apply List.sum_eq_zero
      intro y hy
      obtain ⟨q, hq, rfl⟩ := List.mem_map.1 hy
      simp only [Boson.trilStrict, List.mem_flatMap, List.mem_range, List.mem_map] at hq
      obtain ⟨m, hm, k, hk, rfl⟩ := hq
      rw [vacuum, if_neg (by simp only; omega)]; ring
    rw [h1, Boson.range_map_sum, Finset.sum_eq_single 0]
    · simp [vacuum, Boson.laguerre]
    · intro m _ hm; simp [vacuum, hm]
    · intro h0; exact absurd (Finset.mem_range.2 (by omega)) h0
  · rfl

/-- C39.  In the photon vacuum, with any number of retained photon states, the Franck-Condon factor
of a pair is symmetric, one on the diagonal, positive and at most one; and it is one exactly when
the displacements of the two orbitals coincide. -/
theorem fc_contraction (omega F : ℝ) (ho : 0 < omega) (mdim : ℕ) (hm : 1 ≤ mdim) (eta : n → ℝ)
    (p q : n) :
    let G := fun p q : n => fcFactor omega F mdim vacuum (eta p - eta q)
    G p q = G q p ∧ G p p = 1 ∧ 0 < G p q ∧ G p q ≤ 1 ∧ (G p q = 1 ↔ eta p = eta q) := by
  have hpos : 0 < tmpFac omega F := div_pos (Real.exp_pos F) ho
  simp only [factor_vacuum _ _ _ hm]
  refine ⟨?_, ?_, Real.exp_pos _, ?_, ?_⟩
  · congr 1; ring
  · simp
  · rw [Real.exp_le_one_iff]; nlinarith [sq_nonneg (tmpFac omega F * (eta p - eta q))]
  · rw [Real.exp_eq_one_iff]
    constructor
    · intro h
      have h2 : (tmpFac omega F * (eta p - eta q)) ^ 2 = 0 := by linarith
      have h3 := pow_eq_zero_iff (n := 2) (by norm_num) |>.mp h2
      rcases mul_eq_zero.mp h3 with h4 | h4
      · exact absurd h4 hpos.ne'
      · linarith
    · intro h; rw [h]; ring

example : fcFactor 1 0 3 vacuum 2 = Real.exp (-2) := by
  rw [factor_vacuum _ _ _ (by norm_num)]; simp [tmpFac]; norm_num

/-- C39 for the factors of the two-electron integrals. -/
theorem fc_contraction_two (omega F : ℝ) (ho : 0 < omega) (mdim : ℕ) (hm : 1 ≤ mdim) (eta : n → ℝ)
    (p q r t : n) :
    let G := fun p q r t : n => fcFactor omega F mdim vacuum (eta p - eta q + eta r - eta t)
    G p q r t = G q p t r ∧ G p q r t = G r t p q ∧ G p p r r = 1 ∧ 0 < G p q r t ∧ G p q r t ≤ 1 ∧
      (G p q r t = 1 ↔ eta p + eta r = eta q + eta t) := by
  have hpos : 0 < tmpFac omega F := div_pos (Real.exp_pos F) ho
  simp only [factor_vacuum _ _ _ hm]
  refine ⟨?_, ?_, ?_, Real.exp_pos _, ?_, ?_⟩
  · congr 1; ring
  · congr 1; ring
  · simp
  · rw [Real.exp_le_one_iff]
    nlinarith [sq_nonneg (tmpFac omega F * (eta p - eta q + eta r - eta t))]
  · rw [Real.exp_eq_one_iff]
    constructor
    · intro h
      have h2 : (tmpFac omega F * (eta p - eta q + eta r - eta t)) ^ 2 = 0 := by linarith
      have h3 := pow_eq_zero_iff (n := 2) (by norm_num) |>.mp h2
      rcases mul_eq_zero.mp h3 with h4 | h4
      · exact absurd h4 hpos.ne'
      · linarith
    · intro h
      rw [show eta p - eta q + eta r - eta t = 0 by linarith]; ring

/-! ### Sums over four indices -/

theorem sum4_swap (f : n → n → n → n → ℝ) :
    ∑ p, ∑ q, ∑ r, ∑ t, f q p t r = ∑ p, ∑ q, ∑ r, ∑ t, f p q r t := by
  rw [Finset.sum_comm]
  refine Finset.sum_congr rfl fun p _ => Finset.sum_congr rfl fun q _ => ?_
  rw [Finset.sum_comm]

theorem sum4_exch (f : n → n → n → n → ℝ) :
    ∑ p, ∑ q, ∑ r, ∑ t, f r t p q = ∑ p, ∑ q, ∑ r, ∑ t, f p q r t := by
  have h : ∀ g : n → n → n → n → ℝ, ∑ p, ∑ q, ∑ r, ∑ t, g p q r t =
      ∑ x : n × n, ∑ y : n × n, g x.1 x.2 y.1 y.2 := by
    intro g
    simp only [Fintype.sum_prod_type]
  rw [h (fun p q r t => f r t p q), h f, Finset.sum_comm]

/-- Symmetries of real two-electron integrals. -/
structure EriSymm (eri : n → n → n → n → ℝ) : Prop where
  left : ∀ p q r t, eri q p r t = eri p q r t
  right : ∀ p q r t, eri p q t r = eri p q r t
  exch : ∀ p q r t, eri r t p q = eri p q r t

/-- The two-electron energy in closed form. -/
noncomputable def twoEl (s : Sys n) (eta : n → ℝ) (G : ℝ → ℝ) (D : n → n → ℝ) : ℝ :=
  1 / 2 * ∑ p, ∑ q, ∑ r, ∑ t, G (eta p - eta q + eta r - eta t) *
    ((s.eri p q r t - 1 / 2 * s.eri p t r q) * (D p q * D r t))

/-- Specification: the mean-field energy of the dressed Hamiltonian, in closed form: dressed
one-electron energy, one- and two-electron parts of `(Σ g n)² / ω`, dressed two-electron
energy. -/
noncomputable def closedEnergy (s : Sys n) (f : ℝ) (eta : n → ℝ) (G : ℝ → ℝ) (D : n → n → ℝ) : ℝ :=
  (∑ p, ∑ q, s.h p q * D p q * G (eta p - eta q)) +
    (∑ p, (s.gt p * f - eta p) ^ 2 * D p p) / s.omega +
    ((∑ p, (s.gt p * f - eta p) * D p p) ^ 2 -
      1 / 2 * ∑ p, ∑ q, (s.gt p * f - eta p) * (s.gt q * f - eta q) * D p q ^ 2) / s.omega +
    twoEl s eta G D

/-- C40, C41: the energy whose derivatives are claimed is the dressed mean-field energy. -/
theorem energy_closed (s : Sys n) (f : ℝ) (eta : n → ℝ) (G : ℝ → ℝ) (D : n → n → ℝ)
    (hD : ∀ p q, D p q = D q p) (hG0 : G 0 = 1) :
    energy s f eta G D = closedEnergy s f eta G D := by
  set g := gDipole s f eta with hg
  have h1 : ∑ p, ∑ q, hcoreDO s f eta G p q * D q p =
      (∑ p, ∑ q, s.h p q * D p q * G (eta p - eta q)) + (∑ p, g p ^ 2 * D p p) / s.omega := by
    rw [Finset.sum_div, ← Finset.sum_add_distrib]
    refine Finset.sum_congr rfl fun p _ => ?_
    have : ∀ q, hcoreDO s f eta G p q * D q p = s.h p q * D p q * G (eta p - eta q) +
        if p = q then g p ^ 2 * D p p / s.omega else 0 := by
      intro q
      unfold hcoreDO h1eDO
      by_cases h : p = q
      · subst h; simp [hG0, ← hg]; ring
      · rw [if_neg h, if_neg h, hD q p]; ring
    simp only [this, Finset.sum_add_distrib, Finset.sum_ite_eq, Finset.mem_univ, if_true]
  have h2 : ∑ p, ∑ q, vDse s f eta D p q * D q p =
      (2 * (∑ p, g p * D p p) ^ 2 - ∑ p, ∑ q, g p * g q * D p q ^ 2) / s.omega := by
    have : ∀ p q, vDse s f eta D p q * D q p =
        (if p = q then 2 * (g p * D p p) * (∑ r, g r * D r r) / s.omega else 0) -
          g p * g q * D p q ^ 2 / s.omega := by
      intro p q
      unfold vDse
      simp only [← hg]
      by_cases h : p = q
      · subst h
        rw [if_pos rfl, if_pos rfl]
        have : ∑ r, D r r * g r = ∑ r, g r * D r r :=
          Finset.sum_congr rfl fun r _ => mul_comm _ _
        rw [this]; ring
      · rw [if_neg h, if_neg h]
        split_ifs
        · rw [hD q p]; ring
        · rw [hD q p]; ring
    simp only [this, Finset.sum_sub_distrib, Finset.sum_ite_eq, Finset.mem_univ, if_true]
    simp only [← Finset.sum_div, ← Finset.sum_mul, ← Finset.mul_sum]
    ring
  have h3 : ∑ p, ∑ q, vEri s eta G D p q * D q p = 2 * twoEl s eta G D := by
    unfold vEri twoEl
    simp only [add_mul, Finset.sum_add_distrib]
    have e2 : ∀ M : n → n → ℝ, ∑ p, ∑ q, M q p * D q p = ∑ p, ∑ q, M p q * D p q := fun M =>
      Finset.sum_comm
    have e1 : ∀ M : n → n → ℝ, ∑ p, ∑ q, M p q * D q p = ∑ p, ∑ q, M p q * D p q := fun M =>
      Finset.sum_congr rfl fun p _ => Finset.sum_congr rfl fun q _ => by rw [hD q p]
    rw [e1 (fun p q => 1 / 2 * ∑ r, ∑ t, G (eta p - eta q + eta r - eta t) *
        (s.eri p q r t - 1 / 2 * s.eri p t r q) * D r t),
      e2 (fun p q => 1 / 2 * ∑ r, ∑ t, G (eta p - eta q + eta r - eta t) *
        (s.eri p q r t - 1 / 2 * s.eri p t r q) * D r t)]
    rw [← two_mul]
    congr 1
    rw [Finset.mul_sum]
    refine Finset.sum_congr rfl fun p _ => ?_
    rw [Finset.mul_sum]
    refine Finset.sum_congr rfl fun q _ => ?_
    rw [mul_assoc, Finset.sum_mul]
    congr 1
    refine Finset.sum_congr rfl fun r _ => ?_
    rw [Finset.sum_mul]
    exact Finset.sum_congr rfl fun t _ => by ring
  have hc : closedEnergy s f eta G D = (∑ p, ∑ q, s.h p q * D p q * G (eta p - eta q)) +
      (∑ p, g p ^ 2 * D p p) / s.omega +
      ((∑ p, g p * D p p) ^ 2 - 1 / 2 * ∑ p, ∑ q, g p * g q * D p q ^ 2) / s.omega +
      twoEl s eta G D := rfl
  rw [hc]
  unfold energy
  simp only [add_mul, Finset.sum_add_distrib]
  rw [h1, h2, h3]
  ring

/-! ### C40 -/

/-- Antisymmetric summands: only the first index matters. -/
theorem dir_sum (B : n → n → n → n → ℝ) (v : n → ℝ) (h1 : ∀ p q r t, B q p t r = -B p q r t)
    (h2 : ∀ p q r t, B r t p q = B p q r t) :
    ∑ p, ∑ q, ∑ r, ∑ t, B p q r t * (v p - v q + v r - v t) =
      4 * ∑ p, v p * ∑ q, ∑ r, ∑ t, B p q r t := by
  have a0 : ∑ p, v p * ∑ q, ∑ r, ∑ t, B p q r t = ∑ p, ∑ q, ∑ r, ∑ t, B p q r t * v p := by
    simp only [Finset.mul_sum]
    exact Finset.sum_congr rfl fun p _ => Finset.sum_congr rfl fun q _ =>
      Finset.sum_congr rfl fun r _ => Finset.sum_congr rfl fun t _ => mul_comm _ _
  have a1 : ∑ p, ∑ q, ∑ r, ∑ t, B p q r t * v q = -∑ p, ∑ q, ∑ r, ∑ t, B p q r t * v p := by
    rw [← sum4_swap (fun p q r t => B p q r t * v q)]
    simp only [← Finset.sum_neg_distrib]
    exact Finset.sum_congr rfl fun p _ => Finset.sum_congr rfl fun q _ =>
      Finset.sum_congr rfl fun r _ => Finset.sum_congr rfl fun t _ => by rw [h1 p q r t, neg_mul]
  have a2 : ∑ p, ∑ q, ∑ r, ∑ t, B p q r t * v r = ∑ p, ∑ q, ∑ r, ∑ t, B p q r t * v p := by
    rw [← sum4_exch (fun p q r t => B p q r t * v r)]
    exact Finset.sum_congr rfl fun p _ => Finset.sum_congr rfl fun q _ =>
      Finset.sum_congr rfl fun r _ => Finset.sum_congr rfl fun t _ => by rw [h2 p q r t]
  have a3 : ∑ p, ∑ q, ∑ r, ∑ t, B p q r t * v t = -∑ p, ∑ q, ∑ r, ∑ t, B p q r t * v p := by
    rw [← a2, ← sum4_swap (fun p q r t => B p q r t * v t)]
    simp only [← Finset.sum_neg_distrib]
    exact Finset.sum_congr rfl fun p _ => Finset.sum_congr rfl fun q _ =>
      Finset.sum_congr rfl fun r _ => Finset.sum_congr rfl fun t _ => by rw [h1 p q r t, neg_mul]
  have : ∀ p q r t, B p q r t * (v p - v q + v r - v t) =
      B p q r t * v p - B p q r t * v q + B p q r t * v r - B p q r t * v t := by
    intros; ring
  simp only [this, Finset.sum_sub_distrib, Finset.sum_add_distrib]
  rw [a0, a1, a2, a3]; ring

/-- The gradient for any even factor `G` with derivative `dG`: for every direction `v` the
derivative of the energy along `v` is `Σ_p eta_grad p * v p`. -/
theorem eta_gradient_general (s : Sys n) (f : ℝ) (eta v : n → ℝ) (G dG : ℝ → ℝ) (D : n → n → ℝ)
    (hG0 : G 0 = 1) (hG : ∀ x, HasDerivAt G (dG x) x) (hodd : ∀ x, dG (-x) = -dG x)
    (hD : ∀ p q, D p q = D q p) (hh : ∀ p q, s.h p q = s.h q p) (he : EriSymm s.eri) :
    HasDerivAt (fun t => energy s f (fun p => eta p + t * v p) G D)
      (∑ p, etaGrad s f eta dG D p * v p) 0 := by
  have hdir : ∀ p, HasDerivAt (fun t : ℝ => eta p + t * v p) (v p) 0 := fun p =>
    (((hasDerivAt_id (0 : ℝ)).mul_const (v p)).const_add (eta p)).congr_deriv (by simp)
  have hgd : ∀ p, HasDerivAt (fun t : ℝ => gDipole s f (fun p => eta p + t * v p) p) (-v p) 0 :=
    fun p => (hdir p).const_sub (s.gt p * f)
  have hGc : ∀ (x y : ℝ) (u : ℝ → ℝ), HasDerivAt u y 0 → u 0 = x →
      HasDerivAt (fun t => G (u t)) (dG x * y) 0 := by
    intro x y u hu hx
    have h := HasDerivAt.comp (0 : ℝ) (h₂ := G) (h := u) (by rw [hx]; exact hG x) hu
    exact h
  set g := gDipole s f eta with hg
  have hg0 : ∀ p, gDipole s f (fun p => eta p + (0 : ℝ) * v p) p = g p := by
    intro p; simp [hg, gDipole]
  have d1 : HasDerivAt (fun t => ∑ p, ∑ q, s.h p q * D p q *
        G ((eta p + t * v p) - (eta q + t * v q)))
      (∑ p, ∑ q, s.h p q * D p q * (dG (eta p - eta q) * (v p - v q))) 0 :=
    HasDerivAt.fun_sum fun p _ => HasDerivAt.fun_sum fun q _ =>
      (hGc _ _ _ ((hdir p).sub (hdir q)) (by simp)).const_mul _
  have d2 : HasDerivAt (fun t => (∑ p, gDipole s f (fun p => eta p + t * v p) p ^ 2 * D p p) /
        s.omega) ((∑ p, (2 * g p * (-v p)) * D p p) / s.omega) 0 :=
    (HasDerivAt.fun_sum fun p _ => ((((hgd p).pow 2).congr_deriv (by
      rw [hg0]; norm_num)).mul_const (D p p))).div_const _
  have d3 : HasDerivAt (fun t => (∑ p, gDipole s f (fun p => eta p + t * v p) p * D p p) ^ 2)
      (2 * (∑ p, g p * D p p) * (∑ p, (-v p) * D p p)) 0 := by
    refine ((HasDerivAt.fun_sum fun p _ => (hgd p).mul_const (D p p)).pow 2).congr_deriv ?_
    simp only [hg0]; norm_num
  have d4 : HasDerivAt (fun t => ∑ p, ∑ q, gDipole s f (fun p => eta p + t * v p) p *
        gDipole s f (fun p => eta p + t * v p) q * D p q ^ 2)
      (∑ p, ∑ q, ((-v p) * g q + g p * (-v q)) * D p q ^ 2) 0 :=
    HasDerivAt.fun_sum fun p _ => HasDerivAt.fun_sum fun q _ =>
      (((hgd p).mul (hgd q)).congr_deriv (by rw [hg0, hg0])).mul_const _
  have d5 : HasDerivAt (fun t => twoEl s (fun p => eta p + t * v p) G D)
      (1 / 2 * ∑ p, ∑ q, ∑ r, ∑ t, dG (eta p - eta q + eta r - eta t) * (v p - v q + v r - v t) *
        ((s.eri p q r t - 1 / 2 * s.eri p t r q) * (D p q * D r t))) 0 :=
    (HasDerivAt.fun_sum fun p _ => HasDerivAt.fun_sum fun q _ => HasDerivAt.fun_sum fun r _ =>
      HasDerivAt.fun_sum fun t _ => (hGc _ _ _ ((((hdir p).sub (hdir q)).add (hdir r)).sub (hdir t))
        (by simp)).mul_const _).const_mul _
  have hE : (fun t => energy s f (fun p => eta p + t * v p) G D) =
      fun t => closedEnergy s f (fun p => eta p + t * v p) G D := by
    funext t; exact energy_closed s f _ G D hD hG0
  rw [hE]
  refine (((d1.add d2).add ((d3.sub (d4.const_mul (1 / 2))).div_const s.omega)).add d5).congr_deriv ?_
  -- collect the terms
  have hdG0 : dG 0 = 0 := by have := hodd 0; rw [neg_zero] at this; linarith
  have c1 : ∑ p, ∑ q, s.h p q * D p q * (dG (eta p - eta q) * (v p - v q)) =
      ∑ p, v p * ∑ q, 2 * h1eDO s f eta p q * D p q * dG (eta p - eta q) := by
    have e1 : ∑ p, ∑ q, s.h p q * D p q * (dG (eta p - eta q) * v q) =
        -∑ p, ∑ q, s.h p q * D p q * (dG (eta p - eta q) * v p) := by
      rw [Finset.sum_comm, ← Finset.sum_neg_distrib]
      refine Finset.sum_congr rfl fun p _ => ?_
      rw [← Finset.sum_neg_distrib]
      refine Finset.sum_congr rfl fun q _ => ?_
      rw [show eta q - eta p = -(eta p - eta q) by ring, hodd, hh q p, hD q p]
      ring
    have e2 : ∀ p q, s.h p q * D p q * (dG (eta p - eta q) * (v p - v q)) =
        s.h p q * D p q * (dG (eta p - eta q) * v p) - s.h p q * D p q * (dG (eta p - eta q) * v q) := by
      intros; ring
    simp only [e2, Finset.sum_sub_distrib]
    rw [e1, sub_neg_eq_add, ← two_mul, Finset.mul_sum]
    refine Finset.sum_congr rfl fun p _ => ?_
    rw [Finset.mul_sum, Finset.mul_sum]
    refine Finset.sum_congr rfl fun q _ => ?_
    unfold h1eDO
    by_cases h : p = q
    · subst h; rw [sub_self, hdG0]; ring
    · rw [if_neg h]; ring
  have c5 : (1 / 2 * ∑ p, ∑ q, ∑ r, ∑ t, dG (eta p - eta q + eta r - eta t) *
        (v p - v q + v r - v t) * ((s.eri p q r t - 1 / 2 * s.eri p t r q) * (D p q * D r t))) =
      ∑ p, v p * twobodyDeta s eta dG D p := by
    have := dir_sum (fun p q r t => dG (eta p - eta q + eta r - eta t) *
      ((s.eri p q r t - 1 / 2 * s.eri p t r q) * (D p q * D r t))) v ?_ ?_
    · have e : ∀ p q r t, dG (eta p - eta q + eta r - eta t) * (v p - v q + v r - v t) *
          ((s.eri p q r t - 1 / 2 * s.eri p t r q) * (D p q * D r t)) =
          dG (eta p - eta q + eta r - eta t) *
          ((s.eri p q r t - 1 / 2 * s.eri p t r q) * (D p q * D r t)) *
          (v p - v q + v r - v t) := by intros; ring
      simp only [e]
      rw [this, ← mul_assoc, Finset.mul_sum]
      refine Finset.sum_congr rfl fun p _ => ?_
      rw [show (1 / 2 * 4 : ℝ) = 2 by norm_num, mul_left_comm]
      congr 1
      unfold twobodyDeta
      rw [Finset.mul_sum]
      refine Finset.sum_congr rfl fun q _ => ?_
      rw [Finset.mul_sum, Finset.sum_mul]
      refine Finset.sum_congr rfl fun r _ => ?_
      rw [Finset.mul_sum, Finset.sum_mul]
      exact Finset.sum_congr rfl fun t _ => by ring
    · intro p q r t
      rw [show eta q - eta p + eta t - eta r = -(eta p - eta q + eta r - eta t) by ring, hodd,
        hD q p, hD t r, he.left p q t r, he.right p q r t]
      have : s.eri q r t p = s.eri p t r q := by
        rw [← he.exch q r t p, he.left p t q r, he.right p t r q]
      rw [this]; ring
    · intro p q r t
      rw [show eta r - eta t + eta p - eta q = eta p - eta q + eta r - eta t by ring,
        he.exch p q r t, he.exch p t r q]
      ring
  rw [c1, c5]
  have c2 : (∑ p, (2 * g p * (-v p)) * D p p) / s.omega =
      ∑ p, v p * (-(2 * D p p * g p / s.omega)) := by
    rw [Finset.sum_div]
    exact Finset.sum_congr rfl fun p _ => by ring
  have c3 : (2 * (∑ p, g p * D p p) * (∑ p, (-v p) * D p p) -
      1 / 2 * ∑ p, ∑ q, ((-v p) * g q + g p * (-v q)) * D p q ^ 2) / s.omega =
      ∑ p, v p * -∑ q, (2 * D p p * D q q - D p q * D q p) * g q / s.omega := by
    have e1 : ∑ p, ∑ q, ((-v p) * g q + g p * (-v q)) * D p q ^ 2 =
        2 * ∑ p, ∑ q, (-v p) * g q * D p q ^ 2 := by
      have : ∀ p q, ((-v p) * g q + g p * (-v q)) * D p q ^ 2 =
        (-v p) * g q * D p q ^ 2 + g p * (-v q) * D p q ^ 2 := by intros; ring
      simp only [this, Finset.sum_add_distrib]
      rw [two_mul]
      congr 1
      rw [Finset.sum_comm]
      exact Finset.sum_congr rfl fun p _ => Finset.sum_congr rfl fun q _ => by rw [hD q p]; ring
    rw [e1, ← mul_assoc, show (1 / 2 * 2 : ℝ) = 1 by norm_num, one_mul]
    have e3 : 2 * (∑ p, g p * D p p) * (∑ p, (-v p) * D p p) =
        ∑ p, ∑ q, 2 * ((-v p) * D p p) * (g q * D q q) := by
      have : ∀ p, ∑ q, 2 * ((-v p) * D p p) * (g q * D q q) =
          2 * ((-v p) * D p p) * ∑ q, g q * D q q := fun p => (Finset.mul_sum _ _ _).symm
      simp only [this]
      rw [← Finset.sum_mul, ← Finset.mul_sum]
      ring
    rw [e3, ← Finset.sum_sub_distrib, Finset.sum_div]
    refine Finset.sum_congr rfl fun p _ => ?_
    rw [← Finset.sum_sub_distrib, Finset.sum_div, mul_neg, Finset.mul_sum, ← Finset.sum_neg_distrib]
    exact Finset.sum_congr rfl fun q _ => by rw [hD q p]; ring
  rw [c2, c3, ← Finset.sum_add_distrib, ← Finset.sum_add_distrib, ← Finset.sum_add_distrib]
  refine Finset.sum_congr rfl fun p _ => ?_
  unfold etaGrad onebodyDeta
  rw [Finset.sum_sub_distrib, ← hg]
  ring

/-! ### The Franck-Condon factor as a function of the displacement -/

theorem tmpFac_pos (omega F : ℝ) (ho : 0 < omega) : 0 < tmpFac omega F := div_pos (Real.exp_pos F) ho

theorem tmpFac_deriv (omega F : ℝ) : HasDerivAt (fun F => tmpFac omega F) (tmpFac omega F) F :=
  (Real.hasDerivAt_exp F).div_const omega

/-- What is needed of the photon state for more than one retained photon state: unit trace and no
coherence between occupations of different parity. -/
structure ParityState (mdim : ℕ) (pdm : ℕ → ℕ → ℝ) : Prop where
  trace : ∑ m ∈ Finset.range mdim, pdm m m = 1
  parity : ∀ m n, n < m → m < mdim → Odd (m - n) → pdm m n = 0

theorem expVal_even (mdim : ℕ) (pdm : ℕ → ℕ → ℝ) (h : ParityState mdim pdm) (A : ℝ) :
    Boson.displacementExpVal mdim (-A) pdm true = Boson.displacementExpVal mdim A pdm true := by
  unfold Boson.displacementExpVal Boson.gfact
  simp only [neg_sq, neg_neg, if_true]
  congr 2
  refine congrArg List.sum (List.map_congr_left fun q hq => ?_)
  simp only [Boson.trilStrict, List.mem_flatMap, List.mem_range, List.mem_map] at hq
  obtain ⟨m, hm, k, hk, rfl⟩ := hq
  rcases Nat.even_or_odd (m - k) with he | ho
  · rw [he.neg_pow]
  · rw [h.parity m k hk hm ho]; ring

theorem expVal_zero (mdim : ℕ) (pdm : ℕ → ℕ → ℝ) (h : ParityState mdim pdm) :
    Boson.displacementExpVal mdim 0 pdm true = 1 := by
  unfold Boson.displacementExpVal Boson.gfact
  have h0 : ∀ m : ℕ, Boson.laguerre m 0 (0 ^ 2) = 1 := by
    intro m
    unfold Boson.laguerre
    rw [Finset.sum_eq_single 0]
    · simp
    · intro k _ hk; simp [hk]
    · simp
  have h1 : ((Boson.trilStrict mdim).map fun p : ℕ × ℕ =>
      2 * pdm p.1 p.2 * Real.sqrt ((p.2.factorial : ℝ) / p.1.factorial) * (-0) ^ (p.1 - p.2) *
        Boson.laguerre p.2 (p.1 - p.2) (0 ^ 2)).sum = 0 := by
    apply List.sum_eq_zero
    intro x hx
    obtain ⟨q, hq, rfl⟩ := List.mem_map.1 hx
    simp only [Boson.trilStrict, List.mem_flatMap, List.mem_range, List.mem_map] at hq
    obtain ⟨m, hm, k, hk, rfl⟩ := hq
    rw [neg_zero, zero_pow (by simp only; omega)]; ring
  rw [h1]
  simp only [h0, mul_one, Boson.range_map_sum, h.trace]
  norm_num

/-- One photon state, or several in a state of definite parity. -/
def GoodState (mdim : ℕ) (pdm : ℕ → ℕ → ℝ) : Prop := mdim > 1 → ParityState mdim pdm

theorem factor_even (omega F : ℝ) (mdim : ℕ) (pdm : ℕ → ℕ → ℝ) (h : GoodState mdim pdm) (x : ℝ) :
    fcFactor omega F mdim pdm (-x) = fcFactor omega F mdim pdm x := by
  unfold fcFactor
  split_ifs with hm
  · rw [Boson.packed_eq_direct, Boson.packed_eq_direct, mul_neg, expVal_even _ _ (h hm)]
  · congr 1; ring

theorem factor_zero (omega F : ℝ) (mdim : ℕ) (pdm : ℕ → ℕ → ℝ) (h : GoodState mdim pdm) :
    fcFactor omega F mdim pdm 0 = 1 := by
  unfold fcFactor
  split_ifs with hm
  · rw [Boson.packed_eq_direct, mul_zero, expVal_zero _ _ (h hm)]
  · simp

/-- The derivative of the factor along any curve of arguments, in terms of
`displacement_deriv`. -/
theorem multi_curve (mdim : ℕ) (hm : mdim > 1) (pdm : ℕ → ℕ → ℝ) (h : GoodState mdim pdm)
    (A : ℝ → ℝ) (A' t : ℝ) (hA : HasDerivAt A A' t) :
    HasDerivAt (fun t => Boson.displacementMatrix mdim (A t) pdm true)
      (Boson.displacementDeriv mdim (A t) pdm * A') t := by
  have hd : HasDerivAt (fun A => Boson.displacementExpVal mdim A pdm true)
      (Boson.displacementDeriv mdim (A t) pdm) (A t) :=
    Boson.displacement_deriv_partial mdim (A t) pdm fun n hn =>
      (h hm).parity (n + 1) n (by omega) hn (by rw [Nat.add_sub_cancel_left]; exact odd_one)
  simp only [Boson.packed_eq_direct]
  exact hd.comp t hA

theorem vac_curve (A : ℝ → ℝ) (A' t : ℝ) (hA : HasDerivAt A A' t) :
    HasDerivAt (fun t => Real.exp (-(1 / 2) * A t ^ 2)) (-Real.exp (-(1 / 2) * A t ^ 2) * (A t * A')) t := by
  refine ((hA.pow 2).const_mul (-(1 / 2) : ℝ)).exp.congr_deriv ?_
  simp only [Pi.pow_apply]
  push_cast
  ring

/-- The derivative the displacement gradient needs: the code's formula for one photon state, the
code's formula times `exp(F) / omega` for several. -/
noncomputable def trueDeriv (omega F : ℝ) (mdim : ℕ) (pdm : ℕ → ℕ → ℝ) (x : ℝ) : ℝ :=
  if mdim > 1 then tmpFac omega F * fcDeriv omega F mdim pdm x else fcDeriv omega F mdim pdm x

theorem factor_deriv (omega F : ℝ) (mdim : ℕ) (pdm : ℕ → ℕ → ℝ) (h : GoodState mdim pdm) (x : ℝ) :
    HasDerivAt (fcFactor omega F mdim pdm) (trueDeriv omega F mdim pdm x) x := by
  have hl : HasDerivAt (fun x => tmpFac omega F * x) (tmpFac omega F) x :=
    ((hasDerivAt_id x).const_mul _).congr_deriv (mul_one _)
  unfold trueDeriv fcDeriv fcFactor
  split_ifs with hm
  · exact (multi_curve mdim hm pdm h _ _ x hl).congr_deriv (mul_comm _ _)
  · exact (vac_curve _ _ x hl).congr_deriv (by ring)

theorem deriv_odd (omega F : ℝ) (mdim : ℕ) (pdm : ℕ → ℕ → ℝ) (h : GoodState mdim pdm) (x : ℝ) :
    trueDeriv omega F mdim pdm (-x) = -trueDeriv omega F mdim pdm x := by
  have h1 := (factor_deriv omega F mdim pdm h (-x)).comp x (hasDerivAt_neg x)
  have h2 : HasDerivAt (fcFactor omega F mdim pdm) (trueDeriv omega F mdim pdm (-x) * -1) x := by
    refine h1.congr_of_eventuallyEq (Filter.Eventually.of_forall fun y => ?_)
    exact (factor_even omega F mdim pdm h y).symm
  have := h2.unique (factor_deriv omega F mdim pdm h x)
  linarith

/-- C40, exact statement of what the derivative is: for every direction `v`, the energy changes at
the rate `Σ_p v_p eta_grad_p` where the gradient is assembled from `trueDeriv`. -/
theorem eta_derivative (s : Sys n) (f F : ℝ) (mdim : ℕ) (pdm : ℕ → ℕ → ℝ) (eta v : n → ℝ)
    (D : n → n → ℝ) (hs : GoodState mdim pdm) (hD : ∀ p q, D p q = D q p)
    (hh : ∀ p q, s.h p q = s.h q p) (he : EriSymm s.eri) :
    HasDerivAt (fun t => energy s f (fun p => eta p + t * v p) (fcFactor s.omega F mdim pdm) D)
      (∑ p, etaGrad s f eta (trueDeriv s.omega F mdim pdm) D p * v p) 0 :=
  eta_gradient_general s f eta v _ _ D (factor_zero _ _ _ _ hs) (factor_deriv _ _ _ _ hs)
    (deriv_odd _ _ _ _ hs) hD hh he

/-- C40 (part).  The gradient returned by the code is the exact derivative of the energy in every
direction, for every basis size, integrals, density, displacement and squeezing, when only the
photon vacuum is retained, or when several photon states are retained but `exp(F) = omega`.
Missing: several photon states and `exp(F) ≠ omega` (there it is false, see below). -/
theorem eta_gradient_partial (s : Sys n) (f F : ℝ) (mdim : ℕ) (pdm : ℕ → ℕ → ℝ) (eta v : n → ℝ)
    (D : n → n → ℝ) (hs : GoodState mdim pdm) (hsc : mdim > 1 → Real.exp F = s.omega)
    (hD : ∀ p q, D p q = D q p) (hh : ∀ p q, s.h p q = s.h q p) (he : EriSymm s.eri) :
    HasDerivAt (fun t => energy s f (fun p => eta p + t * v p) (fcFactor s.omega F mdim pdm) D)
      (∑ p, etaGrad s f eta (fcDeriv s.omega F mdim pdm) D p * v p) 0 := by
  have h := eta_derivative s f F mdim pdm eta v D hs hD hh he
  have : trueDeriv s.omega F mdim pdm = fcDeriv s.omega F mdim pdm := by
    funext x
    unfold trueDeriv
    split_ifs with hm
    · unfold tmpFac
      rw [← hsc hm, div_self (Real.exp_pos F).ne', one_mul]
    · rfl
  rwa [this] at h

/-- Two orbitals coupled by hopping 1, full density, displacements (1, 0). -/
def sysTwo (omega : ℝ) : Sys (Fin 2) := ⟨fun p q => if p = q then 0 else 1, fun _ => 0, fun _ _ _ _ => 0, omega⟩

theorem eriSymm_zero : EriSymm (fun _ _ _ _ : n => (0 : ℝ)) := ⟨fun _ _ _ _ => rfl, fun _ _ _ _ => rfl, fun _ _ _ _ => rfl⟩

example : GoodState 1 (fun _ _ => 1) ∧ (∀ p q, (sysTwo 2).h p q = (sysTwo 2).h q p) ∧
    EriSymm (sysTwo 2).eri := by
  refine ⟨fun h => absurd h (by norm_num), ?_, eriSymm_zero⟩
  intro p q
  simp [sysTwo, eq_comm]

theorem vacuum_good : GoodState 2 vacuum := fun _ => by
  refine ⟨by simp [vacuum], ?_⟩
  intro m k hk hm _
  rw [vacuum, if_neg (by omega)]

/-- C40 fails: with two retained photon states in the vacuum, no squeezing and frequency 2, the
returned gradient is not the derivative of the energy. -/
theorem eta_gradient_fails :
    ∃ (s : Sys (Fin 2)) (eta v : Fin 2 → ℝ) (D : Fin 2 → Fin 2 → ℝ) (pdm : ℕ → ℕ → ℝ),
      s.omega = 2 ∧ GoodState 2 pdm ∧ (∀ p q, D p q = D q p) ∧ (∀ p q, s.h p q = s.h q p) ∧
      EriSymm s.eri ∧
      ¬ HasDerivAt (fun t => energy s 1 (fun p => eta p + t * v p) (fcFactor s.omega 0 2 pdm) D)
        (∑ p, etaGrad s 1 eta (fcDeriv s.omega 0 2 pdm) D p * v p) 0 := by
  have hh : ∀ p q, (sysTwo 2).h p q = (sysTwo 2).h q p := by intro p q; simp [sysTwo, eq_comm]
  refine ⟨sysTwo 2, ![1, 0], ![1, 0], fun _ _ => 1, vacuum, rfl, vacuum_good, fun _ _ => rfl, hh,
    eriSymm_zero, fun hd => ?_⟩
  have ht := eta_derivative (sysTwo 2) 1 0 2 vacuum ![1, 0] ![1, 0] (fun _ _ => 1) vacuum_good
    (fun _ _ => rfl) hh eriSymm_zero
  have hu := hd.unique ht
  have hval : fcDeriv 2 0 2 vacuum 1 = -(1 / 2) * Real.exp (-(1 / 8)) := by
    norm_num [fcDeriv, Boson.displacementDeriv, Boson.trilStrict, Boson.derivPair, Boson.derivDiag,
      List.range_succ, tmpFac, vacuum, Boson.laguerre]
  have hval0 : fcDeriv 2 0 2 vacuum 0 = 0 := by
    norm_num [fcDeriv, Boson.displacementDeriv, Boson.trilStrict, Boson.derivPair, Boson.derivDiag,
      List.range_succ, tmpFac, vacuum, Boson.laguerre]
  have h2 : (2 : ℕ) > 1 := by norm_num
  simp only [etaGrad, onebodyDeta, twobodyDeta, Fin.sum_univ_two, h1eDO, sysTwo, gDipole, trueDeriv,
    if_pos h2] at hu
  simp [hval, hval0, tmpFac] at hu

/-! ### C41 -/

/-- Derivative of the factor with respect to the squeezing parameter; the code evaluates its
formula at the reversed difference. -/
theorem factor_deriv_squeezing (omega F : ℝ) (mdim : ℕ) (pdm : ℕ → ℕ → ℝ) (h : GoodState mdim pdm)
    (ho : 0 < omega) (x : ℝ) :
    HasDerivAt (fun F => fcFactor omega F mdim pdm x) (fcDerivSq omega F mdim pdm (-x)) F := by
  have hl : HasDerivAt (fun F => tmpFac omega F * x) (tmpFac omega F * x) F :=
    (tmpFac_deriv omega F).mul_const x
  unfold fcDerivSq fcFactor
  split_ifs with hm
  · refine (multi_curve mdim hm pdm h _ _ F hl).congr_deriv ?_
    have hodd := deriv_odd omega F mdim pdm h x
    unfold trueDeriv fcDeriv at hodd
    simp only [if_pos hm] at hodd
    have hne := (tmpFac_pos omega F ho).ne'
    have : Boson.displacementDeriv mdim (tmpFac omega F * -x) pdm =
        -Boson.displacementDeriv mdim (tmpFac omega F * x) pdm := by
      apply mul_left_cancel₀ hne; linarith
    unfold Boson.displacementDerivScaled
    rw [this]; ring
  · refine (vac_curve _ _ F hl).congr_deriv ?_
    rw [mul_neg, neg_sq]; ring

/-- Derivative of the factor with respect to the fraction `f`, when the displacements are `f`
times fixed values. -/
theorem factor_deriv_fraction (omega F : ℝ) (mdim : ℕ) (pdm : ℕ → ℕ → ℝ) (h : GoodState mdim pdm)
    (f x : ℝ) (hf : f ≠ 0) :
    HasDerivAt (fun f => fcFactor omega F mdim pdm (f * x)) (fcDerivF omega F mdim pdm f (f * x)) f := by
  have hl : HasDerivAt (fun f => tmpFac omega F * (f * x)) (tmpFac omega F * x) f :=
    (((hasDerivAt_id f).mul_const x).const_mul (tmpFac omega F)).congr_deriv (by simp)
  unfold fcDerivF fcFactor
  split_ifs with hm
  · refine (multi_curve mdim hm pdm h _ _ f hl).congr_deriv ?_
    unfold Boson.displacementDerivScaled
    field_simp
  · refine (vac_curve _ _ f hl).congr_deriv ?_
    field_simp

/-- The electronic part of the squeezing gradient, for any family of factors. -/
theorem squeezing_general (s : Sys n) (f F : ℝ) (eta : n → ℝ) (G : ℝ → ℝ → ℝ) (dS : ℝ → ℝ)
    (D : n → n → ℝ) (hD : ∀ p q, D p q = D q p) (hG0 : ∀ F, G F 0 = 1)
    (hG : ∀ x, HasDerivAt (fun F => G F x) (dS (-x)) F) :
    HasDerivAt (fun F => energy s f eta (G F) D) (vsqGrad s f eta dS D) F := by
  have hE : (fun F => energy s f eta (G F) D) = fun F => closedEnergy s f eta (G F) D := by
    funext F; exact energy_closed s f eta (G F) D hD (hG0 F)
  have hS0 : dS 0 = 0 := by
    have h1 := hG 0
    simp only [hG0, neg_zero] at h1
    exact h1.unique (hasDerivAt_const F 1)
  rw [hE]
  have d1 : HasDerivAt (fun F => ∑ p, ∑ q, s.h p q * D p q * G F (eta p - eta q))
      (∑ p, ∑ q, s.h p q * D p q * dS (-(eta p - eta q))) F :=
    HasDerivAt.fun_sum fun p _ => HasDerivAt.fun_sum fun q _ => (hG _).const_mul _
  have d5 : HasDerivAt (fun F => twoEl s eta (G F) D)
      (1 / 2 * ∑ p, ∑ q, ∑ r, ∑ t, dS (-(eta p - eta q + eta r - eta t)) *
        ((s.eri p q r t - 1 / 2 * s.eri p t r q) * (D p q * D r t))) F :=
    (HasDerivAt.fun_sum fun p _ => HasDerivAt.fun_sum fun q _ => HasDerivAt.fun_sum fun r _ =>
      HasDerivAt.fun_sum fun t _ => (hG _).mul_const _).const_mul _
  refine (((d1.add_const _).add_const _).add d5).congr_deriv ?_
  unfold vsqGrad
  congr 1
  · refine Finset.sum_congr rfl fun p _ => Finset.sum_congr rfl fun q _ => ?_
    unfold h1eDO
    by_cases h : p = q
    · subst h; simp [hS0]
    · rw [if_neg h, neg_sub]; ring
  · rw [Finset.mul_sum, Finset.sum_div]
    refine Finset.sum_congr rfl fun p _ => ?_
    rw [Finset.mul_sum, Finset.sum_div]
    refine Finset.sum_congr rfl fun q _ => ?_
    rw [Finset.mul_sum, Finset.sum_mul, Finset.sum_div]
    refine Finset.sum_congr rfl fun r _ => ?_
    rw [Finset.mul_sum, Finset.sum_mul, Finset.sum_div]
    refine Finset.sum_congr rfl fun t _ => ?_
    rw [show -(eta p - eta q + eta r - eta t) = eta q - eta p + eta t - eta r by ring]
    ring

/-- C41, squeezing.  The assembled squeezing gradient (electronic part plus photon part) is the
derivative of the total energy (electronic plus photon energy) with respect to the squeezing
parameter, at fixed density and photon coefficients. -/
theorem squeezing_gradient (s : Sys n) (ho : 0 < s.omega) (f F : ℝ) (mdim : ℕ) (pdm : ℕ → ℕ → ℝ)
    (v : ℕ → ℝ) (eta : n → ℝ) (D : n → n → ℝ) (hs : GoodState mdim pdm)
    (hD : ∀ p q, D p q = D q p) :
    HasDerivAt (fun F => energy s f eta (fcFactor s.omega F mdim pdm) D +
        Photon.modeEnergy s.omega F mdim v)
      (vsqGrad s f eta (fcDerivSq s.omega F mdim pdm) D + Photon.modeEnergyGrad s.omega F mdim v) F :=
  (squeezing_general s f F eta (fun F => fcFactor s.omega F mdim pdm) _ D hD
    (fun F => factor_zero _ F _ _ hs) fun x => factor_deriv_squeezing _ _ _ _ hs ho x).add
    (Photon.energy_gradient s.omega F mdim v)

/-- C41, fraction.  Along displacements that are `f` times fixed values `eta0`, the assembled
gradient is the derivative of the energy with respect to `f`. -/
theorem fraction_gradient (s : Sys n) (f F : ℝ) (hf : |f| > 1e-5) (mdim : ℕ) (pdm : ℕ → ℕ → ℝ)
    (eta0 : n → ℝ) (D : n → n → ℝ) (hs : GoodState mdim pdm) (hD : ∀ p q, D p q = D q p) :
    HasDerivAt (fun f => energy s f (fun p => f * eta0 p) (fcFactor s.omega F mdim pdm) D)
      (vlfGrad s f (fun p => f * eta0 p) (fcDerivF s.omega F mdim pdm f) D) f := by
  have hf0 : f ≠ 0 := by
    rintro rfl; norm_num at hf
  set G := fcFactor s.omega F mdim pdm with hGdef
  set dF := fcDerivF s.omega F mdim pdm f with hdF
  have hG0 : G 0 = 1 := factor_zero _ F _ _ hs
  have hG : ∀ x, HasDerivAt (fun f => G (f * x)) (dF (f * x)) f := fun x =>
    factor_deriv_fraction _ _ _ _ hs f x hf0
  have hF0 : dF 0 = 0 := by
    have h1 := hG 0
    simp only [mul_zero, hG0] at h1
    exact h1.unique (hasDerivAt_const f 1)
  have hE : (fun f => energy s f (fun p => f * eta0 p) G D) =
      fun f => closedEnergy s f (fun p => f * eta0 p) G D := by
    funext f; exact energy_closed s f _ G D hD hG0
  rw [hE]
  have hg : ∀ f p, gDipole s f (fun p => f * eta0 p) p = f * (s.gt p - eta0 p) := by
    intro f p; unfold gDipole; ring
  set k := fun p => s.gt p - eta0 p with hk
  have hclosed : (fun f => closedEnergy s f (fun p => f * eta0 p) G D) = fun f =>
      (∑ p, ∑ q, s.h p q * D p q * G (f * (eta0 p - eta0 q))) +
      (f ^ 2 * ((∑ p, k p ^ 2 * D p p) + (∑ p, k p * D p p) ^ 2 -
        1 / 2 * ∑ p, ∑ q, k p * k q * D p q ^ 2) / s.omega) +
      1 / 2 * ∑ p, ∑ q, ∑ r, ∑ t, G (f * (eta0 p - eta0 q + eta0 r - eta0 t)) *
        ((s.eri p q r t - 1 / 2 * s.eri p t r q) * (D p q * D r t)) := by
    funext f
    unfold closedEnergy twoEl
    simp only [show ∀ p, s.gt p * f - f * eta0 p = gDipole s f (fun p => f * eta0 p) p from fun _ => rfl]
    have e1 : ∑ p, gDipole s f (fun p => f * eta0 p) p ^ 2 * D p p = f ^ 2 * ∑ p, k p ^ 2 * D p p := by
      rw [Finset.mul_sum]
      exact Finset.sum_congr rfl fun p _ => by rw [hg]; ring
    have e2 : ∑ p, gDipole s f (fun p => f * eta0 p) p * D p p = f * ∑ p, k p * D p p := by
      rw [Finset.mul_sum]
      exact Finset.sum_congr rfl fun p _ => by rw [hg]; ring
    have e3 : ∑ p, ∑ q, gDipole s f (fun p => f * eta0 p) p * gDipole s f (fun p => f * eta0 p) q *
        D p q ^ 2 = f ^ 2 * ∑ p, ∑ q, k p * k q * D p q ^ 2 := by
      simp only [Finset.mul_sum]
      exact Finset.sum_congr rfl fun p _ => Finset.sum_congr rfl fun q _ => by rw [hg, hg]; ring
    have e4 : ∀ p q, f * eta0 p - f * eta0 q = f * (eta0 p - eta0 q) := by intros; ring
    have e5 : ∀ p q r t, f * (eta0 p - eta0 q) + f * eta0 r - f * eta0 t =
        f * (eta0 p - eta0 q + eta0 r - eta0 t) := by intros; ring
    rw [e1, e2, e3]
    simp only [e4, e5]
    ring
  rw [hclosed]
  have d1 : HasDerivAt (fun f => ∑ p, ∑ q, s.h p q * D p q * G (f * (eta0 p - eta0 q)))
      (∑ p, ∑ q, s.h p q * D p q * dF (f * (eta0 p - eta0 q))) f :=
    HasDerivAt.fun_sum fun p _ => HasDerivAt.fun_sum fun q _ => (hG _).const_mul _
  have d2 : HasDerivAt (fun f : ℝ => f ^ 2 * ((∑ p, k p ^ 2 * D p p) + (∑ p, k p * D p p) ^ 2 -
        1 / 2 * ∑ p, ∑ q, k p * k q * D p q ^ 2) / s.omega)
      (2 * f * ((∑ p, k p ^ 2 * D p p) + (∑ p, k p * D p p) ^ 2 -
        1 / 2 * ∑ p, ∑ q, k p * k q * D p q ^ 2) / s.omega) f :=
    (((hasDerivAt_pow 2 f).congr_deriv (by norm_num)).mul_const _).div_const _
  have d5 : HasDerivAt (fun f => 1 / 2 * ∑ p, ∑ q, ∑ r, ∑ t,
        G (f * (eta0 p - eta0 q + eta0 r - eta0 t)) *
        ((s.eri p q r t - 1 / 2 * s.eri p t r q) * (D p q * D r t)))
      (1 / 2 * ∑ p, ∑ q, ∑ r, ∑ t, dF (f * (eta0 p - eta0 q + eta0 r - eta0 t)) *
        ((s.eri p q r t - 1 / 2 * s.eri p t r q) * (D p q * D r t))) f :=
    (HasDerivAt.fun_sum fun p _ => HasDerivAt.fun_sum fun q _ => HasDerivAt.fun_sum fun r _ =>
      HasDerivAt.fun_sum fun t _ => (hG _).mul_const _).const_mul _
  refine ((d1.add d2).add d5).congr_deriv ?_
  unfold vlfGrad
  simp only [if_pos hf]
  have t1 : ∑ p, ∑ q, h1eDO s f (fun p => f * eta0 p) p q * dF (f * eta0 p - f * eta0 q) * D p q =
      ∑ p, ∑ q, s.h p q * D p q * dF (f * (eta0 p - eta0 q)) := by
    refine Finset.sum_congr rfl fun p _ => Finset.sum_congr rfl fun q _ => ?_
    unfold h1eDO
    rw [show f * eta0 p - f * eta0 q = f * (eta0 p - eta0 q) by ring]
    by_cases h : p = q
    · subst h; simp [hF0]
    · rw [if_neg h]; ring
  have t2 : ∑ p, D p p * gDipole s f (fun p => f * eta0 p) p ^ 2 = f ^ 2 * ∑ p, k p ^ 2 * D p p := by
    rw [Finset.mul_sum]
    exact Finset.sum_congr rfl fun p _ => by rw [hg]; ring
  have t3 : ∑ p, ∑ q, (D p p * gDipole s f (fun p => f * eta0 p) p) *
      (D q q * gDipole s f (fun p => f * eta0 p) q) = f ^ 2 * (∑ p, k p * D p p) ^ 2 := by
    rw [sq (∑ p, k p * D p p), Finset.sum_mul_sum, Finset.mul_sum]
    refine Finset.sum_congr rfl fun p _ => ?_
    rw [Finset.mul_sum]
    exact Finset.sum_congr rfl fun q _ => by rw [hg, hg]; ring
  have t4 : ∑ p, ∑ q, D p q * D p q * gDipole s f (fun p => f * eta0 p) p *
      gDipole s f (fun p => f * eta0 p) q = f ^ 2 * ∑ p, ∑ q, k p * k q * D p q ^ 2 := by
    simp only [Finset.mul_sum]
    exact Finset.sum_congr rfl fun p _ => Finset.sum_congr rfl fun q _ => by rw [hg, hg]; ring
  have t5 : (∑ p, ∑ q, (∑ r, ∑ t, dF (f * eta0 p - f * eta0 q + f * eta0 r - f * eta0 t) *
      (2 * s.eri p q r t - s.eri p t r q) * D r t) * D p q) / 4 =
      1 / 2 * ∑ p, ∑ q, ∑ r, ∑ t, dF (f * (eta0 p - eta0 q + eta0 r - eta0 t)) *
        ((s.eri p q r t - 1 / 2 * s.eri p t r q) * (D p q * D r t)) := by
    rw [Finset.mul_sum, Finset.sum_div]
    refine Finset.sum_congr rfl fun p _ => ?_
    rw [Finset.mul_sum, Finset.sum_div]
    refine Finset.sum_congr rfl fun q _ => ?_
    rw [Finset.mul_sum, Finset.sum_mul, Finset.sum_div]
    refine Finset.sum_congr rfl fun r _ => ?_
    rw [Finset.mul_sum, Finset.sum_mul, Finset.sum_div]
    refine Finset.sum_congr rfl fun t _ => ?_
    rw [show f * eta0 p - f * eta0 q + f * eta0 r - f * eta0 t =
      f * (eta0 p - eta0 q + eta0 r - eta0 t) by ring]
    ring
  simp only [t1, t2, t3, t4, t5]
  by_cases ho : s.omega = 0
  · simp [ho]
  · field_simp
    ring

/-- The gradient in the fraction is not the derivative at fixed displacements: displacements and
fraction are updated independently, and at fixed displacement the sign can even be wrong. -/
theorem fraction_gradient_fails :
    ∃ (s : Sys (Fin 1)) (eta : Fin 1 → ℝ) (D : Fin 1 → Fin 1 → ℝ), s.omega = 1 ∧
      HasDerivAt (fun f => energy s f eta (fcFactor s.omega 0 1 fun _ _ => 1) D) (-3) 1 ∧
      vlfGrad s 1 eta (fcDerivF s.omega 0 1 (fun _ _ => 1) 1) D = 3 := by
  refine ⟨⟨fun _ _ => 0, fun _ => 1, fun _ _ _ _ => 0, 1⟩, fun _ => 2, fun _ _ => 1, rfl, ?_, ?_⟩
  · have : (fun f => energy (n := Fin 1) ⟨fun _ _ => 0, fun _ => 1, fun _ _ _ _ => 0, 1⟩ f (fun _ => 2)
        (fcFactor 1 0 1 fun _ _ => 1) (fun _ _ => 1)) = fun f : ℝ => 3 / 2 * (f - 2) ^ 2 := by
      funext f
      rw [energy_closed _ _ _ _ _ (fun _ _ => rfl)
        (factor_zero _ _ _ _ (fun h => absurd h (by norm_num)))]
      simp [closedEnergy, twoEl, gDipole]
      ring
    rw [this]
    refine ((((hasDerivAt_id (1 : ℝ)).sub_const 2).pow 2).const_mul (3 / 2)).congr_deriv ?_
    norm_num
  · have h5 : |(1 : ℝ)| > 1e-5 := by norm_num
    have h5' : (1e-5 : ℝ) < 1 := by norm_num
    simp [vlfGrad, gDipole, h1eDO, fcDerivF]
    norm_num

/-! ### C82: Cholesky tensor or four-index integrals -/

/-- C82.  If the four-index integrals are the contraction of the Cholesky tensor, then potential,
displacement gradient and squeezing gradient do not depend on which of the two is used, for every
density, displacement, squeezing and photon state of definite parity. -/
theorem cholesky_agrees {X : Type*} [Fintype X] (L : X → n → n → ℝ) (hL : ∀ x p q, L x p q = L x q p)
    (s : Sys n) (he : ∀ p q r t, s.eri p q r t = ∑ x, L x p q * L x r t) (F : ℝ)
    (mdim : ℕ) (pdm : ℕ → ℕ → ℝ) (hs : GoodState mdim pdm) (eta : n → ℝ) (D : n → n → ℝ)
    (hD : ∀ p q, D p q = D q p) (f : ℝ) :
    (∀ p q, vChol L eta (fcFactor s.omega F mdim pdm) D p q =
      vEri s eta (fcFactor s.omega F mdim pdm) D p q) ∧
    (∀ p, twobodyDetaChol L eta (fcDeriv s.omega F mdim pdm) D p =
      twobodyDeta s eta (fcDeriv s.omega F mdim pdm) D p) ∧
    (∑ p, ∑ q, h1eDO s f eta p q * fcDerivSq s.omega F mdim pdm (eta q - eta p) * D p q) +
      vsqTwoChol L eta (fcDerivSq s.omega F mdim pdm) D =
      vsqGrad s f eta (fcDerivSq s.omega F mdim pdm) D := by
  refine ⟨?_, ?_, ?_⟩
  · intro p q
    have hM : ∀ p q, ∑ r, ∑ t, fcFactor s.omega F mdim pdm (eta p - eta q + eta r - eta t) *
        (s.eri p q r t - 1 / 2 * s.eri p t r q) * D r t =
        vChol L eta (fcFactor s.omega F mdim pdm) D p q := by
      intro p q
      unfold vChol
      refine Finset.sum_congr rfl fun r _ => Finset.sum_congr rfl fun t _ => ?_
      rw [he, he, show eta r - eta t + (eta p - eta q) = eta p - eta q + eta r - eta t by ring]
      ring
    have hsym : vChol L eta (fcFactor s.omega F mdim pdm) D q p =
        vChol L eta (fcFactor s.omega F mdim pdm) D p q := by
      unfold vChol
      rw [Finset.sum_comm]
      refine Finset.sum_congr rfl fun r _ => Finset.sum_congr rfl fun t _ => ?_
      rw [show eta t - eta r + (eta q - eta p) = -(eta r - eta t + (eta p - eta q)) by ring,
        factor_even _ _ _ _ hs, hD t r]
      congr 3
      · exact Finset.sum_congr rfl fun x _ => by rw [hL x q p, hL x t r]
      · congr 1
        exact Finset.sum_congr rfl fun x _ => by rw [hL x q r, hL x t p, mul_comm]
    unfold vEri
    simp only [hM, hsym]
    ring
  · intro p
    unfold twobodyDetaChol twobodyDeta
    refine Finset.sum_congr rfl fun q _ => ?_
    congr 1
    refine Finset.sum_congr rfl fun r _ => Finset.sum_congr rfl fun t _ => ?_
    rw [he, he, show eta r - eta t + (eta p - eta q) = eta p - eta q + eta r - eta t by ring]
    ring
  · unfold vsqTwoChol vsqGrad
    congr 1
    rw [Finset.sum_div]
    refine Finset.sum_congr rfl fun p _ => ?_
    rw [Finset.sum_div]
    refine Finset.sum_congr rfl fun q _ => ?_
    congr 2
    refine Finset.sum_congr rfl fun r _ => Finset.sum_congr rfl fun t _ => ?_
    rw [he, he, show eta t - eta r + (eta q - eta p) = eta q - eta p + eta t - eta r by ring]
    ring

example : ∃ (L : Fin 1 → Fin 2 → Fin 2 → ℝ) (s : Sys (Fin 2)), (∀ x p q, L x p q = L x q p) ∧
    (∀ p q r t, s.eri p q r t = ∑ x, L x p q * L x r t) ∧ s.eri 0 1 0 1 = 4 := by
  refine ⟨fun _ p q => if p = q then 1 else 2,
    ⟨fun _ _ => 0, fun _ => 0, fun p q r t => (if p = q then 1 else 2) * (if r = t then 1 else 2), 1⟩,
    fun x p q => by simp [eq_comm], fun p q r t => by simp, by norm_num⟩

end OpenMS.ScQed
