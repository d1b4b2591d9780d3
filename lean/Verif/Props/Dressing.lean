import Verif.Props.Photon
import Mathlib.Tactic.Module
import Mathlib.LinearAlgebra.Matrix.NonsingularInverse
import Mathlib.Analysis.Calculus.Deriv.Pow
import Mathlib.Analysis.Calculus.Deriv.Add
import Mathlib.Analysis.Calculus.Deriv.Mul

/-!
# Properties of the dressed one-electron term and the dipole self-energy (C35, C36, C81)
-/

namespace OpenMS.Photon

open Matrix

set_option linter.unusedSectionVars false

variable {X n : Type*} [Fintype X] [Fintype n]

/-! ### C35 -/

theorem gvar2_deriv (addDse : Bool) (f : ℝ) :
    HasDerivAt (fun t => gvar2 true addDse (f + t)) (dgvar f) 0 := by
  have h : HasDerivAt (fun t : ℝ => f + t) 1 0 := (hasDerivAt_id (0 : ℝ)).const_add f
  cases addDse
  · have h2 := h.mul (h.sub_const 2)
    refine (h2.congr_deriv ?_)
    simp [dgvar]; ring
  · have h2 := (h.const_sub 1).pow 2
    refine (h2.congr_deriv ?_)
    simp [dgvar]

/-- C35, part: the returned gradient is the derivative of the one-electron term along a common
change of all fractions; with one mode this is the derivative with respect to its fraction.
Missing: with several modes it is not the derivative with respect to one of the fractions, see
`oei_gradient_fails`. -/
theorem oei_gradient_partial (d : Dressing X n) (f : X → ℝ) (p q : n) :
    HasDerivAt (fun t => oei d true (fun x => f x + t) p q) (oeiGrad d f p q) 0 := by
  have hg : ∀ x, HasDerivAt (fun t => gvar2 true d.addDse (f x + t)) (dgvar (f x)) 0 :=
    fun x => gvar2_deriv d.addDse (f x)
  have hl : ∀ x, HasDerivAt (fun t : ℝ => 1 - (f x + t)) (-1) 0 := fun x =>
    ((hasDerivAt_id (0 : ℝ)).const_add (f x)).const_sub 1
  have h1 : HasDerivAt (fun t => -(∑ x, d.g x p q * (gvar2 true d.addDse (f x + t) * d.z x)))
      (-(∑ x, d.g x p q * (dgvar (f x) * d.z x))) 0 :=
    (HasDerivAt.fun_sum fun x _ => ((hg x).mul_const (d.z x)).const_mul (d.g x p q)).neg
  have h2 : HasDerivAt (fun t => if d.addDse then
        1 / 2 * ∑ x, gvar2 true d.addDse (f x + t) * d.T x p q else 0)
      (if d.addDse then 1 / 2 * ∑ x, dgvar (f x) * d.T x p q else 0) 0 := by
    by_cases h : d.addDse = true
    · simp only [if_pos h]
      exact (HasDerivAt.fun_sum fun x _ => (hg x).mul_const (d.T x p q)).const_mul (1 / 2)
    · simp only [if_neg h]
      exact hasDerivAt_const _ _
  have h3 : HasDerivAt (fun t => (1 / 2 * (∑ x, d.z x ^ 2 * gvar2 true d.addDse (f x + t)) +
        d.eBoson) * d.S p q / d.ne)
      (1 / 2 * (∑ x, d.z x ^ 2 * dgvar (f x)) * d.S p q / d.ne) 0 :=
    ((((HasDerivAt.fun_sum fun x _ => (hg x).const_mul (d.z x ^ 2)).const_mul (1 / 2)).add_const
      d.eBoson).mul_const (d.S p q)).div_const d.ne
  have h4 : HasDerivAt (fun t => ∑ x, d.ph x * ((d.g x p q - d.S p q * d.z x) *
        Real.sqrt (1 / 2 * d.omega x)) * (1 - (f x + t)))
      (∑ x, d.ph x * ((d.g x p q - d.S p q * d.z x) * Real.sqrt (1 / 2 * d.omega x)) * (-1)) 0 :=
    HasDerivAt.fun_sum fun x _ => (hl x).const_mul _
  refine (((h1.add h2).add h3).add h4).congr_deriv ?_
  simp only [oeiGrad, Matrix.of_apply, mul_neg, mul_one, Finset.sum_neg_distrib]
  ring

/-- The same for the two-electron part: `grad_vjk` is the derivative of `vj - vk / 2`. -/
theorem vjk_gradient_partial (g : X → Matrix n n ℝ) (addDse : Bool) (f : X → ℝ) (D : Matrix n n ℝ)
    (p q : n) :
    HasDerivAt (fun t => vjDse g (fun x => gvar2 true addDse (f x + t)) D p q -
      1 / 2 * vkDse g (fun x => gvar2 true addDse (f x + t)) D p q) (gradVjk g f D p q) 0 := by
  have hg : ∀ x, HasDerivAt (fun t => gvar2 true addDse (f x + t)) (dgvar (f x)) 0 :=
    fun x => gvar2_deriv addDse (f x)
  have h1 : HasDerivAt (fun t => vjDse g (fun x => gvar2 true addDse (f x + t)) D p q)
      (vjDse g (fun x => dgvar (f x)) D p q) 0 := by
    simp only [vjDse, Matrix.of_apply]
    exact HasDerivAt.fun_sum fun x _ => (hg x).const_mul _
  have h2 : HasDerivAt (fun t => vkDse g (fun x => gvar2 true addDse (f x + t)) D p q)
      (vkDse g (fun x => dgvar (f x)) D p q) 0 := by
    simp only [vkDse, Matrix.of_apply]
    exact HasDerivAt.fun_sum fun x _ => HasDerivAt.fun_sum fun r _ => (hg x).const_mul _
  exact (h1.sub (h2.const_mul (1 / 2))).congr_deriv (by simp [gradVjk])

/-- C35 for one mode: the gradient matrices are the exact derivatives with respect to the
fraction of that mode. -/
theorem oei_gradient_one_mode (d : Dressing Unit n) (f : ℝ) (p q : n) :
    HasDerivAt (fun f => oei d true (fun _ => f) p q) (oeiGrad d (fun _ => f) p q) f := by
  have h := oei_gradient_partial d (fun _ => f) p q
  have h0 : HasDerivAt (fun t => oei d true (fun _ => f + t) p q) (oeiGrad d (fun _ => f) p q)
      (f - f) := by rw [sub_self]; exact h
  have h2 := h0.comp_sub_const f f
  simpa using h2

/-- C35 fails: with two modes, the matrix is not the derivative with respect to the fraction of
the first mode. -/
theorem oei_gradient_fails :
    ∃ (d : Dressing (Fin 2) (Fin 1)) (f : Fin 2 → ℝ),
      ¬ HasDerivAt (fun t => oei d true (Function.update f 0 t) 0 0) (oeiGrad d f 0 0) (f 0) := by
  let d : Dressing (Fin 2) (Fin 1) :=
    { g := fun _ => 1
      z := fun _ => 0
      T := fun _ => 1
      S := 1
      ne := 1
      eBoson := 0
      omega := fun _ => 1
      ph := fun _ => 0
      addDse := true }
  refine ⟨d, fun _ => 0, ?_⟩
  intro h
  have h1 : HasDerivAt (fun t : ℝ => 1 / 2 * ((1 - t) ^ 2 + 1)) (-1) 0 := by
    have h2 := ((((hasDerivAt_id (0 : ℝ)).const_sub 1).pow 2).add_const (1 : ℝ)).const_mul (1 / 2 : ℝ)
    exact h2.congr_deriv (by simp)
  have he : (fun t => oei d true (Function.update (fun _ => (0 : ℝ)) 0 t) 0 0) =
      fun t : ℝ => 1 / 2 * ((1 - t) ^ 2 + 1) := by
    funext t
    simp [oei, d, gvar2, Fin.sum_univ_two]
  rw [he] at h
  have := h.unique h1
  simp [oeiGrad, d, dgvar] at this

/-! ### C36 -/

/-- Data of one photon mode: coupling strength and polarisation. -/
structure PhotonMode where
  lam : ℝ
  e : Fin 3 → ℝ

/-- The dressing the code builds for the origin `o` from the integrals `R`, `RR`, `S`, in the
coherent-state basis (`z = tr(D g)`), with the photons in the vacuum. -/
noncomputable def csDressing [DecidableEq n] (completeBasis : Bool) (mode : X → PhotonMode)
    (R : Fin 3 → Matrix n n ℝ) (RR : Fin 3 → Fin 3 → Matrix n n ℝ) (S D : Matrix n n ℝ) (ne eb : ℝ)
    (omega : X → ℝ) (o : Fin 3 → ℝ) : Dressing X n where
  g := fun x => gMode (mode x).lam (mode x).e o R S
  z := fun x => contract D (gMode (mode x).lam (mode x).e o R S)
  T := fun x => tmpTerm completeBasis (qLambda (mode x).lam (mode x).e o R RR S)
    (gMode (mode x).lam (mode x).e o R S) S⁻¹
  S := S
  ne := ne
  eBoson := eb
  omega := omega
  ph := fun _ => 0
  addDse := true

/-- The energy from `energy_elec` due to the cavity. -/
noncomputable def cavityEnergy (d : Dressing X n) (D : Matrix n n ℝ) : ℝ :=
  energyElec (oei d false (fun _ => 0))
    (vjDse d.g (fun _ => 1) D - (1 / 2 : ℝ) • vkDse d.g (fun _ => 1) D) D

theorem contract_eq (D g : Matrix n n ℝ) (hD : Dᵀ = D) : contract D g = (g * D).trace := by
  unfold contract Matrix.trace
  simp only [Matrix.diag_apply, Matrix.mul_apply]
  apply Finset.sum_congr rfl
  intro p _
  apply Finset.sum_congr rfl
  intro q _
  have : D p q = D q p := by conv_lhs => rw [← hD, Matrix.transpose_apply]
  rw [this, mul_comm]

theorem vk_eq (g : X → Matrix n n ℝ) (hg : ∀ x, (g x)ᵀ = g x) (gv : X → ℝ) (D : Matrix n n ℝ) :
    vkDse g gv D = ∑ x, gv x • (g x * D * g x) := by
  ext p q
  simp only [vkDse, Matrix.of_apply, Matrix.sum_apply, Matrix.smul_apply, smul_eq_mul]
  apply Finset.sum_congr rfl
  intro x _
  rw [Matrix.mul_assoc, Matrix.mul_apply, Finset.mul_sum]
  apply Finset.sum_congr rfl
  intro r _
  rw [Matrix.mul_apply]
  have : ∑ s, g x q s * D r s = ∑ s, D r s * g x s q := by
    apply Finset.sum_congr rfl
    intro s _
    have : g x q s = g x s q := by conv_lhs => rw [← hg x, Matrix.transpose_apply]
    rw [this, mul_comm]
  rw [this]; ring

/-- The mean-field dipole self-energy: one half of the variance of the coupling operator in a
closed-shell determinant, `½ tr(D T) - ¼ tr(D g D g)` per mode. -/
theorem cavity_energy_eq (d : Dressing X n) (D : Matrix n n ℝ) (hD : Dᵀ = D)
    (hg : ∀ x, (d.g x)ᵀ = d.g x) (hz : ∀ x, d.z x = (d.g x * D).trace) (hph : ∀ x, d.ph x = 0)
    (hdse : d.addDse = true) (hne : (d.S * D).trace = d.ne) (hne0 : d.ne ≠ 0) :
    cavityEnergy d D = d.eBoson +
      ∑ x, (1 / 2 * (d.T x * D).trace - 1 / 4 * (d.g x * D * d.g x * D).trace) := by
  have hoei : oei d false (fun _ => 0) = -(∑ x, d.z x • d.g x) + (1 / 2 : ℝ) • (∑ x, d.T x) +
      ((1 / 2 * (∑ x, d.z x ^ 2) + d.eBoson) / d.ne) • d.S := by
    ext p q
    simp [oei, gvar2, hdse, hph, Matrix.sum_apply, mul_comm (d.g _ p q)]
    ring
  have hvj : vjDse d.g (fun _ => 1) D = ∑ x, d.z x • d.g x := by
    ext p q
    simp only [vjDse, Matrix.of_apply, Matrix.sum_apply, Matrix.smul_apply, smul_eq_mul, mul_one]
    apply Finset.sum_congr rfl
    intro x _
    rw [contract_eq _ _ hD, hz, mul_comm]
  unfold cavityEnergy energyElec
  rw [hoei, hvj, vk_eq _ hg]
  simp only [Matrix.add_mul, Matrix.sub_mul, Matrix.neg_mul, Matrix.trace_add, Matrix.trace_sub,
    Matrix.trace_neg, Matrix.smul_mul, Matrix.trace_smul, Matrix.sum_mul, Matrix.trace_sum,
    smul_eq_mul, one_mul, hne, Finset.sum_sub_distrib, ← Finset.mul_sum, ← hz]
  field_simp
  ring

/-- C35: the energy whose gradient is claimed.  With the bare self-energy and fractions `f`, the
dressed terms give the photon energy, the residual self-energy `(1 - f)²` times (half the variance
of the coupling operator plus half the square of its mean about the displacement), and the residual
coupling to the photon field. -/
theorem dressed_energy (d : Dressing X n) (D : Matrix n n ℝ) (f : X → ℝ) (hD : Dᵀ = D)
    (hg : ∀ x, (d.g x)ᵀ = d.g x) (hdse : d.addDse = true) (hne : (d.S * D).trace = d.ne)
    (hne0 : d.ne ≠ 0) :
    energyElec (oei d true f) (vjDse d.g (fun x => gvar2 true d.addDse (f x)) D -
      (1 / 2 : ℝ) • vkDse d.g (fun x => gvar2 true d.addDse (f x)) D) D =
    d.eBoson + ∑ x, ((1 - f x) ^ 2 * (1 / 2 * (d.T x * D).trace -
        1 / 4 * (d.g x * D * d.g x * D).trace + 1 / 2 * ((d.g x * D).trace - d.z x) ^ 2) +
      (1 - f x) * d.ph x * Real.sqrt (d.omega x / 2) * ((d.g x * D).trace - d.ne * d.z x)) := by
  have hoei : oei d true f = -(∑ x, ((1 - f x) ^ 2 * d.z x) • d.g x) +
      (1 / 2 : ℝ) • (∑ x, (1 - f x) ^ 2 • d.T x) +
      ((1 / 2 * (∑ x, d.z x ^ 2 * (1 - f x) ^ 2) + d.eBoson) / d.ne) • d.S +
      ∑ x, (d.ph x * Real.sqrt (d.omega x / 2) * (1 - f x)) • (d.g x - d.z x • d.S) := by
    ext p q
    simp only [oei, gvar2, hdse, if_true, Matrix.of_apply, Matrix.add_apply, Matrix.neg_apply,
      Matrix.smul_apply, Matrix.sum_apply, Matrix.sub_apply, smul_eq_mul]
    congr 1
    · congr 1
      · congr 1
        congr 1
        exact Finset.sum_congr rfl fun x _ => by ring
      · ring
    · refine Finset.sum_congr rfl fun x _ => ?_
      rw [show 1 / 2 * d.omega x = d.omega x / 2 by ring]
      ring
  have hvj : vjDse d.g (fun x => gvar2 true d.addDse (f x)) D =
      ∑ x, ((1 - f x) ^ 2 * (d.g x * D).trace) • d.g x := by
    ext p q
    simp only [vjDse, gvar2, hdse, if_true, Matrix.of_apply, Matrix.sum_apply, Matrix.smul_apply,
      smul_eq_mul]
    apply Finset.sum_congr rfl
    intro x _
    rw [contract_eq _ _ hD]; ring
  have hvk : vkDse d.g (fun x => gvar2 true d.addDse (f x)) D =
      ∑ x, (1 - f x) ^ 2 • (d.g x * D * d.g x) := by
    rw [vk_eq _ hg]; simp only [gvar2, hdse, if_true]
  have hS : ((1 / 2 * (∑ x, d.z x ^ 2 * (1 - f x) ^ 2) + d.eBoson) / d.ne) * d.ne =
      1 / 2 * (∑ x, d.z x ^ 2 * (1 - f x) ^ 2) + d.eBoson := div_mul_cancel₀ _ hne0
  unfold energyElec
  rw [hoei, hvj, hvk]
  simp only [Matrix.add_mul, Matrix.sub_mul, Matrix.neg_mul, Matrix.trace_add, Matrix.trace_sub,
    Matrix.trace_neg, Matrix.smul_mul, Matrix.trace_smul, Matrix.sum_mul, Matrix.trace_sum,
    smul_eq_mul, hne, hS]
  have key : ∀ A B C E F G : X → ℝ, (-∑ x, A x + 1 / 2 * ∑ x, B x + (1 / 2 * ∑ x, C x + d.eBoson) +
      ∑ x, E x + (∑ x, F x - 1 / 2 * ∑ x, G x) / 2) = d.eBoson + ∑ x, (-A x + 1 / 2 * B x +
        1 / 2 * C x + E x + (F x - 1 / 2 * G x) / 2) := by
    intro A B C E F G
    simp only [Finset.sum_add_distrib, Finset.sum_neg_distrib, ← Finset.mul_sum, ← Finset.sum_div,
      Finset.sum_sub_distrib]
    ring
  rw [key]
  congr 1
  refine Finset.sum_congr rfl fun x _ => ?_
  ring

theorem gMode_shift (lam : ℝ) (e o o' : Fin 3 → ℝ) (R : Fin 3 → Matrix n n ℝ) (S : Matrix n n ℝ) :
    gMode lam e o' R S = gMode lam e o R S + (lam * ∑ c, e c * (o' c - o c)) • S := by
  simp only [gMode, Fin.sum_univ_three]
  module

theorem qLambda_shift (lam : ℝ) (e o o' : Fin 3 → ℝ) (R : Fin 3 → Matrix n n ℝ)
    (RR : Fin 3 → Fin 3 → Matrix n n ℝ) (S : Matrix n n ℝ) :
    -qLambda lam e o' R RR S = -qLambda lam e o R RR S +
      (2 * (lam * ∑ c, e c * (o' c - o c))) • gMode lam e o R S +
      (lam * ∑ c, e c * (o' c - o c)) ^ 2 • S := by
  simp only [qLambda, gMode, Fin.sum_univ_three]
  module

theorem gMode_symm (lam : ℝ) (e o : Fin 3 → ℝ) (R : Fin 3 → Matrix n n ℝ) (S : Matrix n n ℝ)
    (hR : ∀ c, (R c)ᵀ = R c) (hS : Sᵀ = S) : (gMode lam e o R S)ᵀ = gMode lam e o R S := by
  simp [gMode, Matrix.transpose_sum, hR, hS]

theorem tmpTerm_shift [DecidableEq n] (cb : Bool) (lam : ℝ) (e o o' : Fin 3 → ℝ)
    (R : Fin 3 → Matrix n n ℝ) (RR : Fin 3 → Fin 3 → Matrix n n ℝ) (S : Matrix n n ℝ)
    (hS : IsUnit S.det) :
    tmpTerm cb (qLambda lam e o' R RR S) (gMode lam e o' R S) S⁻¹ =
      tmpTerm cb (qLambda lam e o R RR S) (gMode lam e o R S) S⁻¹ +
      (2 * (lam * ∑ c, e c * (o' c - o c))) • gMode lam e o R S +
      (lam * ∑ c, e c * (o' c - o c)) ^ 2 • S := by
  cases cb
  · simp only [tmpTerm, Bool.false_eq_true, if_false]
    rw [gMode_shift lam e o o']
    generalize (lam * ∑ c, e c * (o' c - o c)) = δ
    have h1 : S * S⁻¹ = 1 := Matrix.mul_nonsing_inv S hS
    have h2 : ∀ M : Matrix n n ℝ, M * S⁻¹ * S = M := fun M => by
      rw [Matrix.mul_assoc, Matrix.nonsing_inv_mul S hS, Matrix.mul_one]
    simp only [Matrix.add_mul, Matrix.mul_add, Matrix.smul_mul, Matrix.mul_smul, h1, h2,
      Matrix.one_mul]
    module
  · simp only [tmpTerm, if_true]
    exact qLambda_shift lam e o o' R RR S

/-- C36.  The cavity contribution to the mean-field energy does not depend on the origin of the
coordinates, for a closed-shell density (`D S D = 2 D`, `tr(S D) = N`), also when the molecule is
charged, in both forms of the self-energy term; and it equals the photon energy plus one half of
the variance of the coupling operators. -/
theorem dse_origin_invariant [DecidableEq n] (cb : Bool) (mode : X → PhotonMode)
    (R : Fin 3 → Matrix n n ℝ) (RR : Fin 3 → Fin 3 → Matrix n n ℝ) (S D : Matrix n n ℝ)
    (ne eb : ℝ) (omega : X → ℝ) (hR : ∀ c, (R c)ᵀ = R c) (hS : Sᵀ = S) (hSu : IsUnit S.det)
    (hD : Dᵀ = D) (hidem : D * S * D = (2 : ℝ) • D) (hne : (S * D).trace = ne) (hne0 : ne ≠ 0)
    (o o' : Fin 3 → ℝ) :
    cavityEnergy (csDressing cb mode R RR S D ne eb omega o') D =
      cavityEnergy (csDressing cb mode R RR S D ne eb omega o) D := by
  have key : ∀ o, cavityEnergy (csDressing cb mode R RR S D ne eb omega o) D = eb +
      ∑ x, (1 / 2 * (tmpTerm cb (qLambda (mode x).lam (mode x).e o R RR S)
          (gMode (mode x).lam (mode x).e o R S) S⁻¹ * D).trace -
        1 / 4 * (gMode (mode x).lam (mode x).e o R S * D *
          gMode (mode x).lam (mode x).e o R S * D).trace) := fun o =>
    cavity_energy_eq (csDressing cb mode R RR S D ne eb omega o) D hD
      (fun x => gMode_symm _ _ _ _ _ hR hS) (fun x => contract_eq _ _ hD) (fun _ => rfl) rfl hne hne0
  rw [key o', key o]
  refine congrArg (fun t => eb + t) ?_
  apply Finset.sum_congr rfl
  intro x _
  rw [tmpTerm_shift cb _ _ o o' R RR S hSu, gMode_shift _ _ o o']
  generalize ((mode x).lam * ∑ c, (mode x).e c * (o' c - o c)) = δ
  generalize gMode (mode x).lam (mode x).e o R S = g
  have h1 : (g * D * S * D).trace = 2 * (g * D).trace := by
    rw [Matrix.mul_assoc g, Matrix.mul_assoc g, hidem]; simp
  have h2 : (S * D * g * D).trace = 2 * (g * D).trace := by
    rw [Matrix.mul_assoc (S * D), Matrix.trace_mul_comm, ← Matrix.mul_assoc, h1]
  have h3 : (S * D * S * D).trace = 2 * (S * D).trace := by
    rw [Matrix.mul_assoc S, Matrix.mul_assoc S, hidem]; simp
  simp only [Matrix.add_mul, Matrix.mul_add, Matrix.smul_mul, Matrix.mul_smul, Matrix.trace_add,
    Matrix.trace_smul, smul_eq_mul, h1, h2, h3]
  ring

/-- A closed-shell density with two electrons in the first of two orthonormal functions. -/
example : ∃ S D : Matrix (Fin 2) (Fin 2) ℝ, Sᵀ = S ∧ IsUnit S.det ∧ Dᵀ = D ∧
    D * S * D = (2 : ℝ) • D ∧ (S * D).trace = 2 := by
  refine ⟨1, !![2, 0; 0, 0], by simp, by simp, ?_, ?_, ?_⟩
  · ext i j; fin_cases i <;> fin_cases j <;> simp
  · ext i j; fin_cases i <;> fin_cases j <;> simp [Matrix.mul_apply]
  · simp [Matrix.trace]

/-- The hypothesis "photons in the vacuum" of C36 is what the code arrives at: in the
coherent-state basis the residual coupling is zero, and every eigenvector of the photon
Hamiltonian then gives `⟨b + b†⟩ = 0` in every mode. -/
theorem cs_photon_vacuum (l : List Mode) (hz : ∀ m ∈ l, m.za = 0 ∧ 0 < m.omega) (c : ℕ → ℝ) (e : ℝ)
    (hc : ∀ i < (l.map Mode.mdim).sum,
      ∑ j ∈ Finset.range (l.map Mode.mdim).sum, (bosonicHam l).1 i j * c j = e * c i)
    (k : ℕ) (hk : k < l.length) :
    phExpVal l[k].mdim (fun a => c (offset l k + a)) = 0 := by
  obtain ⟨hz0, hom⟩ := hz l[k] (List.getElem_mem hk)
  have hdiag : ∀ a < l[k].mdim, (bosonicHam l).1 (offset l k + a) (offset l k + a) *
      c (offset l k + a) = e * c (offset l k + a) := by
    intro a ha
    have hi := offset_add_lt l k hk a ha
    rw [← hc _ hi, Finset.sum_eq_single (offset l k + a)]
    · intro j hj hne
      rw [Finset.mem_range] at hj
      obtain ⟨k', hk', b, hb, rfl⟩ := exists_offset l j hj
      rw [ham_entry l k k' hk hk' a b ha hb]
      by_cases hkk : k = k'
      · subst hkk
        rw [if_pos rfl, modeBlock, hz0, if_neg (by intro h; exact hne (by rw [h]))]
        ring
      · rw [if_neg hkk, zero_mul]
    · intro h; exact absurd (Finset.mem_range.mpr hi) h
  have hprod : ∀ a, a + 1 < l[k].mdim → c (offset l k + a) * c (offset l k + (a + 1)) = 0 := by
    intro a ha
    by_contra h
    have n1 := left_ne_zero_of_mul h
    have n2 := right_ne_zero_of_mul h
    have e1 := mul_right_cancel₀ n1 (hdiag a (by omega))
    have e2 := mul_right_cancel₀ n2 (hdiag (a + 1) ha)
    rw [ham_entry l k k hk hk _ _ (by omega) (by omega), if_pos rfl, modeBlock, hz0] at e1 e2
    have hcp := Real.cosh_pos (2 * l[k].F)
    have : Real.cosh (2 * l[k].F) * l[k].omega = 0 := by
      simp at e1 e2
      linarith
    have hpos := mul_pos hcp hom
    linarith
  unfold phExpVal
  refine Finset.sum_eq_zero fun a ha => Finset.sum_eq_zero fun b hb => ?_
  rw [Finset.mem_range] at ha hb
  by_cases h1 : b = a + 1
  · subst h1
    rw [hprod a hb, mul_zero]
  · by_cases h2 : a = b + 1
    · subst h2
      rw [mul_comm (c _), hprod b ha, mul_zero]
    · rw [if_neg h1, if_neg h2]; ring

/-! ### C81 -/

/-- `⟨b + b†⟩` of a state with amplitudes `c n`, `n < mdim`: twice the real overlap of the state
with `b` applied to it. -/
theorem ph_exp_val_eq (mdim : ℕ) (c : ℕ → ℝ) :
    phExpVal mdim c = 2 * ∑ n ∈ Finset.range (mdim - 1), c n * (Real.sqrt (n + 1) * c (n + 1)) := by
  have h1 : ∀ F : ℕ → ℝ, ∑ a ∈ Finset.range mdim, ∑ b ∈ Finset.range mdim,
      (if b = a + 1 then F a else 0) = ∑ n ∈ Finset.range (mdim - 1), F n := by
    intro F
    simp only [Finset.sum_ite_eq', Finset.mem_range]
    rw [← Finset.sum_filter]
    congr 1
    ext n; simp only [Finset.mem_filter, Finset.mem_range]; omega
  have h2 : phExpVal mdim c =
      (∑ a ∈ Finset.range mdim, ∑ b ∈ Finset.range mdim,
        (if b = a + 1 then c a * (Real.sqrt (a + 1) * c (a + 1)) else 0)) +
      ∑ a ∈ Finset.range mdim, ∑ b ∈ Finset.range mdim,
        (if a = b + 1 then c b * (Real.sqrt (b + 1) * c (b + 1)) else 0) := by
    unfold phExpVal
    rw [← Finset.sum_add_distrib]
    refine Finset.sum_congr rfl fun a _ => ?_
    rw [← Finset.sum_add_distrib]
    refine Finset.sum_congr rfl fun b _ => ?_
    rw [add_mul]
    congr 1
    · split_ifs with h
      · subst h; ring
      · ring
    · split_ifs with h
      · subst h; ring
      · ring
  have h3 : ∑ a ∈ Finset.range mdim, ∑ b ∈ Finset.range mdim,
      (if a = b + 1 then c b * (Real.sqrt (b + 1) * c (b + 1)) else 0) =
      ∑ n ∈ Finset.range (mdim - 1), c n * (Real.sqrt (n + 1) * c (n + 1)) := by
    rw [Finset.sum_comm]
    exact h1 fun n => c n * (Real.sqrt (n + 1) * c (n + 1))
  rw [h2, h3, h1 fun n => c n * (Real.sqrt (n + 1) * c (n + 1))]; ring

example : phExpVal 2 (fun n => if n = 0 then 3 / 5 else 4 / 5) = 24 / 25 := by
  rw [ph_exp_val_eq]; norm_num

/-- The bilinear part of the one-electron term. -/
noncomputable def bilinear (d : Dressing X n) (f : X → ℝ) : Matrix n n ℝ :=
  oei d true f - oei { d with ph := fun _ => 0 } true f

/-- What the code computes: the expectation value of the bilinear part is
`√(ω/2) ⟨b + b†⟩ (1 - f) (tr(D g) - z N)`, the displacement counted once per electron. -/
theorem bilinear_value (d : Dressing X n) (f : X → ℝ) (D : Matrix n n ℝ) (N : ℝ)
    (hN : (d.S * D).trace = N) :
    (bilinear d f * D).trace =
      ∑ x, Real.sqrt (d.omega x / 2) * d.ph x * (1 - f x) * ((d.g x * D).trace - d.z x * N) := by
  have h : bilinear d f = ∑ x, (Real.sqrt (d.omega x / 2) * d.ph x * (1 - f x)) •
      (d.g x - d.z x • d.S) := by
    ext p q
    simp only [bilinear, oei, Matrix.sub_apply, Matrix.of_apply, Matrix.sum_apply,
      Matrix.smul_apply, smul_eq_mul, zero_mul, Finset.sum_const_zero, add_zero]
    rw [add_sub_cancel_left]
    apply Finset.sum_congr rfl
    intro x _
    rw [show (1 / 2 * d.omega x) = d.omega x / 2 by ring]
    ring
  rw [h, Matrix.sum_mul, Matrix.trace_sum]
  apply Finset.sum_congr rfl
  intro x _
  simp [Matrix.sub_mul, Matrix.trace_sub, hN]

/-- C81, part: for one electron, or without displacement, the bilinear energy is
`√(ω/2) (⟨g⟩ - z) ⟨b + b†⟩ (1 - f)`.  Missing: all other electron numbers, see
`bilinear_fails`. -/
theorem bilinear_partial (d : Dressing X n) (f : X → ℝ) (D : Matrix n n ℝ)
    (h : (d.S * D).trace = 1 ∨ ∀ x, d.z x = 0) :
    (bilinear d f * D).trace =
      ∑ x, Real.sqrt (d.omega x / 2) * d.ph x * (1 - f x) * ((d.g x * D).trace - d.z x) := by
  rw [bilinear_value d f D _ rfl]
  apply Finset.sum_congr rfl
  intro x _
  rcases h with h | h
  · rw [h, mul_one]
  · rw [h x]; ring

/-- C81 fails for every one-mode system with a non-zero displacement, occupied photon coherence and
a number of electrons other than one; in the coherent-state basis (`z = tr(D g)`), where the
residual coupling should vanish, the error is `√(ω/2) ⟨b + b†⟩ (1 - f) z (1 - N)`. -/
theorem bilinear_fails (d : Dressing Unit n) (f : ℝ) (D : Matrix n n ℝ) (hz : d.z () ≠ 0)
    (hph : d.ph () ≠ 0) (hf : f ≠ 1) (ho : 0 < d.omega ()) (hN : (d.S * D).trace ≠ 1) :
    (bilinear d (fun _ => f) * D).trace ≠
      Real.sqrt (d.omega () / 2) * d.ph () * (1 - f) * ((d.g () * D).trace - d.z ()) := by
  rw [bilinear_value d _ D _ rfl]
  simp only [Finset.univ_unique, Finset.sum_singleton, PUnit.default_eq_unit]
  intro h
  have hs : Real.sqrt (d.omega () / 2) ≠ 0 := (Real.sqrt_pos.mpr (by positivity)).ne'
  have hc : Real.sqrt (d.omega () / 2) * d.ph () * (1 - f) ≠ 0 :=
    mul_ne_zero (mul_ne_zero hs hph) (sub_ne_zero.mpr (Ne.symm hf))
  have h2 := mul_left_cancel₀ hc h
  have h3 : d.z () * ((d.S * D).trace - 1) = 0 := by linarith
  rcases mul_eq_zero.mp h3 with h4 | h4
  · exact hz h4
  · exact hN (by linarith)

/-- Two electrons, displacement one, coherence one. -/
example : ∃ (d : Dressing Unit (Fin 1)) (D : Matrix (Fin 1) (Fin 1) ℝ), d.z () ≠ 0 ∧ d.ph () ≠ 0 ∧
    (0 : ℝ) ≠ 1 ∧ 0 < d.omega () ∧ (d.S * D).trace ≠ 1 :=
  ⟨{ g := fun _ => 1, z := fun _ => 1, T := fun _ => 1, S := 1, ne := 2, eBoson := 0,
     omega := fun _ => 1, ph := fun _ => 1, addDse := true }, (2 : ℝ) • 1,
    by simp, by simp, by simp, by simp, by simp [Matrix.trace]⟩

end OpenMS.Photon
