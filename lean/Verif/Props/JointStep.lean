import Verif.Model.JointStep
import Verif.Lemmas.GaussDrift
import Verif.Lemmas.Kron
import Verif.Props.ManyBody
import Mathlib.Tactic

/-!
# C111: the averaged step of electrons and bosons
-/

set_option linter.unusedSectionVars false

namespace OpenMS.JointStep

open Matrix OpenMS.Propagators OpenMS.Green OpenMS.Step OpenMS.Joint OpenMS.Tensor OpenMS.GaussMean
open OpenMS.ManyBody MeasureTheory Filter Topology Asymptotics
open scoped Kronecker

variable {e p g b : Type*} [Fintype e] [DecidableEq e] [Fintype p] [DecidableEq p] [Fintype g]
  [Fintype b] [DecidableEq b]

/-- Specification: `Σ_j L(j) - c` for all electrons. -/
def shifted (e : Type*) [Fintype e] [DecidableEq e] (L : Matrix p p ℂ) (c : ℂ) :
    Matrix (e → p) (e → p) ℂ := (∑ j : e, site j L) - c • 1

/-- Specification: the Hamiltonian of electrons and bosons without coupling, with one-electron matrices
`h`, boson Hamiltonian `Hb` and squares of the field operators of both kinds:
`Σ_j h_j + Hb + 1/2 Σ (L - lbar)² + 1/2 Σ (B - bbar)²`. -/
noncomputable def uncoupled (h : e → Matrix p p ℂ) (Hb : Matrix b b ℂ) (L : g → Matrix p p ℂ)
    (lbar : g → ℂ) (B : g → Matrix b b ℂ) (bbar : g → ℂ) :
    Matrix ((e → p) × b) ((e → p) × b) ℂ :=
  (∑ j, site j (h j)) ⊗ₖ (1 : Matrix b b ℂ) + (1 : Matrix (e → p) (e → p) ℂ) ⊗ₖ Hb +
    ∑ γ, ((1 / 2 : ℂ) • ((shifted e (L γ) (lbar γ) ^ 2) ⊗ₖ (1 : Matrix b b ℂ)) +
      (1 / 2 : ℂ) • ((1 : Matrix (e → p) (e → p) ℂ) ⊗ₖ ((B γ - bbar γ • 1) ^ 2)))

/-- Specification: the coupling of the field operators, counted from the values `u` and `v`:
`Σ (L - u) (B - v)`. -/
noncomputable def coupling (e : Type*) [Fintype e] [DecidableEq e] (L : g → Matrix p p ℂ)
    (B : g → Matrix b b ℂ) (u v : g → ℂ) : Matrix ((e → p) × b) ((e → p) × b) ℂ :=
  ∑ γ, shifted e (L γ) (u γ) ⊗ₖ (B γ - v γ • 1)

/-- Specification: both together. -/
noncomputable def coupled (h : e → Matrix p p ℂ) (Hb : Matrix b b ℂ) (L : g → Matrix p p ℂ)
    (lbar : g → ℂ) (B : g → Matrix b b ℂ) (bbar u v : g → ℂ) :
    Matrix ((e → p) × b) ((e → p) × b) ℂ :=
  uncoupled h Hb L lbar B bbar + coupling e L B u v

/-! ### The field step -/

/-- The field step of all electrons and of the bosons. -/
noncomputable def jointField (e : Type*) [Fintype e] (L : g → Matrix p p ℂ) (B : g → Matrix b b ℂ)
    (s : g → ℂ) (n : ℕ) (u : g → ℝ) : Matrix ((e → p) × b) ((e → p) × b) ℂ :=
  fieldStep e L s n u ⊗ₖ taylor B n u

theorem exp_joint (L : g → Matrix p p ℂ) (B : g → Matrix b b ℂ) (s : g → ℂ) (u : g → ℝ) :
    NormedSpace.exp (Complex.I • ∑ γ, (u γ : ℂ) • (shifted e (L γ) (s γ) ⊗ₖ (1 : Matrix b b ℂ) +
        (1 : Matrix (e → p) (e → p) ℂ) ⊗ₖ B γ)) =
      NormedSpace.exp (Complex.I • ∑ γ, (u γ : ℂ) • ((∑ j : e, site j (L γ)) - s γ • 1)) ⊗ₖ
        NormedSpace.exp (Complex.I • ∑ γ, (u γ : ℂ) • B γ) := by
  rw [← Kron.exp_kron]
  congr 1
  have h1 : ∀ X : g → Matrix (e → p) (e → p) ℂ, (Complex.I • ∑ γ, (u γ : ℂ) • X γ) ⊗ₖ (1 : Matrix b b ℂ) =
      Complex.I • ∑ γ, (u γ : ℂ) • (X γ ⊗ₖ (1 : Matrix b b ℂ)) := by
    intro X
    rw [Matrix.smul_kronecker]
    congr 1
    have := map_sum (Kron.leftHom (e → p) b) (fun γ => (u γ : ℂ) • X γ) Finset.univ
    refine this.trans (Finset.sum_congr rfl fun γ _ => ?_)
    exact Matrix.smul_kronecker _ _ _
  have h2 : ∀ X : g → Matrix b b ℂ, (1 : Matrix (e → p) (e → p) ℂ) ⊗ₖ (Complex.I • ∑ γ, (u γ : ℂ) • X γ) =
      Complex.I • ∑ γ, (u γ : ℂ) • ((1 : Matrix (e → p) (e → p) ℂ) ⊗ₖ X γ) := by
    intro X
    rw [Matrix.kronecker_smul]
    congr 1
    have := map_sum (Kron.rightHom (e → p) b) (fun γ => (u γ : ℂ) • X γ) Finset.univ
    refine this.trans (Finset.sum_congr rfl fun γ _ => ?_)
    exact Matrix.kronecker_smul _ _ _
  rw [h1, h2, ← smul_add, ← Finset.sum_add_distrib]
  congr 1
  exact Finset.sum_congr rfl fun γ _ => smul_add _ _ _

theorem jointField_close (L : g → Matrix p p ℂ) (B : g → Matrix b b ℂ) (s : g → ℂ) (n : ℕ)
    (hn : 3 ≤ n) :
    @Close g _ _ (Matrix.linftyOpNormedRing (n := (e → p) × b) (α := ℂ)) (jointField e L B s n)
      fun u => NormedSpace.exp (Complex.I • ∑ γ, (u γ : ℂ) •
        (shifted e (L γ) (s γ) ⊗ₖ (1 : Matrix b b ℂ) + (1 : Matrix (e → p) (e → p) ℂ) ⊗ₖ B γ)) := by
  refine close_entries fun f f' => ?_
  simp only [exp_joint, jointField, exp_field, fieldStep, Matrix.kroneckerMap_apply,
    Matrix.smul_apply, tensor, Matrix.of_apply, smul_eq_mul]
  refine Close.mul ((Close.refl _).mul (prod_close _ (fun j => (taylor_entry L n hn _ _).1)
    (fun j => (taylor_entry L n hn _ _).2.1) fun j => (taylor_entry L n hn _ _).2.2)
    (prod_bdd _ fun j => (taylor_entry L n hn _ _).2.1) (factor_bdd s))
    (taylor_entry B n hn _ _).1 (taylor_entry B n hn _ _).2.1 ?_
  exact (factor_bdd s).mul (prod_bdd _ fun j => (taylor_entry L n hn _ _).2.2)

theorem jointField_bdd (L : g → Matrix p p ℂ) (B : g → Matrix b b ℂ) (s : g → ℂ) (n : ℕ)
    (hn : 3 ≤ n) :
    @Bdd g _ _ (Matrix.linftyOpNormedRing (n := (e → p) × b) (α := ℂ)) (jointField e L B s n) := by
  refine bdd_entries fun f f' => ?_
  simp only [jointField, fieldStep, Matrix.kroneckerMap_apply, Matrix.smul_apply, tensor,
    Matrix.of_apply, smul_eq_mul]
  exact ((factor_bdd s).mul (prod_bdd _ fun j => (taylor_entry L n hn _ _).2.1)).mul
    (taylor_entry B n hn _ _).2.1

theorem jointField_continuous (L : g → Matrix p p ℂ) (B : g → Matrix b b ℂ) (s : g → ℂ) (n : ℕ) :
    Continuous (jointField e L B s n) := by
  refine continuous_matrix fun f f' => ?_
  simp only [jointField, Matrix.kroneckerMap_apply]
  exact ((fieldStep_continuous L s n).matrix_elem _ _).mul (taylor_continuous B n _ _)

/-- With a drift. -/
noncomputable def drift {a : Type*} (α : g → ℂ) (L : g → Matrix a a ℂ) : Option g → Matrix a a ℂ :=
  fun o => o.elim (-∑ γ, α γ • L γ) L

/-- The scalars of the step. -/
noncomputable def scalars (α β lbar bbar : g → ℂ) : Option g → ℂ :=
  fun o => o.elim (∑ γ, (-(Complex.I / 2) * (α γ ^ 2 + β γ ^ 2) - α γ * lbar γ - β γ * bbar γ))
    fun γ => lbar γ + bbar γ + Complex.I * (α γ + β γ)

theorem drift_operator (L : g → Matrix p p ℂ) (lbar : g → ℂ) (B : g → Matrix b b ℂ) (bbar : g → ℂ)
    (u v : g → ℂ) :
    let α : g → ℂ := fun γ => -Complex.I * (u γ - lbar γ)
    let β : g → ℂ := fun γ => -Complex.I * (v γ - bbar γ)
    let V : Option g → Matrix ((e → p) × b) ((e → p) × b) ℂ := fun o =>
      shifted e (drift α L o) (scalars α β lbar bbar o) ⊗ₖ (1 : Matrix b b ℂ) +
        (1 : Matrix (e → p) (e → p) ℂ) ⊗ₖ drift β B o
    Complex.I • V none - (1 / 2 : ℂ) • ∑ γ, V (some γ) ^ 2 =
      -∑ γ, ((1 / 2 : ℂ) • ((shifted e (L γ) (lbar γ) ^ 2) ⊗ₖ (1 : Matrix b b ℂ)) +
      (1 / 2 : ℂ) • ((1 : Matrix (e → p) (e → p) ℂ) ⊗ₖ ((B γ - bbar γ • 1) ^ 2)) +
      shifted e (L γ) (u γ) ⊗ₖ (B γ - v γ • 1)) := by
  intro α β V
  have hI : Complex.I * Complex.I = -1 := Complex.I_mul_I
  -- elements of the algebra
  set one : Matrix ((e → p) × b) ((e → p) × b) ℂ := 1 with hone
  set l : g → Matrix ((e → p) × b) ((e → p) × b) ℂ := fun γ =>
    (∑ j : e, site j (L γ)) ⊗ₖ (1 : Matrix b b ℂ) with hl
  set m : g → Matrix ((e → p) × b) ((e → p) × b) ℂ := fun γ =>
    (1 : Matrix (e → p) (e → p) ℂ) ⊗ₖ B γ with hm
  have hsh : ∀ (M : Matrix p p ℂ) (c : ℂ), shifted e M c ⊗ₖ (1 : Matrix b b ℂ) =
      (∑ j : e, site j M) ⊗ₖ (1 : Matrix b b ℂ) - c • one := by
    intro M c
    have := map_sub (Kron.leftHom (e → p) b) (∑ j : e, site j M) (c • 1)
    refine this.trans ?_
    show _ - (c • (1 : Matrix (e → p) (e → p) ℂ)) ⊗ₖ (1 : Matrix b b ℂ) = _
    rw [Matrix.smul_kronecker, Matrix.one_kronecker_one]
    rfl
  have hcomm : ∀ γ, l γ * m γ = m γ * l γ := by
    intro γ
    simp only [hl, hm, ← Matrix.mul_kronecker_mul, mul_one, one_mul]
  have hsome : ∀ γ, V (some γ) = l γ + m γ - (u γ + v γ) • one := by
    intro γ
    have : scalars α β lbar bbar (some γ) = u γ + v γ := by
      simp only [scalars, Option.elim, α, β]
      linear_combination (-(u γ - lbar γ) - (v γ - bbar γ)) * hI
    show shifted e (L γ) (scalars α β lbar bbar (some γ)) ⊗ₖ (1 : Matrix b b ℂ) + m γ = _
    rw [hsh, this]
    abel
  have hsq1 : ∀ γ, (shifted e (L γ) (lbar γ) ^ 2) ⊗ₖ (1 : Matrix b b ℂ) = (l γ - lbar γ • one) ^ 2 := by
    intro γ
    have := map_pow (Kron.leftHom (e → p) b) (shifted e (L γ) (lbar γ)) 2
    refine this.trans ?_
    congr 1
    exact hsh _ _
  have hshB : ∀ (γ : g) (c : ℂ), (1 : Matrix (e → p) (e → p) ℂ) ⊗ₖ (B γ - c • 1) = m γ - c • one := by
    intro γ c
    have := map_sub (Kron.rightHom (e → p) b) (B γ) (c • 1)
    refine this.trans ?_
    show m γ - (1 : Matrix (e → p) (e → p) ℂ) ⊗ₖ (c • 1) = _
    rw [Matrix.kronecker_smul, Matrix.one_kronecker_one]
  have hsq2 : ∀ γ, (1 : Matrix (e → p) (e → p) ℂ) ⊗ₖ ((B γ - bbar γ • 1) ^ 2) =
      (m γ - bbar γ • one) ^ 2 := by
    intro γ
    have := map_pow (Kron.rightHom (e → p) b) (B γ - bbar γ • 1) 2
    refine this.trans ?_
    congr 1
    exact hshB _ _
  have hprod : ∀ γ, shifted e (L γ) (u γ) ⊗ₖ (B γ - v γ • 1) =
      (l γ - u γ • one) * (m γ - v γ • one) := by
    intro γ
    rw [← hsh, ← hshB, ← Matrix.mul_kronecker_mul, one_mul, mul_one]
  have hsite : ∀ c : g → ℂ, (∑ j : e, site j (∑ γ, c γ • L γ)) ⊗ₖ (1 : Matrix b b ℂ) =
      ∑ γ, c γ • l γ := by
    intro c
    have hs : ∀ j : e, site j (∑ γ, c γ • L γ) = ∑ γ, c γ • site j (L γ) := by
      intro j
      have := map_sum (siteHom j) (fun γ => c γ • L γ) Finset.univ
      refine this.trans (Finset.sum_congr rfl fun γ _ => ?_)
      show site j (c γ • L γ) = _
      ext f f'
      simp only [site, Matrix.of_apply, Matrix.smul_apply, smul_eq_mul]
      split_ifs <;> simp
    simp only [hs]
    rw [Finset.sum_comm]
    have := map_sum (Kron.leftHom (e → p) b) (fun γ => ∑ j, c γ • site j (L γ)) Finset.univ
    refine this.trans (Finset.sum_congr rfl fun γ _ => ?_)
    show (∑ j, c γ • site j (L γ)) ⊗ₖ (1 : Matrix b b ℂ) = _
    rw [← Finset.smul_sum, Matrix.smul_kronecker]
  have hright : ∀ c : g → ℂ, (1 : Matrix (e → p) (e → p) ℂ) ⊗ₖ (∑ γ, c γ • B γ) = ∑ γ, c γ • m γ := by
    intro c
    have := map_sum (Kron.rightHom (e → p) b) (fun γ => c γ • B γ) Finset.univ
    refine this.trans (Finset.sum_congr rfl fun γ _ => ?_)
    exact Matrix.kronecker_smul _ _ _
  have hnone : V none = ∑ γ, (-(α γ) • l γ - β γ • m γ -
      (-(Complex.I / 2) * (α γ ^ 2 + β γ ^ 2) - α γ * lbar γ - β γ * bbar γ) • one) := by
    have e1 : -∑ γ, α γ • L γ = ∑ γ, (-α γ) • L γ := by
      rw [← Finset.sum_neg_distrib]
      exact Finset.sum_congr rfl fun γ _ => (neg_smul _ _).symm
    have e2 : -∑ γ, β γ • B γ = ∑ γ, (-β γ) • B γ := by
      rw [← Finset.sum_neg_distrib]
      exact Finset.sum_congr rfl fun γ _ => (neg_smul _ _).symm
    show shifted e (-∑ γ, α γ • L γ) (scalars α β lbar bbar none) ⊗ₖ (1 : Matrix b b ℂ) +
      (1 : Matrix (e → p) (e → p) ℂ) ⊗ₖ (-∑ γ, β γ • B γ) = _
    rw [e1, e2, hsh, hsite, hright]
    simp only [scalars, Option.elim]
    rw [Finset.sum_smul, ← Finset.sum_sub_distrib, ← Finset.sum_add_distrib]
    refine Finset.sum_congr rfl fun γ _ => ?_
    rw [neg_smul, neg_smul]
    abel
  rw [hnone, Finset.smul_sum, Finset.smul_sum, ← Finset.sum_sub_distrib, ← Finset.sum_neg_distrib]
  refine Finset.sum_congr rfl fun γ _ => ?_
  rw [hsome, hsq1, hsq2, hprod]
  simp only [pow_two, sub_mul, mul_sub, add_mul, mul_add, smul_mul_assoc, mul_smul_comm, hone, mul_one,
    one_mul, hcomm γ, smul_sub, smul_add, smul_smul, α, β]
  have hI2 : Complex.I ^ 2 = -1 := Complex.I_sq
  match_scalars
  all_goals ring_nf
  all_goals simp only [hI2, Complex.I_pow_four]
  all_goals try ring_nf

/-! ### Averages -/

/-- The average of the joint field step, to first order. -/
theorem jointField_mean (L : g → Matrix p p ℂ) (lbar : g → ℂ) (B : g → Matrix b b ℂ) (bbar u v : g → ℂ)
    (n : ℕ) (hn : 3 ≤ n) :
    let _ : NormedRing (Matrix ((e → p) × b) ((e → p) × b) ℂ) := Matrix.linftyOpNormedRing
    let _ : NormedAlgebra ℂ (Matrix ((e → p) × b) ((e → p) × b) ℂ) := Matrix.linftyOpNormedAlgebra
    let α : g → ℂ := fun γ => -Complex.I * (u γ - lbar γ)
    let β : g → ℂ := fun γ => -Complex.I * (v γ - bbar γ)
    First (fun t : ℝ => ∫ x : g → ℝ, (normalDensity x : ℝ) •
        jointField e (drift α L) (drift β B) (scalars α β lbar bbar) n (lift (Real.sqrt t) x))
      1 (-∑ γ, ((1 / 2 : ℂ) • ((shifted e (L γ) (lbar γ) ^ 2) ⊗ₖ (1 : Matrix b b ℂ)) +
      (1 / 2 : ℂ) • ((1 : Matrix (e → p) (e → p) ℂ) ⊗ₖ ((B γ - bbar γ • 1) ^ 2)) +
      shifted e (L γ) (u γ) ⊗ₖ (B γ - v γ • 1))) := by
  intro _ _ α β
  have hop := drift_operator (e := e) L lbar B bbar u v
  simp only at hop
  rw [← hop]
  obtain ⟨K, hK⟩ := close_drift (jointField e (drift α L) (drift β B) (scalars α β lbar bbar) n)
    (jointField_continuous _ _ _ n)
    (fun o => shifted e (drift α L o) (scalars α β lbar bbar o) ⊗ₖ (1 : Matrix b b ℂ) +
        (1 : Matrix (e → p) (e → p) ℂ) ⊗ₖ drift β B o)
    (jointField_close _ _ _ n hn)
  refine IsBigO.of_bound K ?_
  have hev : ∀ᶠ t : ℝ in 𝓝[≥] 0, 0 ≤ t ∧ t ≤ 1 := by
    have h1 : ∀ᶠ t : ℝ in 𝓝[≥] 0, 0 ≤ t := eventually_mem_nhdsWithin
    have h2 : ∀ᶠ t : ℝ in 𝓝[≥] 0, t ≤ 1 :=
      nhdsWithin_le_nhds (eventually_le_nhds (by norm_num))
    exact h1.and h2
  filter_upwards [hev] with t ht
  have h := hK (Real.sqrt t) (Real.sqrt_nonneg t) (Real.sqrt_le_one.2 ht.2)
  have hsq : ((Real.sqrt t : ℝ) : ℂ) ^ 2 = (t : ℂ) := by
    rw [← Complex.ofReal_pow, Real.sq_sqrt ht.1]
  have hsq4 : (Real.sqrt t) ^ 4 = t ^ 2 := by
    rw [show 4 = 2 * 2 from rfl, pow_mul, Real.sq_sqrt ht.1]
  rw [hsq, hsq4] at h
  rw [Real.norm_eq_abs, abs_of_nonneg (pow_nonneg ht.1 2)]
  refine le_trans (le_of_eq ?_) h
  congr 2
  have hm : ∀ X Y : Matrix ((e → p) × b) ((e → p) × b) ℂ,
      1 + (t : ℂ) • (X - (1 / 2 : ℂ) • Y) = 1 + (t : ℂ) • X - ((t : ℂ) / 2) • Y := by
    intro X Y
    module
  exact hm _ _

section Functional

variable {A : Type*} [NormedRing A] [NormedAlgebra ℂ A] [FiniteDimensional ℂ A]

theorem functional_lift (F : A →ₗ[ℂ] ℂ) (G : (Option g → ℝ) → A) (hG : Continuous G) (hB : Bdd G) (τ : ℝ)
    (hτ : 0 ≤ τ) :
    F (∫ x : g → ℝ, (normalDensity x : ℝ) • G (lift τ x)) =
      ∫ x : g → ℝ, (normalDensity x : ℂ) * F (G (lift τ x)) := by
  have : CompleteSpace A := FiniteDimensional.complete ℂ A
  obtain ⟨C, c, hC, hc, h⟩ := hB
  have hint : Integrable fun x : g → ℝ => (normalDensity x : ℝ) • G (lift τ x) := by
    refine bdd_integrable (fun x => G (lift τ x)) (hG.comp (lift_continuous τ))
      ⟨C * Real.exp (c * τ ^ 2), c * τ, by positivity, by positivity, fun x => (h _).trans (le_of_eq ?_)⟩
    rw [size_lift τ hτ, mul_assoc, ← Real.exp_add]
    ring_nf
  have hi := (LinearMap.toContinuousLinearMap F).integral_comp_comm hint
  simp only [LinearMap.coe_toContinuousLinearMap'] at hi
  rw [← hi]
  congr 1
  funext x
  rw [← Complex.coe_smul, map_smul, smul_eq_mul]

end Functional

section Elements

variable {ia ib : Type*} [Fintype ia] [DecidableEq ia] [Fintype ib] [DecidableEq ib]

/-- Specification: `⟨D, psi| X |phi, chi⟩` for electrons of two kinds and bosons. -/
def element (Da : Matrix p ia ℂ) (Db : Matrix p ib ℂ) (psi : b → ℂ)
    (X : Matrix ((ia ⊕ ib → p) × b) ((ia ⊕ ib → p) × b) ℂ) (a : Matrix p ia ℂ) (c : Matrix p ib ℂ)
    (chi : Matrix b Unit ℂ) : ℂ :=
  ∑ f, ∑ m, ∑ f', ∑ n, star (slater Da (f ∘ Sum.inl) * slater Db (f ∘ Sum.inr) * psi m) *
    X (f, m) (f', n) * (product a (f' ∘ Sum.inl) * product c (f' ∘ Sum.inr) * chi n ())

theorem element_kron (Da : Matrix p ia ℂ) (Db : Matrix p ib ℂ) (psi : b → ℂ)
    (X : Matrix (ia ⊕ ib → p) (ia ⊕ ib → p) ℂ) (Y : Matrix b b ℂ) (a : Matrix p ia ℂ) (c : Matrix p ib ℂ)
    (chi : Matrix b Unit ℂ) :
    element Da Db psi (X ⊗ₖ Y) a c chi = ManyBody.element Da Db X a c * bosonOvlp psi (Y * chi) := by
  unfold element ManyBody.element bosonOvlp
  rw [Finset.sum_mul]
  refine Finset.sum_congr rfl fun f _ => ?_
  rw [Finset.mul_sum]
  refine Finset.sum_congr rfl fun m _ => ?_
  rw [Finset.sum_mul]
  refine Finset.sum_congr rfl fun f' _ => ?_
  rw [Matrix.mul_apply, Finset.sum_mul, Finset.mul_sum]
  refine Finset.sum_congr rfl fun n _ => ?_
  simp only [Matrix.kroneckerMap_apply, star_mul', Complex.star_def]
  ring

/-- The matrix element as a linear function of the operator. -/
def functional (Da : Matrix p ia ℂ) (Db : Matrix p ib ℂ) (psi : b → ℂ) (a : Matrix p ia ℂ)
    (c : Matrix p ib ℂ) (chi : Matrix b Unit ℂ) (W : Matrix ((ia ⊕ ib → p) × b) ((ia ⊕ ib → p) × b) ℂ) :
    Matrix ((ia ⊕ ib → p) × b) ((ia ⊕ ib → p) × b) ℂ →ₗ[ℂ] ℂ where
  toFun X := element Da Db psi (W * X * W) a c chi
  map_add' X Y := by
    simp only [element, mul_add, add_mul, Matrix.add_apply, Finset.sum_add_distrib]
  map_smul' k X := by
    simp only [element, Matrix.mul_smul, Matrix.smul_mul, Matrix.smul_apply, smul_eq_mul,
      RingHom.id_apply, Finset.mul_sum]
    exact Finset.sum_congr rfl fun f _ => Finset.sum_congr rfl fun m _ =>
      Finset.sum_congr rfl fun f' _ => Finset.sum_congr rfl fun n _ => by ring

theorem move_drift {i q : Type*} [Fintype q] [DecidableEq q] (L : g → Matrix q q ℂ) (α : g → ℂ) (n : ℕ)
    (τ : ℝ) (x : g → ℝ) (phi : Matrix q i ℂ) (E : Matrix q q ℂ) :
    E * expOpOne ((Complex.I * (τ : ℂ)) • ∑ γ, xshift x (fun γ => (τ : ℂ) * α γ) γ • L γ) (E * phi) n =
      (E * taylor (drift α L) n (lift τ x) * E) * phi := by
  have ht : (Complex.I * (τ : ℂ)) • ∑ γ, xshift x (fun γ => (τ : ℂ) * α γ) γ • L γ =
      Complex.I • ∑ o, ((lift τ x o : ℝ) : ℂ) • drift α L o := by
    rw [mul_smul, Fintype.sum_option]
    congr 1
    simp only [lift, drift, Option.elim, xshift]
    rw [smul_neg, Finset.smul_sum, Finset.smul_sum, ← Finset.sum_neg_distrib, ← Finset.sum_add_distrib]
    refine Finset.sum_congr rfl fun γ _ => ?_
    push_cast
    module
  rw [taylor_sum, taylor, ht, Matrix.mul_assoc, Matrix.mul_assoc, Matrix.sum_mul]
  congr 1
  refine Finset.sum_congr rfl fun k _ => ?_
  rw [Matrix.smul_mul]

theorem factors (α β lbar bbar : g → ℂ) (t : ℝ) (x : g → ℝ) :
    Complex.exp (cfb x (fun γ => (Real.sqrt t : ℂ) * α γ) + cfb x (fun γ => (Real.sqrt t : ℂ) * β γ) +
      (cmf t x (fun γ => (Real.sqrt t : ℂ) * α γ) lbar + cmf t x (fun γ => (Real.sqrt t : ℂ) * β γ) bbar)) =
      ManyBody.factor (scalars α β lbar bbar) (lift (Real.sqrt t) x) := by
  unfold ManyBody.factor cfb cmf
  congr 1
  rw [Fintype.sum_option]
  simp only [lift, scalars, Option.elim, xshift, mfShift]
  push_cast
  rw [Finset.mul_sum, Finset.mul_sum, Finset.mul_sum, ← Finset.sum_add_distrib, ← Finset.sum_add_distrib,
    ← Finset.sum_add_distrib, ← Finset.sum_add_distrib, Finset.mul_sum]
  refine Finset.sum_congr rfl fun γ _ => ?_
  linear_combination ((x γ : ℂ) * (Real.sqrt t : ℂ) * (α γ + β γ) -
    (Real.sqrt t : ℂ) ^ 2 / 2 * (α γ ^ 2 + β γ ^ 2)) * (Complex.I_mul_I)

/-- The averaged operator of a step and the exponential of the Hamiltonian. -/
theorem operator_mean (h : e → Matrix p p ℂ) (Hb : Matrix b b ℂ) (L : g → Matrix p p ℂ) (lbar : g → ℂ)
    (B : g → Matrix b b ℂ) (bbar u v : g → ℂ) (n : ℕ) (hn : 3 ≤ n) :
    let _ : NormedRing (Matrix ((e → p) × b) ((e → p) × b) ℂ) := Matrix.linftyOpNormedRing
    let _ : NormedAlgebra ℂ (Matrix ((e → p) × b) ((e → p) × b) ℂ) := Matrix.linftyOpNormedAlgebra
    let α : g → ℂ := fun γ => -Complex.I * (u γ - lbar γ)
    let β : g → ℂ := fun γ => -Complex.I * (v γ - bbar γ)
    let W : ℝ → Matrix ((e → p) × b) ((e → p) × b) ℂ := fun t =>
      (tensor fun j => NormedSpace.exp ((-t / 2 : ℂ) • h j)) ⊗ₖ NormedSpace.exp ((-t / 2 : ℂ) • Hb)
    (fun t : ℝ => W t * (∫ x : g → ℝ, (normalDensity x : ℝ) •
        jointField e (drift α L) (drift β B) (scalars α β lbar bbar) n (lift (Real.sqrt t) x)) * W t -
      NormedSpace.exp ((-t : ℂ) • coupled h Hb L lbar B bbar u v)) =O[𝓝[≥] 0] fun t : ℝ => t ^ 2 := by
  intro _ _ α β W
  have hF := jointField_mean (e := e) L lbar B bbar u v n hn
  simp only at hF
  have hH : ∀ H2 : Matrix ((e → p) × b) ((e → p) × b) ℂ,
      First (fun t : ℝ => ∫ x : g → ℝ, (normalDensity x : ℝ) •
        jointField e (drift α L) (drift β B) (scalars α β lbar bbar) n (lift (Real.sqrt t) x)) 1 (-H2) →
      (fun t : ℝ => W t * (∫ x : g → ℝ, (normalDensity x : ℝ) •
        jointField e (drift α L) (drift β B) (scalars α β lbar bbar) n (lift (Real.sqrt t) x)) * W t -
      NormedSpace.exp ((-t : ℂ) • ((∑ j, site j (h j)) ⊗ₖ (1 : Matrix b b ℂ) +
        (1 : Matrix (e → p) (e → p) ℂ) ⊗ₖ Hb + H2))) =O[𝓝[≥] 0] fun t : ℝ => t ^ 2 := by
    intro H2 hF
    set H1 : Matrix ((e → p) × b) ((e → p) × b) ℂ :=
      (∑ j, site j (h j)) ⊗ₖ (1 : Matrix b b ℂ) + (1 : Matrix (e → p) (e → p) ℂ) ⊗ₖ Hb with hH1
    have hWt : ∀ t, W t = NormedSpace.exp ((t / 2 : ℂ) • (-H1)) := by
      intro t
      simp only [W]
      rw [← exp_sum_site_univ, ← Kron.exp_kron, hH1]
      congr 1
      have e1 : ∑ j, site j ((-t / 2 : ℂ) • h j) = (-t / 2 : ℂ) • ∑ j, site j (h j) := by
        rw [Finset.smul_sum]
        refine Finset.sum_congr rfl fun j _ => ?_
        ext f g
        simp only [site, Matrix.of_apply, Matrix.smul_apply, smul_eq_mul]
        split_ifs <;> simp
      rw [e1, Matrix.smul_kronecker, Matrix.kronecker_smul]
      module
    have hW : First W 1 ((1 / 2 : ℂ) • (-H1)) := by
      have hWf : W = fun t : ℝ => NormedSpace.exp ((t / 2 : ℂ) • (-H1)) := funext hWt
      rw [hWf]
      exact First.of_expands (exp_half_expands (-H1))
    have hE : First (fun t : ℝ => NormedSpace.exp ((t : ℂ) • (-(H1 + H2)))) 1 (-(H1 + H2)) :=
      First.of_expands (exp_expands (-(H1 + H2)))
    have hP := (hW.mul hF).mul hW
    unfold First at hP hE
    refine (hP.sub hE).congr_left fun t => ?_
    have : (1 * 1 * ((1 / 2 : ℂ) • (-H1)) + (1 * -H2 + ((1 / 2 : ℂ) • (-H1)) * 1) * 1 :
        Matrix ((e → p) × b) ((e → p) × b) ℂ) = -(H1 + H2) := by
      simp only [one_mul, mul_one]
      module
    rw [this]
    simp only [mul_one, smul_neg, neg_smul]
    abel
  have := hH _ hF
  rw [Finset.sum_add_distrib, ← add_assoc] at this
  exact this

/-- The overlaps after the steps of both spins and of the bosons as a matrix element. -/
theorem integrand (L : g → Matrix p p ℂ)
    (B : g → Matrix b b ℂ) (α β : g → ℂ) (s : Option g → ℂ) (n : ℕ)
    (Da : Matrix p ia ℂ) (Db : Matrix p ib ℂ) (psi : b → ℂ) (a : Matrix p ia ℂ) (c : Matrix p ib ℂ)
    (chi : Matrix b Unit ℂ) (E : Fin 2 → Matrix p p ℂ) (EB : Matrix b b ℂ) (τ : ℝ) (x : g → ℝ) :
    ManyBody.factor s (lift τ x) *
      (((ovlpMatrix Da (E 0 *
          expOpOne ((Complex.I * (τ : ℂ)) • ∑ γ, xshift x (fun γ => (τ : ℂ) * α γ) γ • L γ)
            (E 0 * a) n)).det *
        (ovlpMatrix Db (E 1 *
          expOpOne ((Complex.I * (τ : ℂ)) • ∑ γ, xshift x (fun γ => (τ : ℂ) * α γ) γ • L γ)
            (E 1 * c) n)).det) *
        bosonOvlp psi (EB *
          expOpOne ((Complex.I * (τ : ℂ)) • ∑ γ, xshift x (fun γ => (τ : ℂ) * β γ) γ • B γ)
            (EB * chi) n)) =
      functional Da Db psi a c chi ((tensor (Sum.elim (fun _ => E 0) fun _ => E 1)) ⊗ₖ EB)
        (jointField (ia ⊕ ib) (drift α L) (drift β B) s n (lift τ x)) := by
  rw [move_drift L α, move_drift L α, move_drift B β, dets_element,
      jointField, fieldStep, Matrix.smul_kronecker, map_smul, smul_eq_mul, ← element_kron]
  refine congrArg (ManyBody.factor s (lift τ x) * ·) ?_
  have hT : ((tensor (Sum.elim (fun _ : ia => E 0) fun _ : ib => E 1)) ⊗ₖ EB) *
      ((tensor fun _ => taylor (drift α L) n (lift τ x)) ⊗ₖ taylor (drift β B) n (lift τ x)) *
      ((tensor (Sum.elim (fun _ : ia => E 0) fun _ : ib => E 1)) ⊗ₖ EB) =
      (tensor (Sum.elim (fun _ => E 0 * taylor (drift α L) n (lift τ x) * E 0)
        fun _ => E 1 * taylor (drift α L) n (lift τ x) * E 1)) ⊗ₖ
        (EB * taylor (drift β B) n (lift τ x) * EB) := by
    rw [← Matrix.mul_kronecker_mul, ← Matrix.mul_kronecker_mul, tensor_mul, tensor_mul]
    congr 1
    refine congrArg tensor ?_
    funext j
    cases j with
    | inl j => simp only [Sum.elim_inl]
    | inr j => simp only [Sum.elim_inr]
  exact congrArg (fun X => element Da Db psi X a c chi) hT.symm

/-- The average of the overlaps after the steps of both spins and of the bosons, for force biases
`-i sqrt(t) (u - lbar)` and `-i sqrt(t) (v - bbar)`. -/
theorem average (h : Fin 2 → Matrix p p ℂ) (Hb : Matrix b b ℂ) (L : g → Matrix p p ℂ) (lbar : g → ℂ)
    (B : g → Matrix b b ℂ) (bbar u v : g → ℂ) (n : ℕ) (hn : 3 ≤ n)
    (Da : Matrix p ia ℂ) (Db : Matrix p ib ℂ) (psi : b → ℂ) (a : Matrix p ia ℂ) (c : Matrix p ib ℂ)
    (chi : Matrix b Unit ℂ) (xf xb : ℝ → g → ℂ)
    (hxf : xf = fun t γ => (Real.sqrt t : ℂ) * (-Complex.I * (u γ - lbar γ)))
    (hxb : xb = fun t γ => (Real.sqrt t : ℂ) * (-Complex.I * (v γ - bbar γ))) :
    (fun t : ℝ => (∫ x : g → ℝ, (normalDensity x : ℂ) *
      (Complex.exp (cfb x (xf t) + cfb x (xb t) + (cmf t x (xf t) lbar + cmf t x (xb t) bbar)) *
      (((ovlpMatrix Da (NormedSpace.exp ((-t / 2 : ℂ) • h 0) *
          expOpOne ((Complex.I * (Real.sqrt t : ℂ)) • ∑ γ, xshift x (xf t) γ • L γ)
            (NormedSpace.exp ((-t / 2 : ℂ) • h 0) * a) n)).det *
        (ovlpMatrix Db (NormedSpace.exp ((-t / 2 : ℂ) • h 1) *
          expOpOne ((Complex.I * (Real.sqrt t : ℂ)) • ∑ γ, xshift x (xf t) γ • L γ)
            (NormedSpace.exp ((-t / 2 : ℂ) • h 1) * c) n)).det) *
        bosonOvlp psi (NormedSpace.exp ((-t / 2 : ℂ) • Hb) *
          expOpOne ((Complex.I * (Real.sqrt t : ℂ)) • ∑ γ, xshift x (xb t) γ • B γ)
            (NormedSpace.exp ((-t / 2 : ℂ) • Hb) * chi) n)))) -
      element Da Db psi (NormedSpace.exp ((-t : ℂ) •
        coupled (Sum.elim (fun _ => h 0) fun _ => h 1) Hb L lbar B bbar u v)) a c chi)
      =O[𝓝[≥] 0] fun t : ℝ => t ^ 2 := by
  subst hxf hxb
  let _ : NormedRing (Matrix ((ia ⊕ ib → p) × b) ((ia ⊕ ib → p) × b) ℂ) := Matrix.linftyOpNormedRing
  let _ : NormedAlgebra ℂ (Matrix ((ia ⊕ ib → p) × b) ((ia ⊕ ib → p) × b) ℂ) :=
    Matrix.linftyOpNormedAlgebra
  have hD := operator_mean (Sum.elim (fun _ : ia => h 0) fun _ : ib => h 1) Hb L lbar B bbar u v n hn
  have hL := functional_isBigO (functional Da Db psi a c chi 1) hD
  refine hL.congr_left fun t => ?_
  rw [map_sub]
  refine congrArg₂ (· - ·) ?_ ?_
  · have hW : (fun j : ia ⊕ ib => NormedSpace.exp ((-t / 2 : ℂ) •
        (Sum.elim (fun _ : ia => h 0) (fun _ : ib => h 1) j))) =
        Sum.elim (fun _ => NormedSpace.exp ((-t / 2 : ℂ) • h 0))
          fun _ => NormedSpace.exp ((-t / 2 : ℂ) • h 1) := by
      funext j
      cases j <;> rfl
    beta_reduce
    rw [hW]
    have hs : ∀ W X, functional Da Db psi a c chi 1 (W * X * W) = functional Da Db psi a c chi W X := by
      intro W X
      show element Da Db psi (1 * (W * X * W) * 1) a c chi = element Da Db psi (W * X * W) a c chi
      rw [one_mul, mul_one]
    rw [hs]
    have hi := functional_lift (functional Da Db psi a c chi
      ((tensor (Sum.elim (fun _ : ia => NormedSpace.exp ((-t / 2 : ℂ) • h 0))
        fun _ : ib => NormedSpace.exp ((-t / 2 : ℂ) • h 1))) ⊗ₖ NormedSpace.exp ((-t / 2 : ℂ) • Hb)))
      (jointField (ia ⊕ ib) (drift (fun γ => -Complex.I * (u γ - lbar γ)) L)
        (drift (fun γ => -Complex.I * (v γ - bbar γ)) B)
        (scalars (fun γ => -Complex.I * (u γ - lbar γ)) (fun γ => -Complex.I * (v γ - bbar γ)) lbar bbar) n)
      (jointField_continuous _ _ _ n) (jointField_bdd _ _ _ n hn)
      (Real.sqrt t) (Real.sqrt_nonneg t)
    refine Eq.trans hi ?_
    refine integral_congr_ae (Eventually.of_forall fun x => ?_)
    have h1 := integrand L B (fun γ => -Complex.I * (u γ - lbar γ))
      (fun γ => -Complex.I * (v γ - bbar γ)) (scalars (fun γ => -Complex.I * (u γ - lbar γ))
      (fun γ => -Complex.I * (v γ - bbar γ)) lbar bbar) n Da Db psi a c chi
      (fun σ => NormedSpace.exp ((-t / 2 : ℂ) • h σ)) (NormedSpace.exp ((-t / 2 : ℂ) • Hb))
      (Real.sqrt t) x
    simp only
    rw [factors, h1]
  · show element Da Db psi (1 * _ * 1) a c chi = _
    rw [one_mul, mul_one]

/-! ### Mixed estimates -/

/-- Specification: the mixed estimate `⟨D| Σ_j M(j) |φ⟩ / ⟨D|φ⟩`. -/
noncomputable def mixed (Da : Matrix p ia ℂ) (Db : Matrix p ib ℂ) (a : Matrix p ia ℂ) (c : Matrix p ib ℂ)
    (M : Matrix p p ℂ) : ℂ :=
  ManyBody.element Da Db (∑ j, site j M) a c / ManyBody.element Da Db 1 a c

/-- Specification: the mixed estimate `⟨ψ| Y |χ⟩ / ⟨ψ|χ⟩` of the bosons. -/
noncomputable def mixedB (psi : b → ℂ) (chi : Matrix b Unit ℂ) (Y : Matrix b b ℂ) : ℂ :=
  bosonOvlp psi (Y * chi) / bosonOvlp psi chi

theorem tensor_deriv (M : Matrix p p ℂ) (f f' : e → p) :
    HasDerivAt (fun t : ℂ => tensor (fun _ : e => 1 + t • M) f f') ((∑ j, site j M) f f') 0 := by
  have h1 : ∀ j ∈ (Finset.univ : Finset e), HasDerivAt (fun t : ℂ => (1 + t • M) (f j) (f' j))
      (M (f j) (f' j)) 0 := by
    intro j _
    simp only [Matrix.add_apply, Matrix.smul_apply, smul_eq_mul]
    simpa using ((hasDerivAt_id (0 : ℂ)).mul_const (M (f j) (f' j))).const_add ((1 : Matrix p p ℂ) (f j) (f' j))
  have h2 := HasDerivAt.fun_finsetProd h1
  simp only [tensor, Matrix.of_apply]
  refine h2.congr_deriv ?_
  rw [Matrix.sum_apply]
  refine Finset.sum_congr rfl fun j _ => ?_
  simp only [zero_smul, add_zero, smul_eq_mul, site, Matrix.of_apply]
  by_cases h : ∀ i, i ≠ j → f i = f' i
  · rw [if_pos h, Finset.prod_eq_one, one_mul]
    intro i hi
    rw [h i (Finset.ne_of_mem_erase hi), Matrix.one_apply_eq]
  · rw [if_neg h]
    push Not at h
    obtain ⟨i, hi, hne⟩ := h
    have h0 : ∏ x ∈ Finset.univ.erase j, (1 : Matrix p p ℂ) (f x) (f' x) = 0 :=
      Finset.prod_eq_zero (Finset.mem_erase.2 ⟨hi, Finset.mem_univ i⟩) (Matrix.one_apply_ne hne)
    rw [h0, zero_mul]

theorem element_deriv (Da : Matrix p ia ℂ) (Db : Matrix p ib ℂ) (a : Matrix p ia ℂ) (c : Matrix p ib ℂ)
    (M : Matrix p p ℂ) :
    HasDerivAt (fun t : ℂ => (ovlpMatrix Da ((1 + t • M) * a)).det * (ovlpMatrix Db ((1 + t • M) * c)).det)
      (ManyBody.element Da Db (∑ j, site j M) a c) 0 := by
  simp only [dets_element]
  have e : (Sum.elim (fun _ : ia => (1 : Matrix p p ℂ)) fun _ : ib => 1) = fun _ => 1 := by
    funext j; cases j <;> rfl
  have e1 : ∀ t : ℂ, (Sum.elim (fun _ : ia => 1 + t • M) fun _ : ib => 1 + t • M) =
      fun _ => 1 + t • M := by
    intro t; funext j; cases j <;> rfl
  simp only [e1, ManyBody.element]
  refine HasDerivAt.fun_sum fun f _ => HasDerivAt.fun_sum fun f' _ => ?_
  exact ((tensor_deriv M f f').const_mul _).mul_const _

theorem element_one (Da : Matrix p ia ℂ) (Db : Matrix p ib ℂ) (a : Matrix p ia ℂ) (c : Matrix p ib ℂ) :
    ManyBody.element Da Db 1 a c = (ovlpMatrix Da a).det * (ovlpMatrix Db c).det := by
  have h := dets_element Da Db 1 1 a c
  have e : (Sum.elim (fun _ : ia => (1 : Matrix p p ℂ)) fun _ : ib => 1) = fun _ => 1 := by
    funext j; cases j <;> rfl
  rw [e, tensor_one, Matrix.one_mul, Matrix.one_mul] at h
  exact h.symm

theorem ghalf_det {i : Type*} [Fintype i] [DecidableEq i] {T W h : Matrix p i ℂ} (hh : ghalf T W = some h) :
    (ovlpMatrix T W).det ≠ 0 := by
  unfold ghalf Green.inv at hh
  split_ifs at hh with h0
  · simp at hh
  · exact h0

theorem mixed_vbias (Da : Matrix p ia ℂ) (Db : Matrix p ib ℂ) (a ha : Matrix p ia ℂ) (c hc : Matrix p ib ℂ)
    (h1 : ghalf Da a = some ha) (h2 : ghalf Db c = some hc) (M : Matrix p p ℂ) :
    vbias (halfRotate Da M) ha + vbias (halfRotate Db M) hc = mixed Da Db a c M := by
  have d1 := (overlap_derivative Da a M ha h1).mul (overlap_derivative Db c M hc h2)
  have d2 := element_deriv Da Db a c M
  have e := d1.unique d2
  have n1 := ghalf_det h1
  have n2 := ghalf_det h2
  simp only [zero_smul, add_zero, Matrix.one_mul] at e
  rw [mixed, element_one, ← e, eq_div_iff (mul_ne_zero n1 n2)]
  ring

theorem mixedB_vbias {c d : Type*} (S : JSetup p ia ib c d b) (chi : Matrix b Unit ℂ) (γ : d)
    (hs : (S.chol γ)ᵀ = S.chol γ) : bosonVbias S chi γ = mixedB S.psi chi (S.chol γ) := by
  unfold bosonVbias mixedB
  conv_rhs => rw [← hs]
  generalize bosonOvlp S.psi chi = o
  rw [bosonOvlp, Finset.sum_div, Finset.sum_comm]
  refine Finset.sum_congr rfl fun n _ => ?_
  rw [Matrix.mul_apply, Finset.sum_mul, Finset.sum_div]
  refine Finset.sum_congr rfl fun m _ => ?_
  rw [Matrix.transpose_apply]
  ring

/-! ### The step of the code -/

variable {c d : Type*} [Fintype c] [Fintype d]

/-- Specification: the setup with the time step `t`, the one-body propagators `exp(-t h / 2)` and
`exp(-t Hb / 2)`. -/
noncomputable def withStep (S : JSetup p ia ib c d b) (h : Fin 2 → Matrix p p ℂ) (Hb : Matrix b b ℂ)
    (t : ℝ) : JSetup p ia ib c d b :=
  { S with el := ManyBody.withStep S.el h t, expB := NormedSpace.exp ((-t / 2 : ℂ) • Hb) }

/-- Specification: the matrix element for all electrons of a walker and its bosons, of an operator given
for every set of electrons (with one spin component both spins have the same orbitals). -/
noncomputable def matrixElement (S : JSetup p ia ib c d b) (Da : Matrix p ia ℂ) (Db : Matrix p ib ℂ)
    (psi : b → ℂ) (w : JWalker p ia ib b)
    (X : Matrix ((ia ⊕ ib → p) × b) ((ia ⊕ ib → p) × b) ℂ)
    (Y : Matrix ((ia ⊕ ia → p) × b) ((ia ⊕ ia → p) × b) ℂ) : ℂ :=
  if S.el.two then element Da Db psi X w.el.phia w.el.phib w.chi
  else element Da Da psi Y w.el.phia w.el.phia w.chi

/-- Specification: the mixed estimate of a one-electron operator for a walker. -/
noncomputable def meanE (S : JSetup p ia ib c d b) (w : JWalker p ia ib b) (M : Matrix p p ℂ) : ℂ :=
  if S.el.two then mixed S.el.Ta S.el.Tb w.el.phia w.el.phib M
  else mixed S.el.Ta S.el.Ta w.el.phia w.el.phia M

/-- Specification: quantities of the bilinear fields, zero for the fields of the electrons alone. -/
def ext {A : Type*} [Zero A] (f : d → A) : c ⊕ d → A := Sum.elim (fun _ => 0) f

/-- Specification: the overlap after one step of the code, times the two factors of the step, averaged over
the fields. -/
noncomputable def averageStep (S : JSetup p ia ib c d b) (h : Fin 2 → Matrix p p ℂ) (Hb : Matrix b b ℂ)
    (eshift : ℂ) (w : JWalker p ia ib b) (k : Matrix p ia ℂ × Matrix p ib ℂ) (t : ℝ) : ℂ :=
  ∫ x : c ⊕ d → ℝ, (normalDensity x : ℂ) *
    (let T := withStep S h Hb t
     let xb := xbar T.el k
     let yb := bbar T w.chi
     match jstep T eshift x w with
      | .ok w' => Complex.exp (cfb x xb + bosonCfb (x ∘ Sum.inr) yb +
            (cmf t x xb S.el.lbar + bosonCmf t (x ∘ Sum.inr) yb S.bmf)) *
          (overlap S.el.Ta w'.el.phia (beta S.el.two (S.el.Tb, w'.el.phib)) * bosonOvlp S.psi w'.chi)
      | .error _ => 0)

theorem getVbias_mean (S : JSetup p ia ib c d b) (w : JWalker p ia ib b)
    (k : Matrix p ia ℂ × Matrix p ib ℂ) (hk : halves S.el w.el.phia w.el.phib = some k) (γ : c ⊕ d) :
    getVbias S.el.L S.el.Ta k.1 (beta S.el.two (S.el.Tb, k.2)) γ = meanE S w (S.el.L γ) := by
  unfold halves at hk
  cases ha : ghalf S.el.Ta w.el.phia with
  | none => rw [ha] at hk; simp at hk
  | some ka =>
    simp only [ha] at hk
    cases ht : S.el.two with
    | false =>
      simp only [ht, Bool.false_eq_true, if_false, Option.some.injEq] at hk
      subst hk
      simp only [meanE, ht, Bool.false_eq_true, if_false, beta, getVbias]
      rw [← mixed_vbias _ _ _ _ _ _ ha ha]
      ring
    | true =>
      simp only [ht, if_true, Option.map_eq_some_iff] at hk
      obtain ⟨kb, hb, rfl⟩ := hk
      simp only [meanE, ht, if_true, beta, getVbias]
      rw [← mixed_vbias _ _ _ _ _ _ ha hb]
      ring

/-- For small time steps the force bias is below the bound. -/
theorem bias_small {a : Type*} [Finite a] (bound : ℝ) (hb : 0 < bound) (z : a → ℂ) :
    ∀ᶠ t : ℝ in 𝓝[≥] 0, ∀ γ, rescaleFbias bound ((Real.sqrt t : ℂ) * z γ) = (Real.sqrt t : ℂ) * z γ := by
  refine eventually_all.2 fun γ => ?_
  have hc : Continuous fun t : ℝ => ‖(Real.sqrt t : ℂ) * z γ‖ := by fun_prop
  have h0 : Tendsto (fun t : ℝ => ‖(Real.sqrt t : ℂ) * z γ‖) (𝓝[≥] 0) (𝓝 0) := by
    have := (hc.tendsto 0).mono_left (nhdsWithin_le_nhds (s := Set.Ici (0 : ℝ)))
    simpa using this
  filter_upwards [h0.eventually (gt_mem_nhds hb)] with t ht
  unfold rescaleFbias
  rw [if_neg (not_lt.2 (le_of_lt ht))]

theorem raw_eq {a : Type*} (t : ℝ) (v l : a → ℂ) (γ : a) :
    xbarRaw t v l γ = (Real.sqrt t : ℂ) * (-Complex.I * (v γ - l γ)) := by
  unfold xbarRaw mfShift
  ring

theorem bosonCfb_ext (x : c ⊕ d → ℝ) (y : d → ℂ) : bosonCfb (x ∘ Sum.inr) y = cfb x (ext y) := by
  unfold bosonCfb cfb ext
  rw [Fintype.sum_sum_type]
  simp only [Sum.elim_inl, Sum.elim_inr, mul_zero, Finset.sum_const_zero, zero_add, Function.comp]
  rw [Finset.mul_sum, ← Finset.sum_sub_distrib]
  exact Finset.sum_congr rfl fun γ _ => by ring

theorem bosonCmf_ext (t : ℝ) (x : c ⊕ d → ℝ) (y m : d → ℂ) :
    bosonCmf t (x ∘ Sum.inr) y m = cmf t x (ext y) (ext m) := by
  unfold bosonCmf cmf ext mfShift xshift
  rw [Fintype.sum_sum_type]
  simp only [Sum.elim_inl, Sum.elim_inr, mul_zero, Finset.sum_const_zero, zero_add, Function.comp]

theorem field_ext (x : c ⊕ d → ℝ) (y : d → ℂ) (B : d → Matrix b b ℂ) :
    ∑ γ, xshift (x ∘ Sum.inr) y γ • B γ = ∑ γ, xshift x (ext y) γ • (ext B : c ⊕ d → Matrix b b ℂ) γ := by
  unfold xshift ext
  rw [Fintype.sum_sum_type]
  simp only [Sum.elim_inl, Sum.elim_inr, smul_zero, Finset.sum_const_zero, zero_add, Function.comp]

/-- **C111.** One step of electrons and bosons with the force biases of the code, averaged over the
fields: the weighted overlaps of the moved walker with any determinant and any boson state are those of
`exp(-t H)` up to second order in the time step, where the coupling in `H` is counted from the mixed
estimates of the walker that is moved. -/
theorem joint_mean (S : JSetup p ia ib c d b) (hn : 3 ≤ S.el.order) (hbd : 0 < S.el.bound)
    (hs : ∀ γ, (S.chol γ)ᵀ = S.chol γ) (h : Fin 2 → Matrix p p ℂ) (Hb : Matrix b b ℂ)
    (Da : Matrix p ia ℂ) (Db : Matrix p ib ℂ) (psi : b → ℂ) (w : JWalker p ia ib b)
    (k : Matrix p ia ℂ × Matrix p ib ℂ) (hk : halves S.el w.el.phia w.el.phib = some k) :
    let u : c ⊕ d → ℂ := fun γ => meanE S w (S.el.L γ)
    let v : c ⊕ d → ℂ := ext fun γ => mixedB S.psi w.chi (S.chol γ)
    (fun t : ℝ => (∫ x : c ⊕ d → ℝ, (normalDensity x : ℂ) *
      (let T := withStep S h Hb t
       let xb := xbar T.el k
       let yb := bbar T w.chi
       Complex.exp (cfb x xb + bosonCfb (x ∘ Sum.inr) yb +
          (cmf t x xb S.el.lbar + bosonCmf t (x ∘ Sum.inr) yb S.bmf)) *
        (overlap Da (move T.el (fieldOp T.el x xb) (NormedSpace.exp ((-t / 2 : ℂ) • h 0)) w.el.phia)
          (beta S.el.two (Db, move T.el (fieldOp T.el x xb) (NormedSpace.exp ((-t / 2 : ℂ) • h 1))
            w.el.phib)) *
        bosonOvlp psi (moveB T (x ∘ Sum.inr) yb w.chi)))) -
      matrixElement S Da Db psi w
        (NormedSpace.exp ((-t : ℂ) • coupled (Sum.elim (fun _ => h 0) fun _ => h 1) Hb S.el.L S.el.lbar
          (ext S.chol) (ext S.bmf) u v))
        (NormedSpace.exp ((-t : ℂ) • coupled (fun _ => h 0) Hb S.el.L S.el.lbar
          (ext S.chol) (ext S.bmf) u v)))
      =O[𝓝[≥] 0] fun t : ℝ => t ^ 2 := by
  intro u v
  have e1 := bias_small S.el.bound hbd fun γ : c ⊕ d => -Complex.I * (u γ - S.el.lbar γ)
  have e2 := bias_small S.el.bound hbd fun γ : d =>
    -Complex.I * (mixedB S.psi w.chi (S.chol γ) - S.bmf γ)
  have hxb : ∀ᶠ t : ℝ in 𝓝[≥] 0, xbar (withStep S h Hb t).el k =
      (fun γ => (Real.sqrt t : ℂ) * (-Complex.I * (u γ - S.el.lbar γ))) ∧
      ext (bbar (withStep S h Hb t) w.chi) =
        fun γ => (Real.sqrt t : ℂ) * (-Complex.I * (v γ - ext S.bmf γ)) := by
    filter_upwards [e1, e2] with t h1 h2
    constructor
    · funext γ
      rw [← h1 γ]
      show rescaleFbias S.el.bound (xbarRaw t (getVbias S.el.L S.el.Ta k.1 (beta S.el.two (S.el.Tb, k.2)))
        S.el.lbar γ) = _
      rw [raw_eq, getVbias_mean S w k hk γ]
    · funext γ
      cases γ with
      | inl γ => simp [ext, v]
      | inr γ =>
        show rescaleFbias S.el.bound (xbarRaw t (bosonVbias S w.chi) S.bmf γ) =
          (Real.sqrt t : ℂ) * (-Complex.I * (mixedB S.psi w.chi (S.chol γ) - S.bmf γ))
        rw [raw_eq, mixedB_vbias S w.chi γ (hs γ)]
        exact h2 γ
  cases h2 : S.el.two with
  | true =>
    have hav := average h Hb S.el.L S.el.lbar (ext S.chol) (ext S.bmf) u v S.el.order hn Da Db psi
      w.el.phia w.el.phib w.chi _ _ rfl rfl
    refine hav.congr' ?_ EventuallyEq.rfl
    filter_upwards [hxb] with t ht
    refine congrArg₂ (· - ·) ?_ ?_
    · refine integral_congr_ae (Eventually.of_forall fun x => ?_)
      beta_reduce
      simp only [bosonCfb_ext, bosonCmf_ext, moveB, field_ext, fieldOp, beta, if_true, overlap, move]
      rw [ht.1, ht.2]
      rfl
    · simp only [matrixElement, h2, if_true]
  | false =>
    have hav := average (fun _ => h 0) Hb S.el.L S.el.lbar (ext S.chol) (ext S.bmf) u v S.el.order hn Da Da
      psi w.el.phia w.el.phia w.chi _ _ rfl rfl
    have e : (Sum.elim (fun _ => h 0) fun _ => h 0 : ia ⊕ ia → Matrix p p ℂ) = fun _ => h 0 := by
      funext j
      cases j <;> rfl
    rw [e] at hav
    refine hav.congr' ?_ EventuallyEq.rfl
    filter_upwards [hxb] with t ht
    refine congrArg₂ (· - ·) ?_ ?_
    · refine integral_congr_ae (Eventually.of_forall fun x => ?_)
      beta_reduce
      simp only [bosonCfb_ext, bosonCmf_ext, moveB, field_ext, fieldOp, beta, Bool.false_eq_true, if_false,
        overlap, move]
      rw [ht.1, ht.2]
      rfl
    · simp only [matrixElement, h2, Bool.false_eq_true, if_false]

/-- **C111.** The same for the step of the code and the overlaps it stores. -/
theorem joint_step (S : JSetup p ia ib c d b) (hn : 3 ≤ S.el.order) (hbd : 0 < S.el.bound)
    (hs : ∀ γ, (S.chol γ)ᵀ = S.chol γ) (h : Fin 2 → Matrix p p ℂ) (Hb : Matrix b b ℂ) (eshift : ℂ)
    (w : JWalker p ia ib b) (k : Matrix p ia ℂ × Matrix p ib ℂ)
    (hk : halves S.el w.el.phia w.el.phib = some k) (hw : bosonOvlp S.psi w.chi ≠ 0)
    (hsch : S.el.scheme = some "hybrid" ∨ S.el.scheme = some "local") :
    let u : c ⊕ d → ℂ := fun γ => meanE S w (S.el.L γ)
    let v : c ⊕ d → ℂ := ext fun γ => mixedB S.psi w.chi (S.chol γ)
    (fun t : ℝ => averageStep S h Hb eshift w k t -
      matrixElement S S.el.Ta S.el.Tb S.psi w
        (NormedSpace.exp ((-t : ℂ) • coupled (Sum.elim (fun _ => h 0) fun _ => h 1) Hb S.el.L S.el.lbar
          (ext S.chol) (ext S.bmf) u v))
        (NormedSpace.exp ((-t : ℂ) • coupled (fun _ => h 0) Hb S.el.L S.el.lbar
          (ext S.chol) (ext S.bmf) u v)))
      =O[𝓝[≥] 0] fun t : ℝ => t ^ 2 := by
  intro u v
  refine (joint_mean S hn hbd hs h Hb S.el.Ta S.el.Tb S.psi w k hk).congr_left fun t => ?_
  refine congrArg (· - _) ?_
  unfold averageStep
  refine integral_congr_ae (Eventually.of_forall fun x => ?_)
  refine congrArg (_ * ·) ?_
  simp only [jstep]
  rw [show halves (withStep S h Hb t).el w.el.phia w.el.phib = some k from hk]
  simp only
  rw [if_neg (show ¬ bosonOvlp (withStep S h Hb t).psi w.chi = 0 from hw)]
  have hb : beta S.el.two (S.el.Tb, if (withStep S h Hb t).el.two = true then
        move (withStep S h Hb t).el (fieldOp (withStep S h Hb t).el x (xbar (withStep S h Hb t).el k))
          ((withStep S h Hb t).el.expH 1) w.el.phib else w.el.phib) =
      beta S.el.two (S.el.Tb, move (withStep S h Hb t).el
        (fieldOp (withStep S h Hb t).el x (xbar (withStep S h Hb t).el k))
          ((withStep S h Hb t).el.expH 1) w.el.phib) := by
    cases h2 : S.el.two with
    | true => rw [show (withStep S h Hb t).el.two = true from h2]; rfl
    | false => rfl
  have hsch' : (withStep S h Hb t).el.scheme = some "hybrid" ∨
      (withStep S h Hb t).el.scheme = some "local" := hsch
  generalize (if (withStep S h Hb t).el.two = true then
        move (withStep S h Hb t).el (fieldOp (withStep S h Hb t).el x (xbar (withStep S h Hb t).el k))
          ((withStep S h Hb t).el.expH 1) w.el.phib else w.el.phib) = B at hb ⊢
  split_ifs with h0
  · simp only
    have h0' : overlap S.el.Ta (move (withStep S h Hb t).el
          (fieldOp (withStep S h Hb t).el x (xbar (withStep S h Hb t).el k))
          ((withStep S h Hb t).el.expH 0) w.el.phia)
        (beta S.el.two (S.el.Tb, move (withStep S h Hb t).el
          (fieldOp (withStep S h Hb t).el x (xbar (withStep S h Hb t).el k))
          ((withStep S h Hb t).el.expH 1) w.el.phib)) *
        bosonOvlp S.psi (moveB (withStep S h Hb t) (x ∘ Sum.inr) (bbar (withStep S h Hb t) w.chi) w.chi)
          = 0 := by
      rw [← hb]
      exact h0
    exact (mul_eq_zero.2 (Or.inr h0'))
  · have hu : ∀ X : UpdateInput, ∃ r, updateWeight (withStep S h Hb t).el.scheme (withStep S h Hb t).el.dt
        eshift w.el.weight w.el.ehybrid X = .ok r := by
      intro X
      unfold updateWeight
      rcases hsch' with h1 | h1
      · rw [if_pos h1]; exact ⟨_, rfl⟩
      · rw [if_neg (by rw [h1]; decide), if_pos h1]; exact ⟨_, rfl⟩
    generalize hX : (⟨_, _, _, _, _⟩ : UpdateInput) = X
    obtain ⟨r, hr⟩ := hu X
    rw [hr]
    simp only
    rw [hb]
    rfl

/-! ### First order -/

section FirstOrder

variable {A : Type*} [NormedRing A] [NormedAlgebra ℂ A] [FiniteDimensional ℂ A]

theorem linear_zero (z : ℂ) (hz : (fun t : ℝ => (t : ℂ) * z) =O[𝓝[≥] 0] fun t : ℝ => t ^ 2) : z = 0 := by
  obtain ⟨C, hC⟩ := hz.bound
  have h1 : ∀ᶠ t : ℝ in 𝓝[>] 0, ‖z‖ ≤ C * t := by
    have h2 := hC.filter_mono (nhdsWithin_mono (0 : ℝ) (Set.Ioi_subset_Ici_self))
    filter_upwards [h2, self_mem_nhdsWithin] with t ht h0
    rw [norm_mul, Complex.norm_real, norm_pow, Real.norm_eq_abs, abs_of_pos h0] at ht
    nlinarith [show (0 : ℝ) < t from h0]
  have h2 : Tendsto (fun t : ℝ => C * t) (𝓝[>] 0) (𝓝 (C * 0)) :=
    ((continuous_const.mul continuous_id).tendsto 0).mono_left nhdsWithin_le_nhds
  have h3 := ge_of_tendsto h2 h1
  rw [mul_zero] at h3
  exact norm_le_zero_iff.1 h3

theorem exp_agree_iff [CompleteSpace A] (F : A →ₗ[ℂ] ℂ) (X Y : A) :
    (fun t : ℝ => F (NormedSpace.exp ((-t : ℂ) • X)) - F (NormedSpace.exp ((-t : ℂ) • Y)))
      =O[𝓝[≥] 0] (fun t : ℝ => t ^ 2) ↔ F X = F Y := by
  have hE : ∀ X : A, First (fun t : ℝ => NormedSpace.exp ((t : ℂ) • (-X))) 1 (-X) := fun X =>
    First.of_expands (exp_expands (-X))
  have hX := functional_isBigO F (hE X)
  have hY := functional_isBigO F (hE Y)
  have hd : (fun t : ℝ => F (NormedSpace.exp ((-t : ℂ) • X)) - F (NormedSpace.exp ((-t : ℂ) • Y)) +
      (t : ℂ) * (F X - F Y)) =O[𝓝[≥] 0] (fun t : ℝ => t ^ 2) := by
    refine (hX.sub hY).congr_left fun t => ?_
    simp only [map_sub, map_add, map_smul, map_neg, smul_eq_mul, smul_neg, neg_smul]
    ring
  constructor
  · intro h
    have := hd.sub h
    refine sub_eq_zero.1 (linear_zero _ (this.congr_left fun t => ?_))
    ring
  · intro h
    refine hd.congr_left fun t => ?_
    rw [h]
    ring

end FirstOrder

/-- The matrix element is linear in the operator. -/
def elementHom (Da : Matrix p ia ℂ) (Db : Matrix p ib ℂ) (psi : b → ℂ) (a : Matrix p ia ℂ)
    (c : Matrix p ib ℂ) (chi : Matrix b Unit ℂ) :
    Matrix ((ia ⊕ ib → p) × b) ((ia ⊕ ib → p) × b) ℂ →ₗ[ℂ] ℂ where
  toFun X := element Da Db psi X a c chi
  map_add' X Y := by
    simp only [element, mul_add, add_mul, Matrix.add_apply, Finset.sum_add_distrib]
  map_smul' k X := by
    simp only [element, Matrix.smul_apply, smul_eq_mul, RingHom.id_apply, Finset.mul_sum]
    refine Finset.sum_congr rfl fun f _ => Finset.sum_congr rfl fun m _ => Finset.sum_congr rfl fun f' _ =>
      Finset.sum_congr rfl fun n _ => ?_
    ring

/-- The matrix element of the one-electron operators as a linear function. -/
theorem element_shifted (Da : Matrix p ia ℂ) (Db : Matrix p ib ℂ) (a : Matrix p ia ℂ) (c : Matrix p ib ℂ)
    (M : Matrix p p ℂ) (z : ℂ) :
    ManyBody.element Da Db (shifted (ia ⊕ ib) M z) a c =
      ManyBody.element Da Db (∑ j, site j M) a c - z * ManyBody.element Da Db 1 a c := by
  simp only [ManyBody.element, shifted, Matrix.sub_apply, Matrix.smul_apply, smul_eq_mul, mul_sub,
    sub_mul, Finset.sum_sub_distrib, Finset.mul_sum]
  congr 1
  refine Finset.sum_congr rfl fun f _ => Finset.sum_congr rfl fun f' _ => ?_
  ring

theorem element_coupling (Da : Matrix p ia ℂ) (Db : Matrix p ib ℂ) (psi : b → ℂ) (a : Matrix p ia ℂ)
    (c : Matrix p ib ℂ) (chi : Matrix b Unit ℂ) (L : g → Matrix p p ℂ) (B : g → Matrix b b ℂ) (u v : g → ℂ)
    (hd : ManyBody.element Da Db 1 a c ≠ 0) (hb : bosonOvlp psi chi ≠ 0) :
    element Da Db psi (coupling (ia ⊕ ib) L B u v) a c chi =
      (∑ γ, (mixed Da Db a c (L γ) - u γ) * (mixedB psi chi (B γ) - v γ)) *
        (ManyBody.element Da Db 1 a c * bosonOvlp psi chi) := by
  have h1 := map_sum (elementHom Da Db psi a c chi)
    (fun γ => shifted (ia ⊕ ib) (L γ) (u γ) ⊗ₖ (B γ - v γ • 1)) Finset.univ
  refine h1.trans ?_
  rw [Finset.sum_mul]
  refine Finset.sum_congr rfl fun γ _ => ?_
  refine (element_kron _ _ _ _ _ _ _ _).trans ?_
  have h2 : bosonOvlp psi ((B γ - v γ • 1) * chi) = bosonOvlp psi (B γ * chi) - v γ * bosonOvlp psi chi := by
    rw [Matrix.sub_mul, Matrix.smul_mul, Matrix.one_mul]
    simp only [bosonOvlp, Matrix.sub_apply, Matrix.smul_apply, smul_eq_mul, sub_mul, Finset.sum_sub_distrib,
      Finset.mul_sum]
    congr 1
    exact Finset.sum_congr rfl fun n _ => by ring
  rw [h2, element_shifted, mixed, mixedB]
  field_simp

theorem element_agree_iff (Da : Matrix p ia ℂ) (Db : Matrix p ib ℂ) (psi : b → ℂ) (a : Matrix p ia ℂ)
    (c : Matrix p ib ℂ) (chi : Matrix b Unit ℂ) (h : ia ⊕ ib → Matrix p p ℂ) (Hb : Matrix b b ℂ)
    (L : g → Matrix p p ℂ) (lbar : g → ℂ) (B : g → Matrix b b ℂ) (bbar u0 v0 : g → ℂ)
    (hd : ManyBody.element Da Db 1 a c ≠ 0) (hb : bosonOvlp psi chi ≠ 0) :
    (fun t : ℝ => element Da Db psi (NormedSpace.exp ((-t : ℂ) • coupled h Hb L lbar B bbar
        (fun γ => mixed Da Db a c (L γ)) fun γ => mixedB psi chi (B γ))) a c chi -
      element Da Db psi (NormedSpace.exp ((-t : ℂ) • coupled h Hb L lbar B bbar u0 v0)) a c chi)
      =O[𝓝[≥] 0] (fun t : ℝ => t ^ 2) ↔
    ∑ γ, (mixed Da Db a c (L γ) - u0 γ) * (mixedB psi chi (B γ) - v0 γ) = 0 := by
  let _ : NormedRing (Matrix ((ia ⊕ ib → p) × b) ((ia ⊕ ib → p) × b) ℂ) := Matrix.linftyOpNormedRing
  let _ : NormedAlgebra ℂ (Matrix ((ia ⊕ ib → p) × b) ((ia ⊕ ib → p) × b) ℂ) :=
    Matrix.linftyOpNormedAlgebra
  refine (exp_agree_iff (elementHom Da Db psi a c chi) _ _).trans ?_
  rw [coupled, coupled, map_add, map_add, add_right_inj]
  show element Da Db psi (coupling (ia ⊕ ib) L B _ _) a c chi =
    element Da Db psi (coupling (ia ⊕ ib) L B u0 v0) a c chi ↔ _
  rw [element_coupling _ _ _ _ _ _ _ _ _ _ hd hb, element_coupling _ _ _ _ _ _ _ _ _ _ hd hb]
  simp only [sub_self, mul_zero, Finset.sum_const_zero, zero_mul]
  rw [eq_comm, mul_eq_zero]
  exact or_iff_left (mul_ne_zero hd hb)

theorem element_uncoupled (Da : Matrix p ia ℂ) (Db : Matrix p ib ℂ) (psi : b → ℂ) (a : Matrix p ia ℂ)
    (c : Matrix p ib ℂ) (chi : Matrix b Unit ℂ) (h : ia ⊕ ib → Matrix p p ℂ) (Hb : Matrix b b ℂ)
    (L : g → Matrix p p ℂ) (lbar : g → ℂ) (B : g → Matrix b b ℂ) (bbar : g → ℂ)
    (hd : ManyBody.element Da Db 1 a c ≠ 0) (hb : bosonOvlp psi chi ≠ 0) :
    (fun t : ℝ => element Da Db psi (NormedSpace.exp ((-t : ℂ) • coupled h Hb L lbar B bbar
        (fun γ => mixed Da Db a c (L γ)) fun γ => mixedB psi chi (B γ))) a c chi -
      element Da Db psi (NormedSpace.exp ((-t : ℂ) • uncoupled h Hb L lbar B bbar)) a c chi)
      =O[𝓝[≥] 0] (fun t : ℝ => t ^ 2) := by
  let _ : NormedRing (Matrix ((ia ⊕ ib → p) × b) ((ia ⊕ ib → p) × b) ℂ) := Matrix.linftyOpNormedRing
  let _ : NormedAlgebra ℂ (Matrix ((ia ⊕ ib → p) × b) ((ia ⊕ ib → p) × b) ℂ) :=
    Matrix.linftyOpNormedAlgebra
  refine (exp_agree_iff (elementHom Da Db psi a c chi) _ _).2 ?_
  rw [coupled, map_add]
  show _ + element Da Db psi (coupling (ia ⊕ ib) L B _ _) a c chi = _
  rw [element_coupling _ _ _ _ _ _ _ _ _ _ hd hb]
  simp

theorem mixed_ext (psi : b → ℂ) (chi : Matrix b Unit ℂ) (B : d → Matrix b b ℂ) :
    (ext fun γ => mixedB psi chi (B γ) : c ⊕ d → ℂ) = fun γ => mixedB psi chi (ext B γ) := by
  funext γ
  cases γ with
  | inl γ => simp [ext, mixedB, bosonOvlp]
  | inr γ => rfl

theorem halves_ne (S : JSetup p ia ib c d b) (w : JWalker p ia ib b)
    (k : Matrix p ia ℂ × Matrix p ib ℂ) (hk : halves S.el w.el.phia w.el.phib = some k) :
    (ovlpMatrix S.el.Ta w.el.phia).det ≠ 0 ∧
      (S.el.two = true → (ovlpMatrix S.el.Tb w.el.phib).det ≠ 0) := by
  unfold halves at hk
  cases ha : ghalf S.el.Ta w.el.phia with
  | none => rw [ha] at hk; simp at hk
  | some ka =>
    refine ⟨ghalf_det ha, fun h2 => ?_⟩
    simp only [ha, h2, if_true, Option.map_eq_some_iff] at hk
    obtain ⟨kb, hb, -⟩ := hk
    exact ghalf_det hb

/-- **C111.** The average of the step is that of a Hamiltonian whose coupling is counted from fixed values
`u0` and `v0` (for example the mean-field values, for which it is the average without force bias) exactly
when the distances of the mixed estimates of the walker from them are orthogonal. -/
theorem joint_step_iff (S : JSetup p ia ib c d b) (hn : 3 ≤ S.el.order) (hbd : 0 < S.el.bound)
    (hs : ∀ γ, (S.chol γ)ᵀ = S.chol γ) (h : Fin 2 → Matrix p p ℂ) (Hb : Matrix b b ℂ) (eshift : ℂ)
    (w : JWalker p ia ib b) (k : Matrix p ia ℂ × Matrix p ib ℂ)
    (hk : halves S.el w.el.phia w.el.phib = some k) (hw : bosonOvlp S.psi w.chi ≠ 0)
    (hsch : S.el.scheme = some "hybrid" ∨ S.el.scheme = some "local") (u0 : c ⊕ d → ℂ) (v0 : d → ℂ) :
    (fun t : ℝ => averageStep S h Hb eshift w k t -
      matrixElement S S.el.Ta S.el.Tb S.psi w
        (NormedSpace.exp ((-t : ℂ) • coupled (Sum.elim (fun _ => h 0) fun _ => h 1) Hb S.el.L S.el.lbar
          (ext S.chol) (ext S.bmf) u0 (ext v0)))
        (NormedSpace.exp ((-t : ℂ) • coupled (fun _ => h 0) Hb S.el.L S.el.lbar
          (ext S.chol) (ext S.bmf) u0 (ext v0))))
      =O[𝓝[≥] 0] (fun t : ℝ => t ^ 2) ↔
    ∑ γ, (meanE S w (S.el.L (Sum.inr γ)) - u0 (Sum.inr γ)) *
      (mixedB S.psi w.chi (S.chol γ) - v0 γ) = 0 := by
  have h1 := joint_step S hn hbd hs h Hb eshift w k hk hw hsch
  simp only at h1
  have hsum : ∑ γ : c ⊕ d, (meanE S w (S.el.L γ) - u0 γ) *
      (mixedB S.psi w.chi (ext S.chol γ) - ext v0 γ) =
      ∑ γ, (meanE S w (S.el.L (Sum.inr γ)) - u0 (Sum.inr γ)) *
        (mixedB S.psi w.chi (S.chol γ) - v0 γ) := by
    rw [Fintype.sum_sum_type]
    simp [ext, mixedB, bosonOvlp]
  rw [← hsum]
  obtain ⟨n1, n2⟩ := halves_ne S w k hk
  rw [mixed_ext] at h1
  have key : ∀ {X Y Z : ℝ → ℂ}, (fun t => X t - Y t) =O[𝓝[≥] 0] (fun t : ℝ => t ^ 2) →
      ((fun t => X t - Z t) =O[𝓝[≥] 0] (fun t : ℝ => t ^ 2) ↔
        (fun t => Y t - Z t) =O[𝓝[≥] 0] (fun t : ℝ => t ^ 2)) := by
    intro X Y Z hXY
    constructor
    · intro hz
      exact (hz.sub hXY).congr_left fun t => by ring
    · intro hz
      exact (hXY.add hz).congr_left fun t => by ring
  refine (key h1).trans ?_
  cases h2 : S.el.two with
  | true =>
    simp only [matrixElement, meanE, h2, if_true]
    exact element_agree_iff _ _ _ _ _ _ _ _ _ _ _ _ _ _
      (by rw [element_one]; exact mul_ne_zero n1 (n2 h2)) hw
  | false =>
    simp only [matrixElement, meanE, h2, Bool.false_eq_true, if_false]
    exact element_agree_iff _ _ _ _ _ _ _ _ _ _ _ _ _ _
      (by rw [element_one]; exact mul_ne_zero n1 n1) hw

/-- **C111.** To first order in the time step the average overlap of the step with the trial does not
contain the coupling of electrons and bosons at all. -/
theorem coupling_invisible (S : JSetup p ia ib c d b) (hn : 3 ≤ S.el.order) (hbd : 0 < S.el.bound)
    (hs : ∀ γ, (S.chol γ)ᵀ = S.chol γ) (h : Fin 2 → Matrix p p ℂ) (Hb : Matrix b b ℂ) (eshift : ℂ)
    (w : JWalker p ia ib b) (k : Matrix p ia ℂ × Matrix p ib ℂ)
    (hk : halves S.el w.el.phia w.el.phib = some k) (hw : bosonOvlp S.psi w.chi ≠ 0)
    (hsch : S.el.scheme = some "hybrid" ∨ S.el.scheme = some "local") :
    (fun t : ℝ => averageStep S h Hb eshift w k t -
      matrixElement S S.el.Ta S.el.Tb S.psi w
        (NormedSpace.exp ((-t : ℂ) • uncoupled (Sum.elim (fun _ => h 0) fun _ => h 1) Hb S.el.L S.el.lbar
          (ext S.chol) (ext S.bmf)))
        (NormedSpace.exp ((-t : ℂ) • uncoupled (fun _ => h 0) Hb S.el.L S.el.lbar
          (ext S.chol) (ext S.bmf))))
      =O[𝓝[≥] 0] (fun t : ℝ => t ^ 2) := by
  have h1 := joint_step S hn hbd hs h Hb eshift w k hk hw hsch
  simp only at h1
  rw [mixed_ext] at h1
  obtain ⟨n1, n2⟩ := halves_ne S w k hk
  cases h2 : S.el.two with
  | true =>
    simp only [matrixElement, meanE, h2, if_true] at h1 ⊢
    have h3 := element_uncoupled S.el.Ta S.el.Tb S.psi w.el.phia w.el.phib w.chi
      (Sum.elim (fun _ => h 0) fun _ => h 1) Hb S.el.L S.el.lbar (ext S.chol) (ext S.bmf)
      (by rw [element_one]; exact mul_ne_zero n1 (n2 h2)) hw
    exact (h1.add h3).congr_left fun t => by ring
  | false =>
    simp only [matrixElement, meanE, h2, Bool.false_eq_true, if_false] at h1 ⊢
    have h3 := element_uncoupled S.el.Ta S.el.Ta S.psi w.el.phia w.el.phia w.chi
      (fun _ => h 0) Hb S.el.L S.el.lbar (ext S.chol) (ext S.bmf)
      (by rw [element_one]; exact mul_ne_zero n1 n1) hw
    exact (h1.add h3).congr_left fun t => by ring

end Elements

/-! ### A concrete system -/

/-- A closed shell of two electrons in two orbitals and a boson with two states, one bilinear field. -/
noncomputable def demo : JSetup (Fin 2) (Fin 1) (Fin 1) Empty Unit (Fin 2) where
  el :=
    { two := false
      dt := 0
      order := 6
      bound := 1
      scheme := some "hybrid"
      expH := fun _ => 1
      L := fun _ => !![0, 1; 1, 0]
      lbar := fun _ => 0
      Ta := !![1; 0]
      Tb := !![1; 0] }
  expB := 1
  chol := fun _ => !![0, 1; 1, 0]
  bmf := fun _ => 0
  psi := ![1, 0]

/-- A walker that is not the trial. -/
noncomputable def demoWalker : JWalker (Fin 2) (Fin 1) (Fin 1) (Fin 2) :=
  ⟨⟨!![1; 1], !![1; 1], 1, 0, 0⟩, Matrix.of fun _ _ => 1⟩

/-- The half rotated Green's function of the walker. -/
noncomputable def demoHalf : Matrix (Fin 2) (Fin 1) ℂ × Matrix (Fin 2) (Fin 1) ℂ := (!![1; 1], 0)

theorem demo_ovlp : ovlpMatrix (!![1; 0] : Matrix (Fin 2) (Fin 1) ℂ) !![1; 1] = 1 := by
  ext a b
  fin_cases a; fin_cases b
  simp [ovlpMatrix, conj, Matrix.mul_apply]

theorem demo_halves : halves demo.el demoWalker.el.phia demoWalker.el.phib = some demoHalf := by
  have h1 : ghalf (!![1; 0] : Matrix (Fin 2) (Fin 1) ℂ) !![1; 1] = some !![1; 1] := by
    unfold ghalf Green.inv
    rw [demo_ovlp, if_neg (by simp), inv_one]
    simp only [Option.map_some, Option.some.injEq]
    ext a b
    fin_cases b
    fin_cases a <;> simp
  unfold halves
  rw [show ghalf demo.el.Ta demoWalker.el.phia = some !![1; 1] from h1]
  rfl

theorem demo_boson : bosonOvlp demo.psi demoWalker.chi = 1 := by
  simp [bosonOvlp, demo, demoWalker]

/-- The hypotheses of the theorems hold for the system. -/
example : 3 ≤ demo.el.order ∧ 0 < demo.el.bound ∧ (∀ γ, (demo.chol γ)ᵀ = demo.chol γ) ∧
    (∃ k, halves demo.el demoWalker.el.phia demoWalker.el.phib = some k) ∧
    bosonOvlp demo.psi demoWalker.chi ≠ 0 ∧ demo.el.scheme = some "hybrid" := by
  refine ⟨by norm_num [demo], by norm_num [demo], fun γ => ?_, ⟨_, demo_halves⟩, ?_, rfl⟩
  · ext a b
    fin_cases a <;> fin_cases b <;> simp [demo]
  · rw [demo_boson]
    exact one_ne_zero

theorem demo_means : meanE demo demoWalker (demo.el.L (Sum.inr ())) = 2 ∧
    mixedB demo.psi demoWalker.chi (demo.chol ()) = 1 := by
  constructor
  · rw [← getVbias_mean demo demoWalker _ demo_halves]
    simp [getVbias, demo, demoHalf, beta, vbias, halfRotate, conj]
  · rw [mixedB, demo_boson, div_one]
    simp [bosonOvlp, demo, demoWalker, Matrix.mul_apply]

/-- **C111.** The average of the step is not that of the Hamiltonian with the coupling
`Σ (L - lbar) (B - bbar)`, the average without force bias. -/
theorem joint_step_fails : ∃ (S : JSetup (Fin 2) (Fin 1) (Fin 1) Empty Unit (Fin 2))
    (w : JWalker (Fin 2) (Fin 1) (Fin 1) (Fin 2)) (k : Matrix (Fin 2) (Fin 1) ℂ × Matrix (Fin 2) (Fin 1) ℂ),
    3 ≤ S.el.order ∧ 0 < S.el.bound ∧ (∀ γ, (S.chol γ)ᵀ = S.chol γ) ∧
    halves S.el w.el.phia w.el.phib = some k ∧ bosonOvlp S.psi w.chi ≠ 0 ∧
    S.el.scheme = some "hybrid" ∧ ∀ (h : Fin 2 → Matrix (Fin 2) (Fin 2) ℂ) (Hb : Matrix (Fin 2) (Fin 2) ℂ)
      (eshift : ℂ),
    ¬ (fun t : ℝ => averageStep S h Hb eshift w k t -
      matrixElement S S.el.Ta S.el.Tb S.psi w
        (NormedSpace.exp ((-t : ℂ) • coupled (Sum.elim (fun _ => h 0) fun _ => h 1) Hb S.el.L S.el.lbar
          (ext S.chol) (ext S.bmf) S.el.lbar (ext S.bmf)))
        (NormedSpace.exp ((-t : ℂ) • coupled (fun _ => h 0) Hb S.el.L S.el.lbar
          (ext S.chol) (ext S.bmf) S.el.lbar (ext S.bmf))))
      =O[𝓝[≥] 0] (fun t : ℝ => t ^ 2) := by
  have hs : ∀ γ, (demo.chol γ)ᵀ = demo.chol γ := by
    intro γ
    ext a b
    fin_cases a <;> fin_cases b <;> simp [demo]
  have hb : bosonOvlp demo.psi demoWalker.chi ≠ 0 := by rw [demo_boson]; exact one_ne_zero
  refine ⟨demo, demoWalker, demoHalf, by norm_num [demo], by norm_num [demo], hs, demo_halves, hb, rfl, ?_⟩
  intro h Hb eshift hO
  have := (joint_step_iff demo (by norm_num [demo]) (by norm_num [demo]) hs h Hb eshift demoWalker _
    demo_halves hb (Or.inl rfl) _ _).1 hO
  simp only [Finset.univ_unique, Finset.sum_singleton] at this
  rw [show (default : Unit) = () from rfl, demo_means.1, demo_means.2] at this
  norm_num [demo] at this

end OpenMS.JointStep
