import Verif.Model.BosonBuild
import Mathlib.Algebra.MvPolynomial.PDeriv
import Mathlib.RingTheory.Derivation.Lie

/-!
# C170: one-body part of the propagator of bosons
-/

namespace OpenMS.BosonBuild

open scoped ComplexConjugate
open MvPolynomial

set_option linter.unusedSectionVars false

variable {ι κ τ : Type*} [Fintype ι] [Fintype κ] [Fintype τ] [DecidableEq ι]

/-- The states of bosons of the modes `ι`: polynomials of the creation operators applied to the vacuum. -/
abbrev Fock (ι : Type*) := MvPolynomial ι ℂ

/-- Creation of a boson: multiplication by a variable. -/
noncomputable def cre (i : ι) : Module.End ℂ (Fock ι) := LinearMap.mulLeft ℂ (X i)

/-- Annihilation of a boson: derivative. -/
noncomputable def ann (i : ι) : Module.End ℂ (Fock ι) := (pderiv i : Derivation ℂ (Fock ι) (Fock ι)).toLinearMap

/-- The operator of one-body integrals. -/
noncomputable def oneBody (h : ι → ι → ℂ) : Module.End ℂ (Fock ι) := ∑ i, ∑ j, h i j • (cre i * ann j)

/-- The Hamiltonian of the documentation of `build`: `K` and `V_ijkl = Σ_γ L*_γil L_γkj`, normal ordered. -/
noncomputable def ham (K : ι → ι → ℂ) (L : κ → ι → ι → ℂ) : Module.End ℂ (Fock ι) :=
  oneBody K + (1 / 2 : ℂ) • ∑ i, ∑ j, ∑ k, ∑ l, (∑ n, conj (L n i l) * L n k j) • (cre i * cre j * ann k * ann l)

theorem ann_cre (i j : ι) : ann i * cre j = cre j * ann i + (if i = j then (1 : ℂ) else 0) • (1 : Module.End ℂ (Fock ι)) := by
  refine LinearMap.ext fun f => ?_
  simp only [Module.End.mul_apply, LinearMap.add_apply, LinearMap.smul_apply, Module.End.one_apply, ann, cre, LinearMap.mulLeft_apply,
    Derivation.coeFn_coe, Derivation.leibniz, pderiv_X, smul_eq_mul]
  by_cases h : i = j
  · subst h; simp
  · simp [h]

theorem ann_comm (i j : ι) : (ann i * ann j : Module.End ℂ (Fock ι)) = ann j * ann i := by
  refine LinearMap.ext fun f => ?_
  have h : ⁅(pderiv i : Derivation ℂ (Fock ι) (Fock ι)), (pderiv j : Derivation ℂ (Fock ι) (Fock ι))⁆ = 0 := by
    refine derivation_ext fun k => ?_
    rw [Derivation.commutator_apply]
    simp only [pderiv_X, Derivation.zero_apply]
    have c : ∀ a b : ι, (pderiv a : Derivation ℂ (Fock ι) (Fock ι)) (Pi.single (M := fun _ : ι => Fock ι) b 1 k) = 0 := by
      intro a b
      rw [Pi.single_apply]
      split_ifs
      · exact pderiv_one
      · exact map_zero _
    rw [c, c, sub_zero]
  have h2 := congrArg (fun D : Derivation ℂ (Fock ι) (Fock ι) => D f) h
  simp only [Derivation.commutator_apply, Derivation.zero_apply] at h2
  simp only [Module.End.mul_apply, ann, Derivation.coeFn_coe]
  exact sub_eq_zero.1 h2

theorem oneBody_add (f g : ι → ι → ℂ) : oneBody (fun i j => f i j + g i j) = oneBody f + oneBody g := by
  simp [oneBody, add_smul, Finset.sum_add_distrib]

theorem oneBody_smul (c : ℂ) (f : ι → ι → ℂ) : oneBody (fun i j => c * f i j) = c • oneBody f := by
  simp [oneBody, mul_smul, Finset.smul_sum]

/-- One-body integrals can be read from their operator. -/
theorem oneBody_inj {f g : ι → ι → ℂ} (h : oneBody f = oneBody g) : f = g := by
  have key : ∀ (f : ι → ι → ℂ) (k i : ι), coeff (Finsupp.single i 1) (oneBody f (X k)) = f i k := by
    intro f k i
    have : oneBody f (X k) = ∑ i, C (f i k) * X i := by
      simp only [oneBody, LinearMap.sum_apply, LinearMap.smul_apply, Module.End.mul_apply, ann, cre, Derivation.coeFn_coe, pderiv_X,
        LinearMap.mulLeft_apply]
      refine Finset.sum_congr rfl fun i _ => ?_
      rw [Finset.sum_eq_single k]
      · simp [MvPolynomial.smul_eq_C_mul]
      · intro j _ hj
        rw [Pi.single_eq_of_ne (Ne.symm hj)]; simp
      · simp
    rw [this, coeff_sum, Finset.sum_eq_single i]
    · simp
    · intro j _ hj
      rw [coeff_C_mul, coeff_X, if_neg]
      · simp
      · intro e
        exact hj ((Finsupp.single_left_inj one_ne_zero).1 e)
    · simp
  funext i k
  rw [← key f k i, ← key g k i, h]

/-- **C170**: the Hamiltonian as a sum of products of one-body operators: one-body integrals lose half of the products of the Cholesky
vectors. -/
theorem ham_eq (K : ι → ι → ℂ) (L : κ → ι → ι → ℂ) :
    ham K L = oneBody (fun i k => K i k - (1 / 2) * ∑ n, ∑ j, conj (L n i j) * L n k j) +
      (1 / 2 : ℂ) • ∑ n, oneBody (fun i l => conj (L n i l)) * oneBody (fun j k => L n k j) := by
  have term : ∀ i j k l : ι, (cre i * cre j * ann k * ann l : Module.End ℂ (Fock ι))
      = (cre i * ann l) * (cre j * ann k) - (if l = j then (1 : ℂ) else 0) • (cre i * ann k) := by
    intro i j k l
    have e : (cre i * ann l) * (cre j * ann k) = cre i * (ann l * cre j) * ann k := by noncomm_ring
    rw [e, ann_cre, mul_add, add_mul, mul_smul_comm, smul_mul_assoc, mul_one, add_sub_cancel_right, mul_assoc, ann_comm k l]
    noncomm_ring
  have two : ∀ n, oneBody (fun i l => conj (L n i l)) * oneBody (fun j k => L n k j)
      = ∑ i, ∑ j, ∑ k, ∑ l, (conj (L n i l) * L n k j) • ((cre i * ann l) * (cre j * ann k) : Module.End ℂ (Fock ι)) := by
    intro n
    unfold oneBody
    rw [Finset.sum_mul]
    refine Finset.sum_congr rfl fun i _ => ?_
    rw [Finset.sum_mul]
    rw [Finset.sum_congr rfl fun l _ => Finset.mul_sum _ _ _, Finset.sum_comm]
    refine Finset.sum_congr rfl fun j _ => ?_
    rw [Finset.sum_congr rfl fun l _ => Finset.mul_sum _ _ _, Finset.sum_comm]
    refine Finset.sum_congr rfl fun k _ => Finset.sum_congr rfl fun l _ => ?_
    rw [smul_mul_smul_comm]
  have quad : ∑ i, ∑ j, ∑ k, ∑ l, (∑ n, conj (L n i l) * L n k j) • (cre i * cre j * ann k * ann l : Module.End ℂ (Fock ι))
      = ∑ n, oneBody (fun i l => conj (L n i l)) * oneBody (fun j k => L n k j)
        - oneBody (fun i k => ∑ n, ∑ j, conj (L n i j) * L n k j) := by
    have sw : ∀ F : κ → ι → ι → ι → ι → Module.End ℂ (Fock ι), ∑ n, ∑ i, ∑ j, ∑ k, ∑ l, F n i j k l = ∑ i, ∑ j, ∑ k, ∑ l, ∑ n, F n i j k l := by
      intro F
      rw [Finset.sum_comm]
      refine Finset.sum_congr rfl fun i _ => ?_
      rw [Finset.sum_comm]
      refine Finset.sum_congr rfl fun j _ => ?_
      rw [Finset.sum_comm]
      refine Finset.sum_congr rfl fun k _ => ?_
      rw [Finset.sum_comm]
    rw [Finset.sum_congr rfl fun n _ => two n, sw]
    unfold oneBody
    rw [← Finset.sum_sub_distrib]
    refine Finset.sum_congr rfl fun i _ => ?_
    have r : ∑ k, (∑ n, ∑ j, conj (L n i j) * L n k j) • (cre i * ann k : Module.End ℂ (Fock ι))
        = ∑ j, ∑ k, (∑ n, conj (L n i j) * L n k j) • (cre i * ann k) := by
      rw [Finset.sum_comm]
      refine Finset.sum_congr rfl fun k _ => ?_
      rw [Finset.sum_comm, Finset.sum_smul]
    rw [r, ← Finset.sum_sub_distrib]
    refine Finset.sum_congr rfl fun j _ => ?_
    rw [← Finset.sum_sub_distrib]
    refine Finset.sum_congr rfl fun k _ => ?_
    have d : (∑ n, conj (L n i j) * L n k j) • (cre i * ann k : Module.End ℂ (Fock ι))
        = ∑ l, (∑ n, conj (L n i l) * L n k j) • ((if l = j then (1 : ℂ) else 0) • (cre i * ann k)) := by
      rw [Finset.sum_eq_single j]
      · simp
      · intro l _ hl
        simp [hl]
      · simp
    rw [d, ← Finset.sum_sub_distrib]
    refine Finset.sum_congr rfl fun l _ => ?_
    rw [term, smul_sub, Finset.sum_smul]
  unfold ham
  rw [quad, smul_sub]
  have o : oneBody (fun i k => K i k - (1 / 2) * ∑ n, ∑ j, conj (L n i j) * L n k j)
      = oneBody K - (1 / 2 : ℂ) • oneBody (fun i k => ∑ n, ∑ j, conj (L n i j) * L n k j) := by
    rw [← oneBody_smul, sub_eq_add_neg, ← neg_one_smul ℂ, ← oneBody_smul, ← oneBody_add]
    congr 1
    funext i k
    ring
  rw [o]
  abel

/-- Mean values of the Cholesky operators in the state of the trial: `<b†_p b_q> = ρ_qp`. -/
noncomputable def mean (L : κ → ι → ι → ℂ) (psi : ι → τ → ℂ) (n : κ) : ℂ := ∑ p, ∑ q, L n p q * ∑ i, conj (psi p i) * psi q i

/-- What is sampled: a one-body operator, half of the squares of the shifted Cholesky operators, and a constant. -/
noncomputable def sampled (h : ι → ι → ℂ) (L : κ → ι → ι → ℂ) (m : κ → ℂ) : Module.End ℂ (Fock ι) :=
  oneBody h + (1 / 2 : ℂ) • ∑ n, (oneBody (L n) - m n • 1) ^ 2 - ((1 / 2 : ℂ) * ∑ n, m n ^ 2) • 1

theorem sampled_eq (h : ι → ι → ℂ) (L : κ → ι → ι → ℂ) (m : κ → ℂ) :
    sampled h L m = oneBody (fun p q => h p q - ∑ n, m n * L n p q) + (1 / 2 : ℂ) • ∑ n, oneBody (L n) * oneBody (L n) := by
  have sq : ∀ n, (oneBody (L n) - m n • (1 : Module.End ℂ (Fock ι))) ^ 2
      = oneBody (L n) * oneBody (L n) - (2 : ℂ) • oneBody (fun p q => m n * L n p q) + (m n ^ 2) • 1 := by
    intro n
    rw [oneBody_smul, pow_two, sub_mul, mul_sub, mul_sub, smul_mul_assoc, smul_mul_assoc, one_mul, one_mul, mul_smul_comm, mul_one, smul_smul,
      pow_two, two_smul]
    abel
  have s : oneBody (fun p q => ∑ n, m n * L n p q) = ∑ n, oneBody (fun p q => m n * L n p q) := by
    unfold oneBody
    rw [Finset.sum_comm (s := (Finset.univ : Finset κ))]
    refine Finset.sum_congr rfl fun i _ => ?_
    rw [Finset.sum_comm (s := (Finset.univ : Finset κ))]
    refine Finset.sum_congr rfl fun j _ => ?_
    rw [Finset.sum_smul]
  have o : oneBody (fun p q => h p q - ∑ n, m n * L n p q) = oneBody h - ∑ n, oneBody (fun p q => m n * L n p q) := by
    rw [← s, sub_eq_add_neg, ← neg_one_smul ℂ, ← oneBody_smul, ← oneBody_add]
    congr 1
    funext i k
    ring
  unfold sampled
  rw [Finset.sum_congr rfl fun n _ => sq n, o, Finset.sum_add_distrib, Finset.sum_sub_distrib, ← Finset.smul_sum, ← Finset.sum_smul, smul_add,
    smul_sub, smul_smul, smul_smul, show (1 / 2 : ℂ) * 2 = 1 by norm_num, one_smul]
  abel

theorem ham_real (K : ι → ι → ℂ) (L : κ → ι → ι → ℂ) (hr : ∀ n i j, conj (L n i j) = L n i j) (hs : ∀ n i j, L n i j = L n j i) :
    ham K L = oneBody (fun i k => K i k - (1 / 2) * ∑ n, ∑ j, L n i j * L n j k) + (1 / 2 : ℂ) • ∑ n, oneBody (L n) * oneBody (L n) := by
  rw [ham_eq]
  congr 3
  · funext i k
    congr 2
    exact Finset.sum_congr rfl fun n _ => Finset.sum_congr rfl fun j _ => by rw [hr, hs n k j]
  · funext n
    congr 2
    · funext i l; exact hr n i l
    · funext j k; exact hs n k j

theorem mfShift_eq (L : κ → ι → ι → ℂ) (hs : ∀ n i j, L n i j = L n j i) (psi : ι → τ → ℂ) (n : κ) (x : ℂ) :
    mfShift L psi n * (Complex.I * x) = -(mean L psi n * x) := by
  have e : ∑ p, ∑ q, L n p q * rho psi p q = mean L psi n := by
    unfold mean rho
    rw [Finset.sum_comm]
    refine Finset.sum_congr rfl fun p _ => Finset.sum_congr rfl fun q _ => ?_
    rw [hs n q p]
    congr 1
    exact Finset.sum_congr rfl fun i _ => mul_comm _ _
  unfold mfShift
  rw [e]
  linear_combination (mean L psi n * x) * Complex.I_mul_I

/-- **C170**: for real symmetric Cholesky vectors, `build` of the propagator gives the one-body operator that belongs to the squares
exactly if the sum of the squares of the vectors is the sum of the vectors times their traces. -/
theorem shift_iff (K : ι → ι → ℂ) (L : κ → ι → ι → ℂ) (hr : ∀ n i j, conj (L n i j) = L n i j) (hs : ∀ n i j, L n i j = L n j i)
    (psi : ι → τ → ℂ) :
    ham K L = sampled (shiftedH1b K L psi) L (mean L psi) ↔
      ∀ i k, ∑ n, ∑ j, L n i j * L n j k = ∑ n, L n i k * ∑ j, L n j j := by
  have e : (fun p q => shiftedH1b K L psi p q - ∑ n, mean L psi n * L n p q)
      = fun p q => K p q - (1 / 2) * ∑ n, L n p q * ∑ j, L n j j := by
    funext p q
    unfold shiftedH1b traceV
    rw [Finset.sum_congr rfl fun n _ => mfShift_eq L hs psi n (L n p q), Finset.sum_neg_distrib]
    rw [Finset.sum_congr rfl fun n _ => (show ∑ j, conj (L n p q) * L n j j = L n p q * ∑ j, L n j j by rw [hr, Finset.mul_sum])]
    norm_num
  rw [ham_real K L hr hs, sampled_eq, e, add_left_inj]
  constructor
  · intro h i k
    have := congrFun (congrFun (oneBody_inj h) i) k
    linear_combination (-2 : ℂ) * this
  · intro h
    congr 1
    funext i k
    rw [h i k]

/-- **C170**: Cholesky vectors of rank one, as those of an interaction on each site or of a single mode. -/
theorem shift_partial (K : ι → ι → ℂ) (c : κ → ℝ) (v : κ → ι → ℝ) (psi : ι → τ → ℂ) :
    ham K (fun n i j => (c n * v n i * v n j : ℝ)) =
      sampled (shiftedH1b K (fun n i j => (c n * v n i * v n j : ℝ)) psi) (fun n i j => (c n * v n i * v n j : ℝ))
        (mean (fun n i j => (c n * v n i * v n j : ℝ)) psi) := by
  refine (shift_iff K _ (fun n i j => Complex.conj_ofReal _) (fun n i j => ?_) psi).2 fun i k => ?_
  · rw [mul_right_comm]
  · refine Finset.sum_congr rfl fun n _ => ?_
    rw [Finset.mul_sum]
    refine Finset.sum_congr rfl fun j _ => ?_
    push_cast
    ring

/-- **C170**: with at least two modes, an interaction of densities of all modes (any positive weights) is not sampled by what `build` makes. -/
theorem shift_fails [Nontrivial ι] (K : ι → ι → ℂ) (d : ι → ℝ) (hd : ∀ i, 0 < d i) (psi : ι → τ → ℂ) :
    ham K (fun (_ : Unit) i j => if i = j then (d i : ℂ) else 0) ≠
      sampled (shiftedH1b K (fun (_ : Unit) i j => if i = j then (d i : ℂ) else 0) psi) (fun _ i j => if i = j then (d i : ℂ) else 0)
        (mean (fun (_ : Unit) i j => if i = j then (d i : ℂ) else 0) psi) := by
  intro h
  have h2 := (shift_iff K (fun (_ : Unit) i j => if i = j then (d i : ℂ) else 0) (fun n i j => by split_ifs <;> simp)
    (fun n i j => by by_cases e : i = j
                     · subst e; rfl
                     · simp [e, Ne.symm e]) psi).1 h
  obtain ⟨a, b, hab⟩ := exists_pair_ne ι
  have h3 := h2 a a
  simp only [Finset.univ_unique, Finset.sum_singleton, if_true] at h3
  rw [Finset.sum_eq_single a (fun j _ hj => by rw [if_neg hj.symm, zero_mul]) (by simp), if_pos rfl] at h3
  have h4 : d a * d a = d a * ∑ j, d j := by exact_mod_cast h3
  have h5 := mul_left_cancel₀ (hd a).ne' h4
  have h6 : d a + d b ≤ ∑ j, d j := by
    rw [← Finset.sum_pair hab]
    exact Finset.sum_le_sum_of_subset_of_nonneg (Finset.subset_univ _) fun i _ _ => (hd i).le
  linarith [hd b]

/-- **C170**: the formula of `bafqmc.py` gives the one-body operator that belongs to the squares for all real symmetric Cholesky vectors. -/
theorem bafqmc_spec (K : ι → ι → ℂ) (L : κ → ι → ι → ℂ) (hr : ∀ n i j, conj (L n i j) = L n i j) (hs : ∀ n i j, L n i j = L n j i)
    (psi : ι → τ → ℂ) : ham K L = sampled (shiftedH1bB K L psi) L (mean L psi) := by
  rw [ham_real K L hr hs, sampled_eq]
  congr 2
  funext p q
  unfold shiftedH1bB traceVB
  rw [Finset.sum_congr rfl fun n _ => mfShift_eq L hs psi n (L n p q), Finset.sum_neg_distrib]
  rw [Finset.sum_congr rfl fun n _ => Finset.sum_congr rfl fun r _ => (show conj (L n p r) * L n r q = L n p r * L n r q by rw [hr])]
  norm_num

/-- **C170**: the one-body step raises an error, whatever was built before: what `build` makes has another name. -/
theorem onebody_fails (expm : (ι → ι → ℂ) → ι → ι → ℂ) (l : List (ℝ × (ι → ι → ℂ) × (κ → ι → ι → ℂ) × (ι → τ → ℂ))) (phi : ι → τ → ℂ) :
    onebody (l.foldl (fun a b => build expm b.1 b.2.1 b.2.2.1 b.2.2.2 a) init) phi = none := by
  have : ∀ a : Attrs ι, a.exp_h1e = none →
      (l.foldl (fun a b => build expm b.1 b.2.1 b.2.2.1 b.2.2.2 a) a).exp_h1e = none := by
    induction l with
    | nil => exact fun a h => h
    | cons b l ih => exact fun a h => ih _ h
  unfold onebody
  rw [this init rfl]
  rfl

example : ham (fun _ _ => 0) (fun (_ : Unit) (i j : Fin 2) => if i = j then ((1 : ℝ) : ℂ) else 0) ≠
    sampled (shiftedH1b (fun _ _ => 0) (fun (_ : Unit) (i j : Fin 2) => if i = j then ((1 : ℝ) : ℂ) else 0) fun _ (_ : Fin 1) => 1)
      (fun _ (i j : Fin 2) => if i = j then ((1 : ℝ) : ℂ) else 0) (mean (fun (_ : Unit) (i j : Fin 2) => if i = j then ((1 : ℝ) : ℂ) else 0) fun _ (_ : Fin 1) => 1) :=
  shift_fails (fun _ _ => 0) (fun _ => 1) (fun _ => one_pos) _

end OpenMS.BosonBuild
