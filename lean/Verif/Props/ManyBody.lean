import Verif.Lemmas.GaussMean
import Verif.Lemmas.Tensor
import Verif.Props.ForceBias
import Verif.Props.Splitting
import Mathlib.Tactic

/-!
# The averaged step and the many-electron Hamiltonian (C108)
-/

set_option linter.unusedSectionVars false

namespace OpenMS.ManyBody

open Matrix OpenMS.Propagators OpenMS.Green OpenMS.Step OpenMS.Tensor OpenMS.GaussMean MeasureTheory
open Filter Topology Asymptotics

variable {e p g : Type*} [Fintype e] [DecidableEq e] [Fintype p] [DecidableEq p] [Fintype g]

/-- Specification: the Hamiltonian of the electrons `e` in first quantisation, with one-electron
matrices `h j`, field matrices `L` and mean-field values `lbar`:
`Σ_j h_j + 1/2 Σ_γ (Σ_j L_γ(j) - lbar_γ)²`. -/
noncomputable def hamiltonian (h : e → Matrix p p ℂ) (L : g → Matrix p p ℂ) (lbar : g → ℂ) :
    Matrix (e → p) (e → p) ℂ :=
  (∑ j, site j (h j)) + (1 / 2 : ℂ) • ∑ γ, ((∑ j, site j (L γ)) - lbar γ • 1) ^ 2

/-! ### Matrices and their entries -/

section Norm

variable {n : Type*} [Fintype n] [DecidableEq n]

theorem norm_le_entries (M : Matrix n n ℂ) :
    @norm _ (Matrix.linftyOpNormedRing (n := n) (α := ℂ)).toNorm M ≤ ∑ a, ∑ b, ‖M a b‖ := by
  let _ : NormedRing (Matrix n n ℂ) := Matrix.linftyOpNormedRing
  show ‖M‖ ≤ _
  rw [Matrix.linfty_opNorm_def]
  have : (Finset.univ.sup fun i => ∑ j, ‖M i j‖₊) ≤ ∑ i, ∑ j, ‖M i j‖₊ :=
    Finset.sup_le fun i _ => Finset.single_le_sum (f := fun i => ∑ j, ‖M i j‖₊)
      (fun _ _ => zero_le) (Finset.mem_univ i)
  refine (NNReal.coe_le_coe.2 this).trans (le_of_eq ?_)
  push_cast
  rfl

theorem entry_le_norm (M : Matrix n n ℂ) (a b : n) :
    ‖M a b‖ ≤ @norm _ (Matrix.linftyOpNormedRing (n := n) (α := ℂ)).toNorm M := by
  let _ : NormedRing (Matrix n n ℂ) := Matrix.linftyOpNormedRing
  show _ ≤ ‖M‖
  rw [Matrix.linfty_opNorm_def]
  have h1 : ‖M a b‖₊ ≤ ∑ j, ‖M a j‖₊ :=
    Finset.single_le_sum (f := fun j => ‖M a j‖₊) (fun _ _ => zero_le) (Finset.mem_univ b)
  have h2 : (∑ j, ‖M a j‖₊) ≤ Finset.univ.sup fun i => ∑ j, ‖M i j‖₊ :=
    Finset.le_sup (f := fun i => ∑ j, ‖M i j‖₊) (Finset.mem_univ a)
  exact_mod_cast h1.trans h2

end Norm

theorem close_entries {n : Type*} [Fintype n] [DecidableEq n] {F G : (g → ℝ) → Matrix n n ℂ}
    (h : ∀ a b, Close (fun u => F u a b) fun u => G u a b) :
    @Close g _ _ (Matrix.linftyOpNormedRing (n := n) (α := ℂ)) F G := by
  choose C c hC hc h using h
  refine ⟨∑ a, ∑ b, C a b, ∑ a, ∑ b, c a b, Finset.sum_nonneg fun a _ => Finset.sum_nonneg fun b _ => hC a b,
    Finset.sum_nonneg fun a _ => Finset.sum_nonneg fun b _ => hc a b, fun u => ?_⟩
  refine (norm_le_entries _).trans ?_
  have hs := size_nonneg u
  have hle : ∀ a b, c a b ≤ ∑ a, ∑ b, c a b := by
    intro a b
    refine (Finset.single_le_sum (f := fun b => c a b) (fun b _ => hc a b) (Finset.mem_univ b)).trans ?_
    exact Finset.single_le_sum (f := fun a => ∑ b, c a b)
      (fun a _ => Finset.sum_nonneg fun b _ => hc a b) (Finset.mem_univ a)
  rw [Finset.sum_mul, Finset.sum_mul]
  refine Finset.sum_le_sum fun a _ => ?_
  rw [Finset.sum_mul, Finset.sum_mul]
  refine Finset.sum_le_sum fun b _ => ?_
  refine (h a b u).trans ?_
  exact mul_le_mul_of_nonneg_left (exp_mono hs (hle a b))
    (mul_nonneg (hC a b) (pow_nonneg hs 4))

theorem bdd_entries {n : Type*} [Fintype n] [DecidableEq n] {F : (g → ℝ) → Matrix n n ℂ}
    (h : ∀ a b, Bdd fun u => F u a b) :
    @Bdd g _ _ (Matrix.linftyOpNormedRing (n := n) (α := ℂ)) F := by
  choose C c hC hc h using h
  refine ⟨∑ a, ∑ b, C a b, ∑ a, ∑ b, c a b, Finset.sum_nonneg fun a _ => Finset.sum_nonneg fun b _ => hC a b,
    Finset.sum_nonneg fun a _ => Finset.sum_nonneg fun b _ => hc a b, fun u => ?_⟩
  refine (norm_le_entries _).trans ?_
  have hs := size_nonneg u
  have hle : ∀ a b, c a b ≤ ∑ a, ∑ b, c a b := by
    intro a b
    refine (Finset.single_le_sum (f := fun b => c a b) (fun b _ => hc a b) (Finset.mem_univ b)).trans ?_
    exact Finset.single_le_sum (f := fun a => ∑ b, c a b)
      (fun a _ => Finset.sum_nonneg fun b _ => hc a b) (Finset.mem_univ a)
  rw [Finset.sum_mul]
  refine Finset.sum_le_sum fun a _ => ?_
  rw [Finset.sum_mul]
  refine Finset.sum_le_sum fun b _ => ?_
  exact (h a b u).trans (mul_le_mul_of_nonneg_left (exp_mono hs (hle a b)) (hC a b))

/-! ### The field step of all electrons -/

/-- The Taylor sum of the field operator of one electron. -/
noncomputable def taylor (L : g → Matrix p p ℂ) (n : ℕ) (u : g → ℝ) : Matrix p p ℂ :=
  ∑ k ∈ Finset.range (n + 1), ((k.factorial : ℂ)⁻¹) • (Complex.I • ∑ γ, (u γ : ℂ) • L γ) ^ k

/-- The mean-field factor. -/
noncomputable def factor (lbar : g → ℂ) (u : g → ℝ) : ℂ :=
  Complex.exp (-Complex.I * ∑ γ, (u γ : ℂ) * lbar γ)

/-- The field step of all electrons with the mean-field factor. -/
noncomputable def fieldStep (e : Type*) [Fintype e] (L : g → Matrix p p ℂ) (lbar : g → ℂ) (n : ℕ)
    (u : g → ℝ) : Matrix (e → p) (e → p) ℂ :=
  factor lbar u • tensor fun _ : e => taylor L n u

theorem factor_bdd (lbar : g → ℂ) : Bdd (factor lbar) := by
  refine ⟨1, ∑ γ, ‖lbar γ‖, by norm_num, Finset.sum_nonneg fun _ _ => norm_nonneg _, fun u => ?_⟩
  rw [one_mul, factor]
  refine (Complex.norm_exp_le_exp_norm _).trans (Real.exp_le_exp.2 ?_)
  rw [norm_mul, norm_neg, Complex.norm_I, one_mul]
  refine (norm_sum_le _ _).trans ?_
  rw [Finset.sum_mul]
  refine Finset.sum_le_sum fun γ _ => ?_
  rw [norm_mul, Complex.norm_real, Real.norm_eq_abs, mul_comm]
  exact mul_le_mul_of_nonneg_left
    (Finset.single_le_sum (f := fun γ => |u γ|) (fun _ _ => abs_nonneg _) (Finset.mem_univ γ))
    (norm_nonneg _)

/-- The exact field step. -/
theorem exp_field (L : g → Matrix p p ℂ) (lbar : g → ℂ) (u : g → ℝ) :
    NormedSpace.exp (Complex.I • ∑ γ, (u γ : ℂ) • ((∑ j : e, site j (L γ)) - lbar γ • 1)) =
      factor lbar u • tensor fun _ : e => NormedSpace.exp (Complex.I • ∑ γ, (u γ : ℂ) • L γ) := by
  have hs : ∀ (j : e) (c : ℂ) (M : Matrix p p ℂ), site j (c • M) = c • site j M := by
    intro j c M
    ext f g
    simp only [site, Matrix.of_apply, Matrix.smul_apply, smul_eq_mul]
    split_ifs <;> simp
  have hsum : ∀ (j : e), site j (Complex.I • ∑ γ, (u γ : ℂ) • L γ) =
      Complex.I • ∑ γ, (u γ : ℂ) • site j (L γ) := by
    intro j
    rw [hs]
    congr 1
    have := map_sum (siteHom j) (fun γ => (u γ : ℂ) • L γ) Finset.univ
    have h2 : ∀ M : Matrix p p ℂ, siteHom j M = site j M := fun _ => rfl
    simp only [h2, hs] at this
    exact this
  have e1 : Complex.I • ∑ γ, (u γ : ℂ) • ((∑ j : e, site j (L γ)) - lbar γ • 1) =
      (∑ j : e, site j (Complex.I • ∑ γ, (u γ : ℂ) • L γ)) +
        (-Complex.I * ∑ γ, (u γ : ℂ) * lbar γ) • (1 : Matrix (e → p) (e → p) ℂ) := by
    simp only [hsum]
    rw [← Finset.smul_sum, Finset.sum_comm, neg_mul, neg_smul, mul_smul, ← sub_eq_add_neg, ← smul_sub]
    congr 1
    rw [Finset.sum_smul, ← Finset.sum_sub_distrib]
    refine Finset.sum_congr rfl fun γ _ => ?_
    rw [smul_sub, Finset.smul_sum, smul_smul]
  have hc : Commute (∑ j : e, site j (Complex.I • ∑ γ, (u γ : ℂ) • L γ))
      ((-Complex.I * ∑ γ, (u γ : ℂ) * lbar γ) • (1 : Matrix (e → p) (e → p) ℂ)) :=
    (Commute.one_right _).smul_right _
  have h1 : NormedSpace.exp ((-Complex.I * ∑ γ, (u γ : ℂ) * lbar γ) •
      (1 : Matrix (e → p) (e → p) ℂ)) = factor lbar u • 1 := by
    rw [← Matrix.diagonal_one, ← Matrix.diagonal_smul, Matrix.exp_diagonal, ← Matrix.diagonal_smul]
    congr 1
    funext f
    simp only [Pi.smul_apply, smul_eq_mul, mul_one, factor]
    rw [Pi.coe_exp]
    simp [Complex.exp_eq_exp_ℂ]
  rw [e1, Matrix.exp_add_of_commute _ _ hc, h1, exp_sum_site_univ, Matrix.mul_smul, Matrix.mul_one]

theorem taylor_entry (L : g → Matrix p p ℂ) (n : ℕ) (hn : 3 ≤ n) (a b : p) :
    Close (fun u => taylor L n u a b)
        (fun u => NormedSpace.exp (Complex.I • ∑ γ, (u γ : ℂ) • L γ) a b) ∧
      Bdd (fun u => taylor L n u a b) ∧
      Bdd (fun u => NormedSpace.exp (Complex.I • ∑ γ, (u γ : ℂ) • L γ) a b) := by
  let _ : NormedRing (Matrix p p ℂ) := Matrix.linftyOpNormedRing
  let _ : NormedAlgebra ℂ (Matrix p p ℂ) := Matrix.linftyOpNormedAlgebra
  obtain ⟨m, rfl⟩ : ∃ m, n = m + 3 := ⟨n - 3, by omega⟩
  refine ⟨?_, ?_, ?_⟩
  · obtain ⟨C, c, hC, hc, h⟩ := taylor_close L m
    refine ⟨C, c, hC, hc, fun u => ?_⟩
    have h1 := entry_le_norm (taylor L (m + 3) u -
      NormedSpace.exp (Complex.I • ∑ γ, (u γ : ℂ) • L γ)) a b
    rw [Matrix.sub_apply] at h1
    exact h1.trans (h u)
  · obtain ⟨C, c, hC, hc, h⟩ := bdd_of_bound (by positivity)
      (fun X : Matrix p p ℂ => taylor_norm X (m + 4)) L
    exact ⟨C, c, hC, hc, fun u => (entry_le_norm _ a b).trans (h u)⟩
  · obtain ⟨C, c, hC, hc, h⟩ := bdd_of_bound (by positivity)
      (fun X : Matrix p p ℂ => exp_norm X) L
    exact ⟨C, c, hC, hc, fun u => (entry_le_norm _ a b).trans (h u)⟩

theorem fieldStep_close (L : g → Matrix p p ℂ) (lbar : g → ℂ) (n : ℕ) (hn : 3 ≤ n) :
    @Close g _ _ (Matrix.linftyOpNormedRing (n := e → p) (α := ℂ)) (fieldStep e L lbar n)
      fun u => NormedSpace.exp (Complex.I • ∑ γ, (u γ : ℂ) •
        ((∑ j : e, site j (L γ)) - lbar γ • 1)) := by
  refine close_entries fun f g => ?_
  simp only [exp_field, fieldStep, Matrix.smul_apply, tensor, Matrix.of_apply, smul_eq_mul]
  refine (Close.refl _).mul (prod_close _ (fun j => (taylor_entry L n hn _ _).1)
    (fun j => (taylor_entry L n hn _ _).2.1) fun j => (taylor_entry L n hn _ _).2.2)
    (prod_bdd _ fun j => (taylor_entry L n hn _ _).2.1) (factor_bdd lbar)

theorem fieldStep_bdd (L : g → Matrix p p ℂ) (lbar : g → ℂ) (n : ℕ) (hn : 3 ≤ n) :
    @Bdd g _ _ (Matrix.linftyOpNormedRing (n := e → p) (α := ℂ)) (fieldStep e L lbar n) := by
  refine bdd_entries fun f g => ?_
  simp only [fieldStep, Matrix.smul_apply, tensor, Matrix.of_apply, smul_eq_mul]
  exact (factor_bdd lbar).mul (prod_bdd _ fun j => (taylor_entry L n hn _ _).2.1)

theorem taylor_continuous (L : g → Matrix p p ℂ) (n : ℕ) (a b : p) :
    Continuous fun u => taylor L n u a b := by
  have h0 : Continuous fun u : g → ℝ => Complex.I • ∑ γ, (u γ : ℂ) • L γ := by
    refine continuous_matrix fun i j => ?_
    simp only [Matrix.smul_apply, Matrix.sum_apply]
    fun_prop
  have : Continuous (taylor L n) :=
    continuous_finsetSum _ fun k _ => (h0.pow k).const_smul ((k.factorial : ℂ)⁻¹)
  exact this.matrix_elem a b

theorem fieldStep_continuous (L : g → Matrix p p ℂ) (lbar : g → ℂ) (n : ℕ) :
    Continuous (fieldStep e L lbar n) := by
  refine continuous_matrix fun f g => ?_
  simp only [fieldStep, Matrix.smul_apply, tensor, Matrix.of_apply, smul_eq_mul]
  refine Continuous.mul ?_ (continuous_finsetProd _ fun j _ => taylor_continuous L n _ _)
  unfold factor
  fun_prop

/-! ### Averages -/

/-- First-order expansion for small non-negative `t`. -/
def First {A : Type*} [NormedRing A] [NormedAlgebra ℂ A] (f : ℝ → A) (a b : A) : Prop :=
  (fun t => f t - (a + (t : ℂ) • b)) =O[𝓝[≥] 0] fun t : ℝ => t ^ 2

section First

variable {A : Type*} [NormedRing A] [NormedAlgebra ℂ A]

theorem smul_sq (x : A) (k : ℕ) :
    (fun t : ℝ => ((t : ℂ) ^ (k + 2)) • x) =O[𝓝[≥] 0] fun t : ℝ => t ^ 2 := by
  have h1 : (fun t : ℝ => ((t : ℂ) ^ k) • x) =O[𝓝[≥] (0 : ℝ)] fun _ => (1 : ℝ) := by
    refine Tendsto.isBigO_one ℝ (c := ((0 : ℝ) : ℂ) ^ k • x) ?_
    have : Continuous fun t : ℝ => ((t : ℂ) ^ k) • x := by fun_prop
    exact (this.tendsto 0).mono_left nhdsWithin_le_nhds
  have h2 : (fun t : ℝ => ((t : ℂ) ^ 2)) =O[𝓝[≥] (0 : ℝ)] fun t : ℝ => t ^ 2 :=
    IsBigO.of_bound 1 (Eventually.of_forall fun t => by
      rw [one_mul, norm_pow, norm_pow, Complex.norm_real])
  refine (h2.smul h1).congr (fun t => ?_) fun t => ?_
  · rw [smul_smul, ← pow_add, add_comm]
  · simp

theorem First.of_expands {f : ℝ → A} {a b c : A} (h : Expands f a b c) : First f a b := by
  unfold First
  unfold Expands at h
  have h1 : (fun t : ℝ => t ^ 3) =O[𝓝[≥] (0 : ℝ)] fun t : ℝ => t ^ 2 := by
    have := smul_sq (A := ℂ) 1 1
    refine (IsBigO.of_bound 1 (Eventually.of_forall fun t => ?_)).trans this
    simp
  refine (((h.mono nhdsWithin_le_nhds).trans h1).add (smul_sq c 0)).congr_left fun t => ?_
  rw [zero_add]
  abel

theorem First.bounded {f : ℝ → A} {a b : A} (h : First f a b) :
    f =O[𝓝[≥] 0] fun _ => (1 : ℝ) := by
  unfold First at h
  have h1 : (fun t : ℝ => t ^ 2) =O[𝓝[≥] (0 : ℝ)] fun _ => (1 : ℝ) := by
    refine Tendsto.isBigO_one ℝ (c := (0 : ℝ) ^ 2) ?_
    exact ((continuous_pow 2).tendsto 0).mono_left nhdsWithin_le_nhds
  have h2 : (fun t : ℝ => a + (t : ℂ) • b) =O[𝓝[≥] (0 : ℝ)] fun _ => (1 : ℝ) := by
    refine Tendsto.isBigO_one ℝ (c := a + ((0 : ℝ) : ℂ) • b) ?_
    have : Continuous fun t : ℝ => a + (t : ℂ) • b := by fun_prop
    exact (this.tendsto 0).mono_left nhdsWithin_le_nhds
  refine ((h.trans h1).add h2).congr_left fun t => ?_
  rw [sub_add_cancel]

theorem First.mul {f f' : ℝ → A} {a b a' b' : A} (h : First f a b) (h' : First f' a' b') :
    First (fun t => f t * f' t) (a * a') (a * b' + b * a') := by
  have hb := h'.bounded
  have e1 := (show (fun t => f t - (a + (t : ℂ) • b)) =O[𝓝[≥] 0] fun t : ℝ => t ^ 2 from h).mul hb
  have h2 : (fun t : ℝ => a + (t : ℂ) • b) =O[𝓝[≥] (0 : ℝ)] fun _ => (1 : ℝ) := by
    refine Tendsto.isBigO_one ℝ (c := a + ((0 : ℝ) : ℂ) • b) ?_
    have : Continuous fun t : ℝ => a + (t : ℂ) • b := by fun_prop
    exact (this.tendsto 0).mono_left nhdsWithin_le_nhds
  have e2 := h2.mul (show (fun t => f' t - (a' + (t : ℂ) • b')) =O[𝓝[≥] 0] fun t : ℝ => t ^ 2 from h')
  have e3 := smul_sq (b * b') 0
  simp only [mul_one, one_mul] at e1 e2
  unfold First
  refine ((e1.add e2).add e3).congr_left fun t => ?_
  simp only [sub_mul, mul_sub, add_mul, mul_add, smul_add, mul_smul_comm, smul_mul_assoc, smul_smul,
    zero_add, pow_two]
  abel

end First

/-- The average of the field step of all electrons, to first order. -/
theorem fieldStep_mean (L : g → Matrix p p ℂ) (lbar : g → ℂ) (n : ℕ) (hn : 3 ≤ n) :
    let _ : NormedRing (Matrix (e → p) (e → p) ℂ) := Matrix.linftyOpNormedRing
    let _ : NormedAlgebra ℂ (Matrix (e → p) (e → p) ℂ) := Matrix.linftyOpNormedAlgebra
    First (fun t : ℝ => ∫ x : g → ℝ, (normalDensity x : ℝ) • fieldStep e L lbar n (Real.sqrt t • x))
      1 (-((1 / 2 : ℂ) • ∑ γ, ((∑ j : e, site j (L γ)) - lbar γ • 1) ^ 2)) := by
  intro _ _
  obtain ⟨K, hK⟩ := close_mean (fieldStep e L lbar n) (fieldStep_continuous L lbar n)
    (fun γ => (∑ j : e, site j (L γ)) - lbar γ • 1) (fieldStep_close L lbar n hn)
  refine IsBigO.of_bound K ?_
  have hev : ∀ᶠ t : ℝ in 𝓝[≥] 0, 0 ≤ t ∧ t ≤ 1 := by
    have h1 : ∀ᶠ t : ℝ in 𝓝[≥] 0, 0 ≤ t := eventually_mem_nhdsWithin
    have h2 : ∀ᶠ t : ℝ in 𝓝[≥] 0, t ≤ 1 :=
      nhdsWithin_le_nhds (eventually_le_nhds (by norm_num))
    exact h1.and h2
  filter_upwards [hev] with t ht
  have h := hK (Real.sqrt t) (Real.sqrt_nonneg t) (Real.sqrt_le_one.2 ht.2)
  have hsq : ((Real.sqrt t : ℝ) : ℂ) ^ 2 = (t : ℂ) := by
    rw [← Complex.ofReal_pow, Real.sq_sqrt ht.1]
  have hsq4 : (Real.sqrt t) ^ 4 = t ^ 2 := by
    rw [show 4 = 2 * 2 from rfl, pow_mul, Real.sq_sqrt ht.1]
  rw [hsq, hsq4] at h
  rw [Real.norm_eq_abs, abs_of_nonneg (pow_nonneg ht.1 2)]
  refine le_trans (le_of_eq ?_) h
  congr 2
  rw [smul_neg, smul_smul, ← sub_eq_add_neg]
  congr 3
  ring

/-! ### Determinants -/

section Slater

variable {i : Type*} [Fintype i] [DecidableEq i]

/-- Specification: the wave function of the determinant with the orbitals `D` (not normalised). -/
def slater (D : Matrix p i ℂ) (f : i → p) : ℂ := (Matrix.of fun a b => D (f a) b).det

/-- Specification: the product of the orbitals. -/
def product (phi : Matrix p i ℂ) (f : i → p) : ℂ := ∏ a, phi (f a) a

/-- The overlap of a determinant with propagated orbitals is a matrix element between the determinant
and the product of the orbitals. -/
theorem det_tensor (D : Matrix p i ℂ) (B : Matrix p p ℂ) (phi : Matrix p i ℂ) :
    (ovlpMatrix D (B * phi)).det =
      ∑ f, ∑ f', star (slater D f) * (∏ a, B (f a) (f' a)) * product phi f' := by
  have h1 : (ovlpMatrix D (B * phi)).det = ∑ f : i → p, star (slater D f) * ∏ a, (B * phi) (f a) a := by
    rw [← Matrix.det_transpose, Matrix.det_apply']
    have e : ∀ σ : Equiv.Perm i, ∏ a, (ovlpMatrix D (B * phi))ᵀ (σ a) a =
        ∑ f : i → p, ∏ a, ((B * phi) (f a) a * starRingEnd ℂ (D (f a) (σ a))) := by
      intro σ
      simp only [Matrix.transpose_apply, ovlpMatrix, Matrix.mul_apply (M := (B * phi)ᵀ), conj,
        Matrix.map_apply]
      rw [Finset.prod_univ_sum, Fintype.piFinset_univ]
    simp_rw [e, Finset.mul_sum]
    rw [Finset.sum_comm]
    refine Finset.sum_congr rfl fun f _ => ?_
    rw [slater, ← Matrix.det_transpose, Matrix.det_apply', star_sum, Finset.sum_mul]
    refine Finset.sum_congr rfl fun σ _ => ?_
    rw [Finset.prod_mul_distrib]
    simp only [Matrix.transpose_apply, Matrix.of_apply, star_mul', star_prod]
    have : star (((Equiv.Perm.sign σ : ℤˣ) : ℤ) : ℂ) = (((Equiv.Perm.sign σ : ℤˣ) : ℤ) : ℂ) := by
      simp
    rw [this]
    simp only [Complex.star_def]
    ring
  rw [h1]
  refine Finset.sum_congr rfl fun f _ => ?_
  have e : ∏ a, (B * phi) (f a) a = ∑ f' : i → p, (∏ a, B (f a) (f' a)) * product phi f' := by
    simp only [Matrix.mul_apply, product]
    rw [Finset.prod_univ_sum, Fintype.piFinset_univ]
    exact Finset.sum_congr rfl fun f' _ => Finset.prod_mul_distrib
  rw [e, Finset.mul_sum]
  exact Finset.sum_congr rfl fun f' _ => (mul_assoc _ _ _).symm

end Slater

section Spins

variable {ia ib : Type*} [Fintype ia] [DecidableEq ia] [Fintype ib] [DecidableEq ib]

/-- Specification: `⟨D| X |phi⟩` for electrons of two kinds: the determinant of `D` on the left, the
product of the orbitals on the right. -/
def element (Da : Matrix p ia ℂ) (Db : Matrix p ib ℂ) (X : Matrix (ia ⊕ ib → p) (ia ⊕ ib → p) ℂ)
    (a : Matrix p ia ℂ) (b : Matrix p ib ℂ) : ℂ :=
  ∑ f, ∑ f', star (slater Da (f ∘ Sum.inl) * slater Db (f ∘ Sum.inr)) * X f f' *
    (product a (f' ∘ Sum.inl) * product b (f' ∘ Sum.inr))

theorem sum_arrow {M : Type*} [AddCommMonoid M] (F : (ia → p) → (ib → p) → M) :
    ∑ f : ia ⊕ ib → p, F (f ∘ Sum.inl) (f ∘ Sum.inr) = ∑ f, ∑ f', F f f' := by
  rw [← Fintype.sum_prod_type' (f := F)]
  exact Fintype.sum_equiv (Equiv.sumArrowEquivProdArrow ia ib p) _ _ fun f => rfl

/-- The overlap of propagated walkers as a matrix element for all electrons. -/
theorem dets_element (Da : Matrix p ia ℂ) (Db : Matrix p ib ℂ) (Ba Bb : Matrix p p ℂ)
    (a : Matrix p ia ℂ) (b : Matrix p ib ℂ) :
    (ovlpMatrix Da (Ba * a)).det * (ovlpMatrix Db (Bb * b)).det =
      element Da Db (tensor (Sum.elim (fun _ => Ba) fun _ => Bb)) a b := by
  unfold element
  have e : ∀ f f' : ia ⊕ ib → p, star (slater Da (f ∘ Sum.inl) * slater Db (f ∘ Sum.inr)) *
      tensor (Sum.elim (fun _ => Ba) fun _ => Bb) f f' *
        (product a (f' ∘ Sum.inl) * product b (f' ∘ Sum.inr)) =
      (fun (k : ia → p) (l : ib → p) => (fun (k' : ia → p) (l' : ib → p) =>
        (star (slater Da k) * (∏ c, Ba (k c) (k' c)) * product a k') *
        (star (slater Db l) * (∏ c, Bb (l c) (l' c)) * product b l'))
        (f' ∘ Sum.inl) (f' ∘ Sum.inr)) (f ∘ Sum.inl) (f ∘ Sum.inr) := by
    intro f f'
    simp only [tensor, Matrix.of_apply, Fintype.prod_sum_type, Sum.elim_inl, Sum.elim_inr,
      Function.comp, star_mul']
    ring
  simp_rw [e]
  rw [det_tensor, det_tensor, Finset.sum_mul_sum]
  have := sum_arrow (p := p) (ia := ia) (ib := ib) (fun k l => ∑ f' : ia ⊕ ib → p,
    (star (slater Da k) * (∏ c, Ba (k c) ((f' ∘ Sum.inl) c)) * product a (f' ∘ Sum.inl)) *
        (star (slater Db l) * (∏ c, Bb (l c) ((f' ∘ Sum.inr) c)) * product b (f' ∘ Sum.inr)))
  rw [this]
  refine Finset.sum_congr rfl fun k _ => Finset.sum_congr rfl fun l _ => ?_
  rw [Finset.sum_mul_sum, ← sum_arrow]

/-- The matrix element as a linear function of the operator between two operators. -/
def sandwich (Da : Matrix p ia ℂ) (Db : Matrix p ib ℂ) (a : Matrix p ia ℂ) (b : Matrix p ib ℂ)
    (W : Matrix (ia ⊕ ib → p) (ia ⊕ ib → p) ℂ) :
    Matrix (ia ⊕ ib → p) (ia ⊕ ib → p) ℂ →ₗ[ℂ] ℂ where
  toFun X := element Da Db (W * X * W) a b
  map_add' X Y := by
    simp only [element, mul_add, add_mul, Matrix.add_apply, Finset.sum_add_distrib]
  map_smul' c X := by
    simp only [element, Matrix.mul_smul, Matrix.smul_mul, Matrix.smul_apply, smul_eq_mul,
      RingHom.id_apply, Finset.mul_sum]
    exact Finset.sum_congr rfl fun f _ => Finset.sum_congr rfl fun f' _ => by ring

section Functional

variable {A : Type*} [NormedRing A] [NormedAlgebra ℂ A] [FiniteDimensional ℂ A]

theorem functional_mean (F : A →ₗ[ℂ] ℂ) (G : (g → ℝ) → A) (hG : Continuous G) (hB : Bdd G) (τ : ℝ) :
    F (∫ x : g → ℝ, (normalDensity x : ℝ) • G (τ • x)) =
      ∫ x : g → ℝ, (normalDensity x : ℂ) * F (G (τ • x)) := by
  have : CompleteSpace A := FiniteDimensional.complete ℂ A
  obtain ⟨C, c, hC, hc, h⟩ := hB
  have hint : Integrable fun x : g → ℝ => (normalDensity x : ℝ) • G (τ • x) := by
    refine ((expSize_integrable (g := g) (c * |τ|)).const_mul C).mono' ?_
      (Filter.Eventually.of_forall fun x => ?_)
    · exact (density_continuous.smul (hG.comp (continuous_const_smul τ))).aestronglyMeasurable
    · rw [norm_smul, Real.norm_eq_abs, abs_of_pos (normalDensity_pos x)]
      have h1 := mul_le_mul_of_nonneg_left (h (τ • x)) (normalDensity_pos x).le
      refine h1.trans (le_of_eq ?_)
      rw [size_smul]
      ring_nf
  have hi := (LinearMap.toContinuousLinearMap F).integral_comp_comm hint
  simp only [LinearMap.coe_toContinuousLinearMap'] at hi
  rw [← hi]
  congr 1
  funext x
  rw [← Complex.coe_smul, map_smul, smul_eq_mul]

theorem functional_isBigO (F : A →ₗ[ℂ] ℂ) {f : ℝ → A}
    (h : f =O[𝓝[≥] 0] fun t : ℝ => t ^ 2) : (fun t => F (f t)) =O[𝓝[≥] 0] fun t : ℝ => t ^ 2 :=
  ((LinearMap.toContinuousLinearMap F).isBigO_comp _ _).trans h

end Functional

theorem move_taylor {i : Type*} (L : g → Matrix p p ℂ) (n : ℕ) (t : ℝ) (x : g → ℝ)
    (phi : Matrix p i ℂ) (E : Matrix p p ℂ) :
    E * expOpOne ((Complex.I * (Real.sqrt t : ℂ)) • ∑ γ, (x γ : ℂ) • L γ) (E * phi) n =
      (E * taylor L n (Real.sqrt t • x) * E) * phi := by
  have ht : (Complex.I * (Real.sqrt t : ℂ)) • ∑ γ, (x γ : ℂ) • L γ =
      Complex.I • ∑ γ, (((Real.sqrt t • x) γ : ℝ) : ℂ) • L γ := by
    rw [mul_smul]
    congr 1
    rw [Finset.smul_sum]
    refine Finset.sum_congr rfl fun γ _ => ?_
    rw [smul_smul, Pi.smul_apply, smul_eq_mul, Complex.ofReal_mul]
  rw [taylor_sum, taylor, ht, Matrix.mul_assoc, Matrix.mul_assoc, Matrix.sum_mul]
  congr 1
  refine Finset.sum_congr rfl fun k _ => ?_
  rw [Matrix.smul_mul]

/-- The average of the overlaps after the steps of both spins. -/
theorem average (h : Fin 2 → Matrix p p ℂ) (L : g → Matrix p p ℂ) (lbar : g → ℂ) (n : ℕ) (hn : 3 ≤ n)
    (Da : Matrix p ia ℂ) (Db : Matrix p ib ℂ) (a : Matrix p ia ℂ) (b : Matrix p ib ℂ) :
    (fun t : ℝ => (∫ x : g → ℝ, (normalDensity x : ℂ) *
      (Complex.exp (-(Complex.I * (Real.sqrt t : ℂ)) * ∑ γ, x γ * lbar γ) *
      ((ovlpMatrix Da (NormedSpace.exp ((-t / 2 : ℂ) • h 0) *
          expOpOne ((Complex.I * (Real.sqrt t : ℂ)) • ∑ γ, (x γ : ℂ) • L γ)
            (NormedSpace.exp ((-t / 2 : ℂ) • h 0) * a) n)).det *
        (ovlpMatrix Db (NormedSpace.exp ((-t / 2 : ℂ) • h 1) *
          expOpOne ((Complex.I * (Real.sqrt t : ℂ)) • ∑ γ, (x γ : ℂ) • L γ)
            (NormedSpace.exp ((-t / 2 : ℂ) • h 1) * b) n)).det))) -
      element Da Db (NormedSpace.exp ((-t : ℂ) •
        hamiltonian (Sum.elim (fun _ => h 0) fun _ => h 1) L lbar)) a b)
      =O[𝓝[≥] 0] fun t : ℝ => t ^ 2 := by
  let _ : NormedRing (Matrix (ia ⊕ ib → p) (ia ⊕ ib → p) ℂ) := Matrix.linftyOpNormedRing
  let _ : NormedAlgebra ℂ (Matrix (ia ⊕ ib → p) (ia ⊕ ib → p) ℂ) := Matrix.linftyOpNormedAlgebra
  set hh : ia ⊕ ib → Matrix p p ℂ := Sum.elim (fun _ => h 0) fun _ => h 1 with hhdef
  set H1 : Matrix (ia ⊕ ib → p) (ia ⊕ ib → p) ℂ := ∑ j, site j (hh j) with hH1
  set H2 : Matrix (ia ⊕ ib → p) (ia ⊕ ib → p) ℂ :=
    (1 / 2 : ℂ) • ∑ γ, ((∑ j, site j (L γ)) - lbar γ • 1) ^ 2 with hH2
  have hH : hamiltonian hh L lbar = H1 + H2 := rfl
  -- the operators
  have hW : First (fun t : ℝ => NormedSpace.exp ((t / 2 : ℂ) • (-H1))) 1 ((1 / 2 : ℂ) • (-H1)) :=
    First.of_expands (exp_half_expands (-H1))
  have hF := fieldStep_mean (e := ia ⊕ ib) L lbar n hn
  have hE : First (fun t : ℝ => NormedSpace.exp ((t : ℂ) • (-(H1 + H2)))) 1 (-(H1 + H2)) :=
    First.of_expands (exp_expands (-(H1 + H2)))
  have hP := (hW.mul hF).mul hW
  have hD : (fun t : ℝ => NormedSpace.exp ((t / 2 : ℂ) • (-H1)) *
      (∫ x : g → ℝ, (normalDensity x : ℝ) • fieldStep (ia ⊕ ib) L lbar n (Real.sqrt t • x)) *
      NormedSpace.exp ((t / 2 : ℂ) • (-H1)) - NormedSpace.exp ((t : ℂ) • (-(H1 + H2))))
      =O[𝓝[≥] 0] fun t : ℝ => t ^ 2 := by
    unfold First at hP hE
    refine (hP.sub hE).congr_left fun t => ?_
    have : (1 * 1 * ((1 / 2 : ℂ) • (-H1)) + (1 * -H2 + ((1 / 2 : ℂ) • (-H1)) * 1) * 1 :
        Matrix (ia ⊕ ib → p) (ia ⊕ ib → p) ℂ) = -(H1 + H2) := by
      simp only [one_mul, mul_one]
      module
    rw [← hH2, this]
    simp only [mul_one]
    abel
  have hL := functional_isBigO (sandwich Da Db a b 1) hD
  refine hL.congr_left fun t => ?_
  rw [map_sub]
  congr 1
  · set W := NormedSpace.exp ((t / 2 : ℂ) • (-H1)) with hWdef
    have hWt : W = tensor fun j => NormedSpace.exp ((-t / 2 : ℂ) • hh j) := by
      rw [← exp_sum_site_univ, hWdef, hH1]
      congr 1
      rw [smul_neg, ← neg_smul, Finset.smul_sum, neg_div]
      refine Finset.sum_congr rfl fun j _ => ?_
      ext f g
      simp only [site, Matrix.of_apply, Matrix.smul_apply, smul_eq_mul]
      split_ifs <;> simp
    have hs : ∀ X, sandwich Da Db a b 1 (W * X * W) = sandwich Da Db a b W X := by
      intro X
      show element Da Db (1 * (W * X * W) * 1) a b = element Da Db (W * X * W) a b
      rw [one_mul, mul_one]
    rw [hs]
    have hi := functional_mean (sandwich Da Db a b W) (fieldStep (ia ⊕ ib) L lbar n)
      (fieldStep_continuous L lbar n) (fieldStep_bdd L lbar n hn) (Real.sqrt t)
    refine Eq.trans hi ?_
    congr 1
    funext x
    have hf : Complex.exp (-(Complex.I * (Real.sqrt t : ℂ)) * ∑ γ, x γ * lbar γ) =
        factor lbar (Real.sqrt t • x) := by
      rw [factor, Finset.mul_sum, Finset.mul_sum]
      congr 1
      refine Finset.sum_congr rfl fun γ _ => ?_
      rw [Pi.smul_apply, smul_eq_mul, Complex.ofReal_mul]
      ring
    rw [move_taylor, move_taylor, dets_element, hf, fieldStep, map_smul, smul_eq_mul]
    have hT : W * (tensor fun _ => taylor L n (Real.sqrt t • x)) * W =
        tensor (Sum.elim (fun _ => NormedSpace.exp ((-t / 2 : ℂ) • h 0) *
            taylor L n (Real.sqrt t • x) * NormedSpace.exp ((-t / 2 : ℂ) • h 0))
          fun _ => NormedSpace.exp ((-t / 2 : ℂ) • h 1) * taylor L n (Real.sqrt t • x) *
            NormedSpace.exp ((-t / 2 : ℂ) • h 1)) := by
      rw [hWt, tensor_mul, tensor_mul]
      refine congrArg tensor ?_
      funext j
      cases j with
      | inl j => simp only [hhdef, Sum.elim_inl]
      | inr j => simp only [hhdef, Sum.elim_inr]
    rw [← hT]
    rfl
  · rw [hH]
    simp only [sandwich, LinearMap.coe_mk, AddHom.coe_mk, one_mul, mul_one, smul_neg, neg_smul]

end Spins

section Step

variable {ia ib : Type*} [Fintype ia] [DecidableEq ia] [Fintype ib] [DecidableEq ib]

/-- Specification: the setup with the time step `t` and the one-body propagators `exp(-t h / 2)`
(`propagators.py` L472-533 for the matrices `h` of both spins). -/
noncomputable def withStep (S : Setup p ia ib g) (h : Fin 2 → Matrix p p ℂ) (t : ℝ) : Setup p ia ib g :=
  { S with dt := t, expH := fun σ => NormedSpace.exp ((-t / 2 : ℂ) • h σ) }

/-- Specification: `⟨D| exp(-t H) |φ⟩` for all electrons of a walker (with one spin component both
spins have the same orbitals). -/
noncomputable def exact (S : Setup p ia ib g) (h : Fin 2 → Matrix p p ℂ) (Da : Matrix p ia ℂ)
    (Db : Matrix p ib ℂ) (w : Walker p ia ib) (t : ℝ) : ℂ :=
  if S.two then element Da Db (NormedSpace.exp ((-t : ℂ) •
      hamiltonian (Sum.elim (fun _ => h 0) fun _ => h 1) S.L S.lbar)) w.phia w.phib
  else element Da Da (NormedSpace.exp ((-t : ℂ) • hamiltonian (fun _ => h 0) S.L S.lbar))
    w.phia w.phia

/-- The average over unbiased fields. -/
theorem average_step (S : Setup p ia ib g) (hn : 3 ≤ S.order) (h : Fin 2 → Matrix p p ℂ)
    (Da : Matrix p ia ℂ) (Db : Matrix p ib ℂ) (w : Walker p ia ib) :
    (fun t : ℝ => (∫ x : g → ℝ, (normalDensity x : ℂ) *
      (Complex.exp (-(Complex.I * (Real.sqrt t : ℂ)) * ∑ γ, x γ * S.lbar γ) *
      overlap Da (NormedSpace.exp ((-t / 2 : ℂ) • h 0) *
          expOpOne ((Complex.I * (Real.sqrt t : ℂ)) • ∑ γ, (x γ : ℂ) • S.L γ)
          (NormedSpace.exp ((-t / 2 : ℂ) • h 0) * w.phia) S.order)
        (beta S.two (Db, NormedSpace.exp ((-t / 2 : ℂ) • h 1) *
          expOpOne ((Complex.I * (Real.sqrt t : ℂ)) • ∑ γ, (x γ : ℂ) • S.L γ)
            (NormedSpace.exp ((-t / 2 : ℂ) • h 1) * w.phib) S.order)))) - exact S h Da Db w t)
      =O[𝓝[≥] 0] fun t : ℝ => t ^ 2 := by
  cases h2 : S.two with
  | true =>
    have := average h S.L S.lbar S.order hn Da Db w.phia w.phib
    simpa only [exact, h2, if_true, beta, overlap] using this
  | false =>
    have := average (fun _ => h 0) S.L S.lbar S.order hn Da Da w.phia w.phia
    have e : (Sum.elim (fun _ => h 0) fun _ => h 0 : ia ⊕ ia → Matrix p p ℂ) = fun _ => h 0 := by
      funext j
      cases j <;> rfl
    rw [e] at this
    simpa only [exact, h2, Bool.false_eq_true, if_false, beta, overlap] using this

/-- **C108.** For every choice of force biases, the weighted overlaps of the moved walker with any
determinant, averaged over the fields, are `⟨D| exp(-t H) |φ⟩` up to second order in the time step,
with the many-electron Hamiltonian `H`. -/
theorem hamiltonian_mean (S : Setup p ia ib g) (hn : 3 ≤ S.order) (h : Fin 2 → Matrix p p ℂ)
    (Da : Matrix p ia ℂ) (Db : Matrix p ib ℂ) (w : Walker p ia ib) (xb : ℝ → g → ℂ) :
    (fun t : ℝ => (∫ x : g → ℝ, (normalDensity x : ℂ) *
      (Complex.exp (cfb x (xb t) + cmf t x (xb t) S.lbar) *
        overlap Da (move (withStep S h t) (fieldOp (withStep S h t) x (xb t))
            (NormedSpace.exp ((-t / 2 : ℂ) • h 0)) w.phia)
          (beta S.two (Db, move (withStep S h t) (fieldOp (withStep S h t) x (xb t))
            (NormedSpace.exp ((-t / 2 : ℂ) • h 1)) w.phib)))) - exact S h Da Db w t)
      =O[𝓝[≥] 0] fun t : ℝ => t ^ 2 := by
  refine (average_step S hn h Da Db w).congr_left fun t => ?_
  have := force_bias_irrelevant (withStep S h t) w (xb t) Da Db
  exact congrArg (· - _) this.symm

/-- **C108.** The same for `step` with the force bias of the code and the trial. -/
theorem step_hamiltonian (S : Setup p ia ib g) (hn : 3 ≤ S.order) (h : Fin 2 → Matrix p p ℂ)
    (eshift : ℂ) (w : Walker p ia ib) (k : Matrix p ia ℂ × Matrix p ib ℂ)
    (hk : halves S w.phia w.phib = some k)
    (hs : S.scheme = some "hybrid" ∨ S.scheme = some "local") :
    (fun t : ℝ => (∫ x : g → ℝ, (normalDensity x : ℂ) *
      (match step (withStep S h t) eshift x w with
        | .ok w' => Complex.exp (cfb x (xbar (withStep S h t) k) +
              cmf t x (xbar (withStep S h t) k) S.lbar) *
            overlap S.Ta w'.phia (beta S.two (S.Tb, w'.phib))
        | .error _ => 0)) - exact S h S.Ta S.Tb w t) =O[𝓝[≥] 0] fun t : ℝ => t ^ 2 := by
  refine (average_step S hn h S.Ta S.Tb w).congr_left fun t => ?_
  have := step_mean (withStep S h t) eshift w k hk hs
  exact congrArg (· - _) this.symm

/-- A setup with two spins, two fields and complex mean-field values. -/
def demo : Setup (Fin 2) (Fin 1) (Fin 1) (Fin 2) where
  two := true
  dt := 0
  order := 6
  bound := 1
  scheme := some "hybrid"
  expH := fun _ => 1
  L := fun γ => if γ = 0 then !![0, 1; 1, 0] else !![1, 0; 0, 2]
  lbar := fun _ => Complex.I
  Ta := !![1; 0]
  Tb := !![1; 0]

/-- The hypotheses of `step_hamiltonian` hold for it, for a walker that is not the trial and has
different orbitals for the two spins. -/
example : 3 ≤ demo.order ∧ demo.scheme = some "hybrid" ∧
    ∃ k, halves demo !![2; 3] !![2; 1] = some k := by
  have h : ∀ u : ℂ, (ovlpMatrix (!![1; 0] : Matrix (Fin 2) (Fin 1) ℂ) !![2; u]).det ≠ 0 := by
    intro u
    simp [ovlpMatrix, conj, Matrix.mul_apply]
  have h' : ∀ u : ℂ, ∃ m, ghalf (!![1; 0] : Matrix (Fin 2) (Fin 1) ℂ) !![2; u] = some m := by
    intro u
    unfold ghalf Green.inv
    rw [if_neg (h u)]
    exact ⟨_, rfl⟩
  refine ⟨by norm_num [demo], rfl, ?_⟩
  obtain ⟨a, ha⟩ := h' 3
  obtain ⟨b, hb⟩ := h' 1
  refine ⟨(a, b), ?_⟩
  unfold halves
  rw [show demo.Ta = !![1; 0] from rfl, show demo.Tb = !![1; 0] from rfl, ha, hb]
  rfl

/-- The Hamiltonian is not a sum over electrons: two electrons with `L` exchanging two orbitals are
moved together with amplitude one. -/
example : hamiltonian (e := Fin 2) (p := Fin 2) (g := Unit) (fun _ => 0) (fun _ => !![0, 1; 1, 0]) 0
    ![0, 0] ![1, 1] = 1 := by
  have hs : ∀ h : Fin 2 → Fin 2, h = ![h 0, h 1] := fun h => by
    ext i; fin_cases i <;> rfl
  have hsum : ∀ F : (Fin 2 → Fin 2) → ℂ, ∑ h, F h = ∑ x, ∑ y, F ![x, y] := by
    intro F
    rw [← (finTwoArrowEquiv (Fin 2)).symm.sum_comp, Fintype.sum_prod_type]
    rfl
  simp [hamiltonian, site, pow_two, Matrix.mul_apply, hsum, Fin.forall_fin_two]
  norm_num

end Step

end OpenMS.ManyBody
