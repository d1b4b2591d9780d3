import Verif.Model.TrialBoson
import Mathlib.Analysis.SpecialFunctions.ExpDeriv
import Mathlib.Analysis.SpecialFunctions.Exponential
import Mathlib.Analysis.Complex.RealDeriv
import Mathlib.Tactic

/-!
# C60, C61: bosonic trial states
-/

namespace OpenMS.TrialBoson

/-! ## C60: harmonic trials -/

section First
variable {ι : Type*} [Fintype ι] [DecidableEq ι]

/-- A Gaussian product, as a function of one coordinate: first and second derivative. -/
theorem gaussian_deriv (a s : ℝ) (q : ι → ℝ) (i : ι) :
    let ψ : (ι → ℝ) → ℝ := fun q => ∏ j, Real.exp (a * (q j - s) * (q j - s))
    (∀ x, HasDerivAt (fun x => ψ (Function.update q i x))
      (2 * a * (x - s) * ψ (Function.update q i x)) x) ∧
    ∀ x, HasDerivAt (fun x => 2 * a * (x - s) * ψ (Function.update q i x))
      (((2 * a * (x - s)) ^ 2 + 2 * a) * ψ (Function.update q i x)) x := by
  intro ψ
  have hψ : ∀ x, ψ (Function.update q i x) =
      Real.exp (a * (x - s) * (x - s)) * ∏ j ∈ Finset.univ.erase i, Real.exp (a * (q j - s) * (q j - s)) := by
    intro x
    simp only [ψ]
    rw [← Finset.mul_prod_erase Finset.univ _ (Finset.mem_univ i), Function.update_self]
    congr 1
    refine Finset.prod_congr rfl fun j hj => ?_
    rw [Function.update_of_ne (Finset.ne_of_mem_erase hj)]
  have hlin : ∀ x, HasDerivAt (fun x : ℝ => x - s) 1 x := fun x => (hasDerivAt_id x).sub_const s
  have h1 : ∀ x, HasDerivAt (fun x => ψ (Function.update q i x))
      (2 * a * (x - s) * ψ (Function.update q i x)) x := by
    intro x
    rw [hψ x, funext hψ]
    have := ((((hlin x).const_mul a).mul (hlin x)).exp).mul_const
      (∏ j ∈ Finset.univ.erase i, Real.exp (a * (q j - s) * (q j - s)))
    refine this.congr_deriv ?_
    simp only [Pi.mul_apply]
    ring
  refine ⟨h1, fun x => ?_⟩
  have := ((hlin x).const_mul (2 * a)).mul (h1 x)
  refine this.congr_deriv ?_
  ring

/-- C60: in position space the reported gradient and laplacian are those of the wave function over
its value, at every configuration and for every shift. -/
theorem positionDerivatives (m w s : ℝ) (q : ι → ℝ) (i : ι) :
    HasDerivAt (fun x => valueQ m w s (Function.update q i x)) (gradientQ m w s q i * valueQ m w s q) (q i) ∧
    ∃ d : ℝ → ℝ, (∀ x, HasDerivAt (fun x => valueQ m w s (Function.update q i x)) (d x) x) ∧
      HasDerivAt d (laplacianQ m w s q i * valueQ m w s q) (q i) := by
  obtain ⟨h1, h2⟩ := gaussian_deriv (-0.5 * (m * w)) s q i
  refine ⟨?_, _, h1, ?_⟩
  · refine (h1 (q i)).congr_deriv ?_
    rw [Function.update_eq_self]
    simp only [gradientQ, valueQ]
    ring
  · refine (h2 (q i)).congr_deriv ?_
    rw [Function.update_eq_self]
    simp only [laplacianQ, valueQ]
    ring

/-- C60: the same in momentum space. -/
theorem momentumDerivatives (m w s : ℝ) (p : ι → ℝ) (i : ι) :
    HasDerivAt (fun x => valueP m w s (Function.update p i x)) (gradientP m w s p i * valueP m w s p) (p i) ∧
    ∃ d : ℝ → ℝ, (∀ x, HasDerivAt (fun x => valueP m w s (Function.update p i x)) (d x) x) ∧
      HasDerivAt d (laplacianP m w s p i * valueP m w s p) (p i) := by
  obtain ⟨h1, h2⟩ := gaussian_deriv (-0.5 / (m * w)) s p i
  refine ⟨?_, _, h1, ?_⟩
  · refine (h1 (p i)).congr_deriv ?_
    rw [Function.update_eq_self]
    simp only [gradientP, valueP]
    ring
  · refine (h2 (p i)).congr_deriv ?_
    rw [Function.update_eq_self]
    simp only [laplacianP, valueP]
    ring

omit [DecidableEq ι] in
/-- C60: without a shift the local energy vanishes at every configuration, in both spaces. -/
theorem zero_variance (m w : ℝ) (hm : m ≠ 0) (hw : w ≠ 0) (q : ι → ℝ) :
    energyQ m w 0 q = 0 ∧ energyP m w 0 q = 0 := by
  constructor
  · simp only [energyQ, laplacianQ, sub_zero, Finset.sum_sub_distrib, mul_pow, ← Finset.mul_sum,
      Finset.sum_const, Finset.card_univ, nsmul_eq_mul, ← sq]
    field_simp
    ring
  · simp only [energyP, laplacianP, sub_zero, Finset.sum_sub_distrib, div_pow, ← Finset.sum_div,
      Finset.sum_const, Finset.card_univ, nsmul_eq_mul, ← sq]
    field_simp
    ring

/-- C60: for every shift the reported local energy is the harmonic Hamiltonian, zero-point energy
removed, applied to the wave function, over its value; `D2 i` is the second derivative in coordinate
`i`. -/
theorem localEnergy_is_hamiltonian (m w s : ℝ) (hm : m ≠ 0) (q : ι → ℝ) :
    (∃ D1 : ι → ℝ → ℝ, ∃ D2 : ι → ℝ,
      (∀ i x, HasDerivAt (fun x => valueQ m w s (Function.update q i x)) (D1 i x) x) ∧
      (∀ i, HasDerivAt (D1 i) (D2 i) (q i)) ∧
      energyQ m w s q * valueQ m w s q =
        ∑ i, (-(1 / (2 * m)) * D2 i + m * w ^ 2 / 2 * q i ^ 2 * valueQ m w s q -
          w / 2 * valueQ m w s q)) ∧
    (∃ D1 : ι → ℝ → ℝ, ∃ D2 : ι → ℝ,
      (∀ i x, HasDerivAt (fun x => valueP m w s (Function.update q i x)) (D1 i x) x) ∧
      (∀ i, HasDerivAt (D1 i) (D2 i) (q i)) ∧
      energyP m w s q * valueP m w s q =
        ∑ i, (q i ^ 2 / (2 * m) * valueP m w s q - m * w ^ 2 / 2 * D2 i -
          w / 2 * valueP m w s q)) := by
  constructor
  · choose d hd using fun i => (positionDerivatives m w s q i).2
    refine ⟨d, fun i => laplacianQ m w s q i * valueQ m w s q, fun i => (hd i).1, fun i => (hd i).2, ?_⟩
    simp only [energyQ, Finset.sum_add_distrib, Finset.sum_sub_distrib, ← Finset.sum_mul, ← Finset.mul_sum,
      Finset.sum_const, Finset.card_univ, nsmul_eq_mul, ← sq]
    field_simp
    ring
  · choose d hd using fun i => (momentumDerivatives m w s q i).2
    refine ⟨d, fun i => laplacianP m w s q i * valueP m w s q, fun i => (hd i).1, fun i => (hd i).2, ?_⟩
    simp only [energyP, Finset.sum_sub_distrib, ← Finset.sum_mul, ← Finset.mul_sum,
      ← Finset.sum_div, Finset.sum_const, Finset.card_univ, nsmul_eq_mul, ← sq]
    field_simp
    ring

/-- With a shift the local energy is not constant: mass, frequency and shift one, one site. -/
example : energyQ 1 1 1 (fun _ : Fin 1 => (0 : ℝ)) ≠ energyQ 1 1 1 (fun _ : Fin 1 => (1 : ℝ)) := by
  norm_num [energyQ, laplacianQ]

end First

/-! ## C61: coherent states -/

theorem coherent_sq (n : ℕ) (α : ℂ) :
    ‖coherentCoeff n α‖ ^ 2 = Real.exp (-‖α‖ ^ 2) * ((‖α‖ ^ 2) ^ n / n.factorial) := by
  have hf : (0 : ℝ) < n.factorial := by positivity
  rw [coherentCoeff, norm_div, norm_mul, norm_pow, Complex.norm_real, Complex.norm_real, Real.norm_eq_abs,
    Real.norm_eq_abs, abs_of_pos (Real.exp_pos _), abs_of_nonneg (Real.sqrt_nonneg _), div_pow, mul_pow,
    Real.sq_sqrt hf.le, ← Real.exp_nat_mul]
  have : ((2 : ℕ) : ℝ) * (-‖α‖ ^ 2 / 2) = -‖α‖ ^ 2 := by push_cast; ring
  rw [this, ← pow_mul, ← pow_mul, mul_comm n 2]
  ring

/-- C61: the squared coefficients of all occupations sum to one, for every amplitude. -/
theorem coherent_normalised (α : ℂ) : HasSum (fun n => ‖coherentCoeff n α‖ ^ 2) 1 := by
  have h := (NormedSpace.expSeries_div_hasSum_exp (𝔸 := ℝ) (‖α‖ ^ 2)).mul_left (Real.exp (-‖α‖ ^ 2))
  rw [← Real.exp_eq_exp_ℝ, ← Real.exp_add, neg_add_cancel, Real.exp_zero] at h
  simpa only [coherent_sq] using h

/-- C61: the state is the eigenstate of the annihilation operator with eigenvalue `α`, with a positive
vacuum coefficient: `√(n+1) c_{n+1} = α c_n`. -/
theorem coherent_eigenstate (n : ℕ) (α : ℂ) :
    (Real.sqrt (n + 1) : ℂ) * coherentCoeff (n + 1) α = α * coherentCoeff n α ∧
    coherentCoeff 0 α = (Real.exp (-‖α‖ ^ 2 / 2) : ℝ) := by
  constructor
  · have h1 : (0 : ℝ) < Real.sqrt (n + 1) := Real.sqrt_pos.2 (by positivity)
    have h2 : (0 : ℝ) < Real.sqrt n.factorial := Real.sqrt_pos.2 (by positivity)
    have h1' : (Real.sqrt (n + 1) : ℂ) ≠ 0 := by exact_mod_cast h1.ne'
    have h2' : (Real.sqrt n.factorial : ℂ) ≠ 0 := by exact_mod_cast h2.ne'
    have hf : (Real.sqrt ((n + 1).factorial : ℕ) : ℂ) = Real.sqrt (n + 1) * Real.sqrt n.factorial := by
      rw [← Complex.ofReal_mul, ← Real.sqrt_mul (by positivity), Nat.factorial_succ]
      push_cast
      rfl
    simp only [coherentCoeff]
    rw [hf]
    field_simp
    ring
  · simp [coherentCoeff]

/-- C61: with a cut-off the sum is at most one, and less than one unless the amplitude vanishes. -/
theorem coherent_cutoff (N : ℕ) (α : ℂ) :
    ∑ n ∈ Finset.range N, ‖coherentCoeff n α‖ ^ 2 ≤ 1 ∧
    (α ≠ 0 → ∑ n ∈ Finset.range N, ‖coherentCoeff n α‖ ^ 2 < 1) := by
  have h := coherent_normalised α
  have hle : ∀ M, ∑ n ∈ Finset.range M, ‖coherentCoeff n α‖ ^ 2 ≤ 1 := fun M =>
    sum_le_hasSum _ (fun n _ => sq_nonneg _) h
  refine ⟨hle N, fun hα => ?_⟩
  have h1 := hle (N + 1)
  rw [Finset.sum_range_succ] at h1
  have h2 : 0 < ‖coherentCoeff N α‖ ^ 2 := by
    rw [coherent_sq]
    have : 0 < ‖α‖ := norm_pos_iff.2 hα
    positivity
  linarith

/-- C61 for several modes: the trial built over all occupation tuples below the cut-off has squared
norm the product of the one-mode sums, hence at most one. -/
theorem fockTrial_norm (nmodes nfock : ℕ) (α : Fin nmodes → ℂ) :
    ∑ n, ‖fockTrial nmodes nfock α n‖ ^ 2 = ∏ i, ∑ k ∈ Finset.range nfock, ‖coherentCoeff k (α i)‖ ^ 2 ∧
    ∑ n, ‖fockTrial nmodes nfock α n‖ ^ 2 ≤ 1 := by
  have h : ∑ n, ‖fockTrial nmodes nfock α n‖ ^ 2 =
      ∏ i, ∑ k ∈ Finset.range nfock, ‖coherentCoeff k (α i)‖ ^ 2 := by
    simp only [fockTrial, norm_prod, ← Finset.prod_pow]
    have := (Finset.prod_univ_sum (fun _ : Fin nmodes => (Finset.univ : Finset (Fin nfock)))
      (fun i k => ‖coherentCoeff k (α i)‖ ^ 2)).symm
    rw [Fintype.piFinset_univ] at this
    rw [this]
    refine Finset.prod_congr rfl fun i _ => ?_
    rw [Fin.sum_univ_eq_sum_range (fun k => ‖coherentCoeff k (α i)‖ ^ 2)]
  refine ⟨h, ?_⟩
  rw [h]
  exact Finset.prod_le_one (fun i _ => Finset.sum_nonneg fun _ _ => sq_nonneg _)
    fun i _ => (coherent_cutoff nfock (α i)).1

/-- C61 for several modes: adding a boson to one mode follows that mode's amplitude, and the
coefficient of no bosons at all is positive. -/
theorem fockTrial_eigenstate (nmodes nfock : ℕ) (α : Fin nmodes → ℂ) :
    (∀ (n n' : Fin nmodes → Fin nfock) (i : Fin nmodes), (n' i : ℕ) = n i + 1 → (∀ j ≠ i, n' j = n j) →
      (Real.sqrt ((n i : ℕ) + 1) : ℂ) * fockTrial nmodes nfock α n' = α i * fockTrial nmodes nfock α n) ∧
    ∀ n : Fin nmodes → Fin nfock, (∀ i, (n i : ℕ) = 0) →
      fockTrial nmodes nfock α n = (∏ i, Real.exp (-‖α i‖ ^ 2 / 2) : ℝ) := by
  constructor
  · intro n n' i hi hj
    simp only [fockTrial]
    rw [← Finset.mul_prod_erase Finset.univ _ (Finset.mem_univ i),
      ← Finset.mul_prod_erase (a := i) Finset.univ (fun i => coherentCoeff (n i) (α i)) (Finset.mem_univ i),
      ← mul_assoc, ← mul_assoc, hi, (coherent_eigenstate (n i) (α i)).1]
    congr 1
    refine Finset.prod_congr rfl fun j hjm => ?_
    rw [hj j (Finset.ne_of_mem_erase hjm)]
  · intro n hn
    simp only [fockTrial]
    push_cast
    refine Finset.prod_congr rfl fun i _ => ?_
    rw [hn i, (coherent_eigenstate 0 (α i)).2]
    push_cast
    rfl

/-- The vacuum amplitude: all weight on no bosons. -/
example : ‖coherentCoeff 0 0‖ ^ 2 = 1 ∧ ‖coherentCoeff 1 0‖ ^ 2 = 0 := by
  constructor <;> rw [coherent_sq] <;> simp

end OpenMS.TrialBoson
