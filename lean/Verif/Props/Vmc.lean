import Verif.Model.Vmc
import Mathlib.Tactic
import Mathlib.LinearAlgebra.Matrix.PosDef
import Mathlib.Analysis.Calculus.Deriv.Inv
import Mathlib.Analysis.Calculus.Deriv.Add
import Mathlib.Analysis.Calculus.Deriv.Mul
import Mathlib.Analysis.SpecialFunctions.Trigonometric.Deriv
import Mathlib.Analysis.SpecialFunctions.Complex.Circle

namespace OpenMS.Vmc

open Matrix

/-! ### Overlap matrix and gradient of any sample -/

section

variable {N : ℕ} {p : Type*} [Fintype p]

open scoped ComplexOrder in
/-- The overlap matrix is hermitian and not negative. -/
theorem S_posSemidef (O : Fin N → p → ℂ) : (S O).PosSemidef := by
  have : S O = ((N : ℝ)⁻¹) • ((of fun k i => O i k - oMean O k : Matrix p (Fin N) ℂ) *
      (of fun k i => O i k - oMean O k : Matrix p (Fin N) ℂ)ᴴ) := by
    ext k l
    simp only [S, of_apply, Matrix.smul_apply, mul_apply, conjTranspose_apply, Complex.real_smul]
    push_cast
    rw [div_eq_inv_mul]
  rw [this]
  exact (posSemidef_self_mul_conjTranspose _).smul (by positivity)

end

section

variable {K : Type*} [Field K] [StarRing K] {N : ℕ} {p : Type*}

omit [StarRing K] in
theorem mean_add (x y : Fin N → K) : mean (fun i => x i + y i) = mean x + mean y := by
  simp only [mean, Finset.sum_add_distrib, add_div]

omit [StarRing K] in
theorem mean_mul (a : K) (x : Fin N → K) : mean (fun i => a * x i) = a * mean x := by
  simp only [mean, ← Finset.mul_sum, mul_div_assoc]

omit [StarRing K] in
theorem mean_const (hN : (N : K) ≠ 0) (a : K) : mean (fun _ : Fin N => a) = a := by
  simp only [mean, Finset.sum_const, Finset.card_univ, Fintype.card_fin, nsmul_eq_mul]
  exact mul_div_cancel_left₀ a hN

omit [StarRing K] in
/-- A constant added to the energy, or to a logarithmic derivative (normalisation of the wave
function), changes nothing. -/
theorem g_shift (hN : (N : K) ≠ 0) (E : Fin N → K) (O : Fin N → p → K) (a : K) (b : p → K) (k : p) :
    g (fun i => E i + a) (fun i k => O i k + b k) k = g E O k := by
  have h1 : (fun i => (E i + a) * (O i k + b k)) =
      fun i => (E i * O i k + b k * E i) + (a * O i k + a * b k) := by
    funext i
    ring
  simp only [g, eMean, oMean]
  rw [h1, mean_add, mean_add, mean_add, mean_add, mean_add, mean_mul, mean_mul, mean_const hN,
    mean_const hN, mean_const hN]
  ring

theorem S_shift (hN : (N : K) ≠ 0) (O : Fin N → p → K) (b : p → K) :
    S (fun i k => O i k + b k) = S O := by
  ext k l
  simp only [S, of_apply, oMean]
  rw [mean_add, mean_const hN, mean_add, mean_const hN]
  simp only [add_sub_add_right_eq_sub]

omit [StarRing K] in
/-- An eigenstate is stationary. -/
theorem g_eigenstate (hN : (N : K) ≠ 0) (a : K) (O : Fin N → p → K) (k : p) :
    g (fun _ => a) O k = 0 := by
  simp only [g, eMean, oMean]
  rw [mean_mul, mean_const hN, sub_self]

end

/-! ### Gradient of the energy -/

section

variable {c : Type*} [Fintype c] {N : ℕ}

/-- Local energy of the wave function `ψ`. -/
noncomputable def localEnergy (H : Matrix c c ℝ) (ψ : c → ℝ) (σ : c) : ℝ := (∑ η, H σ η * ψ η) / ψ σ

/-- Energy of the wave function `ψ`. -/
noncomputable def energy (H : Matrix c c ℝ) (ψ : c → ℝ) : ℝ := ψ ⬝ᵥ (H *ᵥ ψ) / ψ ⬝ᵥ ψ

open Classical in
/-- The samples `x` contain every configuration in proportion to `ψ²`. -/
def Exact (ψ : c → ℝ) (x : Fin N → c) : Prop :=
  ∀ σ, ((Finset.univ.filter fun i => x i = σ).card : ℝ) * ψ ⬝ᵥ ψ = N * ψ σ ^ 2

theorem mean_exact (hN : N ≠ 0) {ψ : c → ℝ} {x : Fin N → c} (hx : Exact ψ x) (hψ : ψ ⬝ᵥ ψ ≠ 0)
    (f : c → ℝ) : mean (fun i => f (x i)) = (∑ σ, ψ σ ^ 2 * f σ) / ψ ⬝ᵥ ψ := by
  classical
  have hN' : (N : ℝ) ≠ 0 := Nat.cast_ne_zero.2 hN
  have e : ∑ i, f (x i) = ∑ σ, ((Finset.univ.filter fun i => x i = σ).card : ℝ) * f σ := by
    rw [← Finset.sum_fiberwise (s := Finset.univ) (g := x)]
    refine Finset.sum_congr rfl fun σ _ => ?_
    rw [Finset.sum_congr rfl (g := fun _ => f σ) fun i hi => by rw [(Finset.mem_filter.1 hi).2],
      Finset.sum_const, nsmul_eq_mul]
  simp only [mean]
  rw [e, div_eq_div_iff hN' hψ, Finset.sum_mul, Finset.sum_mul]
  refine Finset.sum_congr rfl fun σ _ => ?_
  have := hx σ
  have h2 : ((Finset.univ.filter fun i => x i = σ).card : ℝ) * ψ ⬝ᵥ ψ = N * ψ σ ^ 2 := by
    convert this
  linear_combination f σ * h2

/-- For samples in proportion to `ψ²` the mean of the local energies is the energy. -/
theorem eMean_exact (hN : N ≠ 0) (H : Matrix c c ℝ) {ψ : c → ℝ} {x : Fin N → c} (hx : Exact ψ x)
    (hψ : ∀ σ, ψ σ ≠ 0) (h0 : ψ ⬝ᵥ ψ ≠ 0) :
    eMean (fun i => localEnergy H ψ (x i)) = energy H ψ := by
  unfold eMean energy
  rw [mean_exact hN hx h0 (localEnergy H ψ)]
  congr 1
  simp only [dotProduct, mulVec]
  refine Finset.sum_congr rfl fun σ _ => ?_
  unfold localEnergy
  have := hψ σ
  field_simp

/-- For samples in proportion to `ψ²` twice `g` is the derivative of the energy with respect to the
parameter. -/
theorem g_derivative (hN : N ≠ 0) {H : Matrix c c ℝ} (hH : Hᵀ = H) {ψ : ℝ → c → ℝ} {ψ' : c → ℝ}
    {θ : ℝ} (hd : ∀ σ, HasDerivAt (fun t => ψ t σ) (ψ' σ) θ) {x : Fin N → c} (hx : Exact (ψ θ) x)
    (hψ : ∀ σ, ψ θ σ ≠ 0) (h0 : ψ θ ⬝ᵥ ψ θ ≠ 0) :
    HasDerivAt (fun t => energy H (ψ t))
      (2 * g (fun i => localEnergy H (ψ θ) (x i)) (fun i (_ : Unit) => ψ' (x i) / ψ θ (x i)) ()) θ := by
  have hnum : HasDerivAt (fun t => ψ t ⬝ᵥ (H *ᵥ ψ t)) (2 * ∑ σ, (∑ η, H σ η * ψ θ η) * ψ' σ) θ := by
    have := HasDerivAt.fun_sum (u := Finset.univ) fun (σ : c) _ => (hd σ).mul
      (HasDerivAt.fun_sum (u := Finset.univ) fun (η : c) _ => (hd η).const_mul (H σ η))
    simp only [dotProduct, mulVec]
    refine this.congr_deriv ?_
    rw [Finset.sum_add_distrib, two_mul]
    congr 1
    · exact Finset.sum_congr rfl fun σ _ => mul_comm _ _
    · simp only [Finset.mul_sum, Finset.sum_mul]
      rw [Finset.sum_comm]
      refine Finset.sum_congr rfl fun σ _ => Finset.sum_congr rfl fun η _ => ?_
      have : H η σ = H σ η := congrFun (congrFun hH σ) η
      rw [this]
      ring
  have hden : HasDerivAt (fun t => ψ t ⬝ᵥ ψ t) (2 * ∑ σ, ψ θ σ * ψ' σ) θ := by
    have := HasDerivAt.fun_sum (u := Finset.univ) fun (σ : c) _ => (hd σ).mul (hd σ)
    simp only [dotProduct]
    refine this.congr_deriv ?_
    rw [Finset.mul_sum]
    exact Finset.sum_congr rfl fun σ _ => by ring
  unfold energy
  refine (hnum.div hden h0).congr_deriv ?_
  have e1 := mean_exact hN hx h0 fun σ => localEnergy H (ψ θ) σ * (ψ' σ / ψ θ σ)
  have e2 := mean_exact hN hx h0 fun σ => ψ' σ / ψ θ σ
  have e3 := eMean_exact hN H hx hψ h0
  simp only [g, oMean]
  rw [e1, e2, e3]
  have s1 : ∑ σ, ψ θ σ ^ 2 * (localEnergy H (ψ θ) σ * (ψ' σ / ψ θ σ)) =
      ∑ σ, (∑ η, H σ η * ψ θ η) * ψ' σ := by
    refine Finset.sum_congr rfl fun σ _ => ?_
    unfold localEnergy
    have := hψ σ
    field_simp
  have s2 : ∑ σ, ψ θ σ ^ 2 * (ψ' σ / ψ θ σ) = ∑ σ, ψ θ σ * ψ' σ := by
    refine Finset.sum_congr rfl fun σ _ => ?_
    have := hψ σ
    field_simp
  rw [s1, s2]
  unfold energy
  field_simp

/-- Two configurations of equal weight, one sample of each. -/
example : Exact (fun _ : Fin 2 => (1 : ℝ)) (id : Fin 2 → Fin 2) := by
  intro σ
  fin_cases σ <;> simp [dotProduct, Finset.filter_eq']

end

/-! ### Complex wave functions -/

section

open Complex

/-- Hamiltonian of two configurations. -/
noncomputable def twoH : Matrix (Fin 2) (Fin 2) ℂ := !![0, -I; I, 0]

/-- Wave function of two configurations with a phase. -/
noncomputable def twoPsi (θ : ℝ) : Fin 2 → ℂ := ![1, exp (θ * I)]

/-- Its logarithmic derivatives. -/
noncomputable def twoO : Fin 2 → Unit → ℂ := fun σ _ => ![0, I] σ

/-- Its energy. -/
noncomputable def twoEnergy (θ : ℝ) : ℂ :=
  star (twoPsi θ) ⬝ᵥ (twoH *ᵥ twoPsi θ) / star (twoPsi θ) ⬝ᵥ twoPsi θ

theorem exp_eq (θ : ℝ) : exp (θ * I) = Real.cos θ + Real.sin θ * I := by
  rw [exp_mul_I]; push_cast; rfl

theorem exp_inv (θ : ℝ) : exp (θ * I) * (Real.cos θ - Real.sin θ * I) = 1 := by
  rw [exp_eq]
  have : ((Real.cos θ : ℂ)) ^ 2 + (Real.sin θ : ℂ) ^ 2 = 1 := by
    exact_mod_cast Real.cos_sq_add_sin_sq θ
  linear_combination this - (Real.sin θ : ℂ) ^ 2 * I_mul_I

theorem twoEnergy_eq (θ : ℝ) : twoEnergy θ = Real.sin θ := by
  have h : (starRingEnd ℂ) (exp (θ * I)) = Real.cos θ - Real.sin θ * I := by
    rw [exp_eq]
    simp only [map_add, map_mul, conj_ofReal, conj_I]
    ring
  have h2 : ((Real.cos θ : ℂ)) ^ 2 + (Real.sin θ : ℂ) ^ 2 = 1 := by
    exact_mod_cast Real.cos_sq_add_sin_sq θ
  have hd : star (twoPsi θ) ⬝ᵥ twoPsi θ = 2 := by
    simp only [twoPsi, dotProduct, Fin.sum_univ_two, Pi.star_apply, Matrix.cons_val_zero,
      Matrix.cons_val_one, RCLike.star_def, h, map_one]
    linear_combination exp_inv θ
  have hn : star (twoPsi θ) ⬝ᵥ (twoH *ᵥ twoPsi θ) = 2 * Real.sin θ := by
    simp only [twoPsi, twoH, dotProduct, mulVec, Fin.sum_univ_two, Pi.star_apply, RCLike.star_def]
    simp only [Matrix.of_apply, Matrix.cons_val_zero, Matrix.cons_val_one, h, map_one]
    rw [exp_eq]
    linear_combination (-2 * (Real.sin θ : ℂ)) * I_mul_I
  rw [twoEnergy, hd, hn]
  ring

/-- One sample of each of two configurations with the wave function `(1, exp(iθ))`: for every `θ` the
code gives the gradient with the opposite sign, because the logarithmic derivative is not
conjugated. -/
theorem g_complex_fails (θ : ℝ) :
    (∀ σ, HasDerivAt (fun t => twoPsi t σ) (twoO σ () * twoPsi θ σ) θ) ∧
      HasDerivAt (fun t => (twoEnergy t).re) (Real.cos θ) θ ∧
      2 * g (fun σ => (twoH *ᵥ twoPsi θ) σ / twoPsi θ σ) twoO () = -Real.cos θ := by
  refine ⟨fun σ => ?_, ?_, ?_⟩
  · fin_cases σ
    · simpa [twoPsi, twoO] using hasDerivAt_const θ (1 : ℂ)
    · have h1 : HasDerivAt (fun t : ℝ => (t : ℂ) * I) (1 * I) θ := (ofRealCLM.hasDerivAt).mul_const I
      have := h1.cexp
      simp only [twoPsi, twoO]
      refine this.congr_deriv ?_
      simp [mul_comm]
  · simp only [twoEnergy_eq, ofReal_re]
    exact Real.hasDerivAt_sin θ
  · have h1 := exp_inv θ
    have h2 : exp (θ * I) ≠ 0 := exp_ne_zero _
    have h3 : (exp (θ * I))⁻¹ = Real.cos θ - Real.sin θ * I := inv_eq_of_mul_eq_one_right h1
    simp only [g, eMean, oMean, mean, twoPsi, twoH, twoO, mulVec, dotProduct, Fin.sum_univ_two]
    simp only [Matrix.of_apply, Matrix.cons_val_zero, Matrix.cons_val_one, div_eq_mul_inv, h3]
    rw [exp_eq]
    push_cast
    linear_combination (Complex.cos θ) * I_mul_I

variable {N : ℕ} {p : Type*}

/-- With real local energies the real part is that of the conjugated formula. -/
theorem g_complex_partial (E : Fin N → ℝ) (O : Fin N → p → ℂ) (k : p) :
    (g (fun i => (E i : ℂ)) O k).re =
      (mean (fun i => star (O i k) * (E i : ℂ)) - star (oMean O k) * eMean fun i => (E i : ℂ)).re := by
  have h : star (g (fun i => (E i : ℂ)) O k) =
      mean (fun i => star (O i k) * (E i : ℂ)) - star (oMean O k) * eMean fun i => (E i : ℂ) := by
    simp only [g, mean, eMean, oMean, star_sub, star_mul', star_div₀, star_sum, RCLike.star_def,
      conj_ofReal, map_natCast]
    simp only [mul_comm]
  rw [← h]
  simp

end

/-! ### The kernel as it stands -/

/-- The kernel runs exactly if it has nothing to do, or if sampler, wave function and optimiser were
stored from outside under the names it reads. -/
theorem kernel_iff (extra : List String) (ms : List ℕ) :
    kernel extra ms = .ok () ↔ ms = [] ∨ ("sampler" ∈ extra ∧ "psi" ∈ extra ∧ "opt" ∈ extra) := by
  have r : ∀ a, a ∉ initAttrs ++ classAttrs → (read extra a = .ok () ↔ a ∈ extra) := by
    intro a ha
    have e : a ∈ initAttrs ++ classAttrs ++ extra ↔ a ∈ extra := by
      rw [List.mem_append, or_iff_right ha]
    unfold read
    split_ifs with h
    · exact ⟨fun _ => e.1 h, fun _ => rfl⟩
    · exact ⟨fun h' => (nomatch h'), fun h' => absurd (e.2 h') h⟩
  have r' : ∀ a, a ∈ initAttrs ++ classAttrs → read extra a = .ok () := by
    intro a ha
    unfold read
    exact if_pos (List.mem_append.2 (.inl ha))
  have bind_ok : ∀ {x : Except String Unit} {f : Unit → Except String Unit},
      (x >>= f) = .ok () ↔ x = .ok () ∧ f () = .ok () := by
    intro x f
    cases x <;> simp [bind, Except.bind]
  have hobs := r' "obs" (by decide)
  have hham := r' "ham" (by decide)
  have hs := r "sampler" (by decide)
  have hp := r "psi" (by decide)
  have ho := r "opt" (by decide)
  have it : ∀ m, iteration extra m = .ok () ↔ "sampler" ∈ extra ∧ "psi" ∈ extra ∧ "opt" ∈ extra := by
    intro m
    unfold iteration
    rw [bind_ok, bind_ok, bind_ok, bind_ok, hs, hp, ho]
    constructor
    · rintro ⟨a, b, -, -, d⟩
      exact ⟨a, b, d⟩
    · rintro ⟨a, b, d⟩
      refine ⟨a, b, hobs, ?_, d⟩
      have hp' := hp.2 b
      induction m with
      | zero => rfl
      | succ m ih =>
        rw [List.replicate_succ]
        refine bind_ok.2 ?_
        refine ⟨?_, ih⟩
        rw [hp', hham, hobs]
        rfl
  induction ms with
  | nil => simp [kernel]
  | cons m ms ih =>
    refine (bind_ok.trans (and_congr (it m) ih)).trans ?_
    constructor
    · rintro ⟨a, -⟩
      exact .inr a
    · rintro (a | a)
      · cases a
      · exact ⟨a, .inr a⟩

/-- An object as it was made does not run. -/
theorem kernel_fails (m : ℕ) (ms : List ℕ) : kernel [] (m :: ms) = .error "sampler" := rfl

end OpenMS.Vmc
