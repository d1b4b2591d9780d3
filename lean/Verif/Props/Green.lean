import Verif.Model.Green
import Mathlib.LinearAlgebra.Matrix.Block
import Mathlib.LinearAlgebra.Matrix.Charpoly.Coeff
import Mathlib.Analysis.Calculus.Deriv.Polynomial
import Mathlib.Analysis.Calculus.Deriv.Mul
import Mathlib.Tactic.FieldSimp
import Mathlib.Tactic.LinearCombination
import Mathlib.Tactic.NormNum

/-!
# Green's function, overlap and force bias (C22, C70, C71)
-/

set_option linter.unusedSectionVars false

namespace OpenMS.Green

open Matrix

variable {p i g : Type*} [Fintype p] [Fintype i] [DecidableEq i]

/-! ## C22 -/

theorem inv_eq {M : Matrix i i ℂ} (h : M.det ≠ 0) : inv M = some M⁻¹ := by
  unfold inv; rw [if_neg h]

/-- A singular overlap raises an error instead of returning a Green's function. -/
theorem gf_singular (T W : Matrix p i ℂ) (h : (Wᵀ * conj T).det = 0) : GF T W = none := by
  unfold GF inv ovlpMatrix
  rw [if_pos h]; rfl

/-- **C22.** For an invertible overlap the Green's function exists, is a projector whose
trace is the number of electrons, its transpose reproduces the walker, and it is the
transpose of `W (T† W)⁻¹ T†`. -/
theorem gf_projector (T W : Matrix p i ℂ) (h : (Wᵀ * conj T).det ≠ 0) :
    ∃ G Gh, GF T W = some (G, Gh) ∧ G * G = G ∧ G.trace = Fintype.card i ∧ Gᵀ * W = W ∧
      G = (W * ((conj T)ᵀ * W)⁻¹ * (conj T)ᵀ)ᵀ := by
  have hu : IsUnit (Wᵀ * conj T).det := isUnit_iff_ne_zero.2 h
  refine ⟨_, _, by rw [GF, ovlpMatrix, inv_eq h]; rfl, ?_, ?_, ?_, ?_⟩
  · calc conj T * ((Wᵀ * conj T)⁻¹ * Wᵀ) * (conj T * ((Wᵀ * conj T)⁻¹ * Wᵀ))
        = conj T * (((Wᵀ * conj T)⁻¹ * (Wᵀ * conj T)) * ((Wᵀ * conj T)⁻¹ * Wᵀ)) := by
          simp only [Matrix.mul_assoc]
      _ = conj T * ((Wᵀ * conj T)⁻¹ * Wᵀ) := by
          rw [Matrix.nonsing_inv_mul _ hu, Matrix.one_mul]
  · rw [Matrix.trace_mul_comm, Matrix.mul_assoc, Matrix.nonsing_inv_mul _ hu, Matrix.trace_one]
  · have : (conj T * ((Wᵀ * conj T)⁻¹ * Wᵀ))ᵀ * W =
        (Wᵀ * (conj T * ((Wᵀ * conj T)⁻¹ * Wᵀ)))ᵀ := by
      rw [Matrix.transpose_mul Wᵀ, Matrix.transpose_transpose]
    rw [this, ← Matrix.mul_assoc, ← Matrix.mul_assoc, Matrix.mul_nonsing_inv _ hu, Matrix.one_mul,
      Matrix.transpose_transpose]
  · have e : (conj T)ᵀ * W = (Wᵀ * conj T)ᵀ := by
      rw [Matrix.transpose_mul, Matrix.transpose_transpose]
    rw [e, ← Matrix.transpose_nonsing_inv, Matrix.transpose_mul, Matrix.transpose_mul,
      Matrix.transpose_transpose, Matrix.transpose_transpose]

/-- **C22, gauge invariance.** Multiplying the walker from the right by an invertible matrix
(as orthogonalisation does) does not change the Green's function and multiplies the
overlap by the determinant. -/
theorem gf_gauge (T W : Matrix p i ℂ) (R : Matrix i i ℂ) (hR : R.det ≠ 0) :
    (GF T (W * R)).map Prod.fst = (GF T W).map Prod.fst ∧
    (ovlpMatrix T (W * R)).det = R.det * (ovlpMatrix T W).det := by
  have hu : IsUnit R.det := isUnit_iff_ne_zero.2 hR
  have e : (W * R)ᵀ * conj T = Rᵀ * (Wᵀ * conj T) := by
    rw [Matrix.transpose_mul, Matrix.mul_assoc]
  have hd : ((W * R)ᵀ * conj T).det = R.det * (Wᵀ * conj T).det := by
    rw [e, Matrix.det_mul, Matrix.det_transpose]
  refine ⟨?_, hd⟩
  by_cases h : (Wᵀ * conj T).det = 0
  · rw [gf_singular T W h, gf_singular T (W * R) (by rw [hd, h, mul_zero])]
  have h' : ((W * R)ᵀ * conj T).det ≠ 0 := by rw [hd]; exact mul_ne_zero hR h
  have hut : IsUnit Rᵀ.det := by rw [Matrix.det_transpose]; exact hu
  rw [GF, GF, ovlpMatrix, ovlpMatrix, inv_eq h, inv_eq h']
  simp only [Option.map_some, Option.some.injEq]
  rw [e, Matrix.mul_inv_rev, Matrix.transpose_mul, Matrix.mul_assoc, ← Matrix.mul_assoc _ Rᵀ,
    Matrix.nonsing_inv_mul _ hut, Matrix.one_mul]

/-- The two implementations agree: `trial.py` stores the transpose of the half-rotated Green's
function of `estimators.py`, and both give the same full Green's function. -/
theorem gf_implementations (T W : Matrix p i ℂ) :
    ghalf T W = (GF T W).map (fun r => r.2ᵀ) ∧
    (ghalf T W).map (fullG T) = (GF T W).map Prod.fst := by
  unfold ghalf GF
  cases hinv : inv (ovlpMatrix T W) with
  | none => exact ⟨rfl, rfl⟩
  | some m =>
    simp only [Option.map_some, Option.some.injEq]
    constructor
    · ext a b
      simp [Matrix.mul_apply]
    · ext a b
      simp [Matrix.mul_apply, fullG]

/-- A trial and a different walker with invertible overlap (one electron, two orbitals). -/
example : ((!![1; 2] : Matrix (Fin 2) (Fin 1) ℂ)ᵀ * conj !![1; 0]).det ≠ 0 := by
  simp [conj, Matrix.mul_apply, Fin.sum_univ_two]

/-! ## C71: force bias -/

/-- The force bias computed from half-rotated quantities is the trace of the field operator
with the full Green's function. -/
theorem vbias_full (T h : Matrix p i ℂ) (L : Matrix p p ℂ) :
    vbias (halfRotate T L) h = ∑ a, ∑ b, L a b * fullG T h a b := by
  simp only [vbias, halfRotate, fullG, Matrix.of_apply, Finset.mul_sum]
  calc ∑ q, ∑ k, ∑ a, h q k * (conj T a k * L a q)
      = ∑ q, ∑ a, ∑ k, h q k * (conj T a k * L a q) :=
        Finset.sum_congr rfl fun q _ => Finset.sum_comm
    _ = ∑ a, ∑ q, ∑ k, h q k * (conj T a k * L a q) := Finset.sum_comm
    _ = _ := by
        refine Finset.sum_congr rfl fun a _ => Finset.sum_congr rfl fun q _ =>
          Finset.sum_congr rfl fun k _ => ?_
        ring

/-- The determinant of `1 + t B` has derivative `trace B` at `t = 0`. -/
theorem hasDerivAt_det_one_add (B : Matrix i i ℂ) :
    HasDerivAt (fun t : ℂ => (1 + t • B).det) B.trace 0 := by
  have hp := (Polynomial.hasDerivAt (Matrix.det (1 + (Polynomial.X : Polynomial ℂ) • B.map Polynomial.C)) 0)
  rw [Matrix.derivative_det_one_add_X_smul] at hp
  refine hp.congr_of_eventuallyEq ?_
  filter_upwards with t
  have := (Polynomial.evalRingHom t).map_det (1 + (Polynomial.X : Polynomial ℂ) • B.map Polynomial.C)
  simp only [Polynomial.coe_evalRingHom] at this
  rw [this]
  congr 1
  ext a b
  by_cases hab : a = b
  · subst hab; simp; ring
  · simp [hab]; ring

/-- One spin component: the derivative of the overlap along `exp(t L)` (to first order
`1 + t L`) is the overlap times the force bias. -/
theorem overlap_derivative (T W : Matrix p i ℂ) (L : Matrix p p ℂ) [DecidableEq p] (h : Matrix p i ℂ)
    (hh : ghalf T W = some h) :
    HasDerivAt (fun t : ℂ => (ovlpMatrix T ((1 + t • L) * W)).det)
      ((ovlpMatrix T W).det * vbias (halfRotate T L) h) 0 := by
  unfold ghalf inv at hh
  split_ifs at hh with hdet
  · simp at hh
  simp only [Option.map_some, Option.some.injEq] at hh
  have hu : IsUnit (ovlpMatrix T W).det := isUnit_iff_ne_zero.2 hdet
  -- the overlap matrix factorises
  have hfac : ∀ t : ℂ, ovlpMatrix T ((1 + t • L) * W) =
      ovlpMatrix T W * (1 + t • ((ovlpMatrix T W)⁻¹ * (Wᵀ * Lᵀ * conj T))) := by
    intro t
    rw [Matrix.mul_add, Matrix.mul_one, Matrix.mul_smul, ← Matrix.mul_assoc (ovlpMatrix T W),
      Matrix.mul_nonsing_inv _ hu, Matrix.one_mul]
    unfold ovlpMatrix
    rw [Matrix.transpose_mul, Matrix.transpose_add, Matrix.transpose_one, Matrix.transpose_smul,
      Matrix.mul_add, Matrix.mul_one, Matrix.add_mul, Matrix.mul_smul, Matrix.smul_mul]
  have hd := (hasDerivAt_det_one_add ((ovlpMatrix T W)⁻¹ * (Wᵀ * Lᵀ * conj T))).const_mul
    (ovlpMatrix T W).det
  have htr : ((ovlpMatrix T W)⁻¹ * (Wᵀ * Lᵀ * conj T)).trace = vbias (halfRotate T L) h := by
    rw [← hh, vbias_full]
    simp only [fullG, Matrix.of_apply, Matrix.trace, Matrix.diag_apply, Matrix.mul_apply, Matrix.transpose_apply,
      Finset.mul_sum, Finset.sum_mul]
    -- both sides are sums over two basis and two orbital indices
    calc ∑ k, ∑ j, ∑ a, ∑ b, (ovlpMatrix T W)⁻¹ k j * (W b j * L a b * conj T a k)
        = ∑ k, ∑ a, ∑ j, ∑ b, (ovlpMatrix T W)⁻¹ k j * (W b j * L a b * conj T a k) :=
          Finset.sum_congr rfl fun k _ => Finset.sum_comm
      _ = ∑ a, ∑ k, ∑ j, ∑ b, (ovlpMatrix T W)⁻¹ k j * (W b j * L a b * conj T a k) :=
          Finset.sum_comm
      _ = ∑ a, ∑ k, ∑ b, ∑ j, (ovlpMatrix T W)⁻¹ k j * (W b j * L a b * conj T a k) :=
          Finset.sum_congr rfl fun a _ => Finset.sum_congr rfl fun k _ => Finset.sum_comm
      _ = ∑ a, ∑ b, ∑ k, ∑ j, (ovlpMatrix T W)⁻¹ k j * (W b j * L a b * conj T a k) :=
          Finset.sum_congr rfl fun a _ => Finset.sum_comm
      _ = _ := by
          refine Finset.sum_congr rfl fun a _ => Finset.sum_congr rfl fun b _ =>
            Finset.sum_congr rfl fun k _ => Finset.sum_congr rfl fun j _ => ?_
          ring
  rw [htr] at hd
  refine hd.congr_of_eventuallyEq ?_
  filter_upwards with t
  rw [hfac, Matrix.det_mul]

/-- **C71.** The force bias is the logarithmic derivative of the trial overlap along the
field operator: if every orbital of the walker is moved by `1 + t L`, the overlap changes at
the rate `overlap × vbias`; for one (doubly occupied) component and for two components. -/
theorem vbias_log_derivative {i' : Type*} [Fintype i'] [DecidableEq i'] [DecidableEq p]
    (L : g → Matrix p p ℂ) (γ : g) (Ta Wa ha : Matrix p i ℂ) (hha : ghalf Ta Wa = some ha)
    (Tb Wb hb : Matrix p i' ℂ) (hhb : ghalf Tb Wb = some hb) :
    HasDerivAt (fun t : ℂ => overlap (i' := i') Ta ((1 + t • L γ) * Wa) none)
      (overlap (i' := i') Ta Wa none * getVbias (i' := i') L Ta ha none γ) 0 ∧
    HasDerivAt (fun t : ℂ => overlap Ta ((1 + t • L γ) * Wa) (some (Tb, (1 + t • L γ) * Wb)))
      (overlap Ta Wa (some (Tb, Wb)) * getVbias L Ta ha (some (Tb, hb)) γ) 0 := by
  have da := overlap_derivative Ta Wa (L γ) ha hha
  have db := overlap_derivative Tb Wb (L γ) hb hhb
  have ea : (ovlpMatrix Ta ((1 + (0 : ℂ) • L γ) * Wa)).det = (ovlpMatrix Ta Wa).det := by simp
  have eb : (ovlpMatrix Tb ((1 + (0 : ℂ) • L γ) * Wb)).det = (ovlpMatrix Tb Wb).det := by simp
  constructor
  · have := da.mul da
    rw [ea] at this
    refine this.congr_deriv ?_
    simp only [overlap, getVbias]
    ring
  · have := da.mul db
    rw [ea, eb] at this
    refine this.congr_deriv ?_
    simp only [overlap, getVbias]
    ring

/-- An invertible case: identical trial and walker. -/
example : ghalf (!![1; 0] : Matrix (Fin 2) (Fin 1) ℂ) !![1; 2] = some !![1; 2] := by
  have h : ovlpMatrix (!![1; 0] : Matrix (Fin 2) (Fin 1) ℂ) !![1; 2] = 1 := by
    ext a b
    fin_cases a; fin_cases b
    simp [ovlpMatrix, conj, Matrix.mul_apply, Fin.sum_univ_two]
  unfold ghalf inv
  rw [h, Matrix.det_one, if_neg one_ne_zero, inv_one]
  simp only [Option.map_some, Option.some.injEq]
  ext a b
  fin_cases b
  simp

/-! ## C70: orthogonalisation -/

theorem det_upper {k : ℕ} (R : Matrix (Fin k) (Fin k) ℂ) (h : ∀ a b, b < a → R a b = 0) :
    R.det = ∏ a, R a a :=
  Matrix.det_of_isUpperTriangular fun a b hab => h a b hab

/-- **C70 (partial).** Orthogonalisation keeps the Green's function and divides the overlap by
`det R`; for a triangular factor with positive diagonal and two components the stored overlap
agrees with the overlap of the orthogonalised walkers.  Missing: factors with other phases and
the one-component case, where the stored overlap is wrong
(`orthogonalisation_overlap_fails`). -/
theorem orthogonalisation_partial {k k' : ℕ} (Ta Wa Qa : Matrix p (Fin k) ℂ)
    (Ra : Matrix (Fin k) (Fin k) ℂ) (Tb Wb Qb : Matrix p (Fin k') ℂ)
    (Rb : Matrix (Fin k') (Fin k') ℂ) (ha : IsQR Wa Qa Ra) (hb : IsQR Wb Qb Rb)
    (pa : ∀ a, ∃ r : ℝ, 0 < r ∧ Ra a a = r) (pb : ∀ a, ∃ r : ℝ, 0 < r ∧ Rb a a = r) :
    storedOverlap (overlap Ta Wa (some (Tb, Wb))) Ra (some Rb) =
      overlap Ta Qa (some (Tb, Qb)) ∧
    (GF Ta Qa).map Prod.fst = (GF Ta Wa).map Prod.fst ∧
    (GF Tb Qb).map Prod.fst = (GF Tb Wb).map Prod.fst := by
  have key : ∀ (m : ℕ) (T W Q : Matrix p (Fin m) ℂ) (R : Matrix (Fin m) (Fin m) ℂ), IsQR W Q R →
      (∀ a, ∃ r : ℝ, 0 < r ∧ R a a = r) →
      (ovlpMatrix T W).det = ((∏ a, ‖R a a‖ : ℝ) : ℂ) * (ovlpMatrix T Q).det ∧
      ((∏ a, ‖R a a‖ : ℝ) : ℂ) ≠ 0 ∧
      (GF T Q).map Prod.fst = (GF T W).map Prod.fst := by
    intro m T W Q R h hp
    have hR : R.det = ((∏ a, ‖R a a‖ : ℝ) : ℂ) := by
      rw [det_upper R h.upper]
      push_cast
      apply Finset.prod_congr rfl
      intro a _
      obtain ⟨r, hr, e⟩ := hp a
      rw [e, Complex.norm_real, Real.norm_of_nonneg hr.le]
    have hne : ((∏ a, ‖R a a‖ : ℝ) : ℂ) ≠ 0 := by
      rw [Complex.ofReal_ne_zero]
      apply Finset.prod_ne_zero_iff.2
      intro a _
      obtain ⟨r, hr, e⟩ := hp a
      rw [e, Complex.norm_real, Real.norm_of_nonneg hr.le]
      exact hr.ne'
    refine ⟨?_, hne, ?_⟩
    · rw [h.factor]
      unfold ovlpMatrix
      rw [Matrix.transpose_mul, Matrix.mul_assoc, Matrix.det_mul, Matrix.det_transpose, hR]
    · rw [h.factor]
      exact (gf_gauge T Q R (by rw [hR]; exact hne)).1.symm
  obtain ⟨e1, n1, g1⟩ := key k Ta Wa Qa Ra ha pa
  obtain ⟨e2, n2, g2⟩ := key k' Tb Wb Qb Rb hb pb
  refine ⟨?_, g1, g2⟩
  simp only [storedOverlap, overlap]
  rw [e1, e2, Complex.ofReal_mul]
  field_simp

/-- The hypotheses are met by an already stretched single orbital. -/
example : IsQR (!![2; 0] : Matrix (Fin 2) (Fin 1) ℂ) !![1; 0] !![2] := by
  refine ⟨?_, ?_, ?_⟩
  · ext a b; fin_cases a <;> fin_cases b <;> simp
  · ext a b; fin_cases a; fin_cases b; simp [conj, Matrix.mul_apply, Fin.sum_univ_two]
  · intro a b hab; fin_cases a; fin_cases b; simp at hab

/-- **C70, negation.** A doubly occupied walker `(2, 0)`: the stored overlap is `4 / 2 = 2`, the
overlap of the orthogonalised walker is 1.  For two components and a QR factor of negative
sign the stored overlap has the wrong sign. -/
theorem orthogonalisation_overlap_fails :
    (∃ (T W Q : Matrix (Fin 2) (Fin 1) ℂ) (R : Matrix (Fin 1) (Fin 1) ℂ), IsQR W Q R ∧
      storedOverlap (k' := 1) (overlap (i' := Fin 1) T W none) R none = 2 ∧
      overlap (i' := Fin 1) T Q none = 1) ∧
    (∃ (T W Q : Matrix (Fin 2) (Fin 1) ℂ) (R : Matrix (Fin 1) (Fin 1) ℂ), IsQR W Q R ∧
      storedOverlap (overlap T W (some (T, T))) R (some (1 : Matrix (Fin 1) (Fin 1) ℂ)) = 1 ∧
      overlap T Q (some (T, T)) = -1) := by
  refine ⟨⟨!![1; 0], !![2; 0], !![1; 0], !![2], ⟨?_, ?_, ?_⟩, ?_, ?_⟩,
    ⟨!![1; 0], !![1; 0], !![-1; 0], !![-1], ⟨?_, ?_, ?_⟩, ?_, ?_⟩⟩
  · ext a b; fin_cases a <;> fin_cases b <;> simp
  · ext a b; fin_cases a; fin_cases b; simp [conj, Matrix.mul_apply, Fin.sum_univ_two]
  · intro a b hab; fin_cases a; fin_cases b; simp at hab
  · norm_num [storedOverlap, overlap, ovlpMatrix, conj, Matrix.mul_apply, Fin.sum_univ_two]
  · norm_num [overlap, ovlpMatrix, conj, Matrix.mul_apply, Fin.sum_univ_two]
  · ext a b; fin_cases a <;> fin_cases b <;> simp
  · ext a b; fin_cases a; fin_cases b; simp [conj, Matrix.mul_apply, Fin.sum_univ_two]
  · intro a b hab; fin_cases a; fin_cases b; simp at hab
  · norm_num [storedOverlap, overlap, ovlpMatrix, conj, Matrix.mul_apply, Fin.sum_univ_two]
  · norm_num [overlap, ovlpMatrix, conj, Matrix.mul_apply, Fin.sum_univ_two]

/-- **C70, negation for bosons.** The antisymmetric boson state `(1, -1)` becomes
the symmetric state, which is orthogonal to it. -/
theorem orthogonalisation_boson_fails : ∃ v : Fin 2 → ℂ,
    v = ![1, -1] ∧ (∑ n, star (v n) * orthBoson v n) = 0 ∧ (∑ n, ‖orthBoson v n‖ ^ 2) = 1 := by
  refine ⟨![1, -1], rfl, ?_, ?_⟩
  · simp [Fin.sum_univ_two, orthBoson]
  · have : (0 : ℝ) ≤ 1 + 1 := by norm_num
    simp only [Fin.sum_univ_two, orthBoson, Matrix.cons_val_zero, Matrix.cons_val_one, norm_neg,
      norm_one, one_pow, norm_div, Complex.norm_real, Real.norm_eq_abs, abs_abs,
      div_pow, sq_abs, Real.sq_sqrt this]
    norm_num

end OpenMS.Green
