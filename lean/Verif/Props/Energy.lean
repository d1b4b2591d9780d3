import Verif.Model.Energy
import Mathlib.Tactic.FieldSimp
import Mathlib.Tactic.LinearCombination
import Mathlib.Tactic.NormNum

/-!
# Energy estimators (C24, C72)

Specification: the reference energy of a pair of one-body Green's functions with
two-electron integrals `V_{pr,qs} = Σ_γ L_{γ,pr} L_{γ,qs}`.
-/

set_option linter.unusedSectionVars false

namespace OpenMS.Energy

open Matrix OpenMS.Green

variable {p i i' g : Type*} [Fintype p] [Fintype i] [Fintype i'] [Fintype g]

/-! ## Specification -/

/-- Two-electron integrals reconstructed from the Cholesky matrices. -/
def eri (L : g → Matrix p p ℂ) (a b c d : p) : ℂ := ∑ γ, L γ a b * L γ c d

/-- Coulomb energy `½ Σ V_{ab,cd} G_{ab} G_{cd}`. -/
noncomputable def refCoulomb (L : g → Matrix p p ℂ) (G : Matrix p p ℂ) : ℂ :=
  (1 / 2) * ∑ a, ∑ b, ∑ c, ∑ d, eri L a b c d * G a b * G c d

/-- Exchange energy of one spin `½ Σ V_{ab,cd} G_{ad} G_{cb}`. -/
noncomputable def refExchange (L : g → Matrix p p ℂ) (G : Matrix p p ℂ) : ℂ :=
  (1 / 2) * ∑ a, ∑ b, ∑ c, ∑ d, eri L a b c d * G a d * G c b

/-- Energy of the two spin Green's functions: one-body term, Coulomb energy of the total
density, minus the exchange of each spin. -/
noncomputable def refEnergy (h1 : Matrix p p ℂ) (L : g → Matrix p p ℂ) (Ga Gb : Matrix p p ℂ) : ℂ :=
  (∑ a, ∑ b, h1 a b * (Ga + Gb) a b) + refCoulomb L (Ga + Gb) - refExchange L Ga - refExchange L Gb

/-! ## Contractions -/

theorem sum_comm5 (f : g → p → p → p → p → ℂ) :
    ∑ γ, ∑ a, ∑ b, ∑ c, ∑ d, f γ a b c d = ∑ a, ∑ b, ∑ c, ∑ d, ∑ γ, f γ a b c d := by
  rw [Finset.sum_comm]
  refine Finset.sum_congr rfl fun a _ => ?_
  rw [Finset.sum_comm]
  refine Finset.sum_congr rfl fun b _ => ?_
  rw [Finset.sum_comm]
  refine Finset.sum_congr rfl fun c _ => ?_
  rw [Finset.sum_comm]

theorem half_full (T h : Matrix p i ℂ) (M : Matrix p p ℂ) :
    ∑ q, ∑ k, h q k * halfRotate T M q k = ∑ a, ∑ b, M a b * fullG T h a b := by
  simp only [halfRotate, fullG, Matrix.of_apply, Finset.mul_sum]
  rw [Finset.sum_comm' (t' := Finset.univ) (s' := fun _ => Finset.univ) (by simp)]
  calc ∑ k, ∑ q, ∑ a, h q k * (conj T a k * M a q)
      = ∑ k, ∑ a, ∑ q, h q k * (conj T a k * M a q) :=
        Finset.sum_congr rfl fun k _ => Finset.sum_comm
    _ = ∑ a, ∑ k, ∑ q, h q k * (conj T a k * M a q) := Finset.sum_comm
    _ = ∑ a, ∑ b, ∑ k, M a b * (conj T a k * h b k) := by
        refine Finset.sum_congr rfl fun a _ => ?_
        rw [Finset.sum_comm]
        refine Finset.sum_congr rfl fun b _ => Finset.sum_congr rfl fun k _ => by ring

theorem refCoulomb_eq (L : g → Matrix p p ℂ) (G : Matrix p p ℂ) :
    refCoulomb L G = (1 / 2) * ∑ γ, (∑ a, ∑ b, L γ a b * G a b) * ∑ a, ∑ b, L γ a b * G a b := by
  unfold refCoulomb eri
  congr 1
  have : ∀ γ, (∑ a, ∑ b, L γ a b * G a b) * (∑ a, ∑ b, L γ a b * G a b) =
      ∑ a, ∑ b, ∑ c, ∑ d, L γ a b * L γ c d * G a b * G c d := by
    intro γ
    rw [Finset.sum_mul]
    refine Finset.sum_congr rfl fun a _ => ?_
    rw [Finset.sum_mul]
    refine Finset.sum_congr rfl fun b _ => ?_
    rw [Finset.mul_sum]
    refine Finset.sum_congr rfl fun c _ => ?_
    rw [Finset.mul_sum]
    refine Finset.sum_congr rfl fun d _ => by ring
  simp_rw [this]
  rw [sum_comm5]
  simp_rw [Finset.sum_mul]

/-- Exchange as a sum of traces. -/
theorem refExchange_eq (L : g → Matrix p p ℂ) (G : Matrix p p ℂ) :
    refExchange L G = (1 / 2) * ∑ γ, ((L γ)ᵀ * G * ((L γ)ᵀ * G)).trace := by
  unfold refExchange eri
  congr 1
  have : ∀ γ, ((L γ)ᵀ * G * ((L γ)ᵀ * G)).trace =
      ∑ a, ∑ b, ∑ c, ∑ d, L γ a b * L γ c d * G a d * G c b := by
    intro γ
    simp only [Matrix.trace, Matrix.diag_apply, Matrix.mul_apply, Matrix.transpose_apply]
    calc ∑ b, ∑ d, (∑ a, L γ a b * G a d) * (∑ c, L γ c d * G c b)
        = ∑ b, ∑ d, ∑ a, ∑ c, L γ a b * L γ c d * G a d * G c b := by
          refine Finset.sum_congr rfl fun b _ => Finset.sum_congr rfl fun d _ => ?_
          rw [Finset.sum_mul]
          refine Finset.sum_congr rfl fun a _ => ?_
          rw [Finset.mul_sum]
          refine Finset.sum_congr rfl fun c _ => by ring
      _ = ∑ b, ∑ a, ∑ d, ∑ c, L γ a b * L γ c d * G a d * G c b :=
          Finset.sum_congr rfl fun b _ => Finset.sum_comm
      _ = ∑ a, ∑ b, ∑ d, ∑ c, L γ a b * L γ c d * G a d * G c b := Finset.sum_comm
      _ = _ := Finset.sum_congr rfl fun a _ => Finset.sum_congr rfl fun b _ => Finset.sum_comm
  simp_rw [this]
  rw [sum_comm5]
  simp_rw [Finset.sum_mul]

theorem fullG_eq (T h : Matrix p i ℂ) : fullG T h = conj T * hᵀ := by
  ext a b; simp [fullG, Matrix.mul_apply]

theorem halfRotate_eq (T : Matrix p i ℂ) (M : Matrix p p ℂ) :
    halfRotate T M = Mᵀ * conj T := by
  ext a b; simp [halfRotate, Matrix.mul_apply, mul_comm]

theorem exx_trace (T h : Matrix p i ℂ) (M : Matrix p p ℂ) :
    ∑ a, ∑ b, ((halfRotate T M)ᵀ * h) a b * ((halfRotate T M)ᵀ * h) b a =
      (Mᵀ * fullG T h * (Mᵀ * fullG T h)).trace := by
  have e : ∑ a, ∑ b, ((halfRotate T M)ᵀ * h) a b * ((halfRotate T M)ᵀ * h) b a =
      (((halfRotate T M)ᵀ * h) * ((halfRotate T M)ᵀ * h)).trace := by
    simp [Matrix.trace, Matrix.mul_apply]
  have e2 : (Mᵀ * (conj T * hᵀ) * (Mᵀ * (conj T * hᵀ))).trace =
      (h * ((conj T)ᵀ * M * h * (conj T)ᵀ * M)).trace := by
    rw [← Matrix.trace_transpose]
    simp only [Matrix.transpose_mul, Matrix.transpose_transpose, Matrix.mul_assoc]
  rw [e, fullG_eq, e2, Matrix.trace_mul_comm h, halfRotate_eq, Matrix.transpose_mul,
    Matrix.transpose_transpose]
  simp only [Matrix.mul_assoc]

/-! ## C24 -/

/-- **C24, Coulomb.** The half-rotated Coulomb energy is the reference one for the sum of the
spin Green's functions (or the single one). -/
theorem coulomb_exact (L : g → Matrix p p ℂ) (Ta ha : Matrix p i ℂ) (Tb hb : Matrix p i' ℂ) :
    ecoul (fun γ => halfRotate Ta (L γ)) ha (some (fun γ => halfRotate Tb (L γ), hb)) =
      refCoulomb L (fullG Ta ha + fullG Tb hb) ∧
    ecoul (i' := i') (fun γ => halfRotate Ta (L γ)) ha none = refCoulomb L (fullG Ta ha) := by
  constructor
  · rw [refCoulomb_eq]
    simp only [ecoul, half_full, Matrix.add_apply, mul_add, Finset.sum_add_distrib]
  · rw [refCoulomb_eq]
    simp only [ecoul, half_full]

/-- **C24, exchange.** -/
theorem exchange_exact (L : g → Matrix p p ℂ) (T h : Matrix p i ℂ) :
    exx (fun γ => halfRotate T (L γ)) h = refExchange L (fullG T h) := by
  rw [refExchange_eq, exx, mul_comm]
  congr 1
  exact Finset.sum_congr rfl fun γ _ => exx_trace T h (L γ)

theorem refCoulomb_two (L : g → Matrix p p ℂ) (G : Matrix p p ℂ) :
    refCoulomb L (G + G) = 4 * refCoulomb L G := by
  rw [refCoulomb_eq, refCoulomb_eq]
  simp only [Matrix.add_apply, mul_add, Finset.sum_add_distrib, add_mul]
  ring

theorem eRh1e_eq (h1 : Matrix p p ℂ) (T h : Matrix p i ℂ) :
    eRh1e (halfRotate T h1) h = ∑ a, ∑ b, h1 a b * fullG T h a b := by
  rw [← half_full]
  unfold eRh1e
  exact Finset.sum_congr rfl fun _ _ => Finset.sum_congr rfl fun _ _ => mul_comm _ _

/-- **C24, local energies.** The local energies of unrestricted and restricted walkers are the
reference energy of their full Green's functions. -/
theorem local_energy_exact (enuc : ℂ) (h1 : Matrix p p ℂ) (L : g → Matrix p p ℂ)
    (Ta ha : Matrix p i ℂ) (Tb hb : Matrix p i' ℂ) :
    (∀ e, e = localEnergyUHF enuc (halfRotate Ta h1) (halfRotate Tb h1)
        (fun γ => halfRotate Ta (L γ)) (fun γ => halfRotate Tb (L γ)) ha hb →
      e.1 + e.2 = refEnergy h1 L (fullG Ta ha) (fullG Tb hb) + enuc) ∧
    (∀ e, e = localEnergyRHF enuc (halfRotate Ta h1) (fun γ => halfRotate Ta (L γ)) ha →
      e.1 + e.2 = refEnergy h1 L (fullG Ta ha) (fullG Ta ha) + enuc) := by
  constructor
  · rintro _ rfl
    simp only [localEnergyUHF, refEnergy, eRh1e_eq, (coulomb_exact L Ta ha Tb hb).1,
      exchange_exact, Matrix.add_apply, mul_add, Finset.sum_add_distrib]
    ring
  · rintro _ rfl
    simp only [localEnergyRHF, refEnergy, eRh1e_eq, (coulomb_exact L Ta ha Ta ha).2, refCoulomb_two,
      exchange_exact, Matrix.add_apply, mul_add, Finset.sum_add_distrib]
    ring

/-- The estimator working on the full Green's function agrees with the reference for real
Cholesky matrices. -/
theorem chol_new_exact (h1 : Matrix p p ℂ) (L : g → Matrix p p ℂ) (G : Matrix p p ℂ)
    (hreal : ∀ γ, conj (L γ) = L γ) : localEngCholNew h1 L G = refEnergy h1 L G G := by
  unfold refEnergy
  rw [refCoulomb_two, refCoulomb_eq, refExchange_eq]
  unfold localEngCholNew
  simp only [hreal]
  have e1 : ∑ a, ∑ b, h1 a b * (G + G) a b = 2 * ∑ a, ∑ b, G a b * h1 a b := by
    simp only [Finset.mul_sum, Matrix.add_apply]
    exact Finset.sum_congr rfl fun _ _ => Finset.sum_congr rfl fun _ _ => by ring
  have e2 : ∑ γ, ((L γ)ᵀ * G * ((L γ)ᵀ * G)).trace =
      ∑ n, ∑ a, ∑ r, (Matrix.of fun r s => ∑ a, L n a r * G a s) a r *
        (Matrix.of fun r s => ∑ a, L n a r * G a s) r a := by
    refine Finset.sum_congr rfl fun n _ => ?_
    simp only [Matrix.trace, Matrix.diag_apply, Matrix.mul_apply, Matrix.transpose_apply,
      Matrix.of_apply]
  rw [e1, e2]
  ring

/-- **C24, the compiled Coulomb variant is wrong**: it adds `½ LG` instead of `½ LG²`.  One
orbital, one field: `1` instead of `2`. -/
theorem coulomb_numba_fails :
    ∃ (rl : Fin 1 → Matrix (Fin 1) (Fin 1) ℂ) (h : Matrix (Fin 1) (Fin 1) ℂ),
      ecoul (i' := Fin 1) rl h none = 2 ∧ ecoulNumba (i' := Fin 1) rl h none = 1 := by
  refine ⟨fun _ => !![2], !![1], ?_, ?_⟩ <;> simp [ecoul, ecoulNumba]

/-- The full Green's function estimator is not the reference energy for a complex field: the
exchange part uses the conjugate of the Cholesky matrix and the Coulomb part does not. -/
theorem chol_new_complex_fails :
    ∃ (L : Fin 1 → Matrix (Fin 1) (Fin 1) ℂ) (G : Matrix (Fin 1) (Fin 1) ℂ),
      localEngCholNew 0 L G ≠ refEnergy 0 L G G := by
  refine ⟨fun _ => !![1 + Complex.I], !![1], ?_⟩
  simp only [localEngCholNew, refEnergy, refCoulomb, refExchange, eri, conj]
  simp
  intro h
  have := congrArg Complex.im h
  simp at this
  norm_num at this

end OpenMS.Energy
