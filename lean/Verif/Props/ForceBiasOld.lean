import Verif.Model.ForceBiasOld
import Verif.Props.Energy

/-!
# C175: deprecated force bias and the energies that use it
-/

namespace OpenMS.ForceBias
set_option linter.unusedSectionVars false

open Matrix OpenMS.Green OpenMS.Energy

variable {p i g : Type*} [Fintype p] [Fintype i] [DecidableEq i] [Fintype g]

theorem thetaOf_eq (W : Matrix p i ℂ) (m : Matrix i i ℂ) : thetaOf W m = W * m := by
  ext a b; simp [thetaOf, Matrix.mul_apply]

theorem gfOf_eq (T θ : Matrix p i ℂ) : gfOf T θ = (θ * (conj T)ᵀ)ᵀ := by
  ext a b; simp [gfOf, Matrix.mul_apply]

theorem tlTheta_eq (T : Matrix p i ℂ) (L : g → Matrix p p ℂ) (θ : Matrix p i ℂ) (n : g) :
    tlTheta (tlTensor T L) θ n = (conj T)ᵀ * L n * θ := by
  ext a b; simp [tlTheta, tlTensor, Matrix.mul_apply]

theorem forceBias_ok (T W : Matrix p i ℂ) (TL : g → Matrix i p ℂ) (A : Matrix i i ℂ) (hd : A.det ≠ 0) :
    forceBias false (.matrix A) T W TL = .ok (gfOf T (W * A⁻¹), tlTheta TL (W * A⁻¹)) := by
  unfold forceBias invArray
  have : Green.inv A = some A⁻¹ := by unfold Green.inv; rw [if_neg hd]
  simp [this, thetaOf_eq]

theorem forceBias_singular (T W : Matrix p i ℂ) (TL : g → Matrix i p ℂ) (A : Matrix i i ℂ) (hd : A.det = 0) :
    forceBias false (.matrix A) T W TL = .error "LinAlgError" := by
  unfold forceBias invArray
  have : Green.inv A = none := by unfold Green.inv; rw [if_pos hd]
  simp [this]

/-- Energy from the traces of `TL_theta`, for any `theta`. -/
theorem chol_energy (T θ : Matrix p i ℂ) (L : g → Matrix p p ℂ) (h1 : Matrix p p ℂ) :
    localEngChol (tlTheta (tlTensor T L) θ) h1 (fun n => (tlTheta (tlTensor T L) θ n).trace) (gfOf T θ) =
      refEnergy h1 L (gfOf T θ) (gfOf T θ) := by
  have hv : ∀ n, (tlTheta (tlTensor T L) θ n).trace = ∑ a, ∑ b, L n a b * gfOf T θ a b := by
    intro n
    have : ∑ a, ∑ b, L n a b * gfOf T θ a b = (L n * (gfOf T θ)ᵀ).trace := by
      simp [Matrix.trace, Matrix.mul_apply]
    rw [this, tlTheta_eq, gfOf_eq, Matrix.transpose_transpose, Matrix.mul_assoc, Matrix.trace_mul_comm, Matrix.mul_assoc]
  have hk : ∀ n, ∑ a, ∑ r, tlTheta (tlTensor T L) θ n a r * tlTheta (tlTensor T L) θ n r a =
      ((L n)ᵀ * gfOf T θ * ((L n)ᵀ * gfOf T θ)).trace := by
    intro n
    have h1 : ∑ a, ∑ r, tlTheta (tlTensor T L) θ n a r * tlTheta (tlTensor T L) θ n r a =
        (tlTheta (tlTensor T L) θ n * tlTheta (tlTensor T L) θ n).trace := by
      simp [Matrix.trace, Matrix.mul_apply]
    rw [h1, tlTheta_eq, gfOf_eq, ← Matrix.trace_transpose ((L n)ᵀ * _ * _)]
    simp only [Matrix.transpose_mul, Matrix.transpose_transpose]
    rw [Matrix.mul_assoc, Matrix.mul_assoc, Matrix.trace_mul_comm]
    simp only [Matrix.mul_assoc]
    rw [Matrix.trace_mul_comm]
    simp only [Matrix.mul_assoc]
  unfold refEnergy localEngChol
  rw [refCoulomb_two, refCoulomb_eq, refExchange_eq]
  simp only [hv, hk, Matrix.add_apply, mul_add, Finset.sum_add_distrib]
  have : ∑ a, ∑ b, gfOf T θ a b * h1 a b = ∑ a, ∑ b, h1 a b * gfOf T θ a b := by simp only [mul_comm]
  rw [this]
  ring

/-- The documented overlap matrix is the transpose of the one of `trial_walker_ovlp_base`. -/
theorem ovlp_transpose (T W : Matrix p i ℂ) : ovlpMatrix T W = ((conj T)ᵀ * W)ᵀ := by
  unfold ovlpMatrix
  rw [Matrix.transpose_mul, Matrix.transpose_transpose]

/-- C175 partial: given the documented overlap matrix `Ψ_T† ψ_w`, `force_bias` returns the documented Green's function, which is the
one of `trial_walker_ovlp_gf_base`, and with the traces of `TL_theta` as force bias `local_eng_elec_chol` is the energy of that Green's
function for both spins.  Missing: the overlap that `force_bias` really gets, bosons, and other force biases. -/
theorem force_bias_partial (T W : Matrix p i ℂ) (L : g → Matrix p p ℂ) (hd : ((conj T)ᵀ * W).det ≠ 0) :
    ∃ G Θ h, forceBias false (.matrix ((conj T)ᵀ * W)) T W (tlTensor T L) = .ok (G, Θ) ∧
      G = (W * ((conj T)ᵀ * W)⁻¹ * (conj T)ᵀ)ᵀ ∧ ghalf T W = some h ∧ G = fullG T h ∧
      (∀ n, Θ n = (conj T)ᵀ * L n * h) ∧
      ∀ h1, localEngChol Θ h1 (fun n => (Θ n).trace) G = refEnergy h1 L G G := by
  have hg : ghalf T W = some (W * ((conj T)ᵀ * W)⁻¹) := by
    unfold ghalf Green.inv
    rw [if_neg (by rw [ovlp_transpose, Matrix.det_transpose]; exact hd)]
    rw [ovlp_transpose, ← Matrix.transpose_nonsing_inv]
    simp only [Option.map_some, Option.some.injEq]
    ext a b
    simp [Matrix.mul_apply, mul_comm]
  refine ⟨gfOf T (W * ((conj T)ᵀ * W)⁻¹), tlTheta (tlTensor T L) (W * ((conj T)ᵀ * W)⁻¹), _, ?_, gfOf_eq _ _, hg, ?_, ?_, ?_⟩
  · exact forceBias_ok _ _ _ _ hd
  · rw [gfOf_eq, fullG_eq, Matrix.transpose_mul, Matrix.transpose_transpose]
  · intro n; rw [tlTheta_eq]
  · intro h1; exact chol_energy _ _ _ _

/-- C175: mixing the orbitals of the walker changes nothing. -/
theorem force_bias_gauge (T W : Matrix p i ℂ) (TL : g → Matrix i p ℂ) (A : Matrix i i ℂ) (hA : A.det ≠ 0) :
    forceBias false (.matrix ((conj T)ᵀ * (W * A))) T (W * A) TL = forceBias false (.matrix ((conj T)ᵀ * W)) T W TL := by
  have hdet : ((conj T)ᵀ * (W * A)).det = ((conj T)ᵀ * W).det * A.det := by
    rw [← Matrix.mul_assoc, Matrix.det_mul]
  by_cases hd : ((conj T)ᵀ * W).det = 0
  · rw [forceBias_singular _ _ _ _ hd, forceBias_singular _ _ _ _ (by rw [hdet, hd, zero_mul])]
  · rw [forceBias_ok _ _ _ _ hd, forceBias_ok _ _ _ _ (by rw [hdet]; exact mul_ne_zero hd hA)]
    have : W * A * ((conj T)ᵀ * (W * A))⁻¹ = W * ((conj T)ᵀ * W)⁻¹ := by
      rw [← Matrix.mul_assoc (conj T)ᵀ, Matrix.mul_inv_rev, ← Matrix.mul_assoc, Matrix.mul_assoc W A,
        Matrix.mul_nonsing_inv _ (isUnit_iff_ne_zero.2 hA), Matrix.mul_one]
    rw [this]

/-- C175 fails: `force_bias` raises for all walkers, as the overlap it inverts is a number per walker. -/
theorem force_bias_fails (boson : Bool) (T W : Matrix p i ℂ) (L : g → Matrix p p ℂ) :
    forceBiasCode boson T W L = .error "LinAlgError" := rfl

/-- C175 fails: nor is the matrix of `trial_walker_ovlp_base` the one that is needed; it is the transpose. -/
theorem force_bias_transposed_fails :
    ∃ (T W : Matrix (Fin 2) (Fin 2) ℂ) (G : Matrix (Fin 2) (Fin 2) ℂ) (Θ : Fin 1 → Matrix (Fin 2) (Fin 2) ℂ)
      (h : Matrix (Fin 2) (Fin 2) ℂ),
      forceBias false (.matrix (ovlpMatrix T W)) T W (tlTensor T fun _ => 0) = .ok (G, Θ) ∧
        ghalf T W = some h ∧ G ≠ fullG T h := by
  have hT : conj (1 : Matrix (Fin 2) (Fin 2) ℂ) = 1 := by
    ext a b; fin_cases a <;> fin_cases b <;> simp [conj]
  obtain ⟨W, hW⟩ : ∃ W : Matrix (Fin 2) (Fin 2) ℂ, W = !![1, 1; 0, 1] := ⟨_, rfl⟩
  have hdW : W.det = 1 := by rw [hW, Matrix.det_fin_two_of]; norm_num
  have hd : ((conj (1 : Matrix (Fin 2) (Fin 2) ℂ))ᵀ * W).det ≠ 0 := by
    rw [hT, Matrix.transpose_one, Matrix.one_mul, hdW]; exact one_ne_zero
  obtain ⟨G0, Θ0, h, -, hG0, hh, hG, -⟩ := force_bias_partial 1 W (fun _ : Fin 1 => 0) hd
  refine ⟨1, W, _, _, h, forceBias_ok _ _ _ _ (by rw [ovlp_transpose, Matrix.det_transpose]; exact hd), hh, ?_⟩
  · rw [← hG, hG0, gfOf_eq, ovlp_transpose, hT, Matrix.transpose_one, Matrix.one_mul, Matrix.mul_one, Matrix.mul_one,
      Matrix.mul_nonsing_inv _ (by rw [hdW]; exact isUnit_one)]
    intro hc
    have hinv : (Wᵀ)⁻¹ = !![1, 0; -1, 1] := by
      refine Matrix.inv_eq_right_inv ?_
      rw [hW]
      ext a b; fin_cases a <;> fin_cases b <;> simp [Matrix.mul_apply, Fin.sum_univ_two]
    rw [hinv, hW] at hc
    have := congrFun (congrFun hc 0) 0
    simp at this

/-- C175 fails: the force bias that the propagator stores is twice the trace for one component.  Given that one, the energy is
right only where the Coulomb energy vanishes. -/
theorem stored_bias_fails {i' : Type*} [Fintype i'] (T h : Matrix p i ℂ) (L : g → Matrix p p ℂ) (h1 : Matrix p p ℂ) :
    (∀ n, getVbias (i' := i') L T h none n = 2 * ((conj T)ᵀ * L n * h).trace) ∧
      (localEngChol (tlTheta (tlTensor T L) h) h1 (getVbias (i' := i') L T h none) (fullG T h) =
          refEnergy h1 L (fullG T h) (fullG T h) ↔ refCoulomb L (fullG T h) = 0) := by
  have hG : gfOf T h = fullG T h := by rw [gfOf_eq, fullG_eq, Matrix.transpose_mul, Matrix.transpose_transpose]
  have hv : ∀ n, getVbias (i' := i') L T h none n = 2 * ((conj T)ᵀ * L n * h).trace := by
    intro n
    unfold getVbias vbias
    dsimp only
    rw [halfRotate_eq]
    have : ∑ q, ∑ k, h q k * ((L n)ᵀ * conj T) q k = ((conj T)ᵀ * L n * h).trace := by
      rw [Matrix.trace_mul_comm, Matrix.trace, Finset.sum_congr rfl]
      intro q _
      simp only [Matrix.diag_apply, Matrix.mul_apply, Matrix.transpose_apply]
      refine Finset.sum_congr rfl fun k _ => ?_
      congr 1
      exact Finset.sum_congr rfl fun a _ => mul_comm _ _
    rw [this]; norm_num
  refine ⟨hv, ?_⟩
  have he := chol_energy T h L h1
  rw [hG] at he
  rw [← he]
  have hc : refCoulomb L (fullG T h) = 1 / 2 * ∑ n, ((conj T)ᵀ * L n * h).trace * ((conj T)ᵀ * L n * h).trace := by
    rw [refCoulomb_eq]
    congr 1
    refine Finset.sum_congr rfl fun n _ => ?_
    have : ∑ a, ∑ b, L n a b * fullG T h a b = ((conj T)ᵀ * L n * h).trace := by
      rw [← half_full]
      have := hv n
      unfold getVbias vbias at this
      dsimp only at this
      norm_num at this
      exact this
    rw [this]
  unfold localEngChol
  simp only [hv, tlTheta_eq]
  rw [hc]
  have hs : ∑ n, 2 * ((conj T)ᵀ * L n * h).trace * (2 * ((conj T)ᵀ * L n * h).trace) =
      4 * ∑ n, ((conj T)ᵀ * L n * h).trace * ((conj T)ᵀ * L n * h).trace := by
    rw [Finset.mul_sum]; exact Finset.sum_congr rfl fun n _ => by ring
  rw [hs]
  generalize ∑ n, ((conj T)ᵀ * L n * h).trace * ((conj T)ᵀ * L n * h).trace = v
  constructor
  · intro h; linear_combination (1 / 12) * h
  · intro h; linear_combination 12 * h

/-! ### `local_energy` of `QEDAFQMC` -/

variable {F S M : Type*} [Fintype F] [Fintype S] [Fintype M]

/-- Green's function of one spin with the photon traced out. -/
def traced (G : F → F → S → p → p → ℂ) (σ : S) (a b : p) : ℂ := ∑ f, G f f σ a b

/-- C175 partial: with two spin components the energy is the contraction of Wick's theorem with the Green's functions traced over
the photon, plus coupling and zero point energy.  Missing: the attribute, and the energy of the photons beyond the zero point. -/
theorem qed_energy_partial (e : ℂ) (freq : M → ℂ) (h1 : p → p → ℂ) (eri : p → p → p → p → ℂ) (MuQc : F → F → p → p → ℂ)
    (G : F → F → Fin 2 → p → p → ℂ) :
    qedLocalEnergy (1 / 2) (some e) freq h1 eri MuQc G =
      .ok ((∑ σ, ∑ a, ∑ b, h1 a b * traced G σ a b) +
        1 / 2 * (∑ σ, ∑ τ, ∑ a, ∑ r, ∑ q, ∑ s, eri a r q s * traced G σ a r * traced G τ q s) -
        1 / 2 * (∑ σ, ∑ a, ∑ r, ∑ q, ∑ s, eri a r q s * traced G σ a s * traced G σ q r) + e + 1 / 2 * (∑ m, freq m) +
        ∑ σ, ∑ f, ∑ f', ∑ a, ∑ b, MuQc f f' a b * G f f' σ a b) := by
  unfold qedLocalEnergy
  refine congrArg Except.ok ?_
  have h1' : ∑ a, ∑ b, ∑ f, ∑ σ, h1 a b * G f f σ a b = ∑ σ, ∑ a, ∑ b, h1 a b * traced G σ a b := by
    unfold traced
    simp only [Fin.sum_univ_two, Finset.sum_add_distrib, ← Finset.mul_sum]
    simp only [mul_add, Finset.sum_add_distrib]
  have h2 : ∑ f, ∑ f', ∑ a, ∑ b, ∑ σ, MuQc f f' a b * G f f' σ a b = ∑ σ, ∑ f, ∑ f', ∑ a, ∑ b, MuQc f f' a b * G f f' σ a b := by
    simp only [Fin.sum_univ_two, Finset.sum_add_distrib]
  have hJ : ∀ q s, ∑ a, ∑ r, ∑ f, ∑ σ, eri a r q s * G f f σ a r = ∑ σ, ∑ a, ∑ r, eri a r q s * traced G σ a r := by
    intro q s
    unfold traced
    simp only [Fin.sum_univ_two, Finset.sum_add_distrib, ← Finset.mul_sum]
    simp only [mul_add, Finset.sum_add_distrib]
  have h3 : ∑ q, ∑ s, ∑ f, ∑ σ, (2 * (∑ a, ∑ r, ∑ f, ∑ σ, eri a r q s * G f f σ a r) * (1 / 2)) * G f f σ q s =
      ∑ σ, ∑ τ, ∑ a, ∑ r, ∑ q, ∑ s, eri a r q s * traced G σ a r * traced G τ q s := by
    simp only [hJ]
    have e1 : ∀ q s, ∑ f, ∑ σ, (2 * (∑ σ, ∑ a, ∑ r, eri a r q s * traced G σ a r) * (1 / 2)) * G f f σ q s =
        ∑ σ, ∑ τ, ∑ a, ∑ r, eri a r q s * traced G σ a r * traced G τ q s := by
      intro q s
      have e2 : ∀ τ, ∑ f, G f f τ q s = traced G τ q s := fun τ => rfl
      rw [Finset.sum_comm]
      simp only [← Finset.mul_sum, e2, ← Finset.sum_mul]
      ring
    simp only [e1]
    calc ∑ q, ∑ s, ∑ σ, ∑ τ, ∑ a, ∑ r, eri a r q s * traced G σ a r * traced G τ q s
        = ∑ σ, ∑ q, ∑ s, ∑ τ, ∑ a, ∑ r, eri a r q s * traced G σ a r * traced G τ q s := by
          exact (Finset.sum_congr rfl fun q _ => Finset.sum_comm).trans Finset.sum_comm
      _ = _ := by
          refine Finset.sum_congr rfl fun σ _ => ?_
          calc ∑ q, ∑ s, ∑ τ, ∑ a, ∑ r, eri a r q s * traced G σ a r * traced G τ q s
              = ∑ τ, ∑ q, ∑ s, ∑ a, ∑ r, eri a r q s * traced G σ a r * traced G τ q s := by
                exact (Finset.sum_congr rfl fun q _ => Finset.sum_comm).trans Finset.sum_comm
            _ = _ := by
                refine Finset.sum_congr rfl fun τ _ => ?_
                calc ∑ q, ∑ s, ∑ a, ∑ r, eri a r q s * traced G σ a r * traced G τ q s
                    = ∑ a, ∑ q, ∑ s, ∑ r, eri a r q s * traced G σ a r * traced G τ q s := by
                      exact (Finset.sum_congr rfl fun q _ => Finset.sum_comm).trans Finset.sum_comm
                  _ = _ := by
                      refine Finset.sum_congr rfl fun a _ => ?_
                      exact (Finset.sum_congr rfl fun q _ => Finset.sum_comm).trans Finset.sum_comm
  have h4 : ∑ σ, ∑ q, ∑ r, ∑ f, (∑ a, ∑ s, ∑ f, eri a r q s * G f f σ a s) * G f f σ q r =
      ∑ σ, ∑ a, ∑ r, ∑ q, ∑ s, eri a r q s * traced G σ a s * traced G σ q r := by
    refine Finset.sum_congr rfl fun σ _ => ?_
    have e1 : ∀ q r, ∑ f, (∑ a, ∑ s, ∑ f, eri a r q s * G f f σ a s) * G f f σ q r =
        ∑ a, ∑ s, eri a r q s * traced G σ a s * traced G σ q r := by
      intro q r
      unfold traced
      simp only [← Finset.mul_sum, ← Finset.sum_mul]
    simp only [e1]
    calc ∑ q, ∑ r, ∑ a, ∑ s, eri a r q s * traced G σ a s * traced G σ q r
        = ∑ a, ∑ q, ∑ r, ∑ s, eri a r q s * traced G σ a s * traced G σ q r := by
          exact (Finset.sum_congr rfl fun q _ => Finset.sum_comm).trans Finset.sum_comm
      _ = _ := Finset.sum_congr rfl fun a _ => Finset.sum_comm
  rw [h1', h2, h3, h4]
  ring

/-- C175 fails: nothing in the class sets the attribute. -/
theorem qed_energy_fails (fac : ℂ) (freq : M → ℂ) (h1 : p → p → ℂ) (eri : p → p → p → p → ℂ) (MuQc : F → F → p → p → ℂ)
    (G : F → F → S → p → p → ℂ) : qedLocalEnergy fac none freq h1 eri MuQc G = .error "AttributeError" := rfl

/-- A walker with `k` photons and electrons with Green's functions `g`. -/
def numberState {n : ℕ} (k : Fin n) (g : S → p → p → ℂ) (f f' : Fin n) (σ : S) (a b : p) : ℂ :=
  if f = k ∧ f' = k then g σ a b else 0

/-- C175: walkers that differ in the number of photons only have the same energy. -/
theorem qed_photons_same {n : ℕ} (k l : Fin n) (fac e : ℂ) (freq factor : M → ℂ) (dip : M → p → p → ℂ) (h1 : p → p → ℂ)
    (eri : p → p → p → p → ℂ) (g : S → p → p → ℂ) :
    qedLocalEnergy fac (some e) freq h1 eri (muQc factor dip) (numberState k g) =
      qedLocalEnergy fac (some e) freq h1 eri (muQc factor dip) (numberState l g) := by
  have hd : ∀ (k : Fin n) (c : ℂ) σ a b, ∑ f, c * numberState k g f f σ a b = c * g σ a b := by
    intro k c σ a b
    rw [Finset.sum_eq_single k]
    · simp [numberState]
    · intro f _ hf; simp [numberState, hf]
    · simp
  have hmu : ∀ (f : Fin n) a b, muQc factor dip f f a b = 0 := by
    intro f a b
    unfold muQc
    refine Finset.sum_eq_zero fun m _ => ?_
    rw [if_neg (by omega), if_neg (by omega)]; ring
  have hb : ∀ (k : Fin n), ∑ f, ∑ f', ∑ a, ∑ b, ∑ σ, muQc factor dip f f' a b * numberState k g f f' σ a b = 0 := by
    intro k
    refine Finset.sum_eq_zero fun f _ => Finset.sum_eq_zero fun f' _ => Finset.sum_eq_zero fun a _ =>
      Finset.sum_eq_zero fun b _ => Finset.sum_eq_zero fun σ _ => ?_
    by_cases h : f = k ∧ f' = k
    · rw [h.1, h.2, hmu, zero_mul]
    · simp [numberState, h]
  have hs : ∀ (k : Fin n) (c : S → ℂ) (a b : p), ∑ f, ∑ σ, c σ * numberState k g f f σ a b = ∑ σ, c σ * g σ a b := by
    intro k c a b
    rw [Finset.sum_comm]
    exact Finset.sum_congr rfl fun σ _ => hd k _ σ a b
  have key : ∀ k : Fin n, qedLocalEnergy fac (some e) freq h1 eri (muQc factor dip) (numberState k g) =
      .ok (2 * (∑ a, ∑ b, ∑ σ, h1 a b * g σ a b) * fac +
        ((∑ q, ∑ s, ∑ σ, (2 * (∑ a, ∑ r, ∑ σ, eri a r q s * g σ a r) * fac) * g σ q s) -
          ∑ σ, ∑ q, ∑ r, (∑ a, ∑ s, eri a r q s * g σ a s) * g σ q r) * fac + e + 1 / 2 * (∑ m, freq m) + 2 * 0 * fac) := by
    intro k
    unfold qedLocalEnergy
    refine congrArg Except.ok ?_
    rw [hb]
    simp only [hd, hs k (fun _ => _)]
  rw [key k, key l]

/-- C175 fails: the energies of walkers with `k` and `l` photons of frequency `ω` do not differ by `ω (k - l)`: `ω b† b` is left out. -/
theorem qed_photons_fails {n : ℕ} (k l : Fin n) (hkl : k ≠ l) (ω : ℂ) (hω : ω ≠ 0) (fac e : ℂ) (factor : Fin 1 → ℂ)
    (dip : Fin 1 → p → p → ℂ) (h1 : p → p → ℂ) (eri : p → p → p → p → ℂ) (g : S → p → p → ℂ) :
    ∃ E E', qedLocalEnergy fac (some e) (fun _ : Fin 1 => ω) h1 eri (muQc factor dip) (numberState k g) = .ok E ∧
      qedLocalEnergy fac (some e) (fun _ : Fin 1 => ω) h1 eri (muQc factor dip) (numberState l g) = .ok E' ∧
      E - E' ≠ ω * ((k.val : ℂ) - (l.val : ℂ)) := by
  refine ⟨_, _, rfl, (qed_photons_same l k fac e _ factor dip h1 eri g).trans rfl, ?_⟩
  rw [sub_self]
  refine (mul_ne_zero hω (sub_ne_zero.2 fun h => hkl (Fin.ext ?_))).symm
  exact_mod_cast h

/-- C175 fails: with a boson state nothing is returned, whatever the overlap. -/
theorem force_bias_boson_fails (ov : Ovlp i) (T W : Matrix p i ℂ) (TL : g → Matrix i p ℂ) :
    ∀ r, forceBias true ov T W TL ≠ .ok r := by
  intro r
  unfold forceBias
  cases invArray ov <;> simp

/-- C175: the coupling connects neighbouring photon states, with the root of the higher number. -/
theorem muQc_spec {n : ℕ} (factor : M → ℂ) (dip : M → p → p → ℂ) (f f' : Fin n) (a b : p) :
    (f'.val = f.val + 1 → muQc factor dip f f' a b = (Real.sqrt (f.val + 1) : ℂ) * ∑ m, factor m * dip m a b) ∧
      muQc factor dip f f' a b = muQc factor dip f' f a b ∧
      (f'.val ≠ f.val + 1 → f.val ≠ f'.val + 1 → muQc factor dip f f' a b = 0) := by
  refine ⟨fun h => ?_, ?_, fun h1 h2 => ?_⟩
  · unfold muQc
    rw [Finset.mul_sum]
    refine Finset.sum_congr rfl fun m _ => ?_
    rw [if_neg (by omega), if_pos h.symm, h]
    push_cast
    ring
  · unfold muQc
    refine Finset.sum_congr rfl fun m _ => ?_
    rw [add_comm]
    congr 3
    · exact if_congr eq_comm rfl rfl
    · exact if_congr eq_comm rfl rfl
  · unfold muQc
    refine Finset.sum_eq_zero fun m _ => ?_
    rw [if_neg h2, if_neg (Ne.symm h1)]
    ring

/-- Two basis functions, one orbital: the overlap is one. -/
example : ((conj !![1; 0])ᵀ * (!![1; 5] : Matrix (Fin 2) (Fin 1) ℂ)).det ≠ 0 := by
  simp [Matrix.mul_apply, Fin.sum_univ_two, conj]

/-- The Coulomb energy is not zero: one field that counts one basis function. -/
example : refCoulomb (fun _ : Fin 1 => (1 : Matrix (Fin 1) (Fin 1) ℂ)) 1 ≠ 0 := by
  rw [refCoulomb_eq]; norm_num

end OpenMS.ForceBias
