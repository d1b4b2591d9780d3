import Verif.Model.QedAfqmc
import Mathlib.LinearAlgebra.Matrix.Kronecker
import Mathlib.LinearAlgebra.Matrix.ToLin
import Mathlib.Analysis.SpecialFunctions.Trigonometric.Basic

/-! Properties of `Verif/Model/QedAfqmc.lean` (C172). -/

namespace OpenMS.QedAfqmc

open Matrix Kronecker

theorem ebound_eq {dt : ℝ} (h : 0 < dt) : dt * ebound dt = Real.sqrt (2 * dt) ∧ 0 ≤ ebound dt := by
  have h1 : ebound dt = Real.sqrt (2 / dt) := by
    unfold ebound
    rw [Real.sqrt_eq_rpow]
    norm_num
  rw [h1]
  refine ⟨?_, Real.sqrt_nonneg _⟩
  rw [eq_comm, Real.sqrt_eq_iff_mul_self_eq (by positivity) (by positivity), eq_comm]
  have := Real.mul_self_sqrt (show (0 : ℝ) ≤ 2 / dt by positivity)
  calc dt * Real.sqrt (2 / dt) * (dt * Real.sqrt (2 / dt)) = dt * dt * (Real.sqrt (2 / dt) * Real.sqrt (2 / dt)) := by ring
    _ = 2 * dt := by rw [this]; field_simp

theorem energy_bound {dt : ℝ} (h : 0 < dt) (R cfb cmf : ℂ) : |hybridEnergy dt R cfb cmf| ≤ ebound dt := by
  have h0 := (ebound_eq h).2
  unfold hybridEnergy
  rw [abs_le]
  exact ⟨le_min (le_max_right _ _) (by linarith), min_le_right _ _⟩

/-- **C172**: the factor of the hybrid scheme: its phase is the imaginary part of `cfb` alone. -/
theorem hybrid_eq (dt : ℝ) (prev : Option ℝ) (R cfb cmf : ℂ) : hybridFactor dt prev R cfb cmf =
    Real.exp (-(dt / 2) * (hybridEnergy dt R cfb cmf + prev.getD (hybridEnergy dt R cfb cmf))) * max 0 (Real.cos cfb.im) := by
  unfold hybridFactor
  rw [abs_of_pos (Real.exp_pos _)]
  congr 2
  · ring_nf
  · have : (-dt * (hybridEnergy dt R cfb cmf : ℂ) - cfb).im = -cfb.im := by simp
    rw [this, Real.cos_neg]

/-- **C172**: after any calls of the hybrid scheme a weight is between zero and the first one times `exp (n √(2 dt))`. -/
theorem run_bound {dt : ℝ} (h : 0 < dt) (l : List (ℂ × ℂ × ℂ)) (prev : Option ℝ) (hp : ∀ e ∈ prev, |e| ≤ ebound dt) (w : ℝ) (hw : 0 ≤ w) :
    0 ≤ (run dt l prev w).2 ∧ (run dt l prev w).2 ≤ w * Real.exp (l.length * Real.sqrt (2 * dt)) ∧
      ∀ e ∈ (run dt l prev w).1, |e| ≤ ebound dt := by
  induction l generalizing prev w with
  | nil => exact ⟨hw, by simp [run], hp⟩
  | cons c l ih =>
    obtain ⟨R, cfb, cmf⟩ := c
    have hb := energy_bound h R cfb cmf
    have hf : hybridFactor dt prev R cfb cmf ≤ Real.exp (Real.sqrt (2 * dt)) := by
      rw [hybrid_eq, ← (ebound_eq h).1]
      have hq : |prev.getD (hybridEnergy dt R cfb cmf)| ≤ ebound dt := by
        cases prev with
        | none => exact hb
        | some e => exact hp e rfl
      rw [abs_le] at hb hq
      calc _ ≤ Real.exp (-(dt / 2) * (hybridEnergy dt R cfb cmf + prev.getD (hybridEnergy dt R cfb cmf))) * 1 :=
            mul_le_mul_of_nonneg_left (max_le zero_le_one (Real.cos_le_one _)) (Real.exp_pos _).le
        _ ≤ _ := by
          rw [mul_one, Real.exp_le_exp]
          nlinarith
    have hf0 : 0 ≤ hybridFactor dt prev R cfb cmf := by
      rw [hybrid_eq]
      exact mul_nonneg (Real.exp_pos _).le (le_max_left _ _)
    have := ih (some (hybridEnergy dt R cfb cmf)) (by intro e he; cases he; exact hb) (w * hybridFactor dt prev R cfb cmf) (mul_nonneg hw hf0)
    refine ⟨this.1, this.2.1.trans ?_, this.2.2⟩
    rw [List.length_cons, Nat.cast_add, Nat.cast_one, add_mul, one_mul, Real.exp_add]
    calc _ ≤ w * Real.exp (Real.sqrt (2 * dt)) * Real.exp (l.length * Real.sqrt (2 * dt)) :=
          mul_le_mul_of_nonneg_right (mul_le_mul_of_nonneg_left hf hw) (Real.exp_pos _).le
      _ = _ := by ring

/-- **C172**: a call multiplies the weight by the factor of the mean of its energy and the one before, and keeps its energy. -/
theorem run_snoc (dt : ℝ) (l : List (ℂ × ℂ × ℂ)) (R cfb cmf : ℂ) (prev : Option ℝ) (w : ℝ) :
    run dt (l ++ [(R, cfb, cmf)]) prev w = (some (hybridEnergy dt R cfb cmf), (run dt l prev w).2 *
      (Real.exp (-(dt / 2) * (hybridEnergy dt R cfb cmf + (run dt l prev w).1.getD (hybridEnergy dt R cfb cmf))) *
        max 0 (Real.cos cfb.im))) := by
  induction l generalizing prev w with
  | nil => rw [← hybrid_eq]; rfl
  | cons c l ih => exact ih _ _

theorem div_nonpos_iff_num {x y : ℝ} (h : 0 < y) : x / y ≤ 0 ↔ x ≤ 0 := by
  rw [div_le_iff₀ h, zero_mul]

/-- **C172**: the phaseless constraint of the local scheme: the factor is the exponential of the local energy times the part of the
overlap ratio, with the mean-field factor, along the positive real axis. -/
theorem local_spec (dt : ℝ) (eloc R cmf : ℂ) (hR : R ≠ 0) :
    localFactor dt eloc R cmf = Real.exp (-dt * eloc.re) * max 0 ((R * Complex.exp cmf).re / ‖R * Complex.exp cmf‖) ∧
      (localFactor dt eloc R cmf = 0 ↔ (R * Complex.exp cmf).re ≤ 0) := by
  have hz : R * Complex.exp cmf ≠ 0 := mul_ne_zero hR (Complex.exp_ne_zero _)
  unfold localFactor
  rw [Complex.cos_arg hz]
  refine ⟨rfl, ?_⟩
  rw [mul_eq_zero, or_iff_right (Real.exp_pos _).ne', max_eq_left_iff, div_nonpos_iff_num (norm_pos_iff.2 hz)]

/-- **C172**: the phase without the clipped energy, which the code means to use, is the one of the local scheme. -/
theorem phase_eq (dt : ℝ) (hd : dt ≠ 0) (R cfb cmf : ℂ) (hR : R ≠ 0) :
    Real.cos (-dt * (-(Complex.log R + cfb + cmf) / dt) - cfb).im = Real.cos (Complex.arg (R * Complex.exp cmf)) := by
  have hz : R * Complex.exp cmf ≠ 0 := mul_ne_zero hR (Complex.exp_ne_zero _)
  have hd' : (dt : ℂ) ≠ 0 := by exact_mod_cast hd
  have h1 : -dt * (-(Complex.log R + cfb + cmf) / dt) - cfb = Complex.log R + cmf := by
    field_simp
    ring
  rw [h1, Complex.cos_arg hz]
  have h2 : R * Complex.exp cmf = Complex.exp (Complex.log R + cmf) := by
    rw [Complex.exp_add, Complex.exp_log hR]
  rw [h2, Complex.exp_re, Complex.norm_exp, mul_div_cancel_left₀ _ (Real.exp_pos _).ne']

/-- **C172**: the hybrid scheme removes a walker exactly if the cosine of the imaginary part of `cfb` is not positive. -/
theorem hybrid_zero (dt : ℝ) (prev : Option ℝ) (R cfb cmf : ℂ) : hybridFactor dt prev R cfb cmf = 0 ↔ Real.cos cfb.im ≤ 0 := by
  rw [hybrid_eq, mul_eq_zero, or_iff_right (Real.exp_pos _).ne', max_eq_left_iff]

/-- **C172**: where the phase is that of the overlap ratio, both schemes remove the same walkers. -/
theorem hybrid_partial (dt : ℝ) (prev : Option ℝ) (eloc R cfb cmf : ℂ) (hR : R ≠ 0)
    (h : Real.cos cfb.im = Real.cos (Complex.arg (R * Complex.exp cmf))) :
    hybridFactor dt prev R cfb cmf = 0 ↔ localFactor dt eloc R cmf = 0 := by
  rw [hybrid_zero, (local_spec dt eloc R cmf hR).2, h, Complex.cos_arg (mul_ne_zero hR (Complex.exp_ne_zero _)),
    div_nonpos_iff_num (norm_pos_iff.2 (mul_ne_zero hR (Complex.exp_ne_zero _)))]

/-- **C172**: with a real force bias the hybrid scheme keeps every walker, also those the phaseless constraint removes. -/
theorem hybrid_fails (dt : ℝ) (prev : Option ℝ) (eloc R cfb cmf : ℂ) (hR : R ≠ 0) (hc : cfb.im = 0) (hz : (R * Complex.exp cmf).re ≤ 0) :
    localFactor dt eloc R cmf = 0 ∧ 0 < hybridFactor dt prev R cfb cmf := by
  refine ⟨(local_spec dt eloc R cmf hR).2.2 hz, ?_⟩
  rw [hybrid_eq, hc]
  simp [Real.exp_pos]

example : localFactor 1 0 (-1) 0 = 0 ∧ 0 < hybridFactor 1 none (-1) 0 0 :=
  hybrid_fails 1 none 0 (-1) 0 0 (by norm_num) rfl (by simp)

variable {n : ℕ} {A M G : Type*} [Fintype A] [Fintype M] [Fintype G] [DecidableEq A]

omit [Fintype A] [Fintype M] [Fintype G] [DecidableEq A] in
/-- **C172**: the field of a mode is the sum of a lowering matrix, whose product with its transpose has the numbers of photons on the
diagonal, and its transpose. -/
theorem field_spec (n : ℕ) : ∃ b : Matrix (Fin n) (Fin n) ℝ, (∀ F F', 0 ≤ b F F') ∧ (∀ F F', b F F' ≠ 0 → F'.1 = F.1 + 1) ∧
    bᵀ * b = Matrix.diagonal (fun F => (F.1 : ℝ)) ∧ Matrix.of aTa = b + bᵀ := by
  refine ⟨Matrix.of fun F F' => if F.1 + 1 = F'.1 then Real.sqrt F'.1 else 0, fun F F' => ?_, fun F F' h => ?_, ?_, ?_⟩
  · simp only [Matrix.of_apply]
    split_ifs
    · exact Real.sqrt_nonneg _
    · exact le_rfl
  · simp only [Matrix.of_apply, ne_eq, ite_eq_right_iff, not_forall] at h
    exact h.1.symm
  · ext F F'
    simp only [Matrix.mul_apply, Matrix.transpose_apply, Matrix.of_apply, Matrix.diagonal_apply]
    by_cases h : F = F'
    · subst h
      rw [if_pos rfl]
      by_cases h0 : F.1 = 0
      · rw [h0, Finset.sum_eq_zero]
        · simp
        · intro x _
          rw [if_neg (by omega), zero_mul]
      · rw [Finset.sum_eq_single ⟨F.1 - 1, by omega⟩]
        · rw [if_pos (by simp; omega), Real.mul_self_sqrt (Nat.cast_nonneg _)]
        · intro x _ hx
          rw [if_neg, zero_mul]
          intro h
          exact hx (Fin.ext (by simp; omega))
        · simp
    · rw [if_neg h]
      refine Finset.sum_eq_zero fun x _ => ?_
      by_cases h1 : x.1 + 1 = F.1
      · rw [if_neg (show ¬ x.1 + 1 = F'.1 from fun h2 => h (Fin.ext (h1.symm.trans h2))), mul_zero]
      · rw [if_neg h1, zero_mul]
  · ext F F'
    simp only [Matrix.of_apply, Matrix.add_apply, Matrix.transpose_apply, aTa]

/-- A walker as one vector. -/
def vec (w : Fin n → A → ℂ) (i : Fin n × A) : ℂ := w i.1 i.2

/-- The exponential series up to an order. -/
noncomputable def texp (order : ℕ) (X : Matrix (Fin n × A) (Fin n × A) ℂ) : Matrix (Fin n × A) (Fin n × A) ℂ :=
  ∑ k ∈ Finset.range (order + 1), ((k.factorial : ℂ)⁻¹) • X ^ k

omit [Fintype M] [Fintype G] in
theorem taylor_spec (op : (Fin n → A → ℂ) → Fin n → A → ℂ) (X : Matrix (Fin n × A) (Fin n × A) ℂ)
    (h : ∀ w, vec (op w) = X *ᵥ vec w) (w : Fin n → A → ℂ) (k : ℕ) :
    vec (taylor op w k).1 = (((k.factorial : ℂ)⁻¹) • X ^ k) *ᵥ vec w ∧ vec (taylor op w k).2 = texp k X *ᵥ vec w := by
  induction k with
  | zero => simp [taylor, texp]
  | succ k ih =>
    have h1 : vec (taylor op w (k + 1)).1 = (((k + 1).factorial : ℂ)⁻¹ • X ^ (k + 1)) *ᵥ vec w := by
      have : vec (taylor op w (k + 1)).1 = ((k : ℂ) + 1)⁻¹ • vec (op (taylor op w k).1) := rfl
      rw [this, h, ih.1, Matrix.smul_mulVec, Matrix.mulVec_smul, Matrix.mulVec_mulVec, ← pow_succ', smul_smul, Matrix.smul_mulVec,
        Nat.factorial_succ]
      congr 1
      push_cast
      rw [mul_inv]
    refine ⟨h1, ?_⟩
    have : vec (taylor op w (k + 1)).2 = vec (taylor op w k).2 + vec (taylor op w (k + 1)).1 := rfl
    rw [this, h1, ih.2, texp, texp, Finset.sum_range_succ _ (k + 1), Matrix.add_mulVec]

/-- The coupling on the product space: field of the mode times dipole. -/
noncomputable def coupling (dt : ℝ) (freq coup : M → ℝ) (dip : M → A → A → ℝ) : Matrix (Fin n × A) (Fin n × A) ℂ :=
  ∑ m, ((-(dt / 2) * (Real.sqrt (freq m / 2) * coup m) : ℝ) : ℂ) •
    ((Matrix.of fun F F' : Fin n => (aTa F F' : ℂ)) ⊗ₖ (Matrix.of fun a b => (dip m a b : ℂ)))

/-- **C172**: a step of the propagation is the symmetric product of the half steps of the one-body part, of the photons and of the
coupling around the two-body part, with the exponential series of the coupling and of the two-body part up to the order given. -/
theorem propagation_spec (dt : ℝ) (order : ℕ) (freq coup : M → ℝ) (dip : M → A → A → ℝ) (E : Matrix A A ℂ) (L : G → A → A → ℝ)
    (xi : G → ℝ) (f : G → ℂ) (w : Fin n → A → ℂ) :
    let B := (1 : Matrix (Fin n) (Fin n) ℂ) ⊗ₖ E
    let P := (Matrix.diagonal fun F : Fin n => (Real.exp (-(dt / 2) * (F.1 * ∑ m, freq m)) : ℂ)) ⊗ₖ (1 : Matrix A A ℂ)
    let C := texp order (coupling dt freq coup dip)
    let T := texp order ((1 : Matrix (Fin n) (Fin n) ℂ) ⊗ₖ
      ∑ g, (Complex.I * Real.sqrt dt * (xi g - f g)) • Matrix.of fun a b => (L g a b : ℂ))
    vec (propagation dt order freq coup dip E L xi f w) = (B * P * C * T * C * P * B) *ᵥ vec w := by
  intro B P C T
  have hB : ∀ w, vec (oneBody E w) = B *ᵥ vec w := by
    intro w
    funext ⟨F, a⟩
    simp only [vec, oneBody, B, Matrix.mulVec, dotProduct, Matrix.kroneckerMap_apply, Fintype.sum_prod_type, Matrix.one_apply]
    rw [Finset.sum_eq_single F]
    · simp
    · intro b _ hb
      simp [hb.symm]
    · simp
  have hP : ∀ w : Fin n → A → ℂ, vec (photon dt freq w) = P *ᵥ vec w := by
    intro w
    funext ⟨F, a⟩
    simp only [vec, photon, P, Matrix.mulVec, dotProduct, Matrix.kroneckerMap_apply, Fintype.sum_prod_type, Matrix.one_apply,
      Matrix.diagonal_apply]
    rw [Finset.sum_eq_single F, Finset.sum_eq_single a]
    · rw [if_pos rfl, if_pos rfl, mul_one, Finset.mul_sum]
      congr 4
      rw [Finset.mul_sum, Finset.mul_sum]
      exact Finset.sum_congr rfl fun m _ => by ring
    · intro b _ hb
      simp [hb.symm]
    · simp
    · intro b _ hb
      simp [hb.symm]
    · simp
  have hC : ∀ w, vec (taylor (bilinearOp dt (muQc freq coup dip)) w order).2 = C *ᵥ vec w := by
    intro w
    refine (taylor_spec _ _ (fun w => ?_) w order).2
    funext ⟨F, a⟩
    simp only [vec, bilinearOp, coupling, Matrix.mulVec, dotProduct, Fintype.sum_prod_type, Matrix.sum_apply, Matrix.smul_apply,
      Matrix.kroneckerMap_apply, Matrix.of_apply, muQc, bilinearFactor, smul_eq_mul]
    refine Finset.sum_congr rfl fun F' _ => Finset.sum_congr rfl fun b _ => ?_
    congr 1
    push_cast
    rw [Finset.mul_sum]
    exact Finset.sum_congr rfl fun m _ => by ring
  have hT : ∀ w, vec (taylor (twoBodyOp dt L fun g => xi g - f g) w order).2 = T *ᵥ vec w := by
    intro w
    refine (taylor_spec _ _ (fun w => ?_) w order).2
    funext ⟨F, a⟩
    simp only [vec, twoBodyOp, Matrix.mulVec, dotProduct, Fintype.sum_prod_type, Matrix.sum_apply, Matrix.smul_apply,
      Matrix.kroneckerMap_apply, Matrix.of_apply, Matrix.one_apply, smul_eq_mul]
    rw [Finset.sum_eq_single F]
    · refine Finset.sum_congr rfl fun b _ => ?_
      rw [if_pos rfl, one_mul, Finset.mul_sum]
      congr 1
      exact Finset.sum_congr rfl fun g _ => by ring
    · intro b _ hb
      simp [hb.symm]
    · simp
  unfold propagation
  dsimp only
  rw [hB, hP, hC, hT, hC, hP, hB]
  simp only [Matrix.mulVec_mulVec, Matrix.mul_assoc]

/-- **C172**: the factor `N_I` corrects the shift of the random fields by the force bias. -/
theorem nI_spec (xi : G → ℝ) (f : G → ℂ) :
    Complex.exp (-(∑ g, ((xi g : ℂ) - f g) ^ 2) / 2) = Complex.exp (-(∑ g, (xi g : ℂ) ^ 2) / 2) * Complex.exp (nI xi f) := by
  rw [← Complex.exp_add]
  congr 1
  unfold nI
  have : ∑ g, ((xi g : ℂ) - f g) ^ 2 = ∑ g, (xi g : ℂ) ^ 2 - 2 * ∑ g, (xi g : ℂ) * f g + ∑ g, f g * f g := by
    rw [Finset.mul_sum, ← Finset.sum_sub_distrib, ← Finset.sum_add_distrib]
    exact Finset.sum_congr rfl fun g _ => by ring
  rw [this]
  norm_num
  ring

/-- **C172**: the mean-field factor turns each Cholesky operator into its difference from the mean value. -/
theorem cmf_spec (dt : ℝ) (mean : G → ℂ) (l : G → ℂ) (xi : G → ℝ) (f : G → ℂ) :
    Complex.exp (∑ g, (xi g - f g) * (Complex.I * Real.sqrt dt * (l g - mean g))) =
      Complex.exp (∑ g, (xi g - f g) * (Complex.I * Real.sqrt dt * l g)) * Complex.exp (cmf dt (fun g => Complex.I * mean g) xi f) := by
  rw [← Complex.exp_add]
  congr 1
  unfold cmf
  rw [Finset.mul_sum, ← Finset.sum_add_distrib]
  exact Finset.sum_congr rfl fun g _ => by ring

omit [Fintype A] [DecidableEq A] in
/-- **C172**: for one mode the half step of the photons is that of `ω b†b` in the number basis. -/
theorem photon_partial (dt om : ℝ) (w : Fin n → A → ℂ) (F : Fin n) (a : A) :
    photon dt (fun _ : Unit => om) w F a = Real.exp (-(dt / 2) * (om * F.1)) * w F a := by
  unfold photon
  congr 3
  rw [Finset.univ_unique, Finset.sum_singleton]
  ring

omit [Fintype A] [DecidableEq A] in
/-- **C172**: for two or more modes the state with index one has the sum of the frequencies, so it is a state of one photon in no
mode. -/
theorem photon_fails (dt : ℝ) (hd : 0 < dt) (freq : M → ℝ) (hf : ∀ m, 0 < freq m) (hM : 2 ≤ Fintype.card M) (w : Fin n → A → ℂ) (F : Fin n)
    (hF : F.1 = 1) (a : A) (hw : w F a ≠ 0) (m : M) : photon dt freq w F a ≠ Real.exp (-(dt / 2) * freq m) * w F a := by
  classical
  unfold photon
  intro h
  have h1 := mul_right_cancel₀ hw h
  have h2 := Real.exp_injective (Complex.ofReal_injective h1)
  obtain ⟨m', hm'⟩ := Fintype.exists_ne_of_one_lt_card (show 1 < Fintype.card M by omega) m
  have h3 : freq m < ∑ x, freq x := by
    rw [← Finset.add_sum_erase _ _ (Finset.mem_univ m)]
    have : 0 < ∑ x ∈ Finset.univ.erase m, freq x :=
      Finset.sum_pos (fun x _ => hf x) ⟨m', by simp [hm']⟩
    linarith
  rw [hF] at h2
  simp only [Nat.cast_one, mul_one] at h2
  nlinarith

example (w : Fin 2 → Unit → ℂ) (h : w 1 () ≠ 0) (m : Bool) :
    photon 1 (fun _ : Bool => 1) w 1 () ≠ Real.exp (-(1 / 2) * 1) * w 1 () :=
  photon_fails 1 (by norm_num) _ (fun _ => by norm_num) (by simp) w 1 rfl () h m

end OpenMS.QedAfqmc
