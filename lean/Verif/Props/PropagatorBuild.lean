import Verif.Model.PropagatorBuild
import Mathlib.Tactic
import Mathlib.LinearAlgebra.Matrix.Kronecker

/-!
# C96, C97: the propagator is built from the right Hamiltonian

The physical Hamiltonian is written with creation and annihilation operators; nothing in its
definition refers to the code.
-/

namespace OpenMS.PropBuild

open Matrix OpenMS.Propagators

section
variable {R : Type*} [Ring R] [Algebra ℂ R]
variable {n i s b : Type*} [Fintype n] [DecidableEq n] [Fintype i] [Fintype b]
  [Fintype s] [DecidableEq s]

/-- The canonical anticommutation rule of annihilators `c` and creators `cd`. -/
def CAR (c cd : n → s → R) : Prop :=
  (∀ p σ q τ, c p σ * cd q τ + cd q τ * c p σ = if p = q ∧ σ = τ then 1 else 0) ∧
  (∀ p σ q τ, c p σ * c q τ + c q τ * c p σ = 0)

/-- `Σ_σ Σ_pq M^σ_pq c†_pσ c_qσ`. -/
noncomputable def oneBody (c cd : n → s → R) (M : s → Matrix n n ℂ) : R :=
  ∑ σ, ∑ p, ∑ q, M σ p q • (cd p σ * c q σ)

/-- `½ Σ_στ Σ_prqt L_pr L_qt c†_pσ c†_qτ c_tτ c_rσ`. -/
noncomputable def twoBody (c cd : n → s → R) (L : Matrix n n ℂ) : R :=
  (1 / 2 : ℂ) • ∑ σ, ∑ τ, ∑ p, ∑ r, ∑ q, ∑ t,
    (L p r * L q t) • (cd p σ * cd q τ * c t τ * c r σ)

omit [DecidableEq n] [DecidableEq s] in
theorem oneBody_add (c cd : n → s → R) (M N : s → Matrix n n ℂ) :
    oneBody c cd (fun σ => M σ + N σ) = oneBody c cd M + oneBody c cd N := by
  simp only [oneBody, Matrix.add_apply, add_smul, Finset.sum_add_distrib]

omit [DecidableEq n] [DecidableEq s] in
theorem oneBody_smul (c cd : n → s → R) (z : ℂ) (M : s → Matrix n n ℂ) :
    oneBody c cd (fun σ => z • M σ) = z • oneBody c cd M := by
  simp only [oneBody, Matrix.smul_apply, smul_eq_mul, mul_smul, Finset.smul_sum]

omit [DecidableEq n] [DecidableEq s] in
theorem oneBody_sub (c cd : n → s → R) (M N : s → Matrix n n ℂ) :
    oneBody c cd (fun σ => M σ - N σ) = oneBody c cd M - oneBody c cd N := by
  simp only [oneBody, Matrix.sub_apply, sub_smul, Finset.sum_sub_distrib]

omit [DecidableEq n] [DecidableEq s] in
theorem oneBody_sum {g : Type*} (c cd : n → s → R) (S : Finset g) (M : g → Matrix n n ℂ) :
    oneBody c cd (fun _ => ∑ γ ∈ S, M γ) = ∑ γ ∈ S, oneBody c cd (fun _ => M γ) := by
  classical
  induction S using Finset.induction_on with
  | empty => simp [oneBody]
  | insert a S ha ih =>
    simp only [Finset.sum_insert ha]
    rw [oneBody_add c cd (fun _ => M a) (fun _ => ∑ γ ∈ S, M γ), ih]

/-- Normal ordering: the square of a one-body operator is the two-body term plus a one-body
term with the squared matrix. -/
theorem square_normal_order (c cd : n → s → R) (h : CAR c cd) (L : Matrix n n ℂ) :
    (1 / 2 : ℂ) • oneBody c cd (fun _ => L) ^ 2 =
      twoBody c cd L + (1 / 2 : ℂ) • oneBody c cd (fun _ => L * L) := by
  have key : ∀ p σ r q τ t, (cd p σ * c r σ) * (cd q τ * c t τ) =
      cd p σ * cd q τ * c t τ * c r σ + if r = q ∧ σ = τ then cd p σ * c t τ else 0 := by
    intro p σ r q τ t
    have h1 : c r σ * cd q τ = (if r = q ∧ σ = τ then (1 : R) else 0) - cd q τ * c r σ := by
      rw [← h.1 r σ q τ]; abel
    have h2 : c r σ * c t τ = -(c t τ * c r σ) := eq_neg_of_add_eq_zero_left (h.2 r σ t τ)
    calc (cd p σ * c r σ) * (cd q τ * c t τ) = cd p σ * (c r σ * cd q τ) * c t τ := by
          simp only [mul_assoc]
      _ = cd p σ * (if r = q ∧ σ = τ then (1 : R) else 0) * c t τ
            - cd p σ * cd q τ * (c r σ * c t τ) := by
          rw [h1, mul_sub, sub_mul]; simp only [mul_assoc]
      _ = _ := by
          rw [h2, mul_neg, sub_neg_eq_add, add_comm]
          congr 1
          · simp only [mul_assoc]
          · split_ifs <;> simp
  unfold twoBody
  rw [← smul_add]
  congr 1
  have e1 : oneBody c cd (fun _ => L) ^ 2 =
      ∑ σ, ∑ τ, ∑ p, ∑ r, ∑ q, ∑ t, (L p r * L q t) • ((cd p σ * c r σ) * (cd q τ * c t τ)) := by
    rw [pow_two, oneBody, Finset.sum_mul_sum]
    refine Finset.sum_congr rfl fun σ _ => Finset.sum_congr rfl fun τ _ => ?_
    rw [Finset.sum_mul]
    refine Finset.sum_congr rfl fun p _ => ?_
    rw [Finset.sum_mul]
    refine Finset.sum_congr rfl fun r _ => ?_
    rw [Finset.mul_sum]
    refine Finset.sum_congr rfl fun q _ => ?_
    rw [Finset.mul_sum]
    exact Finset.sum_congr rfl fun t _ => smul_mul_smul_comm _ _ _ _
  rw [e1]
  simp only [key, smul_add, Finset.sum_add_distrib]
  congr 1
  unfold oneBody
  refine Finset.sum_congr rfl fun σ _ => ?_
  rw [Finset.sum_comm]
  refine Finset.sum_congr rfl fun p _ => ?_
  simp only [Matrix.mul_apply, Finset.sum_smul]
  rw [Finset.sum_comm]
  simp only [smul_ite, smul_zero, ite_and]
  have e2 : ∀ r, (∑ τ, ∑ q, ∑ t, if r = q then if σ = τ then (L p r * L q t) • (cd p σ * c t τ) else 0 else 0)
      = ∑ t, (L p r * L r t) • (cd p σ * c t σ) := by
    intro r
    rw [Finset.sum_eq_single σ, Finset.sum_eq_single r]
    · simp
    · intro q _ hq; simp [Ne.symm hq]
    · simp
    · intro τ _ hτ; simp [Ne.symm hτ]
    · simp
  rw [Finset.sum_congr rfl fun r _ => e2 r, Finset.sum_comm]

/-- Completing the square. -/
theorem square_shift (A : R) (z : ℂ) :
    (1 / 2 : ℂ) • A ^ 2 = z • A + (1 / 2 : ℂ) • (A - z • (1 : R)) ^ 2 - (1 / 2 * z ^ 2 : ℂ) • (1 : R) := by
  have : (A - z • (1 : R)) ^ 2 = A ^ 2 - (2 * z) • A + (z ^ 2) • (1 : R) := by
    rw [pow_two, sub_mul, mul_sub, mul_sub, smul_mul_assoc, mul_smul_comm, smul_mul_smul_comm,
      one_mul, mul_one, pow_two, pow_two, two_mul, add_smul, one_mul]
    abel
  rw [this, smul_add, smul_sub, smul_smul, smul_smul]
  have e : (1 / 2 * (2 * z) : ℂ) = z := by ring
  rw [e]; abel

/-- The operator whose exponential the electronic step applies: the shifted one-body term
and half the squares of the shifted fields (`hs_average` of C69). -/
noncomputable def generator {nf : ℕ} (c cd : n → s → R) (nc nbare : ℕ) (h : s → Matrix n n ℂ)
    (L : Fin nf → Matrix n n ℂ) (psi : Matrix n i ℂ) : R :=
  oneBody c cd (shiftedH1e nc nbare h L psi) +
    (1 / 2 : ℂ) • ∑ γ, (oneBody c cd (fun _ => L γ) - trace L (rhoMf nc psi) γ • (1 : R)) ^ 2

omit [Fintype n] [DecidableEq n] in
theorem map_star_real (M : Matrix n n ℂ) (hM : ∀ p q, (M p q).im = 0) :
    M.map (starRingEnd ℂ) = M := by
  ext p q
  simp only [Matrix.map_apply]
  exact Complex.conj_eq_iff_im.2 (hM p q)

omit [DecidableEq n] [DecidableEq s] in
theorem oneBody_shifted {nf : ℕ} (c cd : n → s → R) (nc nbare : ℕ) (h : s → Matrix n n ℂ)
    (L : Fin nf → Matrix n n ℂ) (psi : Matrix n i ℂ) :
    oneBody c cd (shiftedH1e nc nbare h L psi) = oneBody c cd h
      - ∑ γ ∈ bare nf nbare, (1 / 2 : ℂ) • oneBody c cd (fun _ => (L γ).map (starRingEnd ℂ) * L γ)
      + ∑ γ, trace L (rhoMf nc psi) γ • oneBody c cd (fun _ => L γ) := by
  have e : (fun σ => shiftedH1e nc nbare h L psi σ) = fun σ => (h σ -
      (fun _ : s => (1 / 2 : ℂ) • traceEri nbare L) σ) -
      (fun _ : s => ∑ γ, mfShift (trace L (rhoMf nc psi)) γ • (Complex.I • L γ)) σ := rfl
  have e' := congrArg (oneBody c cd) e
  rw [oneBody_sub c cd (fun σ => h σ - (fun _ : s => (1 / 2 : ℂ) • traceEri nbare L) σ),
    oneBody_sub c cd h, oneBody_smul c cd _ (fun _ => traceEri nbare L)] at e'
  rw [e', traceEri, oneBody_sum, oneBody_sum, Finset.smul_sum, sub_eq_add_neg (_ - _)]
  congr 1
  rw [← Finset.sum_neg_distrib]
  refine Finset.sum_congr rfl fun γ _ => ?_
  have : mfShift (trace L (rhoMf nc psi)) γ • (Complex.I • L γ) =
      (-(trace L (rhoMf nc psi) γ)) • L γ := by
    rw [smul_smul, mfShift]
    congr 1
    linear_combination (trace L (rhoMf nc psi) γ) * Complex.I_mul_I
  rw [this, oneBody_smul c cd _ (fun _ => L γ), neg_smul, neg_neg]

omit [DecidableEq n] [DecidableEq s] [Fintype n] [Fintype s] in
theorem bare_univ (nf nbare : ℕ) (hb : nbare = 0 ∨ nf ≤ nbare) :
    bare nf nbare = Finset.univ := by
  unfold bare
  split_ifs with h0
  · ext γ; simp; omega
  · rfl

/-- What the built propagator belongs to, for arbitrary complex matrices. -/
theorem generator_eq {nf : ℕ} (c cd : n → s → R) (hc : CAR c cd) (nc nbare : ℕ)
    (hb : nbare = 0 ∨ nf ≤ nbare) (h : s → Matrix n n ℂ) (L : Fin nf → Matrix n n ℂ)
    (psi : Matrix n i ℂ) :
    generator c cd nc nbare h L psi =
      oneBody c cd h + (∑ γ, twoBody c cd (L γ)) +
        (1 / 2 * ∑ γ, (trace L (rhoMf nc psi) γ) ^ 2 : ℂ) • (1 : R) +
        ∑ γ, (1 / 2 : ℂ) • oneBody c cd (fun _ => L γ * L γ - (L γ).map (starRingEnd ℂ) * L γ) := by
  have e1 : ∀ γ, twoBody c cd (L γ) = trace L (rhoMf nc psi) γ • oneBody c cd (fun _ => L γ)
      + (1 / 2 : ℂ) • (oneBody c cd (fun _ => L γ) - trace L (rhoMf nc psi) γ • (1 : R)) ^ 2
      - (1 / 2 * trace L (rhoMf nc psi) γ ^ 2 : ℂ) • (1 : R)
      - (1 / 2 : ℂ) • oneBody c cd (fun _ => L γ * L γ) := fun γ => by
    rw [← square_shift, square_normal_order c cd hc (L γ)]; abel
  rw [generator, oneBody_shifted c cd nc nbare h L psi, bare_univ nf nbare hb]
  have e2 : ∀ γ, oneBody c cd (fun _ => L γ * L γ - (L γ).map (starRingEnd ℂ) * L γ) =
      oneBody c cd (fun _ => L γ * L γ) - oneBody c cd (fun _ => (L γ).map (starRingEnd ℂ) * L γ) :=
    fun γ => oneBody_sub c cd (fun _ => L γ * L γ) (fun _ => (L γ).map (starRingEnd ℂ) * L γ)
  simp only [e1, e2, smul_sub, Finset.sum_add_distrib,
    Finset.sum_sub_distrib, Finset.smul_sum, Finset.mul_sum, Finset.sum_smul]
  abel

/-- **C96.** For real Cholesky matrices, all of which enter the self-interaction term, the
built propagator belongs to the electronic Hamiltonian `Σ h c†c + ½ ΣLL c†c†cc`, up to the
constant `½ Σ ⟨L⟩²`, whatever trial function the mean-field values come from.  Missing:
complex matrices (`mean_field_hamiltonian_fails`). -/
theorem mean_field_hamiltonian_partial {nf : ℕ} (c cd : n → s → R) (hc : CAR c cd) (nc nbare : ℕ)
    (hb : nbare = 0 ∨ nf ≤ nbare) (h : s → Matrix n n ℂ) (L : Fin nf → Matrix n n ℂ)
    (hL : ∀ γ p q, (L γ p q).im = 0) (psi : Matrix n i ℂ) :
    generator c cd nc nbare h L psi =
      oneBody c cd h + (∑ γ, twoBody c cd (L γ)) +
        (1 / 2 * ∑ γ, (∑ p, ∑ q, L γ p q * ((2 / nc : ℂ) * ∑ k, psi p k * star (psi q k))) ^ 2 : ℂ) •
          (1 : R) := by
  rw [generator_eq c cd hc nc nbare hb h L psi]
  have e : ∀ γ, oneBody c cd (fun _ => L γ * L γ - (L γ).map (starRingEnd ℂ) * L γ) = 0 := by
    intro γ
    rw [map_star_real (L γ) (hL γ)]
    simp [oneBody]
  simp only [e, smul_zero, Finset.sum_const_zero, add_zero]
  rfl

end

/-- Two spin orbitals on four states. -/
def cEx : Fin 1 → Fin 2 → Matrix (Fin 4) (Fin 4) ℂ
  | _, 0 => !![0, 1, 0, 0; 0, 0, 0, 0; 0, 0, 0, 1; 0, 0, 0, 0]
  | _, 1 => !![0, 0, 1, 0; 0, 0, 0, -1; 0, 0, 0, 0; 0, 0, 0, 0]

def cdEx : Fin 1 → Fin 2 → Matrix (Fin 4) (Fin 4) ℂ
  | _, 0 => !![0, 0, 0, 0; 1, 0, 0, 0; 0, 0, 0, 0; 0, 0, 1, 0]
  | _, 1 => !![0, 0, 0, 0; 0, 0, 0, 0; 1, 0, 0, 0; 0, -1, 0, 0]

/-- Operators with the anticommutation rule exist: one orbital with two spins. -/
theorem car_example : CAR cEx cdEx := by
  constructor
  · intro p σ q τ
    fin_cases p; fin_cases q; fin_cases σ <;> fin_cases τ <;>
      (ext a b; fin_cases a <;> fin_cases b <;> simp [cEx, cdEx])
  · intro p σ q τ
    fin_cases p; fin_cases q; fin_cases σ <;> fin_cases τ <;>
      (ext a b; fin_cases a <;> fin_cases b <;> simp [cEx])

/-- **C96, disagreement.** For a Hermitian complex matrix the self-interaction is subtracted
with the wrong matrix (`L̄ L` instead of `L L = L L†`): the built propagator does not belong to
the Hamiltonian, whatever constant is added. -/
theorem mean_field_hamiltonian_fails (psi : Matrix (Fin 2) (Fin 1) ℂ) :
    ∃ (c cd : Fin 2 → Fin 1 → Matrix (Fin 4) (Fin 4) ℂ) (L : Fin 1 → Matrix (Fin 2) (Fin 2) ℂ),
      CAR c cd ∧ (L 0)ᴴ = L 0 ∧ ∀ z : ℂ,
      generator c cd 2 0 0 L psi ≠
        oneBody c cd 0 + (∑ γ, twoBody c cd (L γ)) + z • (1 : Matrix (Fin 4) (Fin 4) ℂ) := by
  have hc : CAR (fun p (_ : Fin 1) => cEx 0 p) (fun p (_ : Fin 1) => cdEx 0 p) := by
    refine ⟨fun p σ q τ => ?_, fun p σ q τ => car_example.2 0 p 0 q⟩
    have := car_example.1 0 p 0 q
    simpa [Subsingleton.elim σ τ] using this
  refine ⟨fun p _ => cEx 0 p, fun p _ => cdEx 0 p, fun _ => !![1, Complex.I; -Complex.I, 0],
    hc, ?_, fun z hz => ?_⟩
  · ext a b; fin_cases a <;> fin_cases b <;> simp
  · rw [generator_eq _ _ hc 2 0 (Or.inl rfl), add_assoc, add_right_inj] at hz
    have hM : (!![1, Complex.I; -Complex.I, 0] * !![1, Complex.I; -Complex.I, 0] -
        (!![1, Complex.I; -Complex.I, 0] : Matrix (Fin 2) (Fin 2) ℂ).map (starRingEnd ℂ) *
          !![1, Complex.I; -Complex.I, 0]) = !![2, 0; -2 * Complex.I, 2] := by
      ext a b; fin_cases a <;> fin_cases b <;> simp [Matrix.mul_apply, Fin.sum_univ_two] <;> ring
    simp only [hM] at hz
    have h0 := congrFun (congrFun hz 0) 0
    have h1 := congrFun (congrFun hz 1) 1
    simp [oneBody, cEx, cdEx] at h0 h1
    rw [h0] at h1
    simp at h1

section Joint
variable {R : Type*} [Ring R] [Algebra ℂ R]
variable {n i s b : Type*} [Fintype n] [DecidableEq n] [Fintype i] [Fintype b]
  [Fintype s] [DecidableEq s]

/-- The physical Hamiltonian of electrons and bosons: electrons interacting through the first
`nbare` Cholesky matrices, free bosons, and the coupling written as half the squares of joint
fields `L_γ + B_γ` (what `bilinear_decomposition` returns, C23). -/
noncomputable def jointHamiltonian {nbare nb : ℕ} (c cd : n → s → R) (opB : Matrix b b ℂ →ₗ[ℂ] R)
    (h : s → Matrix n n ℂ) (L : Fin (nbare + nb) → Matrix n n ℂ) (Hb : Matrix b b ℂ)
    (B : Fin nb → Matrix b b ℂ) : R :=
  oneBody c cd h + (∑ γ : Fin nbare, twoBody c cd (L (Fin.castAdd nb γ))) + opB Hb +
    (1 / 2 : ℂ) • ∑ k, (oneBody c cd (fun _ => L (Fin.natAdd nbare k)) + opB (B k)) ^ 2

/-- The operator whose exponential the decoupled electron-boson step applies: shifted one-body
terms of both parts, the squares of the bare fields and the squares of the joint fields, each
shifted by its mean-field values. -/
noncomputable def jointGenerator {nbare nb : ℕ} (c cd : n → s → R)
    (opB : Matrix b b ℂ →ₗ[ℂ] R) (nc : ℕ) (h : s → Matrix n n ℂ)
    (L : Fin (nbare + nb) → Matrix n n ℂ) (psi : Matrix n i ℂ) (Hb : Matrix b b ℂ)
    (B : Fin nb → Matrix b b ℂ) (bpsi : b → ℂ) : R :=
  oneBody c cd (shiftedH1e nc nbare h L psi) + opB (shiftedHb Hb B bpsi) +
    (1 / 2 : ℂ) • ∑ γ : Fin nbare, (oneBody c cd (fun _ => L (Fin.castAdd nb γ)) -
      trace L (rhoMf nc psi) (Fin.castAdd nb γ) • (1 : R)) ^ 2 +
    (1 / 2 : ℂ) • ∑ k, (oneBody c cd (fun _ => L (Fin.natAdd nbare k)) + opB (B k) -
      (trace L (rhoMf nc psi) (Fin.natAdd nbare k) + trace B (bosonRho bpsi) k) • (1 : R)) ^ 2

/-- The mean-field coupling of the joint fields: each part in the mean field of the other. -/
noncomputable def crossTerms {nbare nb : ℕ} (c cd : n → s → R) (opB : Matrix b b ℂ →ₗ[ℂ] R)
    (nc : ℕ) (L : Fin (nbare + nb) → Matrix n n ℂ) (psi : Matrix n i ℂ)
    (B : Fin nb → Matrix b b ℂ) (bpsi : b → ℂ) : R :=
  ∑ k, (trace L (rhoMf nc psi) (Fin.natAdd nbare k) • opB (B k) +
    trace B (bosonRho bpsi) k • oneBody c cd (fun _ => L (Fin.natAdd nbare k)))

theorem sum_bare {A : Type*} [AddCommMonoid A] (nbare nb : ℕ) (h : 0 < nbare)
    (f : Fin (nbare + nb) → A) :
    ∑ γ ∈ bare (nbare + nb) nbare, f γ = ∑ γ : Fin nbare, f (Fin.castAdd nb γ) := by
  unfold bare
  rw [if_pos h, Finset.sum_filter, Fin.sum_univ_add]
  simp

/-- **C97.** What the decoupled electron-boson propagator is built from: the joint Hamiltonian
*without* the mean-field coupling terms, up to a constant. -/
theorem joint_hamiltonian {nbare nb : ℕ} (c cd : n → s → R) (hc : CAR c cd)
    (opB : Matrix b b ℂ →ₗ[ℂ] R) (nc : ℕ) (hnb : 0 < nbare) (h : s → Matrix n n ℂ)
    (L : Fin (nbare + nb) → Matrix n n ℂ)
    (hL : ∀ γ p q, (L (Fin.castAdd nb γ) p q).im = 0) (psi : Matrix n i ℂ) (Hb : Matrix b b ℂ)
    (B : Fin nb → Matrix b b ℂ) (bpsi : b → ℂ) :
    jointGenerator c cd opB nc h L psi Hb B bpsi =
      jointHamiltonian c cd opB h L Hb B - crossTerms c cd opB nc L psi B bpsi +
      ((∑ γ : Fin nbare, 1 / 2 * trace L (rhoMf nc psi) (Fin.castAdd nb γ) ^ 2) +
        ∑ k, 1 / 2 * (trace L (rhoMf nc psi) (Fin.natAdd nbare k) +
          trace B (bosonRho bpsi) k) ^ 2 : ℂ) • (1 : R) := by
  have e1 : ∀ γ : Fin nbare, twoBody c cd (L (Fin.castAdd nb γ)) =
      trace L (rhoMf nc psi) (Fin.castAdd nb γ) • oneBody c cd (fun _ => L (Fin.castAdd nb γ))
      + (1 / 2 : ℂ) • (oneBody c cd (fun _ => L (Fin.castAdd nb γ)) -
          trace L (rhoMf nc psi) (Fin.castAdd nb γ) • (1 : R)) ^ 2
      - (1 / 2 * trace L (rhoMf nc psi) (Fin.castAdd nb γ) ^ 2 : ℂ) • (1 : R)
      - (1 / 2 : ℂ) • oneBody c cd (fun _ => L (Fin.castAdd nb γ) * L (Fin.castAdd nb γ)) :=
    fun γ => by
      rw [← square_shift, square_normal_order c cd hc (L _)]; abel
  have e2 : ∀ k, (1 / 2 : ℂ) • (oneBody c cd (fun _ => L (Fin.natAdd nbare k)) + opB (B k)) ^ 2 =
      trace L (rhoMf nc psi) (Fin.natAdd nbare k) • oneBody c cd (fun _ => L (Fin.natAdd nbare k)) +
      trace B (bosonRho bpsi) k • opB (B k) +
      (trace L (rhoMf nc psi) (Fin.natAdd nbare k) • opB (B k) +
        trace B (bosonRho bpsi) k • oneBody c cd (fun _ => L (Fin.natAdd nbare k))) +
      (1 / 2 : ℂ) • (oneBody c cd (fun _ => L (Fin.natAdd nbare k)) + opB (B k) -
        (trace L (rhoMf nc psi) (Fin.natAdd nbare k) + trace B (bosonRho bpsi) k) • (1 : R)) ^ 2 -
      (1 / 2 * (trace L (rhoMf nc psi) (Fin.natAdd nbare k) +
          trace B (bosonRho bpsi) k) ^ 2 : ℂ) • (1 : R) := fun k => by
    rw [square_shift _ (trace L (rhoMf nc psi) (Fin.natAdd nbare k) + trace B (bosonRho bpsi) k),
      add_smul, smul_add, smul_add]
    abel
  have e3 : opB (shiftedHb Hb B bpsi) = opB Hb + ∑ k, trace B (bosonRho bpsi) k • opB (B k) := by
    unfold shiftedHb
    rw [map_sub, map_sum, sub_eq_add_neg, ← Finset.sum_neg_distrib]
    congr 1
    refine Finset.sum_congr rfl fun k _ => ?_
    have : mfShift (trace B (bosonRho bpsi)) k • (Complex.I • B k) =
        (-(trace B (bosonRho bpsi) k)) • B k := by
      rw [smul_smul, mfShift]
      congr 1
      linear_combination (trace B (bosonRho bpsi) k) * Complex.I_mul_I
    rw [this, map_smul, neg_smul, neg_neg]
  have e4 : ∀ γ : Fin nbare, (L (Fin.castAdd nb γ)).map (starRingEnd ℂ) = L (Fin.castAdd nb γ) :=
    fun γ => map_star_real _ (hL γ)
  rw [jointGenerator, jointHamiltonian, crossTerms, oneBody_shifted c cd nc nbare h L psi,
    sum_bare nbare nb hnb, e3, Fin.sum_univ_add]
  simp only [Finset.smul_sum, e1, e2, e4, Finset.sum_add_distrib, Finset.sum_sub_distrib,
    add_smul (∑ γ : Fin nbare, _ : ℂ), Finset.sum_smul]
  abel

/-- **C97 (partial).** If all joint fields have mean-field value zero in both parts, the
decoupled propagator belongs to the joint Hamiltonian up to a constant.  Missing: any other
case. -/
theorem joint_hamiltonian_partial {nbare nb : ℕ} (c cd : n → s → R) (hc : CAR c cd)
    (opB : Matrix b b ℂ →ₗ[ℂ] R) (nc : ℕ) (hnb : 0 < nbare) (h : s → Matrix n n ℂ)
    (L : Fin (nbare + nb) → Matrix n n ℂ)
    (hL : ∀ γ p q, (L (Fin.castAdd nb γ) p q).im = 0) (psi : Matrix n i ℂ) (Hb : Matrix b b ℂ)
    (B : Fin nb → Matrix b b ℂ) (bpsi : b → ℂ)
    (hf : ∀ k, trace L (rhoMf nc psi) (Fin.natAdd nbare k) = 0)
    (hb : ∀ k, trace B (bosonRho bpsi) k = 0) :
    jointGenerator c cd opB nc h L psi Hb B bpsi = jointHamiltonian c cd opB h L Hb B +
      (∑ γ : Fin nbare, 1 / 2 * trace L (rhoMf nc psi) (Fin.castAdd nb γ) ^ 2 : ℂ) • (1 : R) := by
  rw [joint_hamiltonian c cd hc opB nc hnb h L hL psi Hb B bpsi, crossTerms]
  simp [hf, hb]

/-- **C97, disagreement.** The decoupled propagator belongs to the joint Hamiltonian (up to a
constant) exactly when the mean-field coupling is a constant. -/
theorem joint_hamiltonian_iff {nbare nb : ℕ} (c cd : n → s → R) (hc : CAR c cd)
    (opB : Matrix b b ℂ →ₗ[ℂ] R) (nc : ℕ) (hnb : 0 < nbare) (h : s → Matrix n n ℂ)
    (L : Fin (nbare + nb) → Matrix n n ℂ)
    (hL : ∀ γ p q, (L (Fin.castAdd nb γ) p q).im = 0) (psi : Matrix n i ℂ) (Hb : Matrix b b ℂ)
    (B : Fin nb → Matrix b b ℂ) (bpsi : b → ℂ) :
    (∃ z : ℂ, jointGenerator c cd opB nc h L psi Hb B bpsi =
      jointHamiltonian c cd opB h L Hb B + z • (1 : R)) ↔
    ∃ z : ℂ, crossTerms c cd opB nc L psi B bpsi = z • (1 : R) := by
  rw [joint_hamiltonian c cd hc opB nc hnb h L hL psi Hb B bpsi]
  set K : ℂ := (∑ γ : Fin nbare, 1 / 2 * trace L (rhoMf nc psi) (Fin.castAdd nb γ) ^ 2) +
        ∑ k, 1 / 2 * (trace L (rhoMf nc psi) (Fin.natAdd nbare k) +
          trace B (bosonRho bpsi) k) ^ 2
  constructor
  · rintro ⟨z, hz⟩
    refine ⟨K - z, ?_⟩
    rw [sub_smul, ← sub_eq_zero]
    have := sub_eq_zero.2 hz
    rw [← neg_eq_zero, ← this]
    abel
  · rintro ⟨z, hz⟩
    refine ⟨K - z, ?_⟩
    rw [hz, sub_smul]
    abel

omit [DecidableEq n] [DecidableEq s] in
/-- **C97, disagreement**, for the decomposition of one mode: electron matrices `e_k g` and
boson factors `f_k` with `Σ e_k f_k = 1` (schemes 1 and 2 of `bilinear_decomposition`).  The terms
left out are the mean-field coupling of the mode: the bosons in the field of the electrons
and the electrons in the field of the bosons. -/
theorem missing_coupling {nbare nb : ℕ} (c cd : n → s → R) (opB : Matrix b b ℂ →ₗ[ℂ] R) (nc : ℕ)
    (L : Fin (nbare + nb) → Matrix n n ℂ) (psi : Matrix n i ℂ) (bpsi : b → ℂ)
    (G : Matrix n n ℂ) (Hq : Matrix b b ℂ) (e f : Fin nb → ℂ)
    (hL : ∀ k, L (Fin.natAdd nbare k) = e k • G) (hef : ∑ k, e k * f k = 1) :
    crossTerms c cd opB nc L psi (cholB f Hq) bpsi =
      (∑ p, ∑ q, G p q * ((2 / nc : ℂ) * ∑ k, psi p k * star (psi q k))) • opB Hq +
      (∑ p, ∑ q, Hq p q * (bpsi p * star (bpsi q))) • oneBody c cd (fun _ => G) := by
  change _ = (∑ p, ∑ q, G p q * rhoMf nc psi p q) • opB Hq +
      (∑ p, ∑ q, Hq p q * bosonRho bpsi p q) • oneBody c cd (fun _ => G)
  have t1 : ∀ k, trace L (rhoMf nc psi) (Fin.natAdd nbare k) =
      e k * ∑ p, ∑ q, G p q * rhoMf nc psi p q := by
    intro k
    simp only [trace, hL, Matrix.smul_apply, smul_eq_mul, Finset.mul_sum, mul_assoc]
  have t2 : ∀ k, trace (cholB f Hq) (bosonRho bpsi) k =
      f k * ∑ p, ∑ q, Hq p q * bosonRho bpsi p q := by
    intro k
    simp only [trace, cholB, Matrix.smul_apply, smul_eq_mul, Finset.mul_sum, mul_assoc]
  have t3 : ∀ k, oneBody c cd (fun _ => L (Fin.natAdd nbare k)) = e k • oneBody c cd (fun _ => G) := by
    intro k; rw [hL k]; exact oneBody_smul c cd (e k) (fun _ => G)
  unfold crossTerms
  simp only [t1, t2, t3, cholB, map_smul, smul_smul, Finset.sum_add_distrib, ← Finset.sum_smul]
  have u1 : ∀ w : ℂ, (∑ k, e k * w * f k) = w := fun w => by
    calc (∑ k, e k * w * f k) = (∑ k, e k * f k) * w := by
          rw [Finset.sum_mul]; exact Finset.sum_congr rfl fun k _ => by ring
      _ = w := by rw [hef, one_mul]
  have u2 : ∀ w : ℂ, (∑ k, f k * w * e k) = w := fun w => by
    refine Eq.trans (Finset.sum_congr rfl fun k _ => ?_) (u1 w)
    ring
  rw [u1, u2]

end Joint

/-- The two decomposition schemes have `Σ e_k f_k = 1`. -/
example : (∑ k : Fin 3, (![1, Complex.I, 0] : Fin 3 → ℂ) k * (![1, 0, Complex.I] : Fin 3 → ℂ) k) = 1 := by
  simp [Fin.sum_univ_three]

/-- **C97, disagreement**, concretely: one electron level with coupling `1`, occupied in
the trial, bosons with two levels in their ground state.  No constant makes the built
propagator that of the Hamiltonian. -/
theorem joint_hamiltonian_fails :
    ∃ (c cd : Fin 1 → Fin 1 → Matrix (Fin 2 × Fin 2) (Fin 2 × Fin 2) ℂ)
      (opB : Matrix (Fin 2) (Fin 2) ℂ →ₗ[ℂ] Matrix (Fin 2 × Fin 2) (Fin 2 × Fin 2) ℂ),
      CAR c cd ∧ (∀ M p σ, Commute (opB M) (c p σ)) ∧ ¬ ∃ z : ℂ,
      jointGenerator (nbare := 1) (nb := 1) c cd opB 1 0 (fun _ => 1) (1 : Matrix (Fin 1) (Fin 1) ℂ) 0
        (fun _ => !![0, 1; 1, 0]) ![1, 0] =
      jointHamiltonian (nbare := 1) (nb := 1) c cd opB 0 (fun _ => 1) 0 (fun _ => !![0, 1; 1, 0]) +
        z • (1 : Matrix (Fin 2 × Fin 2) (Fin 2 × Fin 2) ℂ) := by
  let c : Fin 1 → Fin 1 → Matrix (Fin 2 × Fin 2) (Fin 2 × Fin 2) ℂ :=
    fun _ _ => kroneckerMap (· * ·) !![0, 1; 0, 0] 1
  let cd : Fin 1 → Fin 1 → Matrix (Fin 2 × Fin 2) (Fin 2 × Fin 2) ℂ :=
    fun _ _ => kroneckerMap (· * ·) !![0, 0; 1, 0] 1
  let opB : Matrix (Fin 2) (Fin 2) ℂ →ₗ[ℂ] Matrix (Fin 2 × Fin 2) (Fin 2 × Fin 2) ℂ :=
    kroneckerBilinear (R := ℂ) (α := ℂ) 1
  have hc : CAR c cd := by
    refine ⟨fun p σ q τ => ?_, fun p σ q τ => ?_⟩
    · rw [if_pos ⟨Subsingleton.elim _ _, Subsingleton.elim _ _⟩]
      simp only [c, cd, ← mul_kronecker_mul]
      rw [← Matrix.add_kronecker, one_mul]
      have : (!![0, 1; 0, 0] * !![0, 0; 1, 0] + !![0, 0; 1, 0] * !![0, 1; 0, 0] :
          Matrix (Fin 2) (Fin 2) ℂ) = 1 := by
        ext a b; fin_cases a <;> fin_cases b <;> simp
      rw [this, one_kronecker_one]
    · simp only [c, ← mul_kronecker_mul]
      have : (!![0, 1; 0, 0] * !![0, 1; 0, 0] : Matrix (Fin 2) (Fin 2) ℂ) = 0 := by
        ext a b; fin_cases a <;> fin_cases b <;> simp
      rw [this]; simp
  refine ⟨c, cd, opB, hc, fun M p σ => ?_, ?_⟩
  · show kroneckerMap (· * ·) 1 M * kroneckerMap (· * ·) !![0, 1; 0, 0] 1 =
      kroneckerMap (· * ·) !![0, 1; 0, 0] 1 * kroneckerMap (· * ·) 1 M
    rw [← mul_kronecker_mul, ← mul_kronecker_mul, one_mul, one_mul, mul_one, mul_one]
  · rw [joint_hamiltonian_iff (nbare := 1) (nb := 1) c cd hc opB 1 one_pos 0 (fun _ => 1) (by simp) 1 0
      (fun _ => !![0, 1; 1, 0]) ![1, 0]]
    rintro ⟨z, hz⟩
    have h0 := congrFun (congrFun hz (0, 0)) (0, 1)
    simp [crossTerms, trace, rhoMf, bosonRho, oneBody, opB, c, cd, kroneckerBilinear] at h0

end OpenMS.PropBuild
