/-
The integrals passed to the QED-CCSD equations belong to one Hamiltonian.
-/
import Verif.Model.CcIntegrals
import Mathlib.Tactic

namespace OpenMS.CcIntegrals

open Matrix OpenMS.Photon

variable {X n : Type*} [Fintype X] [Fintype n] (s : Setup X n)

/-- The arrays of a real calculation: two-electron integrals with their symmetries, symmetric
coupling matrices, as many columns of coefficients as atomic orbitals. -/
structure Setup.Real : Prop where
  pair : ∀ p q r t, s.eri r t p q = s.eri p q r t
  swap : ∀ p q r t, s.eri p q t r = s.eri p q r t
  g_symm : ∀ x p q, s.g x q p = s.g x p q
  na_le : s.na ≤ nao n
  nb_le : s.nb ≤ nao n

/-- Two-electron integral of spin atomic orbitals: the dressed integral if the spins agree. -/
def Setup.so (P Q R T : n ⊕ n) : ℝ :=
  match P, Q, R, T with
  | .inl p, .inl q, .inl r, .inl t => s.eriDse p q r t
  | .inl p, .inl q, .inr r, .inr t => s.eriDse p q r t
  | .inr p, .inr q, .inl r, .inl t => s.eriDse p q r t
  | .inr p, .inr q, .inr r, .inr t => s.eriDse p q r t
  | _, _, _, _ => 0

variable {s}

omit [Fintype X] in
theorem chi_inl (h : s.Real) (p : s.O ⊕ s.V) (μ : n) :
    s.chi p (.inl μ) = if s.pos p < nao n then s.C (s.pos p) μ else 0 := by
  have h1 := h.na_le
  have h2 := h.nb_le
  rcases p with ⟨i, hi⟩ | ⟨a, ha⟩
  · simp only [Sum.elim_inl, Setup.chi, Setup.Co, blockCols, Setup.pos, Setup.oidx, Setup.C]
    by_cases hc : i < s.na
    · have : i < nao n := by omega
      simp [hc, this]
    · simp [hc]
  · simp only [Sum.elim_inr, Setup.chi, Setup.Cv, blockCols, Setup.pos, Setup.vidx, Setup.C]
    by_cases hc : a < nao n - s.na
    · have : s.na + a < nao n := by omega
      simp [hc, this]
    · have : ¬ nao n + s.nb + (a - (nao n - s.na)) < nao n := by omega
      simp [hc, this]

omit [Fintype X] in
theorem chi_inr (h : s.Real) (p : s.O ⊕ s.V) (μ : n) :
    s.chi p (.inr μ) = if s.pos p < nao n then 0 else s.C (s.pos p) μ := by
  have h1 := h.na_le
  have h2 := h.nb_le
  rcases p with ⟨i, hi⟩ | ⟨a, ha⟩
  · simp only [Sum.elim_inl, Setup.chi, Setup.Co, blockCols, Setup.pos, Setup.oidx, Setup.C]
    by_cases hc : i < s.na
    · have : i < nao n := by omega
      simp [hc, this]
    · simp [hc]
  · simp only [Sum.elim_inr, Setup.chi, Setup.Cv, blockCols, Setup.pos, Setup.vidx, Setup.C]
    by_cases hc : a < nao n - s.na
    · have : s.na + a < nao n := by omega
      simp [hc, this]
    · have : ¬ nao n + s.nb + (a - (nao n - s.na)) < nao n := by omega
      have e : nao n + s.nb + (a - (nao n - s.na)) - nao n = s.nb + (a - (nao n - s.na)) := by omega
      simp [hc, this, e]

theorem eriMo_eq (h : s.Real) (p q r t : s.O ⊕ s.V) :
    s.eriMo (s.pos p) (s.pos q) (s.pos r) (s.pos t) =
      ∑ P, ∑ Q, ∑ R, ∑ T, s.chi p P * s.chi q Q * s.chi r R * s.chi t T * s.so P Q R T := by
  unfold Setup.eriMo
  simp only [Fintype.sum_sum_type, chi_inl h, chi_inr h, Setup.so]
  by_cases hp : s.pos p < nao n <;> by_cases hq : s.pos q < nao n <;>
    by_cases hr : s.pos r < nao n <;> by_cases ht : s.pos t < nao n <;>
    simp [hp, hq, hr, ht, not_lt.1, Nat.not_le.2]

/-- The two-electron integrals are the antisymmetrised integrals of the spin orbitals whose
coefficients are the columns of `Co` and `Cv`. -/
theorem I_eq (h : s.Real) (p q r t : s.O ⊕ s.V) :
    s.I p q r t =
      (∑ P, ∑ R, ∑ Q, ∑ T, s.chi p P * s.chi r R * s.chi q Q * s.chi t T * s.so P R Q T) -
        ∑ P, ∑ T, ∑ Q, ∑ R, s.chi p P * s.chi t T * s.chi q Q * s.chi r R * s.so P T Q R := by
  rw [← eriMo_eq h, ← eriMo_eq h]
  rfl

theorem sum4 {A : Type*} [Fintype A] (F : A → A → A → A → ℝ) :
    ∑ p, ∑ q, ∑ r, ∑ t, F p q r t = ∑ r, ∑ t, ∑ p, ∑ q, F p q r t := by
  have h : ∀ p, ∑ q, ∑ r, ∑ t, F p q r t = ∑ r, ∑ t, ∑ q, F p q r t := fun p =>
    Finset.sum_comm.trans (Finset.sum_congr rfl fun r _ => Finset.sum_comm)
  rw [Finset.sum_congr rfl fun p _ => h p]
  exact Finset.sum_comm.trans (Finset.sum_congr rfl fun r _ => Finset.sum_comm)

theorem eriDse_pair (h : s.Real) (p q r t : n) : s.eriDse r t p q = s.eriDse p q r t := by
  simp only [Setup.eriDse, h.pair p q r t]
  congr 1
  exact Finset.sum_congr rfl fun x _ => mul_comm _ _

theorem eriDse_swap (h : s.Real) (p q r t : n) : s.eriDse p q t r = s.eriDse p q r t := by
  simp only [Setup.eriDse, h.swap p q r t, h.g_symm _ r t]

theorem eriMo_pair (h : s.Real) (P Q R T : ℕ) : s.eriMo R T P Q = s.eriMo P Q R T := by
  unfold Setup.eriMo
  congr 1
  · simp only [eq_iff_iff]
    tauto
  · rw [sum4]
    refine Finset.sum_congr rfl fun p _ => Finset.sum_congr rfl fun q _ =>
      Finset.sum_congr rfl fun r _ => Finset.sum_congr rfl fun t _ => ?_
    rw [eriDse_pair h]
    ring

theorem eriMo_swap (h : s.Real) (P Q R T : ℕ) : s.eriMo P Q T R = s.eriMo P Q R T := by
  unfold Setup.eriMo
  congr 1
  · simp only [eq_iff_iff]
    tauto
  · refine Finset.sum_congr rfl fun p _ => Finset.sum_congr rfl fun q _ => ?_
    rw [Finset.sum_comm]
    refine Finset.sum_congr rfl fun r _ => Finset.sum_congr rfl fun t _ => ?_
    rw [eriDse_swap h]
    ring

/-- The integrals have the symmetries that the coupled-cluster equations assume. -/
theorem I_symm (h : s.Real) (p q r t : s.O ⊕ s.V) :
    s.I q p r t = -s.I p q r t ∧ s.I p q t r = -s.I p q r t ∧ s.I r t p q = s.I p q r t := by
  simp only [Setup.I, Setup.Ua]
  refine ⟨?_, by ring, ?_⟩
  · rw [eriMo_pair h (s.pos p) (s.pos t), eriMo_pair h (s.pos p) (s.pos r)]
    ring
  · have e : ∀ P Q R T, s.eriMo Q P T R = s.eriMo P Q R T := fun P Q R T => by
      rw [eriMo_swap h, eriMo_pair h R T, eriMo_swap h, eriMo_pair h]
    rw [e (s.pos p) (s.pos r), eriMo_pair h (s.pos t) (s.pos p), e (s.pos p) (s.pos t)]

omit [Fintype X] in
theorem ptot_eq (P Q : n ⊕ n) :
    s.ptot P Q = ∑ i : s.O, s.chi (.inl i) P * s.chi (.inl i) Q := by
  rw [Fin.sum_univ_add]
  have ha : ∀ i : Fin s.na, (i : ℕ) < s.na := fun i => i.2
  rcases P with p | p <;> rcases Q with q | q <;>
    simp [Setup.ptot, twice, Setup.chi, Setup.Co, blockCols, Setup.pa, Setup.pb,
      Finset.sum_range]

variable (s) in
/-- The Coulomb matrix of the dressed integrals. -/
noncomputable def Setup.jFull (D : Matrix n n ℝ) : Matrix n n ℝ :=
  of fun p q => ∑ r, ∑ t, D r t * s.eriDse p q r t

variable (s) in
/-- The exchange matrix of the dressed integrals. -/
noncomputable def Setup.kFull (D : Matrix n n ℝ) : Matrix n n ℝ :=
  of fun p q => ∑ r, ∑ t, D r t * s.eriDse p t r q

omit [Fintype X] in
theorem elem_sub (M N : Matrix (n ⊕ n) (n ⊕ n) ℝ) (p q : s.O ⊕ s.V) :
    s.elem (M - N) p q = s.elem M p q - s.elem N p q := by
  simp [Setup.elem, mul_sub, sub_mul]

omit [Fintype X] in
theorem elem_add (M N : Matrix (n ⊕ n) (n ⊕ n) ℝ) (p q : s.O ⊕ s.V) :
    s.elem (M + N) p q = s.elem M p q + s.elem N p q := by
  simp [Setup.elem, mul_add, add_mul, Finset.sum_add_distrib]

/-- Coulomb and exchange of the occupied spin orbitals. -/
theorem sum_I (h : s.Real) (p q : s.O ⊕ s.V) :
    ∑ i : s.O, s.I p (.inl i) q (.inl i) =
      s.elem (twice (s.jFull s.pa + s.jFull s.pb) (s.jFull s.pa + s.jFull s.pb)) p q -
        s.elem (twice (s.kFull s.pa) (s.kFull s.pb)) p q := by
  have hJ : ∀ P R, twice (s.jFull s.pa + s.jFull s.pb) (s.jFull s.pa + s.jFull s.pb) P R =
      ∑ Q, ∑ T, s.ptot Q T * s.so P R Q T := by
    intro P R
    rcases P with P | P <;> rcases R with R | R <;>
      simp [twice, Setup.ptot, Setup.so, Setup.jFull]
  have hK : ∀ P R, twice (s.kFull s.pa) (s.kFull s.pb) P R =
      ∑ Q, ∑ T, s.ptot Q T * s.so P T Q R := by
    intro P R
    rcases P with P | P <;> rcases R with R | R <;>
      simp [twice, Setup.ptot, Setup.so, Setup.kFull]
  simp only [I_eq h, Finset.sum_sub_distrib]
  congr 1
  · simp only [Setup.elem, hJ, ptot_eq, Finset.mul_sum, Finset.sum_mul]
    rw [Finset.sum_comm]
    refine Finset.sum_congr rfl fun P _ => ?_
    rw [Finset.sum_comm]
    refine Finset.sum_congr rfl fun R _ => ?_
    rw [Finset.sum_comm]
    refine Finset.sum_congr rfl fun Q _ => ?_
    rw [Finset.sum_comm]
    refine Finset.sum_congr rfl fun T _ => Finset.sum_congr rfl fun i _ => ?_
    ring
  · simp only [Setup.elem, hK, ptot_eq, Finset.mul_sum, Finset.sum_mul]
    rw [Finset.sum_comm]
    refine Finset.sum_congr rfl fun P _ => ?_
    have e : ∀ i : s.O, (∑ T, ∑ Q, ∑ R, s.chi p P * s.chi (.inl i) T * s.chi (.inl i) Q * s.chi q R
        * s.so P T Q R) = ∑ R, ∑ Q, ∑ T, s.chi p P * s.chi (.inl i) T * s.chi (.inl i) Q * s.chi q R
        * s.so P T Q R := fun i => by
      rw [Finset.sum_comm, Finset.sum_congr rfl fun Q _ => Finset.sum_comm, Finset.sum_comm]
    rw [Finset.sum_congr rfl fun i _ => e i, Finset.sum_comm]
    refine Finset.sum_congr rfl fun R _ => ?_
    rw [Finset.sum_comm]
    refine Finset.sum_congr rfl fun Q _ => ?_
    rw [Finset.sum_comm]
    refine Finset.sum_congr rfl fun T _ => Finset.sum_congr rfl fun i _ => ?_
    ring

omit [Fintype X] [Fintype n] in
theorem pa_symm (p q : n) : s.pa q p = s.pa p q := by simp [Setup.pa, mul_comm]

omit [Fintype X] [Fintype n] in
theorem pb_symm (p q : n) : s.pb q p = s.pb p q := by simp [Setup.pb, mul_comm]

theorem vj_dse (h : s.Real) (hd : (s.qedHf && s.addDse) = true) {D : Matrix n n ℝ}
    (hD : ∀ p q, D q p = D p q) : s.vj D = s.jFull D := by
  ext p q
  simp only [Setup.vj, hd, if_true, Setup.jFull, Setup.eriDse, vjDse, contract, Matrix.add_apply, of_apply,
    mul_add, Finset.sum_add_distrib, Finset.mul_sum, mul_one]
  congr 1
  · refine Finset.sum_congr rfl fun r _ => Finset.sum_congr rfl fun t _ => ?_
    rw [h.pair p q r t, hD r t]
    ring
  · rw [Finset.sum_comm]
    refine Finset.sum_congr rfl fun r _ => ?_
    rw [Finset.sum_comm]
    refine Finset.sum_congr rfl fun t _ => Finset.sum_congr rfl fun x _ => ?_
    ring

theorem vk_dse (h : s.Real) (hd : (s.qedHf && s.addDse) = true) {D : Matrix n n ℝ}
    (hD : ∀ p q, D q p = D p q) : s.vk D = s.kFull D := by
  ext p q
  simp only [Setup.vk, hd, if_true, Setup.kFull, Setup.eriDse, vkDse, Matrix.add_apply, of_apply,
    mul_add, Finset.sum_add_distrib, Finset.mul_sum, mul_one]
  congr 1
  · rw [Finset.sum_comm]
    refine Finset.sum_congr rfl fun r _ => Finset.sum_congr rfl fun t _ => ?_
    rw [hD r t]
    ring
  · rw [Finset.sum_comm]
    rw [Finset.sum_congr rfl fun r _ => Finset.sum_comm]
    rw [Finset.sum_comm]
    refine Finset.sum_congr rfl fun r _ => Finset.sum_congr rfl fun t _ =>
      Finset.sum_congr rfl fun x _ => ?_
    rw [h.g_symm x q r, hD r t]
    ring

/-- If the mean field has the dipole self-energy in its Coulomb and exchange matrices, the Fock
matrix is the one-electron matrix plus the interaction with the occupied spin orbitals. -/
theorem fock_consistent_partial (h : s.Real) (hd : (s.qedHf && s.addDse) = true)
    (hs : s.shift = false) (p q : s.O ⊕ s.V) :
    s.F p q = s.elem (twice s.h1 s.h1) p q + ∑ i : s.O, s.I p (.inl i) q (.inl i) := by
  rw [sum_I h, Setup.F, hs, if_neg (by simp), Setup.fock, elem_sub, elem_add,
    vj_dse h hd pa_symm, vj_dse h hd pb_symm, vk_dse h hd pa_symm, vk_dse h hd pb_symm]
  ring

theorem vj_bare (h : s.Real) (hd : (s.qedHf && s.addDse) = false) {D : Matrix n n ℝ}
    (hD : ∀ p q, D q p = D p q) : s.vj D = ({ s with g := 0 } : Setup X n).jFull D := by
  ext p q
  simp only [Setup.vj, hd, Setup.jFull, Setup.eriDse, Matrix.add_apply, of_apply, Pi.zero_apply,
    Matrix.zero_apply, zero_mul, Finset.sum_const_zero, add_zero, Bool.false_eq_true, if_false]
  refine Finset.sum_congr rfl fun r _ => Finset.sum_congr rfl fun t _ => ?_
  rw [h.pair p q r t, hD r t]
  ring

theorem vk_bare (hd : (s.qedHf && s.addDse) = false) {D : Matrix n n ℝ}
    (hD : ∀ p q, D q p = D p q) : s.vk D = ({ s with g := 0 } : Setup X n).kFull D := by
  ext p q
  simp only [Setup.vk, hd, Setup.kFull, Setup.eriDse, Matrix.add_apply, of_apply, Pi.zero_apply,
    Matrix.zero_apply, zero_mul, Finset.sum_const_zero, add_zero, Bool.false_eq_true, if_false]
  rw [Finset.sum_comm]
  refine Finset.sum_congr rfl fun r _ => Finset.sum_congr rfl fun t _ => ?_
  rw [hD r t]
  ring

/-- If the mean field has no dipole self-energy (a bare one, or `add_dse` off), the Fock matrix
belongs to the integrals without the coupling products, while `get_I` adds them. -/
theorem fock_bare (h : s.Real) (hd : (s.qedHf && s.addDse) = false)
    (hs : s.shift = false) (p q : s.O ⊕ s.V) :
    s.F p q = s.elem (twice s.h1 s.h1) p q +
      ∑ i : s.O, ({ s with g := 0 } : Setup X n).I p (.inl i) q (.inl i) := by
  have h0 : ({ s with g := 0 } : Setup X n).Real :=
    ⟨h.pair, h.swap, fun _ _ _ => rfl, h.na_le, h.nb_le⟩
  have e := sum_I h0 p q
  refine Eq.trans ?_ (congrArg (s.elem (twice s.h1 s.h1) p q + ·) e.symm)
  have hF : s.F p q = s.elem s.fock p q := by simp [Setup.F, hs]
  rw [hF, Setup.fock, elem_sub, elem_add,
    vj_bare h hd pa_symm, vj_bare h hd pb_symm, vk_bare hd pa_symm, vk_bare hd pb_symm]
  rw [add_sub_assoc]
  rfl

/-- A system of one atomic orbital and two electrons. -/
def one (g : ℝ) (addDse shift useCs qedHf : Bool) : Setup (Fin 1) (Fin 1) where
  g := fun _ => of fun _ _ => g
  z := 0
  T := fun _ => of fun _ _ => 1
  S := 1
  ne := 2
  eBoson := 0
  omega := 2
  ph := 0
  addDse := addDse
  ca := fun _ _ => 1
  cb := fun _ _ => 1
  na := 1
  nb := 1
  f := 0
  hcore := 0
  eri := fun _ _ _ _ => 1
  enuc := 0
  shift := shift
  useCs := useCs
  qedHf := qedHf

theorem one_real (g : ℝ) (a b c d : Bool) : (one g a b c d).Real :=
  ⟨fun _ _ _ _ => rfl, fun _ _ _ _ => rfl, fun _ _ _ => rfl, le_refl 1, le_refl 1⟩

theorem one_I (g : ℝ) (a b c d : Bool) :
    ∑ i : (one g a b c d).O, (one g a b c d).I (.inl ⟨0, Nat.zero_lt_two⟩) (.inl i)
      (.inl ⟨0, Nat.zero_lt_two⟩) (.inl i) = 1 + g ^ 2 := by
  have h2 : ∀ f : (one g a b c d).O → ℝ, ∑ i, f i = f ⟨0, Nat.zero_lt_two⟩ + f ⟨1, Nat.one_lt_two⟩ := by
    intro f
    exact Fin.sum_univ_two f
  rw [h2]
  simp [Setup.I, Setup.Ua, Setup.pos, Setup.oidx, Setup.eriMo, Setup.C, Setup.eriDse, one, nao]
  ring

/-- The hypotheses of `fock_consistent_partial` hold for the system of one orbital. -/
example (g : ℝ) (b : Bool) (p q : (one g true false b true).O ⊕ (one g true false b true).V) :
    (one g true false b true).F p q =
      (one g true false b true).elem (twice (one g true false b true).h1 (one g true false b true).h1) p q +
        ∑ i : (one g true false b true).O, (one g true false b true).I p (.inl i) q (.inl i) :=
  fock_consistent_partial (one_real g true false b true) rfl rfl p q

/-- On a bare mean field the Fock matrix is not that of the integrals. -/
theorem fock_consistent_fails (addDse useCs : Bool) :
    let s := one 1 addDse false useCs false
    s.F (.inl ⟨0, Nat.zero_lt_two⟩) (.inl ⟨0, Nat.zero_lt_two⟩) ≠
      s.elem (twice s.h1 s.h1) (.inl ⟨0, Nat.zero_lt_two⟩) (.inl ⟨0, Nat.zero_lt_two⟩) +
        ∑ i : s.O, s.I (.inl ⟨0, Nat.zero_lt_two⟩) (.inl i) (.inl ⟨0, Nat.zero_lt_two⟩) (.inl i) := by
  intro s
  rw [fock_bare (one_real 1 addDse false useCs false) rfl rfl, one_I]
  intro hc
  have h0 := one_I 0 addDse false useCs false
  have h1 : (1 : ℝ) + 0 ^ 2 = 1 + 1 ^ 2 := h0.symm.trans (add_left_cancel hc)
  norm_num at h1

/-! ### Orbital energies -/

variable (s) in
/-- Fock matrix of a spin up orbital. -/
noncomputable def Setup.fa : Matrix n n ℝ := s.h1 + (s.vj s.pa + s.vj s.pb) - s.vk s.pa

variable (s) in
/-- Fock matrix of a spin down orbital. -/
noncomputable def Setup.fb : Matrix n n ℝ := s.h1 + (s.vj s.pa + s.vj s.pb) - s.vk s.pb

theorem fock_eq : s.fock = twice s.fa s.fb := by
  ext P Q
  rcases P with P | P <;> rcases Q with Q | Q <;> simp [Setup.fock, twice, Setup.fa, Setup.fb]

omit [Fintype X] in
theorem elem_twice (h : s.Real) (A B : Matrix n n ℝ) (p q : s.O ⊕ s.V) :
    s.elem (twice A B) p q =
      if s.pos p < nao n ∧ s.pos q < nao n then ∑ μ, ∑ ν, s.ca μ (s.pos p) * A μ ν * s.ca ν (s.pos q)
      else if ¬ s.pos p < nao n ∧ ¬ s.pos q < nao n then
        ∑ μ, ∑ ν, s.cb μ (s.pos p - nao n) * B μ ν * s.cb ν (s.pos q - nao n)
      else 0 := by
  simp only [Setup.elem, Fintype.sum_sum_type, chi_inl h, chi_inr h, Setup.C, twice,
    fromBlocks_apply₁₁, fromBlocks_apply₁₂, fromBlocks_apply₂₁, fromBlocks_apply₂₂]
  by_cases hp : s.pos p < nao n <;> by_cases hq : s.pos q < nao n <;> simp [hp, hq]

omit [Fintype X] in
theorem pos_lt (h : s.Real) (p : s.O ⊕ s.V) : s.pos p < nao n + nao n := by
  have h1 := h.na_le
  have h2 := h.nb_le
  rcases p with ⟨i, hi⟩ | ⟨a, ha⟩
  · simp only [Setup.pos, Sum.elim_inl, Setup.oidx]
    split_ifs <;> omega
  · simp only [Setup.pos, Sum.elim_inr, Setup.vidx]
    split_ifs <;> omega

omit [Fintype X] in
theorem pos_injective (h : s.Real) : Function.Injective s.pos := by
  have h1 := h.na_le
  have h2 := h.nb_le
  intro p q e
  rcases p with ⟨i, hi⟩ | ⟨a, ha⟩ <;> rcases q with ⟨j, hj⟩ | ⟨b, hb⟩ <;>
    simp only [Setup.pos, Sum.elim_inl, Sum.elim_inr, Setup.oidx, Setup.vidx] at e
  · congr 2
    split_ifs at e <;> omega
  · exfalso
    split_ifs at e <;> omega
  · exfalso
    split_ifs at e <;> omega
  · congr 2
    split_ifs at e <;> omega

/-- With converged canonical orbitals the matrix `F` is diagonal and holds the orbital energies: the
singles have no source and the off-diagonal blocks vanish. -/
theorem F_canonical (h : s.Real) (hs : s.shift = false) {S : Matrix n n ℝ} {ea eb : ℕ → ℝ}
    (ha : ∀ j < nao n, ∀ μ, ∑ ν, s.fa μ ν * s.ca ν j = ∑ ν, S μ ν * s.ca ν j * ea j)
    (hb : ∀ j < nao n, ∀ μ, ∑ ν, s.fb μ ν * s.cb ν j = ∑ ν, S μ ν * s.cb ν j * eb j)
    (oa : ∀ i < nao n, ∀ j < nao n,
      ∑ μ, ∑ ν, s.ca μ i * S μ ν * s.ca ν j = if i = j then 1 else 0)
    (ob : ∀ i < nao n, ∀ j < nao n,
      ∑ μ, ∑ ν, s.cb μ i * S μ ν * s.cb ν j = if i = j then 1 else 0)
    (p q : s.O ⊕ s.V) :
    s.F p q = if p = q then
      (if s.pos q < nao n then ea (s.pos q) else eb (s.pos q - nao n)) else 0 := by
  have hF : s.F p q = s.elem s.fock p q := by simp [Setup.F, hs]
  have hp := pos_lt h p
  have hq := pos_lt h q
  have hi : p = q ↔ s.pos p = s.pos q := ⟨fun e => by rw [e], fun e => pos_injective h e⟩
  have key : ∀ (A : Matrix n n ℝ) (c : n → ℕ → ℝ) (e : ℕ → ℝ) (i j : ℕ),
      (∀ μ, ∑ ν, A μ ν * c ν j = ∑ ν, S μ ν * c ν j * e j) →
      ∑ μ, ∑ ν, c μ i * A μ ν * c ν j = (∑ μ, ∑ ν, c μ i * S μ ν * c ν j) * e j := by
    intro A c e i j hA
    rw [Finset.sum_mul]
    refine Finset.sum_congr rfl fun μ _ => ?_
    have := hA μ
    simp only [mul_assoc, ← Finset.mul_sum] at this ⊢
    rw [this, Finset.sum_mul]
    simp only [mul_assoc]
  rw [hF, fock_eq, elem_twice h]
  by_cases h1 : s.pos p < nao n <;> by_cases h2 : s.pos q < nao n
  · rw [if_pos ⟨h1, h2⟩, key _ _ ea _ _ (ha _ h2), oa _ h1 _ h2, if_pos h2]
    simp only [hi]
    split_ifs <;> simp
  · rw [if_neg (by tauto), if_neg (by tauto), if_neg]
    rw [hi]
    omega
  · rw [if_neg (by tauto), if_neg (by tauto), if_neg]
    rw [hi]
    omega
  · rw [if_neg (by tauto), if_pos ⟨h1, h2⟩, key _ _ eb _ _ (hb _ (by omega)),
      ob _ (by omega) _ (by omega), if_neg h2]
    have e : (s.pos p - nao n = s.pos q - nao n) ↔ p = q := by
      rw [hi]
      omega
    simp only [e]
    split_ifs <;> simp

/-- One electron in two orbitals that do not couple through the dipole and couple through the quadrupole
if `t` is not zero. -/
def quad (t : ℝ) (shift : Bool) : Setup (Fin 1) (Fin 2) where
  g := 0
  z := 0
  T := fun _ => !![2, t; t, 4]
  S := 1
  ne := 1
  eBoson := 0
  omega := 2
  ph := 0
  addDse := true
  ca := fun μ j => if μ.1 = j then 1 else 0
  cb := fun μ j => if μ.1 = j then 1 else 0
  na := 1
  nb := 0
  f := 0
  hcore := 0
  eri := 0
  enuc := 0
  shift := shift
  useCs := true
  qedHf := true

theorem quad_real (t : ℝ) (b : Bool) : (quad t b).Real :=
  ⟨fun _ _ _ _ => rfl, fun _ _ _ _ => rfl, fun _ _ _ => rfl, Nat.le_succ 1, Nat.zero_le 2⟩

/-- The hypotheses of `F_canonical` hold for two orbitals of energies one and two. -/
example (p q : (quad 0 false).O ⊕ (quad 0 false).V) :
    (quad 0 false).F p q = if p = q then
      (if (quad 0 false).pos q < nao (Fin 2) then (fun j : ℕ => (j : ℝ) + 1) ((quad 0 false).pos q)
        else (fun j : ℕ => (j : ℝ) + 1) ((quad 0 false).pos q - nao (Fin 2))) else 0 := by
  have hfa : (quad 0 false).fa = !![1, 0; 0, 2] := by
    ext i j
    fin_cases i <;> fin_cases j <;>
      simp [Setup.fa, Setup.h1, quad, oei, Setup.cs, gvar2, contract, Setup.vj, Setup.vk, vjDse,
        vkDse]; norm_num
  have hfb : (quad 0 false).fb = !![1, 0; 0, 2] := by
    ext i j
    fin_cases i <;> fin_cases j <;>
      simp [Setup.fb, Setup.h1, quad, oei, Setup.cs, gvar2, contract, Setup.vj, Setup.vk, vjDse,
        vkDse]; norm_num
  refine F_canonical (quad_real 0 false) rfl (S := 1) (ea := fun j : ℕ => (j : ℝ) + 1) (eb := fun j : ℕ => (j : ℝ) + 1)
    ?_ ?_ ?_ ?_ p q
  · intro j hj μ
    rw [hfa]
    simp only [nao, Fintype.card_fin] at hj
    interval_cases j <;> fin_cases μ <;> simp [quad, Fin.sum_univ_two, Matrix.one_apply]; norm_num
  · intro j hj μ
    rw [hfb]
    simp only [nao, Fintype.card_fin] at hj
    interval_cases j <;> fin_cases μ <;> simp [quad, Fin.sum_univ_two, Matrix.one_apply]; norm_num
  · intro i hi j hj
    simp only [nao, Fintype.card_fin] at hi hj
    interval_cases i <;> interval_cases j <;> simp [quad, Fin.sum_univ_two, Matrix.one_apply]
  · intro i hi j hj
    simp only [nao, Fintype.card_fin] at hi hj
    interval_cases i <;> interval_cases j <;> simp [quad, Fin.sum_univ_two, Matrix.one_apply]

/-! ### The displacement of the photons -/

omit [Fintype X] in
theorem contract_ptot (A : Matrix n n ℝ) :
    ∑ a, ∑ b, twice A A a b * s.ptot a b = contract (s.pa + s.pb) A := by
  simp only [Fintype.sum_sum_type, twice, Setup.ptot, fromBlocks_apply₁₁, fromBlocks_apply₁₂,
    fromBlocks_apply₂₁, fromBlocks_apply₂₂, contract, Matrix.add_apply, Matrix.zero_apply, zero_mul,
    Finset.sum_const_zero, add_zero, zero_add, add_mul, Finset.sum_add_distrib]
  simp only [mul_comm]

theorem contract_smul (c : ℝ) (D A : Matrix n n ℝ) : contract D (c • A) = c * contract D A := by
  simp only [contract, Matrix.smul_apply, smul_eq_mul, Finset.mul_sum]
  refine Finset.sum_congr rfl fun p _ => Finset.sum_congr rfl fun q _ => ?_
  ring

omit [Fintype X] in
theorem xi_eq (x : X) :
    s.xi x = Real.sqrt (s.omega x / 2) * contract (s.pa + s.pb) (s.g x) / s.omega x := by
  rw [Setup.xi, Setup.gso, contract_ptot, contract_smul]

omit [Fintype X] in
/-- The displacement `xi` cancels the linear photon term. -/
theorem xi_linear (x : X) (hw : 0 < s.omega x) :
    Real.sqrt (s.omega x / 2) * contract (s.pa + s.pb) (s.g x) - s.omega x * s.xi x = 0 := by
  rw [xi_eq]
  field_simp
  ring

omit [Fintype X] in
theorem elem_smul (c : ℝ) (M : Matrix (n ⊕ n) (n ⊕ n) ℝ) (p q : s.O ⊕ s.V) :
    s.elem (c • M) p q = c * s.elem M p q := by
  simp only [Setup.elem, Matrix.smul_apply, smul_eq_mul, Finset.mul_sum]
  refine Finset.sum_congr rfl fun P _ => Finset.sum_congr rfl fun Q _ => ?_
  ring

theorem elem_sum (M : X → Matrix (n ⊕ n) (n ⊕ n) ℝ) (p q : s.O ⊕ s.V) :
    s.elem (∑ x, M x) p q = ∑ x, s.elem (M x) p q := by
  simp only [Setup.elem, Matrix.sum_apply, Finset.mul_sum, Finset.sum_mul]
  rw [Finset.sum_comm (s := (Finset.univ : Finset X))]
  refine Finset.sum_congr rfl fun P _ => ?_
  rw [Finset.sum_comm]

omit [Fintype n] in
theorem twice_add (A B A' B' : Matrix n n ℝ) : twice (A + A') (B + B') = twice A B + twice A' B' := by
  simp [twice, fromBlocks_add]

omit [Fintype n] in
theorem twice_smul (c : ℝ) (A B : Matrix n n ℝ) : twice (c • A) (c • B) = c • twice A B := by
  simp [twice, fromBlocks_smul]

variable (s) in
/-- One-electron terms of the dressed Hamiltonian other than the linear ones. -/
noncomputable def Setup.rest : Matrix n n ℝ :=
  (if s.addDse then (1 / 2 : ℝ) • ∑ x, s.T x else 0) +
    ((1 / 2 * ∑ x, (contract (s.pa + s.pb) (s.g x)) ^ 2 + s.eBoson) / s.ne) • s.S

theorem oei_cs (hc : s.useCs = true) (hp : s.ph = 0) :
    oei s.cs false s.f = s.rest - ∑ x, contract (s.pa + s.pb) (s.g x) • s.g x := by
  ext p q
  simp only [oei, Setup.cs, hc, hp, Setup.rest, gvar2, Matrix.add_apply, Matrix.sub_apply, of_apply,
    Matrix.sum_apply, Matrix.smul_apply, smul_eq_mul, if_true, Bool.false_eq_true, if_false, one_mul,
    mul_one, Pi.zero_apply, zero_mul, Finset.sum_const_zero, add_zero]
  have e : ∑ x, s.g x p q * contract (s.pa + s.pb) (s.g x)
      = ∑ x, contract (s.pa + s.pb) (s.g x) * s.g x p q := by
    simp only [mul_comm]
  rw [e]
  split_ifs <;>
    simp only [Matrix.smul_apply, Matrix.sum_apply, Matrix.zero_apply, smul_eq_mul] <;> ring

/-- With the photons displaced by hand (`shift`) the matrix `F` is that of the coherent-state
Hamiltonian without its one-electron part `rest`: the quadrupole term and the energy per electron. -/
theorem F_shift (hs : s.shift = true) (hc : s.useCs = true) (hp : s.ph = 0)
    (hw : ∀ x, 0 < s.omega x) (p q : s.O ⊕ s.V) :
    s.F p q = ({ s with shift := false } : Setup X n).F p q - s.elem (twice s.rest s.rest) p q := by
  have hF : s.F p q = s.elem s.fock p q - 2 * ∑ x, s.xi x * s.elem (s.gso x) p q := by
    simp [Setup.F, hs]
  have hF' : ({ s with shift := false } : Setup X n).F p q
      = s.elem ({ s with shift := false } : Setup X n).fock p q := by
    simp [Setup.F, Setup.elem]
    rfl
  have hfock : ({ s with shift := false } : Setup X n).fock
      = s.fock + twice (oei s.cs false s.f) (oei s.cs false s.f) := by
    have h1 : ({ s with shift := false } : Setup X n).h1 = s.hcore + oei s.cs false s.f := rfl
    have h1' : s.h1 = s.hcore := by simp [Setup.h1, hs]
    have hr : ({ s with shift := false } : Setup X n).fock =
        twice (s.hcore + oei s.cs false s.f) (s.hcore + oei s.cs false s.f) +
        twice (s.vj s.pa + s.vj s.pb) (s.vj s.pa + s.vj s.pb) - twice (s.vk s.pa) (s.vk s.pb) := rfl
    rw [hr, Setup.fock, h1', twice_add]
    abel
  have hx : ∀ x, 2 * (s.xi x * s.elem (s.gso x) p q)
      = s.elem (contract (s.pa + s.pb) (s.g x) • twice (s.g x) (s.g x)) p q := by
    intro x
    have e := Real.mul_self_sqrt (le_of_lt (half_pos (hw x)))
    rw [xi_eq, Setup.gso, twice_smul, elem_smul, elem_smul]
    have hne := ne_of_gt (hw x)
    field_simp
    rw [pow_two, e]
    ring
  have hsum : twice (∑ x, contract (s.pa + s.pb) (s.g x) • s.g x)
        (∑ x, contract (s.pa + s.pb) (s.g x) • s.g x)
      = ∑ x, contract (s.pa + s.pb) (s.g x) • twice (s.g x) (s.g x) := by
    ext P Q
    rcases P with P | P <;> rcases Q with Q | Q <;>
      simp [twice, Matrix.sum_apply]
  have hsub : twice (s.rest - ∑ x, contract (s.pa + s.pb) (s.g x) • s.g x)
      (s.rest - ∑ x, contract (s.pa + s.pb) (s.g x) • s.g x) =
      twice s.rest s.rest - ∑ x, contract (s.pa + s.pb) (s.g x) • twice (s.g x) (s.g x) := by
    rw [← hsum]
    ext P Q
    rcases P with P | P <;> rcases Q with Q | Q <;> simp [twice]
  rw [hF, hF', hfock, elem_add, oei_cs hc hp, hsub, elem_sub, elem_sum, Finset.mul_sum,
    Finset.sum_congr rfl fun x _ => hx x]
  ring

/-- The displaced equations miss the source of the singles that the quadrupole gives. -/
theorem F_shift_fails :
    (quad 1 true).F (.inl ⟨0, Nat.one_pos⟩) (.inr ⟨0, Nat.zero_lt_succ _⟩) = 0 ∧
      (quad 1 false).F (.inl ⟨0, Nat.one_pos⟩) (.inr ⟨0, Nat.zero_lt_succ _⟩) = 1 / 2 := by
  have ho : ∀ b P, (quad 1 b).chi (.inl ⟨0, Nat.one_pos⟩) P
      = Sum.elim (fun μ : Fin 2 => if μ = 0 then 1 else 0) 0 P := by
    intro b P
    change (quad 1 b).Co P 0 = _
    rcases P with P | P <;> fin_cases P <;> simp [Setup.Co, blockCols, quad]
  have hv : ∀ b P, (quad 1 b).chi (.inr ⟨0, Nat.zero_lt_succ _⟩) P
      = Sum.elim (fun μ : Fin 2 => if μ = 1 then 1 else 0) 0 P := by
    intro b P
    change (quad 1 b).Cv P 0 = _
    rcases P with P | P <;> fin_cases P <;> simp [Setup.Cv, blockCols, quad, nao]
  constructor
  · simp only [Setup.F, Setup.elem, ho, hv]
    simp [Setup.fock, quad, Setup.h1, Setup.vj, Setup.vk, vjDse, vkDse, Setup.gso, twice]
  · simp only [Setup.F, Setup.elem, ho, hv]
    simp [Setup.fock, quad, Setup.h1, Setup.vj, Setup.vk, vjDse, vkDse, twice, oei,
      Setup.cs, gvar2, contract]

/-! ### The mean-field photon term -/

variable (s) in
/-- The linear photon coefficient of the normal-ordered Hamiltonian: coupling of the reference minus
the displacement of the coherent state. -/
noncomputable def Setup.linear (x : X) : ℝ :=
  Real.sqrt (s.omega x / 2) * (contract (s.pa + s.pb) (s.g x) - s.cs.z x)

omit [Fintype X] in
theorem mfG_eq (hs : s.shift = false) (x : X) :
    s.mfG x = Real.sqrt (s.omega x / 2) * contract (s.pa + s.pb) (s.g x) := by
  have e : s.mfG x = ∑ p, ∑ q, s.gso x p q * s.ptot q p := by simp [Setup.mfG, hs]
  have hsym : ∀ p q, s.ptot q p = s.ptot p q := by
    intro p q
    rcases p with p | p <;> rcases q with q | q <;>
      simp [Setup.ptot, twice, pa_symm, pb_symm]
  rw [e]
  simp only [hsym]
  rw [Setup.gso, contract_ptot, contract_smul]

omit [Fintype X] in
/-- The function `mfG` gives the linear photon term of a mean field without coherent state. -/
theorem mfG_linear (hs : s.shift = false) (x : X) (hw : 0 < s.omega x) :
    s.mfG x = s.linear x ↔ s.cs.z x = 0 := by
  have hq : Real.sqrt (s.omega x / 2) ≠ 0 := ne_of_gt (Real.sqrt_pos.2 (half_pos hw))
  rw [mfG_eq hs, Setup.linear, mul_right_inj' hq]
  constructor <;> intro h <;> linarith

omit [Fintype X] in
/-- The zero that the kernel puts in is right exactly when the state is displaced to the coupling of
the reference. -/
theorem kernelG_linear (x : X) (hw : 0 < s.omega x) :
    s.kernelG x = s.linear x ↔ s.cs.z x = contract (s.pa + s.pb) (s.g x) := by
  have hq : Real.sqrt (s.omega x / 2) ≠ 0 := ne_of_gt (Real.sqrt_pos.2 (half_pos hw))
  rw [Setup.kernelG, Setup.linear, eq_comm, mul_eq_zero]
  constructor
  · rintro (h | h)
    · exact absurd h hq
    · linarith
  · intro h
    right
    linarith

omit [Fintype X] in
/-- With coherent state the kernel's linear photon term is right. -/
theorem kernelG_partial (hc : s.useCs = true) (x : X) (hw : 0 < s.omega x) :
    s.kernelG x = s.linear x := by
  rw [kernelG_linear x hw]
  simp [Setup.cs, hc]

/-- In the Fock basis, without coherent state, the kernel drops a linear photon term. -/
theorem kernelG_fails (a b d : Bool) : (one 1 a b false d).kernelG 0 ≠ (one 1 a b false d).linear 0 := by
  have h := kernelG_linear (s := one 1 a b false d) 0 (by simp [one])
  rw [Ne, h]
  simp [Setup.cs, one, contract, Setup.pa, Setup.pb]
  norm_num

/-! ### The reference energy -/

variable (s) in
/-- openms/mqed/qedhf.py L728-L735: energy of the determinant with core matrix `h`, two-electron
part counted half. -/
noncomputable def Setup.eDet (h : Matrix n n ℝ) : ℝ :=
  contract (s.pa + s.pb) h +
    1 / 2 * (contract s.pa (s.vj s.pa + s.vj s.pb - s.vk s.pa) +
      contract s.pb (s.vj s.pa + s.vj s.pb - s.vk s.pb)) + s.enuc

theorem contract_add_left (D D' A : Matrix n n ℝ) :
    contract (D + D') A = contract D A + contract D' A := by
  simp [contract, add_mul, Finset.sum_add_distrib]

theorem contract_add_right (D A A' : Matrix n n ℝ) :
    contract D (A + A') = contract D A + contract D A' := by
  simp [contract, mul_add, Finset.sum_add_distrib]

omit [Fintype X] in
theorem trace_ptot (A B : Matrix n n ℝ) :
    ∑ i, ∑ j, s.ptot i j * twice A B j i = contract s.pa A + contract s.pb B := by
  simp only [Fintype.sum_sum_type, twice, Setup.ptot, fromBlocks_apply₁₁, fromBlocks_apply₁₂,
    fromBlocks_apply₂₁, fromBlocks_apply₂₂, contract, Matrix.zero_apply, mul_zero,
    Finset.sum_const_zero, add_zero, zero_add, Finset.sum_add_distrib]
  congr 1
  · rw [Finset.sum_comm]
    simp only [pa_symm]
  · rw [Finset.sum_comm]
    simp only [pb_symm]

/-- `hf_energy` without shift counts the photon part of the core matrix half. -/
theorem hfEnergy_eq (hs : s.shift = false) :
    s.hfEnergy = s.eDet (s.hcore + oei s.cs false s.f) -
      1 / 2 * contract (s.pa + s.pb) (oei s.cs false s.f) := by
  have e : s.hfEnergy = 1 / 2 * ((∑ i, ∑ j, s.ptot i j * s.fock j i) +
      ∑ i, ∑ j, s.ptot i j * twice s.hcore s.hcore j i) + s.enuc := by
    simp [Setup.hfEnergy, hs]
  have h1 : s.h1 = s.hcore + oei s.cs false s.f := by simp [Setup.h1, hs]
  have hfa : s.fa = s.hcore + oei s.cs false s.f + (s.vj s.pa + s.vj s.pb - s.vk s.pa) := by
    rw [Setup.fa, h1, add_sub_assoc]
  have hfb : s.fb = s.hcore + oei s.cs false s.f + (s.vj s.pa + s.vj s.pb - s.vk s.pb) := by
    rw [Setup.fb, h1, add_sub_assoc]
  rw [e, fock_eq, trace_ptot, trace_ptot, Setup.eDet, hfa, hfb]
  simp only [contract_add_right, contract_add_left]
  ring

/-- `hf_energy` with shift is the energy of the coherent-state mean field without the quadrupole part
and the photon energy. -/
theorem hfEnergy_shift (hs : s.shift = true) (hc : s.useCs = true) (hp : s.ph = 0)
    (hw : ∀ x, 0 < s.omega x) (hS : contract (s.pa + s.pb) s.S = s.ne) (hne : s.ne ≠ 0) :
    s.hfEnergy = s.eDet (s.hcore + oei s.cs false s.f) - s.eBoson -
      (if s.addDse then 1 / 2 * ∑ x, contract (s.pa + s.pb) (s.T x) else 0) := by
  have e : s.hfEnergy = 1 / 2 * ((∑ i, ∑ j, s.ptot i j * s.fock j i) +
      ∑ i, ∑ j, s.ptot i j * twice s.hcore s.hcore j i) + s.enuc + s.const := by
    simp [Setup.hfEnergy, hs]
  have h1 : s.h1 = s.hcore := by simp [Setup.h1, hs]
  have hfa : s.fa = s.hcore + (s.vj s.pa + s.vj s.pb - s.vk s.pa) := by
    rw [Setup.fa, h1, add_sub_assoc]
  have hfb : s.fb = s.hcore + (s.vj s.pa + s.vj s.pb - s.vk s.pb) := by
    rw [Setup.fb, h1, add_sub_assoc]
  have hconst : s.const = -(1 / 2 * ∑ x, (contract (s.pa + s.pb) (s.g x)) ^ 2) := by
    rw [Setup.const, Finset.mul_sum]
    congr 1
    refine Finset.sum_congr rfl fun x _ => ?_
    have hne := ne_of_gt (hw x)
    rw [xi_eq, div_pow, mul_pow, Real.sq_sqrt (le_of_lt (half_pos (hw x)))]
    field_simp
  have hsum : ∀ (M : X → Matrix n n ℝ), contract (s.pa + s.pb) (∑ x, M x)
      = ∑ x, contract (s.pa + s.pb) (M x) := by
    intro M
    simp only [contract, Matrix.sum_apply, Finset.mul_sum]
    rw [Finset.sum_comm (s := (Finset.univ : Finset X))]
    refine Finset.sum_congr rfl fun P _ => ?_
    rw [Finset.sum_comm]
  have hsub : ∀ A B : Matrix n n ℝ, contract (s.pa + s.pb) (A - B)
      = contract (s.pa + s.pb) A - contract (s.pa + s.pb) B := by
    intro A B
    simp [contract, mul_sub, Finset.sum_sub_distrib]
  have hrest : contract (s.pa + s.pb) s.rest =
      (if s.addDse then 1 / 2 * ∑ x, contract (s.pa + s.pb) (s.T x) else 0) +
        (1 / 2 * ∑ x, (contract (s.pa + s.pb) (s.g x)) ^ 2 + s.eBoson) := by
    rw [Setup.rest, contract_add_right, contract_smul, hS, div_mul_cancel₀ _ hne]
    congr 1
    split_ifs
    · rw [contract_smul, hsum]
    · simp [contract]
  have hlin : contract (s.pa + s.pb) (∑ x, contract (s.pa + s.pb) (s.g x) • s.g x)
      = ∑ x, (contract (s.pa + s.pb) (s.g x)) ^ 2 := by
    rw [hsum]
    refine Finset.sum_congr rfl fun x _ => ?_
    rw [contract_smul, pow_two]
  rw [e, fock_eq, trace_ptot, trace_ptot, Setup.eDet, hfa, hfb, hconst, oei_cs hc hp,
    contract_add_right (s.pa + s.pb) s.hcore, hsub, hrest, hlin]
  simp only [contract_add_right, contract_add_left]
  ring

/-- Without shift and with a self-energy `hf_energy` is not the energy of the mean field. -/
theorem hfEnergy_fails :
    (quad 1 false).hfEnergy = 1 / 2 ∧
      (quad 1 false).eDet ((quad 1 false).hcore + oei (quad 1 false).cs false (quad 1 false).f) = 1 ∧
      (quad 1 true).hfEnergy = 0 := by
  have ho : ∀ b, contract ((quad 1 b).pa + (quad 1 b).pb) (oei (quad 1 b).cs false (quad 1 b).f) = 1 := by
    intro b
    simp [contract, quad, Setup.pa, Setup.pb, oei, Setup.cs, gvar2]
  have hd : (quad 1 false).eDet ((quad 1 false).hcore + oei (quad 1 false).cs false (quad 1 false).f) = 1 := by
    have := ho false
    simp only [Setup.eDet, contract_add_right, this]
    simp [contract, quad, Setup.vj, Setup.vk, vjDse, vkDse]
  refine ⟨?_, hd, ?_⟩
  · rw [hfEnergy_eq rfl, hd, ho]
    norm_num
  · have hd' : (quad 1 true).eDet ((quad 1 true).hcore + oei (quad 1 true).cs false (quad 1 true).f) = 1 := by
      have := ho true
      simp only [Setup.eDet, contract_add_right, this]
      simp [contract, quad, Setup.vj, Setup.vk, vjDse, vkDse]
    rw [hfEnergy_shift rfl rfl rfl (fun _ => by simp [quad])
      (by simp [contract, quad, Setup.pa, Setup.pb]) (by simp [quad]), hd']
    simp [contract, quad, Setup.pa, Setup.pb]

/-! ### Calls that do not return -/

omit [Fintype X] in
variable (s) in
/-- If the integrals do not fit into memory `get_jk` never returns. -/
theorem getJk_fails [Fintype X] (D : Matrix n n ℝ) (k : ℕ) : s.getJk false D k = none := by
  induction k with
  | zero => rfl
  | succ k ih => simp [Setup.getJk, ih]

variable (s) in
/-- With the integrals in memory it returns at once. -/
theorem getJk_partial (D : Matrix n n ℝ) (k : ℕ) : s.getJk true D (k + 1) = some (s.vj D, s.vk D) := by
  simp [Setup.getJk]

/-- The kernel of the photon class returns exactly if another call has stored the dipole and coupling
matrices before. -/
theorem getGmatSo_iff (o : Obj) :
    (getGmatSo o).isSome ↔ o.dipole.isSome ∧ o.gmat.isSome := by
  rcases o with ⟨_ | _, q, _ | _, z⟩ <;> simp [getGmatSo, getGmatAo]

/-- On a fresh object it raises. -/
theorem getGmatSo_fails : getGmatSo ⟨none, none, none, none⟩ = none := rfl

/-- After `get_gmatao` of a fresh object, which `add_oei_ao` calls, it returns. -/
theorem getGmatSo_partial (q z : Option Unit) :
    (getGmatSo (getGmatao ⟨none, q, none, z⟩)).isSome := rfl

end OpenMS.CcIntegrals
