import Verif.Model.AfqmcIntegrals

/-! C176: integrals of the deprecated class QEDAFQMC. -/

set_option linter.unusedSectionVars false

namespace OpenMS.AfqmcIntegrals

variable {p M : Type*} [Fintype p] [Fintype M] [DecidableEq p]
variable {A : Type*} [Ring A] [Algebra ℝ A]

/-- Creators `cd` and annihilators `c` of fermions. -/
structure Fermi (cd c : p → A) : Prop where
  /-- mixed anticommutator -/
  mixed : ∀ a b, c a * cd b + cd b * c a = if a = b then 1 else 0
  /-- two annihilators -/
  ann : ∀ a b, c a * c b + c b * c a = 0
  /-- two creators -/
  cre : ∀ a b, cd a * cd b + cd b * cd a = 0

/-- One-body operator of a matrix. -/
noncomputable def oneBody (cd c : p → A) (h : p → p → ℝ) : A := ∑ a, ∑ b, h a b • (cd a * c b)

/-- The Hamiltonian of one- and two-body integrals in the notation of chemists. -/
noncomputable def ham (cd c : p → A) (h : p → p → ℝ) (eri : p → p → p → p → ℝ) : A :=
  oneBody cd c h + (1 / 2 : ℝ) • ∑ a, ∑ b, ∑ r, ∑ s, eri a b r s • (cd a * cd r * c s * c b)

theorem reorder {cd c : p → A} (hf : Fermi cd c) (a b r s : p) :
    cd a * c b * (cd r * c s) = cd a * cd r * c s * c b + if b = r then cd a * c s else 0 := by
  have h1 : c b * cd r = (if b = r then 1 else 0) - cd r * c b := eq_sub_of_add_eq (hf.mixed b r)
  have h2 : c b * c s = -(c s * c b) := eq_neg_of_add_eq_zero_left (hf.ann b s)
  calc cd a * c b * (cd r * c s) = cd a * (c b * cd r) * c s := by simp only [mul_assoc]
    _ = cd a * (if b = r then 1 else 0) * c s - cd a * cd r * (c b * c s) := by
        rw [h1]; simp only [mul_sub, sub_mul, mul_assoc]
    _ = _ := by
        rw [h2]
        by_cases h : b = r
        · simp [h, mul_assoc, add_comm]
        · simp [h, mul_assoc]

/-- The square of a one-body operator. -/
theorem square {cd c : p → A} (hf : Fermi cd c) (d : p → p → ℝ) :
    oneBody cd c d * oneBody cd c d =
      oneBody cd c (fun a b => ∑ k, d a k * d k b) + ∑ a, ∑ b, ∑ r, ∑ s, (d a b * d r s) • (cd a * cd r * c s * c b) := by
  unfold oneBody
  have h : ∀ a b r s, (d a b • (cd a * c b)) * (d r s • (cd r * c s)) =
      (d a b * d r s) • (cd a * cd r * c s * c b) + if b = r then (d a b * d r s) • (cd a * c s) else 0 := by
    intro a b r s
    rw [smul_mul_smul_comm, reorder hf, smul_add, smul_ite, smul_zero]
  rw [Finset.sum_mul_sum]
  simp only [Finset.sum_mul_sum, h, Finset.sum_add_distrib]
  rw [add_comm]
  congr 1
  · refine Finset.sum_congr rfl fun a _ => ?_
    have : ∀ r, ∑ b, ∑ s, (if b = r then (d a b * d r s) • (cd a * c s) else 0) = ∑ s, (d a r * d r s) • (cd a * c s) := by
      intro r
      rw [Finset.sum_eq_single r]
      · simp
      · intro b _ hb; simp [hb]
      · simp
    simp only [this]
    rw [Finset.sum_comm]
    exact Finset.sum_congr rfl fun b _ => (Finset.sum_smul).symm
  · exact Finset.sum_congr rfl fun a _ => Finset.sum_comm

theorem oneBody_add (cd c : p → A) (h h' : p → p → ℝ) :
    oneBody cd c (fun a b => h a b + h' a b) = oneBody cd c h + oneBody cd c h' := by
  unfold oneBody; simp only [add_smul, Finset.sum_add_distrib]

theorem oneBody_sum (cd c : p → A) (w : M → ℝ) (h : M → p → p → ℝ) :
    oneBody cd c (fun a b => ∑ m, w m * h m a b) = ∑ m, w m • oneBody cd c (h m) := by
  unfold oneBody
  simp only [Finset.sum_smul, Finset.smul_sum, mul_smul]
  exact (Finset.sum_congr rfl fun q _ => Finset.sum_comm).trans Finset.sum_comm

/-- C176: the dipole self-energy `½ Σ λ² (d·e)²` has the one-body integrals `½ Σ λ² d d` and the two-body integrals `eri_DSE`. -/
theorem dse_spec {cd c : p → A} (hf : Fermi cd c) (coupling : M → ℝ) (dip : M → p → p → ℝ) :
    ∑ m, (1 / 2 * coupling m ^ 2) • (oneBody cd c (dip m) * oneBody cd c (dip m)) =
      ham cd c (fun a b => ∑ m, (1 / 2 * coupling m ^ 2) * ∑ k, dip m a k * dip m k b) (eriDSE coupling dip) := by
  unfold ham
  rw [oneBody_sum cd c (fun m => 1 / 2 * coupling m ^ 2) (fun m a b => ∑ k, dip m a k * dip m k b)]
  simp only [square hf, smul_add, Finset.sum_add_distrib]
  congr 1
  unfold eriDSE
  simp only [Finset.sum_smul, Finset.smul_sum, smul_smul, mul_assoc]
  rw [Finset.sum_comm]
  refine Finset.sum_congr rfl fun a _ => ?_
  rw [Finset.sum_comm]
  refine Finset.sum_congr rfl fun b _ => ?_
  rw [Finset.sum_comm]
  exact Finset.sum_congr rfl fun r _ => Finset.sum_comm

theorem ham_add (cd c : p → A) (h h' : p → p → ℝ) (e e' : p → p → p → p → ℝ) :
    ham cd c (fun a b => h a b + h' a b) (fun a b r s => e a b r s + e' a b r s) = ham cd c h e + ham cd c h' e' := by
  unfold ham
  rw [oneBody_add]
  simp only [add_smul, Finset.sum_add_distrib, smul_add]
  abel

/-- C176 partial: were the missing names there, `get_integrals` would return the Hamiltonian of the electrons plus the dipole
self-energy plus once more its one-body part, if the quadrupole integrals are those of a complete basis (`rr = d d`).
Missing: the factor ½ of the one-body part, the names. -/
theorem integrals_partial {cd c : p → A} (hf : Fermi cd c) {F S J : Type*} [Fintype F] [Fintype S] [Fintype J]
    (coupling bil : M → ℝ) (dip quad : M → p → p → ℝ) (hq : ∀ m a b, -quad m a b = ∑ k, dip m a k * dip m k b)
    (wf : F → S → p → J → ℝ) (h : p → p → ℝ) (eri : p → p → p → p → ℝ) (x : F → F → ℝ) :
    ∃ I, getIntegrals coupling bil dip quad wf (some (h, eri)) (some x) = .ok I ∧
      ham cd c I.h1e I.eri = ham cd c h eri +
        ∑ m, (1 / 2 * coupling m ^ 2) • (oneBody cd c (dip m) * oneBody cd c (dip m)) +
        oneBody cd c (fun a b => ∑ m, (1 / 2 * coupling m ^ 2) * ∑ k, dip m a k * dip m k b) := by
  refine ⟨_, rfl, ?_⟩
  dsimp only
  rw [ham_add, dse_spec hf, add_assoc]
  congr 1
  unfold ham
  rw [add_right_comm, ← oneBody_add]
  congr 2
  funext a b
  unfold h1eDSE
  rw [← Finset.sum_add_distrib]
  refine Finset.sum_congr rfl fun m _ => ?_
  rw [← hq]; ring

/-- C176 fails: in every state whose density matrix is that of orbitals `v k` with occupations `n k`, the energy of these
integrals is too high, by half the sum of `λ² n |d v|²`; it is right only if every occupied orbital with every coupled mode has no
dipole. -/
theorem one_body_fails {cd c : p → A} (hf : Fermi cd c) {F S J K : Type*} [Fintype F] [Fintype S] [Fintype J] [Fintype K]
    (coupling bil : M → ℝ) (dip quad : M → p → p → ℝ) (hq : ∀ m a b, -quad m a b = ∑ k, dip m a k * dip m k b)
    (hs : ∀ m a b, dip m a b = dip m b a) (wf : F → S → p → J → ℝ) (h : p → p → ℝ) (eri : p → p → p → p → ℝ)
    (x : F → F → ℝ) (φ : A →ₗ[ℝ] ℝ) (n : K → ℝ) (hn : ∀ k, 0 < n k) (v : K → p → ℝ)
    (hφ : ∀ a b, φ (cd a * c b) = ∑ k, n k * v k a * v k b) :
    ∃ I, getIntegrals coupling bil dip quad wf (some (h, eri)) (some x) = .ok I ∧
      φ (ham cd c I.h1e I.eri) = φ (ham cd c h eri +
          ∑ m, (1 / 2 * coupling m ^ 2) • (oneBody cd c (dip m) * oneBody cd c (dip m))) +
        ∑ m, ∑ k, 1 / 2 * coupling m ^ 2 * n k * ∑ a, (∑ b, dip m a b * v k b) ^ 2 ∧
      (φ (ham cd c I.h1e I.eri) = φ (ham cd c h eri +
          ∑ m, (1 / 2 * coupling m ^ 2) • (oneBody cd c (dip m) * oneBody cd c (dip m))) ↔
        ∀ m k, coupling m ≠ 0 → ∀ a, ∑ b, dip m a b * v k b = 0) := by
  obtain ⟨I, hI, hH⟩ := integrals_partial hf coupling bil dip quad hq wf h eri x
  have hx : φ (oneBody cd c (fun a b => ∑ m, (1 / 2 * coupling m ^ 2) * ∑ k, dip m a k * dip m k b)) =
      ∑ m, ∑ k, 1 / 2 * coupling m ^ 2 * n k * ∑ a, (∑ b, dip m a b * v k b) ^ 2 := by
    rw [oneBody_sum cd c (fun m => 1 / 2 * coupling m ^ 2) (fun m a b => ∑ k, dip m a k * dip m k b), map_sum]
    refine Finset.sum_congr rfl fun m _ => ?_
    rw [map_smul, smul_eq_mul]
    have e : φ (oneBody cd c fun a b => ∑ k, dip m a k * dip m k b) = ∑ k, n k * ∑ a, (∑ b, dip m a b * v k b) ^ 2 := by
      unfold oneBody
      simp only [map_sum, map_smul, smul_eq_mul, hφ]
      have e1 : ∀ k, ∑ a, (∑ b, dip m a b * v k b) ^ 2 = ∑ a, ∑ b, (∑ j, dip m a j * dip m j b) * (v k a * v k b) := by
        intro k
        have : ∀ j, (∑ b, dip m j b * v k b) ^ 2 = ∑ a, ∑ b, (dip m a j * dip m j b) * (v k a * v k b) := by
          intro j
          rw [sq, Finset.sum_mul_sum]
          refine Finset.sum_congr rfl fun a _ => Finset.sum_congr rfl fun b _ => ?_
          rw [hs m j a]; ring
        simp only [this, Finset.sum_mul]
        rw [Finset.sum_comm]
        exact Finset.sum_congr rfl fun a _ => Finset.sum_comm
      simp only [e1, Finset.mul_sum]
      have e2 : ∀ a, ∑ b, ∑ k, (∑ j, dip m a j * dip m j b) * (n k * v k a * v k b) =
          ∑ k, ∑ b, n k * ((∑ j, dip m a j * dip m j b) * (v k a * v k b)) := by
        intro a
        rw [Finset.sum_comm]
        exact Finset.sum_congr rfl fun k _ => Finset.sum_congr rfl fun b _ => by ring
      simp only [e2]
      exact Finset.sum_comm
    rw [e, Finset.mul_sum]
    exact Finset.sum_congr rfl fun k _ => by ring
  refine ⟨I, hI, by rw [hH, map_add, hx], ?_⟩
  rw [hH, map_add, hx, add_eq_left]
  have hnn : ∀ m k, 0 ≤ 1 / 2 * coupling m ^ 2 * n k * ∑ a, (∑ b, dip m a b * v k b) ^ 2 := fun m k =>
    mul_nonneg (mul_nonneg (by positivity) (hn k).le) (Finset.sum_nonneg fun a _ => sq_nonneg _)
  constructor
  · intro h0 m k hm a
    have h1 := (Finset.sum_eq_zero_iff_of_nonneg fun m _ => Finset.sum_nonneg fun k _ => hnn m k).1 h0 m (Finset.mem_univ _)
    have h2 := (Finset.sum_eq_zero_iff_of_nonneg fun k _ => hnn m k).1 h1 k (Finset.mem_univ _)
    have hp : 1 / 2 * coupling m ^ 2 * n k ≠ 0 := by
      have := hn k
      have : 0 < coupling m ^ 2 := by positivity
      positivity
    have h3 := (mul_eq_zero.1 h2).resolve_left hp
    exact pow_eq_zero_iff (two_ne_zero) |>.1
      ((Finset.sum_eq_zero_iff_of_nonneg fun a _ => sq_nonneg _).1 h3 a (Finset.mem_univ _))
  · intro h0
    refine Finset.sum_eq_zero fun m _ => Finset.sum_eq_zero fun k _ => ?_
    by_cases hm : coupling m = 0
    · simp [hm]
    · simp [h0 m k hm]

/-- C176 fails: neither the constructor nor `get_integrals` gets to its end. -/
theorem names_fails {F S J : Type*} [Fintype F] [Fintype S] [Fintype J] (coupling bil : M → ℝ) (vec : M → Fin 3 → ℝ)
    (r : Fin 3 → p → p → ℝ) (dip quad : M → p → p → ℝ) (wf : F → S → p → J → ℝ) :
    construct coupling vec r none = .error "NameError" ∧
      (∀ x, getIntegrals coupling bil dip quad wf none x = .error "AttributeError") ∧
      ∀ I, getIntegrals coupling bil dip quad wf I none = .error "AttributeError" := by
  refine ⟨rfl, fun _ => rfl, fun I => ?_⟩
  cases I <;> rfl

/-- C176: the integrals of the dipole self-energy do not change when all polarizations are reversed. -/
theorem construct_even (coupling : M → ℝ) (vec : M → Fin 3 → ℝ) (r : Fin 3 → p → p → ℝ)
    (rr : Fin 3 → Fin 3 → p → p → ℝ) :
    construct coupling (fun m x => -vec m x) r (some rr) = construct coupling vec r (some rr) := by
  unfold construct h1eDSE eriDSE quadPol dipPol
  simp

/-- C176: if the integrals are those of positions `X x` that are multiplied as matrices, the quadrupole is that of a complete
basis, as `integrals_partial` wants it. -/
theorem complete_basis (vec : M → Fin 3 → ℝ) (r : Fin 3 → p → p → ℝ) (m : M) (a b : p) :
    -quadPol vec (fun x y a b => ∑ k, r x a k * r y k b) m a b = ∑ k, dipPol vec r m a k * dipPol vec r m k b := by
  unfold quadPol dipPol
  have h : ∀ k, (∑ x, vec m x * -r x a k) * ∑ y, vec m y * -r y k b =
      ∑ x, ∑ y, vec m x * vec m y * (r x a k * r y k b) := by
    intro k
    rw [Finset.sum_mul_sum]
    exact Finset.sum_congr rfl fun x _ => Finset.sum_congr rfl fun y _ => by ring
  rw [Finset.sum_congr rfl fun k _ => h k, ← Finset.sum_neg_distrib, Finset.sum_comm]
  refine Finset.sum_congr rfl fun x _ => ?_
  rw [← Finset.sum_neg_distrib, Finset.sum_comm]
  refine Finset.sum_congr rfl fun y _ => ?_
  rw [← Finset.mul_sum]
  ring

/-- C176: electrons are negative: moving the origin by `t` adds the polarized `t` to the diagonal of the dipole. -/
theorem origin_shift (vec : M → Fin 3 → ℝ) (r : Fin 3 → p → p → ℝ) (t : Fin 3 → ℝ) (m : M) (a b : p) :
    dipPol vec (fun x a b => r x a b - if a = b then t x else 0) m a b =
      dipPol vec r m a b + if a = b then ∑ x, vec m x * t x else 0 := by
  unfold dipPol
  by_cases h : a = b
  · simp only [h, if_true]
    rw [← Finset.sum_add_distrib]
    exact Finset.sum_congr rfl fun x _ => by ring
  · simp [h]

/-- C176 partial: the integrals of the constructor are those of the dipole self-energy, with its one-body part twice.  Missing:
the factor ½. -/
theorem construct_partial {cd c : p → A} (hf : Fermi cd c) (coupling : M → ℝ) (vec : M → Fin 3 → ℝ) (r : Fin 3 → p → p → ℝ) :
    ∃ h e, construct coupling vec r (some fun x y a b => ∑ k, r x a k * r y k b) = .ok (h, e) ∧
      ham cd c h e = ∑ m, (1 / 2 * coupling m ^ 2) • (oneBody cd c (dipPol vec r m) * oneBody cd c (dipPol vec r m)) +
        oneBody cd c (fun a b => ∑ m, (1 / 2 * coupling m ^ 2) * ∑ k, dipPol vec r m a k * dipPol vec r m k b) := by
  refine ⟨_, _, rfl, ?_⟩
  rw [dse_spec hf]
  unfold ham
  rw [add_right_comm, ← oneBody_add]
  congr 2
  funext a b
  unfold h1eDSE
  rw [← Finset.sum_add_distrib]
  refine Finset.sum_congr rfl fun m _ => ?_
  rw [← complete_basis]; ring

/-- C176 fails: the coupling is shifted by the mean dipole times the number of electrons, not by the mean dipole; in the
mean-field state with `N` electrons its mean is `(1 - N)` times the dipole instead of zero. -/
theorem shift_fails {F S J : Type*} [Fintype F] [Fintype S] [Fintype J] (cd c : p → A) (coupling bil : M → ℝ)
    (dip quad : M → p → p → ℝ) (wf : F → S → p → J → ℝ) (h : p → p → ℝ) (eri : p → p → p → p → ℝ) (x : F → F → ℝ)
    (φ : A →ₗ[ℝ] ℝ) (hφ : ∀ a b, φ (cd a * c b) = ∑ f, ∑ s, ∑ j, wf f s a j * wf f s b j) (N : ℝ) (hN : ∑ a, φ (cd a * c a) = N) :
    ∃ I, getIntegrals coupling bil dip quad wf (some (h, eri)) (some x) = .ok I ∧ ∀ f f',
      oneBody cd c (I.MuQc f f') =
        ∑ m, (bil m * x f f') • (oneBody cd c (dip m) - φ (oneBody cd c (dip m)) • ∑ a, cd a * c a) ∧
      φ (oneBody cd c (I.MuQc f f')) = ∑ m, bil m * x f f' * ((1 - N) * φ (oneBody cd c (dip m))) := by
  refine ⟨_, rfl, fun f f' => ?_⟩
  dsimp only
  have hm : ∀ m, dipoleMf dip (rhoMf wf) m = φ (oneBody cd c (dip m)) := by
    intro m
    unfold dipoleMf oneBody rhoMf
    simp only [map_sum, map_smul, smul_eq_mul, hφ]
  have hsh : ∀ m, oneBody cd c (muShifted dip (rhoMf wf) m) =
      oneBody cd c (dip m) - φ (oneBody cd c (dip m)) • ∑ a, cd a * c a := by
    intro m
    rw [← hm]
    unfold muShifted
    generalize dipoleMf dip (rhoMf wf) m = t
    unfold oneBody
    simp only [sub_smul, Finset.sum_sub_distrib, ite_mul, one_mul, zero_mul, ite_smul, zero_smul]
    congr 1
    simp [Finset.smul_sum]
  have h1 : oneBody cd c (fun a b => ∑ m, bil m * x f f' * muShifted dip (rhoMf wf) m a b) =
      ∑ m, (bil m * x f f') • (oneBody cd c (dip m) - φ (oneBody cd c (dip m)) • ∑ a, cd a * c a) := by
    rw [oneBody_sum cd c (fun m => bil m * x f f') (fun m => muShifted dip (rhoMf wf) m)]
    exact Finset.sum_congr rfl fun m _ => by rw [hsh]
  refine ⟨h1, ?_⟩
  rw [h1, map_sum]
  refine Finset.sum_congr rfl fun m _ => ?_
  rw [map_smul, map_sub, map_smul, map_sum, hN, smul_eq_mul, smul_eq_mul]
  ring

/-- Operators of one orbital. -/
theorem fermi_one :
    Fermi (p := Fin 1) (A := Matrix (Fin 2) (Fin 2) ℝ) (fun _ => !![0, 0; 1, 0]) (fun _ => !![0, 1; 0, 0]) := by
  constructor
  · intro a b
    rw [if_pos (Subsingleton.elim a b)]
    ext i j; fin_cases i <;> fin_cases j <;> simp
  · intro a b
    ext i j; fin_cases i <;> fin_cases j <;> simp
  · intro a b
    ext i j; fin_cases i <;> fin_cases j <;> simp

/-- One electron in an orbital with dipole one, one mode: the energy is wrong for every coupling but zero. -/
example (g : ℝ) (hg : g ≠ 0) : ∃ I,
    getIntegrals (p := Fin 1) (M := Fin 1) (F := Fin 1) (S := Fin 1) (J := Fin 1) (fun _ => g) (fun _ => 0) (fun _ _ _ => 1)
      (fun _ _ _ => -1) (fun _ _ _ _ => 1) (some (fun _ _ => 0, fun _ _ _ _ => 0)) (some fun _ _ => 0) = .ok I ∧
    (ham (A := Matrix (Fin 2) (Fin 2) ℝ) (fun _ => !![0, 0; 1, 0]) (fun _ => !![0, 1; 0, 0]) I.h1e I.eri) 1 1 ≠
      (ham (p := Fin 1) (A := Matrix (Fin 2) (Fin 2) ℝ) (fun _ => !![0, 0; 1, 0]) (fun _ => !![0, 1; 0, 0]) (fun _ _ => 0)
        (fun _ _ _ _ => 0) + ∑ _m : Fin 1, (1 / 2 * g ^ 2) •
        (oneBody (p := Fin 1) (fun _ => !![0, 0; 1, 0]) (fun _ => !![0, 1; 0, 0]) (fun _ _ => 1) *
          oneBody (p := Fin 1) (fun _ => !![0, 0; 1, 0]) (fun _ => !![0, 1; 0, 0]) (fun _ _ => 1)) :
        Matrix (Fin 2) (Fin 2) ℝ) 1 1 := by
  obtain ⟨I, hI, -, h⟩ := one_body_fails fermi_one (M := Fin 1) (F := Fin 1) (S := Fin 1) (J := Fin 1) (K := Fin 1)
    (fun _ => g) (fun _ => 0) (fun _ _ _ => 1) (fun _ _ _ => -1) (by intros; simp) (by intros; rfl) (fun _ _ _ _ => 1)
    (fun _ _ => 0) (fun _ _ _ _ => 0) (fun _ _ => 0) (Matrix.entryLinearMap ℝ ℝ 1 1) (fun _ => 1) (fun _ => one_pos)
    (fun _ _ => 1) (by intros; simp)
  refine ⟨I, hI, fun he => ?_⟩
  have := h.1 he 0 0 hg 0
  norm_num at this

/-- The state with one electron in the orbital, and one trial orbital. -/
example : (∀ a b : Fin 1, (Matrix.of ![![0, 0], ![(1 : ℝ), 0]] * Matrix.of ![![0, 1], ![0, 0]] : Matrix (Fin 2) (Fin 2) ℝ) 1 1 =
    rhoMf (F := Fin 1) (S := Fin 1) (J := Fin 1) (fun _ _ _ _ => 1) a b) := by
  intro a b
  simp [rhoMf, Matrix.mul_apply, Fin.sum_univ_two]

end OpenMS.AfqmcIntegrals
