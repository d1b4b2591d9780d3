import Verif.Model.Lattice
import Mathlib.Tactic

/-!
# C56, C57, C91, C92: lattice models
-/

namespace OpenMS.Lattice
set_option linter.unusedSectionVars false

/-! ## C56: hopping -/

/-- Nearest neighbours on a chain or ring of `L` sites. -/
def Neighbours (periodic : Bool) (L i j : ℕ) : Prop :=
  i + 1 = j ∨ j + 1 = i ∨ (periodic = true ∧ ((i = 0 ∧ j + 1 = L) ∨ (j = 0 ∧ i + 1 = L)))

/-- What C56 asks of a hopping matrix. -/
def GoodHopping (periodic : Bool) (L : ℕ) (t : Option (ℕ → ℕ → ℝ)) : Prop :=
  ∃ T, t = some T ∧ (∀ i < L, ∀ j < L, T i j = T j i) ∧
    ∀ i < L, ∀ j < L, (Neighbours periodic L i j → T i j = -1) ∧ (¬ Neighbours periodic L i j → T i j = 0)

theorem pyIndex_nat {L m : ℕ} {k : ℤ} (h : k = m) (hm : m < L) : pyIndex L k = some m := by
  subst h
  simp [pyIndex, hm]

theorem hop_fold (periodic : Bool) (L : ℕ) (a b : ℕ → ℕ)
    (ha : ∀ i < L, pyIndex L (nn periodic L i).1 = some (a i))
    (hb : ∀ i < L, pyIndex L (nn periodic L i).2 = some (b i)) (r : ℕ) (hr : r ≤ L) :
    ∃ T, (List.range r).foldlM (hopRow periodic L) (fun _ _ => 0) = some T ∧
      ∀ i j, T i j = if i < r ∧ (j = a i ∨ j = b i) then -1 else 0 := by
  induction r with
  | zero => exact ⟨_, rfl, fun i j => by simp⟩
  | succ r ih =>
    obtain ⟨T, hT, h⟩ := ih (by omega)
    refine ⟨setT (setT T r (a r) (-1)) r (b r) (-1), ?_, fun i j => ?_⟩
    · rw [List.range_succ, List.foldlM_append, hT]
      simp [hopRow, ha r (by omega), hb r (by omega)]
    · simp only [setT, h i j]
      by_cases hi : i = r
      · subst hi
        by_cases h1 : j = b i
        · simp [h1]
        · by_cases h2 : j = a i
          · simp [h2]
          · simp [h1, h2]
      · simp only [hi, false_and, if_false]
        have : (i < r + 1) ↔ i < r := by omega
        simp [this]

/-- C56 partial: the Hubbard hopping matrix is right for two or more sites, open or periodic.
Missing: a single site, where the open chain raises and the ring hops onto itself. -/
theorem hubbard_hopping_partial (periodic : Bool) (L : ℕ) (hL : 2 ≤ L) :
    GoodHopping periodic L (hubbardT periodic L) := by
  let a : ℕ → ℕ := fun i => if i = 0 then (if periodic then L - 1 else 1) else i - 1
  let b : ℕ → ℕ := fun i => if i + 1 = L then (if periodic then 0 else i - 1) else i + 1
  obtain ⟨T, hT, h⟩ := hop_fold periodic L a b (by
      intro i hi
      refine pyIndex_nat ?_ ?_
      · cases periodic <;> by_cases h0 : i = 0 <;> simp [nn, a, h0] <;> omega
      · cases periodic <;> by_cases h0 : i = 0 <;> simp [a, h0] <;> omega) (by
      intro i hi
      have hc : (i : ℤ) = (L : ℤ) - 1 ↔ i + 1 = L := by omega
      refine pyIndex_nat ?_ ?_
      · cases periodic <;> by_cases h0 : i + 1 = L <;> simp [nn, b, h0, hc] <;> omega
      · cases periodic <;> by_cases h0 : i + 1 = L <;> simp [b, h0] <;> omega) L le_rfl
  have key : ∀ i < L, ∀ j < L, (j = a i ∨ j = b i) ↔ Neighbours periodic L i j := by
    intro i hi j hj
    cases periodic <;> simp only [a, b, Neighbours] <;> split_ifs <;> simp_all <;> omega
  have sym : ∀ i j, Neighbours periodic L i j ↔ Neighbours periodic L j i := by
    intro i j
    simp only [Neighbours]
    tauto
  refine ⟨T, hT, fun i hi j hj => ?_, fun i hi j hj => ⟨fun hn => ?_, fun hn => ?_⟩⟩
  · rw [h i j, h j i]
    have e : (i < L ∧ (j = a i ∨ j = b i)) ↔ (j < L ∧ (i = a j ∨ i = b j)) := by
      rw [key i hi j hj, key j hj i hi, sym i j]
      tauto
    simp only [e]
  · rw [h i j, if_pos ⟨hi, (key i hi j hj).2 hn⟩]
  · rw [h i j, if_neg]
    rintro ⟨-, h'⟩
    exact hn ((key i hi j hj).1 h')

/-- C56 fails for one site: the open chain raises `IndexError`, and the ring is given a hop of the
site onto itself on both sides (entry `-1` on the diagonal). -/
theorem hubbard_single_site_fails :
    hubbardT false 1 = none ∧ ∃ T, hubbardT true 1 = some T ∧ T 0 0 = -1 := by
  refine ⟨by simp [hubbardT, List.range_succ, hopRow, nn, pyIndex], _, rfl, by simp [setT, nn]⟩

/-- C56 partial: the Hubbard-Holstein hopping matrix is right for three or more sites.  Missing: two
sites, where it is wrong. -/
theorem hh_hopping_partial (periodic : Bool) (L : ℕ) (hL : 3 ≤ L) :
    GoodHopping periodic L (hhT periodic L) := by
  have h := hubbard_hopping_partial periodic L (by omega)
  unfold hhT
  have h2 : ¬ L = 2 := by omega
  simp only [h2, if_false]
  simpa using h

/-- C56 fails: the open chain of two sites has a doubled bond. -/
theorem hh_two_sites_fails (periodic : Bool) :
    (∃ T, hhT periodic 2 = some T ∧ T 0 1 = -2 ∧ T 1 0 = -2) ∧ ¬ GoodHopping periodic 2 (hhT periodic 2) := by
  obtain ⟨T, hT, hs, hv⟩ := hubbard_hopping_partial periodic 2 le_rfl
  have h01 : T 0 1 = -1 := (hv 0 (by norm_num) 1 (by norm_num)).1 (Or.inl rfl)
  have h10 : T 1 0 = -1 := (hv 1 (by norm_num) 0 (by norm_num)).1 (Or.inr (Or.inl rfl))
  have h : ∃ T, hhT periodic 2 = some T ∧ T 0 1 = -2 ∧ T 1 0 = -2 := by
    refine ⟨_, by rw [hhT, hT]; rfl, ?_, ?_⟩
    · norm_num [setT, h01, h10]
    · norm_num [setT, h01, h10]
  refine ⟨h, ?_⟩
  rintro ⟨T', hT', -, hv'⟩
  obtain ⟨T'', hT'', h'', -⟩ := h
  rw [hT''] at hT'
  obtain rfl := Option.some_inj.1 hT'
  have := (hv' 0 (by norm_num) 1 (by norm_num)).1 (Or.inl rfl)
  rw [h''] at this
  norm_num at this

/-! ## C57: Hubbard mean-field energy -/

section MeanField
variable {n : Type*} [Fintype n] [DecidableEq n]

theorem fock_eq (t : n → n → ℝ) (U : ℝ) (pa pb : n → n → ℝ) (i j : n) :
    fock t U pa pb (.inl i) (.inl j) = t i j + (if i = j then U * pb i i else 0) ∧
    fock t U pa pb (.inr i) (.inr j) = t i j + (if i = j then U * pa i i else 0) := by
  constructor
  · simp only [fock, Fintype.sum_sum_type, umat, blockDiag, sub_zero, mul_zero,
      Finset.sum_const_zero, add_zero, zero_add]
    congr 1
    have h1 : ∑ r, ∑ s, ((if i = r ∧ i = j ∧ i = s then U else 0) -
        if i = r ∧ i = s ∧ i = j then U else 0) * pa r s = 0 := by
      refine Finset.sum_eq_zero fun r _ => Finset.sum_eq_zero fun s _ => ?_
      have : (i = r ∧ i = j ∧ i = s) ↔ (i = r ∧ i = s ∧ i = j) := by tauto
      simp [this]
    rw [h1, zero_add]
    by_cases hij : i = j
    · subst hij
      rw [Finset.sum_eq_single i, Finset.sum_eq_single i]
      · simp
      · intro b _ hb; simp [Ne.symm hb]
      · simp
      · intro b _ hb; simp [Ne.symm hb]
      · simp
    · simp [hij]
  · simp only [fock, Fintype.sum_sum_type, umat, blockDiag, sub_zero, mul_zero,
      Finset.sum_const_zero, add_zero, zero_add]
    congr 1
    have h1 : ∑ r, ∑ s, ((if i = r ∧ i = j ∧ i = s then U else 0) -
        if i = r ∧ i = s ∧ i = j then U else 0) * pb r s = 0 := by
      refine Finset.sum_eq_zero fun r _ => Finset.sum_eq_zero fun s _ => ?_
      have : (i = r ∧ i = j ∧ i = s) ↔ (i = r ∧ i = s ∧ i = j) := by tauto
      simp [this]
    rw [h1, add_zero]
    by_cases hij : i = j
    · subst hij
      rw [Finset.sum_eq_single i, Finset.sum_eq_single i]
      · simp
      · intro b _ hb; simp [Ne.symm hb]
      · simp
      · intro b _ hb; simp [Ne.symm hb]
      · simp
    · simp [hij]

/-- C57: `E_HF = Tr[(P_a + P_b) t] + U Σ_i n_ia n_ib`. -/
theorem hubbard_energy (t : n → n → ℝ) (U : ℝ) (pa pb : n → n → ℝ) :
    hfEnergy t U pa pb =
      (∑ i, ∑ j, (pa i j + pb i j) * t j i) + U * ∑ i, pa i i * pb i i := by
  simp only [hfEnergy, Fintype.sum_sum_type, blockDiag, fock_eq, zero_mul, Finset.sum_const_zero,
    add_zero, zero_add]
  have h : ∀ (p q : n → n → ℝ), ∑ i, ∑ j, p i j * (t j i + if j = i then U * q j j else 0) =
      (∑ i, ∑ j, p i j * t j i) + U * ∑ i, p i i * q i i := by
    intro p q
    simp only [mul_add, Finset.sum_add_distrib, Finset.mul_sum]
    congr 1
    refine Finset.sum_congr rfl fun i _ => ?_
    rw [Finset.sum_eq_single i]
    · simp; ring
    · intro b _ hb; simp [hb]
    · simp
  rw [h pa pb, h pb pa]
  simp only [add_mul, Finset.sum_add_distrib]
  have hc : ∑ i, pb i i * pa i i = ∑ i, pa i i * pb i i := Finset.sum_congr rfl fun i _ => mul_comm _ _
  rw [hc]
  ring

/-- One site with both spins: the energy is `U`. -/
example : hfEnergy (n := Fin 1) (fun _ _ => 0) 4 (fun _ _ => 1) (fun _ _ => 1) = 4 := by
  rw [hubbard_energy]
  norm_num

/-! ## C92: Hubbard-Holstein mean-field energy -/

/-- Energy of the electronic mean field with every mode classically displaced by `z`: electronic
energy plus `ω z² + 2 z ⟨g⟩`. -/
noncomputable def displacedEnergy {M : Type*} [Fintype M] (t : n → n → ℝ) (U w : ℝ)
    (gmat : M → n ⊕ n → n ⊕ n → ℝ) (pa pb : n → n → ℝ) (z : M → ℝ) : ℝ :=
  (∑ i, ∑ j, (pa i j + pb i j) * t j i) + U * ∑ i, pa i i * pb i i +
    ∑ I, (w * z I ^ 2 + 2 * z I * ∑ a, ∑ b, gmat I a b * blockDiag pa pb a b)

/-- C92: with `shift` the reported energy is the lowest over all displacements, reached at `-xi`;
without it, it is the energy at zero displacement. -/
theorem hh_energy_minimal {M : Type*} [Fintype M] (t : n → n → ℝ) (U w : ℝ) (hw : 0 < w)
    (gmat : M → n ⊕ n → n ⊕ n → ℝ) (pa pb : n → n → ℝ) :
    (∀ z, hhEnergy true t U w gmat pa pb ≤ displacedEnergy t U w gmat pa pb z) ∧
    hhEnergy true t U w gmat pa pb = displacedEnergy t U w gmat pa pb (fun I => -xi gmat w pa pb I) ∧
    hhEnergy false t U w gmat pa pb = displacedEnergy t U w gmat pa pb fun _ => 0 := by
  have hg : ∀ I, (∑ a, ∑ b, gmat I a b * blockDiag pa pb a b) = w * xi gmat w pa pb I := by
    intro I
    rw [xi]
    field_simp
  refine ⟨fun z => ?_, ?_, ?_⟩
  · simp only [hhEnergy, displacedEnergy, hubbard_energy, hg, if_true, ← Finset.sum_neg_distrib]
    refine add_le_add le_rfl (Finset.sum_le_sum fun I _ => ?_)
    have := mul_nonneg hw.le (sq_nonneg (z I + xi gmat w pa pb I))
    nlinarith
  · simp only [hhEnergy, displacedEnergy, hubbard_energy, hg, if_true, ← Finset.sum_neg_distrib]
    congr 1
    refine Finset.sum_congr rfl fun I _ => ?_
    ring
  · simp [hhEnergy, displacedEnergy, hubbard_energy]

/-- One mode of frequency two coupled with strength three to one electron: shift energy `-9/2`. -/
example : hhEnergy (n := Fin 1) (M := Fin 1) true (fun _ _ => 0) 0 2
    (fun _ a b => if a = b then 3 else 0) (fun _ _ => 1) (fun _ _ => 0) = -9 / 2 := by
  rw [hhEnergy, hubbard_energy]
  norm_num [xi, Fintype.sum_sum_type, blockDiag]

/-! ## C93: electron count of the Hubbard-Holstein chain -/

theorem hhDensity_trace {L : ℕ} (N : ℕ) (hN : N ≤ 2 * L) (c : Fin L → Fin L → ℝ)
    (horth : ∀ i j, ∑ a, c a i * c a j = if i = j then 1 else 0) :
    ∑ a, hhDensity N c a a = (N / 2 : ℕ) := by
  simp only [hhDensity]
  rw [Finset.sum_comm]
  have h : ∀ i : Fin L, (∑ a, if i.val < N / 2 then c a i * c a i else 0) =
      if i.val < N / 2 then (1 : ℝ) else 0 := by
    intro i
    split_ifs
    · simp [horth]
    · simp
  simp only [h]
  rw [Fin.sum_univ_eq_sum_range (fun k => if k < N / 2 then (1 : ℝ) else 0), ← Finset.sum_filter]
  have hf : (Finset.range L).filter (fun k => k < N / 2) = Finset.range (N / 2) := by
    ext k
    simp only [Finset.mem_filter, Finset.mem_range]
    omega
  simp [hf]

/-- C93 partial: for an even number of electrons the two densities hold all of them.  Missing: odd
numbers. -/
theorem hh_electrons_partial {L : ℕ} (N : ℕ) (hN : N ≤ 2 * L) (heven : N % 2 = 0)
    (ca cb : Fin L → Fin L → ℝ) (ha : ∀ i j, ∑ a, ca a i * ca a j = if i = j then 1 else 0)
    (hb : ∀ i j, ∑ a, cb a i * cb a j = if i = j then 1 else 0) :
    (∑ a, hhDensity N ca a a) + ∑ a, hhDensity N cb a a = N := by
  rw [hhDensity_trace N hN ca ha, hhDensity_trace N hN cb hb]
  norm_cast
  omega

/-- C93 fails for every odd number of electrons: one electron is dropped without an error. -/
theorem hh_electrons_fails {L : ℕ} (N : ℕ) (hN : N ≤ 2 * L) (hodd : N % 2 = 1)
    (ca cb : Fin L → Fin L → ℝ) (ha : ∀ i j, ∑ a, ca a i * ca a j = if i = j then 1 else 0)
    (hb : ∀ i j, ∑ a, cb a i * cb a j = if i = j then 1 else 0) :
    (∑ a, hhDensity N ca a a) + ∑ a, hhDensity N cb a a = N - 1 := by
  rw [hhDensity_trace N hN ca ha, hhDensity_trace N hN cb hb]
  rw [eq_sub_iff_add_eq]
  norm_cast
  omega

/-- Site orbitals are orthonormal. -/
example : ∀ i j : Fin 3, ∑ a : Fin 3, (if a = i then (1 : ℝ) else 0) * (if a = j then 1 else 0) =
    if i = j then 1 else 0 := by
  intro i j
  simp [eq_comm]

/-! ## C91: disordered aggregates -/

/-- C91: the Hamiltonian is symmetric and tridiagonal with the drawn energies on the diagonal. -/
theorem dma_hamiltonian (N : ℕ) (J : ℝ) (e : ℕ → ℝ) (i j : ℕ) (hi : i < N) (hj : j < N) :
    dmaH N J e i j = if i = j then e i else if i + 1 = j ∨ j + 1 = i then J else 0 := by
  have h : ∀ r ≤ N, ∀ i j, (List.range r).foldl (fun A i =>
      let A := setT A i i (e i)
      if i + 1 < N then setT (setT A i (i + 1) J) (i + 1) i J else A) (fun _ _ => 0) i j =
      if i = j ∧ i < r then e i else
        if ((i + 1 = j ∧ i < r ∧ j < N) ∨ (j + 1 = i ∧ j < r ∧ i < N)) then J else 0 := by
    intro r hr
    induction r with
    | zero => intro i j; simp
    | succ r ih =>
      intro i j
      rw [List.range_succ, List.foldl_append]
      simp only [List.foldl_cons, List.foldl_nil]
      have ih := ih (by omega)
      generalize (List.range r).foldl _ _ = A at ih ⊢
      split_ifs with h1 <;> simp only [setT, ih i j] <;> grind (splits := 20)
  rw [dmaH, h N le_rfl]
  grind

/-- C91: sum rule: the squared transition dipoles of all states add up to the number of sites, for
orthonormal eigenvectors. -/
theorem dipole_sum_rule (evecs : n → n → ℝ)
    (horth : ∀ i j, ∑ u, evecs i u * evecs j u = if i = j then 1 else 0) :
    ∑ u, dipole evecs u ^ 2 = Fintype.card n := by
  have h : ∀ u, dipole evecs u ^ 2 = ∑ i, ∑ j, evecs i u * evecs j u := by
    intro u
    rw [dipole, sq, Finset.sum_mul_sum]
  simp only [h]
  rw [Finset.sum_comm]
  have h2 : ∀ i, ∑ u, ∑ j, evecs i u * evecs j u = 1 := by
    intro i
    rw [Finset.sum_comm]
    simp [horth]
  simp [h2]

/-- C91: the dipoles are the components of the uniform excitation of all sites in the eigenbasis:
they rebuild it, sign included, for orthonormal eigenvectors. -/
theorem dipole_completeness (evecs : n → n → ℝ)
    (horth : ∀ i j, ∑ u, evecs i u * evecs j u = if i = j then 1 else 0) (j : n) :
    ∑ u, dipole evecs u * evecs j u = 1 := by
  simp only [dipole, Finset.sum_mul]
  rw [Finset.sum_comm]
  simp [horth]

/-- C91: each line has its maximum at the eigenvalue and falls to half of it at a distance `gamma`
on either side. -/
theorem line_width (j : n) (evals dip : n → ℝ) (gamma e : ℝ) (hg : 0 < gamma) :
    linearSpec [j] evals dip gamma e ≤ linearSpec [j] evals dip gamma (evals j) ∧
    linearSpec [j] evals dip gamma (evals j + gamma) = linearSpec [j] evals dip gamma (evals j) / 2 ∧
    linearSpec [j] evals dip gamma (evals j - gamma) = linearSpec [j] evals dip gamma (evals j) / 2 := by
  simp only [linearSpec, List.map_cons, List.map_nil, List.sum_cons, List.sum_nil, sub_self, add_zero]
  refine ⟨?_, ?_, ?_⟩
  · refine div_le_div_of_nonneg_left (mul_nonneg (mul_self_nonneg _) hg.le) (by positivity) ?_
    nlinarith [sq_nonneg (e - evals j)]
  · rw [show evals j + gamma - evals j = gamma by ring]
    field_simp
    ring
  · rw [show evals j - gamma - evals j = -gamma by ring]
    field_simp
    ring

/-- C91: the absorption spectrum is non-negative, grows with the list of states, and a single state
gives its full dipole strength at resonance. -/
theorem spectrum_nonneg (states extra : List n) (evals dip : n → ℝ) (gamma e : ℝ) (hg : 0 < gamma) :
    0 ≤ linearSpec states evals dip gamma e ∧
    linearSpec states evals dip gamma e ≤ linearSpec (states ++ extra) evals dip gamma e ∧
    ∀ j, linearSpec [j] evals dip gamma (evals j) = dip j ^ 2 / gamma := by
  have h : ∀ l : List n, 0 ≤ linearSpec l evals dip gamma e := by
    intro l
    refine List.sum_nonneg fun x hx => ?_
    obtain ⟨j, -, rfl⟩ := List.mem_map.1 hx
    exact div_nonneg (mul_nonneg (mul_self_nonneg _) hg.le) (by positivity)
  refine ⟨h states, ?_, fun j => ?_⟩
  · have := h extra
    simp only [linearSpec, List.map_append, List.sum_append] at this ⊢
    linarith
  · simp only [linearSpec, List.map_cons, List.map_nil, List.sum_cons, List.sum_nil, sub_self]
    field_simp
    ring

/-- A rotation by a quarter turn is orthonormal. -/
example : ∀ i j : Fin 2, ∑ u, (fun a b : Fin 2 => if a = b then (0 : ℝ) else if a < b then 1 else -1) i u *
    (fun a b : Fin 2 => if a = b then (0 : ℝ) else if a < b then 1 else -1) j u = if i = j then 1 else 0 := by
  intro i j
  fin_cases i <;> fin_cases j <;> simp [Fin.sum_univ_two]

end MeanField
end OpenMS.Lattice
