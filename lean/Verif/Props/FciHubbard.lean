import Verif.Model.FciHubbard
import Verif.Props.QedFciDensity

/-!
# C140: Hubbard interaction in the full CI with bosons
-/

namespace OpenMS.QedFci
set_option linter.unusedSectionVars false

variable {m : ℕ} {n : Type*} [Fintype n] [LinearOrder n]

/-- Two electron integrals of the Hubbard model. -/
def hubbardEri (u : ℝ) (p q r t : n) : ℝ := if p = q ∧ q = r ∧ r = t then u else 0

/-- Number operators of the orbitals are diagonal. -/
theorem exc_number {Na Nb : ℕ} (p : n) (c : Str n Na × Str n Nb → (Fin m → ℕ) → ℝ) (s : Str n Na × Str n Nb) (σ : Fin m → ℕ) :
    exc (linkTable Na) (linkTable Nb) p p c s σ = (occ s.1.1 p + occ s.2.1 p) * c s σ := by
  unfold exc
  simp only [link_diag]
  have h1 : ∑ s0 : Str n Na, (if s.1 = s0 ∧ p ∈ s0.1 then (1 : ℝ) else 0) * c (s0, s.2) σ = occ s.1.1 p * c s σ := by
    rw [Finset.sum_eq_single s.1]
    · simp [occ]
    · intro b _ hb; rw [if_neg fun h => hb h.1.symm, zero_mul]
    · simp
  have h2 : ∑ s0 : Str n Nb, (if s.2 = s0 ∧ p ∈ s0.1 then (1 : ℝ) else 0) * c (s.1, s0) σ = occ s.2.1 p * c s σ := by
    rw [Finset.sum_eq_single s.2]
    · simp [occ]
    · intro b _ hb; rw [if_neg fun h => hb h.1.symm, zero_mul]
    · simp
  rw [h1, h2, add_mul]

/-- The Hubbard interaction in second quantisation acts as `u` times the number of doubly occupied orbitals. -/
theorem hubbard_elecH {Na Nb : ℕ} (u : ℝ) (c : Str n Na × Str n Nb → (Fin m → ℕ) → ℝ) (s : Str n Na × Str n Nb) (σ : Fin m → ℕ) :
    elecH (linkTable Na) (linkTable Nb) (fun _ _ => 0) (hubbardEri u) c s σ =
      u * ((s.1.1 ∩ s.2.1).card : ℝ) * c s σ := by
  have hs : ∀ p : n, ∑ q, ∑ r, ∑ t, hubbardEri u p q r t *
      (exc (linkTable Na) (linkTable Nb) p q (exc (linkTable Na) (linkTable Nb) r t c) s σ -
        if q = r then exc (linkTable Na) (linkTable Nb) p t c s σ else 0) =
      2 * u * (occ s.1.1 p * occ s.2.1 p) * c s σ := by
    intro p
    rw [Finset.sum_eq_single p, Finset.sum_eq_single p, Finset.sum_eq_single p]
    · rw [exc_number, exc_number, hubbardEri, if_pos ⟨rfl, rfl, rfl⟩, if_pos rfl]
      have ha : occ s.1.1 p * occ s.1.1 p = occ s.1.1 p := by unfold occ; split_ifs <;> norm_num
      have hb : occ s.2.1 p * occ s.2.1 p = occ s.2.1 p := by unfold occ; split_ifs <;> norm_num
      linear_combination u * c s σ * (ha + hb)
    · intro b _ hb; rw [hubbardEri, if_neg fun h => hb h.2.2.symm, zero_mul]
    · simp
    · intro b _ hb
      refine Finset.sum_eq_zero fun t _ => ?_
      rw [hubbardEri, if_neg fun h => hb h.2.1.symm, zero_mul]
    · simp
    · intro b _ hb
      refine Finset.sum_eq_zero fun r _ => Finset.sum_eq_zero fun t _ => ?_
      rw [hubbardEri, if_neg fun h => hb h.1.symm, zero_mul]
    · simp
  have hc : ∑ p, occ s.1.1 p * occ s.2.1 p = ((s.1.1 ∩ s.2.1).card : ℝ) := by
    have : ∀ p, occ s.1.1 p * occ s.2.1 p = if p ∈ s.1.1 ∩ s.2.1 then (1 : ℝ) else 0 := by
      intro p; simp only [occ, Finset.mem_inter]; rw [ind_and]
    simp only [this]
    rw [Finset.sum_ite_mem]; simp
  unfold elecH
  rw [Finset.sum_congr rfl fun p _ => hs p, ← Finset.sum_mul, ← Finset.mul_sum, hc]
  simp only [zero_mul, Finset.sum_const_zero]
  ring

/-- C140: with one number `contract_2e_hubbard` is the Hubbard interaction, for all numbers of orbitals, electrons, modes and
all vectors. -/
theorem hubbard_scalar {Na Nb : ℕ} (N : Fin (m + 1) → ℕ) (u : ℝ) (c : Str n Na × Str n Nb → (Fin (m + 1) → ℕ) → ℝ) :
    contract2eHubbard N (.scalar u) c =
      .ok fun s σ => elecH (linkTable Na) (linkTable Nb) (fun _ _ => 0) (hubbardEri u) c s σ := by
  unfold contract2eHubbard
  refine congrArg Except.ok ?_
  funext s σ
  rw [hubbard_elecH]
  unfold hubbardLoop
  have : ∀ i, (if i ∈ s.1.1 ∧ i ∈ s.2.1 then u * c s σ else 0) = if i ∈ s.1.1 ∩ s.2.1 then u * c s σ else 0 := by
    intro i; simp only [Finset.mem_inter]
  simp only [this]
  rw [Finset.sum_ite_mem]; simp; ring

/-- C140 fails: three numbers, which `_unpack_u` accepts, raise unless the last mode has three states. -/
theorem hubbard_triple_fails {Na Nb : ℕ} (N : Fin (m + 1) → ℕ) (hN : N (Fin.last m) ≠ 2) (aa ab bb : ℝ)
    (c : Str n Na × Str n Nb → (Fin (m + 1) → ℕ) → ℝ) :
    contract2eHubbard N (.triple aa ab bb) c = .error "ValueError" := by
  unfold contract2eHubbard
  exact if_neg (by omega)

/-- C140 fails: with three states of the last mode the interaction used depends on the number of bosons: a doubly occupied
orbital costs `aa` without, `ab` with one and `bb` with two bosons. -/
theorem hubbard_triple_mode_fails {Na Nb : ℕ} (N : Fin (m + 1) → ℕ) (hN : N (Fin.last m) = 2) (aa ab bb : ℝ)
    (c : Str n Na × Str n Nb → (Fin (m + 1) → ℕ) → ℝ) :
    contract2eHubbard N (.triple aa ab bb) c = .ok fun s σ =>
      (if σ (Fin.last m) = 0 then aa else if σ (Fin.last m) = 1 then ab else bb) *
        ((s.1.1 ∩ s.2.1).card : ℝ) * c s σ := by
  unfold contract2eHubbard
  simp only
  rw [if_pos (by omega)]
  refine congrArg Except.ok ?_
  funext s σ
  unfold hubbardLoop
  simp only
  generalize (if σ (Fin.last m) = 0 then aa else if σ (Fin.last m) = 1 then ab else bb) = u
  have : ∀ i, (if i ∈ s.1.1 ∧ i ∈ s.2.1 then u * c s σ else 0) = if i ∈ s.1.1 ∩ s.2.1 then u * c s σ else 0 := by
    intro i; simp only [Finset.mem_inter]
  simp only [this]
  rw [Finset.sum_ite_mem]; simp; ring

/-- C140 fails: `make_hdiag_hubbard` raises, because no name `boson_states` is defined. -/
theorem hdiag_hubbard_fails {Na Nb : ℕ} (h : n → n → ℝ) (u : UArg) (Hbb : Fin m → ℝ) :
    (makeHdiagHubbard none h u Hbb : Except String (Str n Na × Str n Nb → (Fin m → ℕ) → ℝ)) = .error "NameError" := rfl

/-- C140: even with the name defined, the electronic part of the diagonal (here without modes) is right for every pair of strings
only without interaction or without electrons: it counts all electrons instead of the doubly occupied orbitals. -/
theorem hdiag_hubbard_iff {Na Nb : ℕ} (h : n → n → ℝ) (u : ℝ) (s : Str n Na × Str n Nb) (σ : Fin 0 → ℕ) (Hbb : Fin 0 → ℝ) :
    ((makeHdiagHubbard (some fun _ => 0) h (.scalar u) Hbb :
        Except String (Str n Na × Str n Nb → (Fin 0 → ℕ) → ℝ)).map fun d => d s σ) =
      .ok (elecH (linkTable Na) (linkTable Nb) h (hubbardEri u) (unitVec s σ) s σ) ↔ u = 0 ∨ Na + Nb = 0 := by
  have e : elecH (linkTable Na) (linkTable Nb) h (hubbardEri u) (unitVec s σ) s σ =
      (∑ i ∈ s.1.1, h i i + ∑ i ∈ s.2.1, h i i) + u * ((s.1.1 ∩ s.2.1).card : ℝ) := by
    have h1 := hdiag_elec h (fun _ _ _ _ => 0) s σ
    have h2 := hubbard_elecH u (unitVec s σ) s σ
    simp only [unitVec, and_self, if_true, mul_one] at h2
    rw [← h2]
    have h3 : hdiagElec h (fun _ _ _ _ => 0) s.1.1 s.2.1 = ∑ i ∈ s.1.1, h i i + ∑ i ∈ s.2.1, h i i := by
      simp [hdiagElec]
    rw [← h3, h1]
    unfold elecH
    simp
  rw [e]
  have hcard : (s.1.1 ∩ s.2.1).card ≤ Na := by
    have := Finset.card_le_card (Finset.inter_subset_left (s₁ := s.1.1) (s₂ := s.2.1))
    rwa [s.1.2] at this
  have hcard' : (s.1.1 ∩ s.2.1).card ≤ Nb := by
    have := Finset.card_le_card (Finset.inter_subset_right (s₁ := s.1.1) (s₂ := s.2.1))
    rwa [s.2.2] at this
  simp only [makeHdiagHubbard, unpackU, Except.map, Finset.univ_eq_empty, Finset.sum_empty, add_zero, Except.ok.injEq,
    add_right_inj]
  rw [mul_eq_mul_left_iff, Nat.cast_inj]
  constructor
  · rintro (h | h)
    · right; omega
    · exact Or.inl h
  · rintro (h | h)
    · exact Or.inr h
    · left; omega

/-- Three orbitals, two alpha and two beta electrons sharing one orbital: the diagonal is `u`, not `4 u`. -/
example : ∃ s : Str (Fin 3) 2 × Str (Fin 3) 2, ∀ u : ℝ,
    elecH (linkTable 2) (linkTable 2) (fun _ _ => 0) (hubbardEri u) (unitVec s (fun _ : Fin 0 => 0)) s (fun _ => 0) = u := by
  refine ⟨(⟨{0, 1}, by decide⟩, ⟨{1, 2}, by decide⟩), fun u => ?_⟩
  rw [hubbard_elecH]
  simp [unitVec]

end OpenMS.QedFci
