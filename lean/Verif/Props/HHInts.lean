import Verif.Model.HHInts
import Verif.Props.HubbardInts
import Mathlib.Tactic

/-!
# C147: orbitals and integrals of the Hubbard-Holstein chain
-/

namespace OpenMS.Lattice

section
variable {n : Type*} [Fintype n] [DecidableEq n] {M : Type*} [Fintype M]

/-- Trace of the coupling with a matrix diagonal in spin. -/
def gTr (gmat : M → n ⊕ n → n ⊕ n → ℝ) (pa pb : n → n → ℝ) (I : M) : ℝ :=
  ∑ a, ∑ b, gmat I a b * blockDiag pa pb a b

omit [DecidableEq n] [Fintype M] in
theorem gTr_add (gmat : M → n ⊕ n → n ⊕ n → ℝ) (pa pb da db : n → n → ℝ) (I : M) :
    gTr gmat (fun i j => pa i j + da i j) (fun i j => pb i j + db i j) I = gTr gmat pa pb I + gTr gmat da db I := by
  unfold gTr
  rw [← Finset.sum_add_distrib]
  refine Finset.sum_congr rfl fun a _ => ?_
  rw [← Finset.sum_add_distrib]
  refine Finset.sum_congr rfl fun b _ => ?_
  rcases a with a | a <;> rcases b with b | b <;> simp [blockDiag] <;> ring

/-- C147: the Fock matrix of `g_fock` in the basis of the sites is the gradient of the reported energy with respect to the
density, with the change of the shifts included: the remainder is of second order. -/
theorem hh_fock_gradient (shift : Bool) (t : n → n → ℝ) (U w : ℝ) (hw : w ≠ 0) (gmat : M → n ⊕ n → n ⊕ n → ℝ)
    (hs : ∀ I a b, gmat I a b = gmat I b a) (pa pb da db : n → n → ℝ) :
    hhEnergy shift t U w gmat (fun i j => pa i j + da i j) (fun i j => pb i j + db i j) =
      hhEnergy shift t U w gmat pa pb +
      (∑ i, ∑ j, blockDiag da db i j *
        hhGfock shift t U w gmat pa pb (fun a b => if a = b then 1 else 0) (fun a b => if a = b then 1 else 0) j i) +
      (U * (∑ i, da i i * db i i) - if shift then ∑ I, gTr gmat da db I ^ 2 / w else 0) := by
  have hone : ∀ p i : n ⊕ n, blockDiag (fun a b : n => if a = b then (1 : ℝ) else 0) (fun a b => if a = b then 1 else 0) p i =
      if p = i then 1 else 0 := by
    intro p i
    rcases p with p | p <;> rcases i with i | i <;> simp [blockDiag]
  have hF : ∀ i j, hhGfock shift t U w gmat pa pb (fun a b => if a = b then 1 else 0) (fun a b => if a = b then 1 else 0) i j =
      fock t U pa pb i j - 2 * ∑ I, hhXi shift gmat w pa pb I * gmat I i j := by
    intro i j
    unfold hhGfock
    simp only [hone]
    congr 1
    · rw [Finset.sum_eq_single i, Finset.sum_eq_single j]
      · simp
      · intro b _ hb; simp [hb]
      · simp
      · intro b _ hb; simp [hb]
      · simp
    · congr 1
      refine Finset.sum_congr rfl fun I _ => ?_
      rw [Finset.sum_eq_single i, Finset.sum_eq_single j]
      · simp
      · intro b _ hb; simp [hb]
      · simp
      · intro b _ hb; simp [hb]
      · simp
  have hT : (∑ i, ∑ j, blockDiag da db i j * fock t U pa pb j i) =
      (∑ i, ∑ j, (da i j + db i j) * t j i) + U * ∑ i, (da i i * pb i i + db i i * pa i i) := by
    simp only [Fintype.sum_sum_type, blockDiag, fock_eq, zero_mul, Finset.sum_const_zero, add_zero, zero_add]
    have h : ∀ (p q : n → n → ℝ), ∑ i, ∑ j, p i j * (t j i + if j = i then U * q j j else 0) =
        (∑ i, ∑ j, p i j * t j i) + U * ∑ i, p i i * q i i := by
      intro p q
      simp only [mul_add, Finset.sum_add_distrib, Finset.mul_sum]
      congr 1
      refine Finset.sum_congr rfl fun i _ => ?_
      rw [Finset.sum_eq_single i]
      · simp; ring
      · intro b _ hb; simp [hb]
      · simp
    rw [h, h]
    simp only [add_mul, Finset.sum_add_distrib]
    ring
  have hG : (∑ i, ∑ j, blockDiag da db i j * ∑ I, hhXi shift gmat w pa pb I * gmat I j i) =
      ∑ I, hhXi shift gmat w pa pb I * gTr gmat da db I := by
    unfold gTr
    simp only [Finset.mul_sum]
    calc (∑ i, ∑ j, ∑ I, blockDiag da db i j * (hhXi shift gmat w pa pb I * gmat I j i))
        = ∑ i, ∑ I, ∑ j, blockDiag da db i j * (hhXi shift gmat w pa pb I * gmat I j i) :=
          Finset.sum_congr rfl fun i _ => Finset.sum_comm
      _ = ∑ I, ∑ i, ∑ j, blockDiag da db i j * (hhXi shift gmat w pa pb I * gmat I j i) := Finset.sum_comm
      _ = _ := Finset.sum_congr rfl fun I _ => Finset.sum_congr rfl fun i _ => Finset.sum_congr rfl fun j _ => by
          rw [hs I j i]; ring
  have hsum : (∑ i, ∑ j, blockDiag da db i j * (fock t U pa pb j i - 2 * ∑ I, hhXi shift gmat w pa pb I * gmat I j i)) =
      ((∑ i, ∑ j, (da i j + db i j) * t j i) + U * ∑ i, (da i i * pb i i + db i i * pa i i)) -
        2 * ∑ I, hhXi shift gmat w pa pb I * gTr gmat da db I := by
    rw [← hT, ← hG, Finset.mul_sum, ← Finset.sum_sub_distrib]
    refine Finset.sum_congr rfl fun i _ => ?_
    rw [Finset.mul_sum, ← Finset.sum_sub_distrib]
    exact Finset.sum_congr rfl fun j _ => by ring
  simp only [hF]
  rw [hsum]
  have hE : (∑ i, ∑ j, (pa i j + da i j + (pb i j + db i j)) * t j i) + U * ∑ i, (pa i i + da i i) * (pb i i + db i i) =
      ((∑ i, ∑ j, (pa i j + pb i j) * t j i) + U * ∑ i, pa i i * pb i i) +
      ((∑ i, ∑ j, (da i j + db i j) * t j i) + U * ∑ i, (da i i * pb i i + db i i * pa i i)) +
      U * ∑ i, da i i * db i i := by
    have e1 : (∑ i, ∑ j, (pa i j + da i j + (pb i j + db i j)) * t j i) =
        (∑ i, ∑ j, (pa i j + pb i j) * t j i) + ∑ i, ∑ j, (da i j + db i j) * t j i := by
      rw [← Finset.sum_add_distrib]
      refine Finset.sum_congr rfl fun i _ => ?_
      rw [← Finset.sum_add_distrib]
      exact Finset.sum_congr rfl fun j _ => by ring
    have e2 : (∑ i, (pa i i + da i i) * (pb i i + db i i)) =
        (∑ i, pa i i * pb i i) + (∑ i, (da i i * pb i i + db i i * pa i i)) + ∑ i, da i i * db i i := by
      rw [← Finset.sum_add_distrib, ← Finset.sum_add_distrib]
      exact Finset.sum_congr rfl fun i _ => by ring
    rw [e1, e2]; ring
  unfold hhEnergy
  rw [hubbard_energy, hubbard_energy, hE]
  cases shift with
  | false => simp [hhXi]
  | true =>
    have hx : ∀ (pa pb : n → n → ℝ) I, xi gmat w pa pb I = gTr gmat pa pb I / w := fun _ _ _ => rfl
    simp only [if_true, hhXi, hx, gTr_add]
    have : (∑ I, w * ((gTr gmat pa pb I + gTr gmat da db I) / w) ^ 2) =
        (∑ I, w * (gTr gmat pa pb I / w) ^ 2) + 2 * (∑ I, gTr gmat pa pb I / w * gTr gmat da db I) +
          ∑ I, gTr gmat da db I ^ 2 / w := by
      rw [Finset.mul_sum, ← Finset.sum_add_distrib, ← Finset.sum_add_distrib]
      exact Finset.sum_congr rfl fun I _ => by field_simp; ring
    rw [this]
    ring

/-- C147: the Fock matrix over orbitals is the one over sites transformed with the orbitals, and so are the couplings. -/
theorem hh_fock_orbitals (shift : Bool) (t : n → n → ℝ) (U w : ℝ) (gmat : M → n ⊕ n → n ⊕ n → ℝ)
    (pa pb ca cb : n → n → ℝ) (i j : n ⊕ n) :
    hhGfock shift t U w gmat pa pb ca cb i j =
      (∑ p, ∑ q, blockDiag ca cb p i * fock t U pa pb p q * blockDiag ca cb q j) -
        2 * ∑ I, hhXi shift gmat w pa pb I * gintTot gmat ca cb I i j := by
  unfold hhGfock gintTot
  congr 2
  refine Finset.sum_congr rfl fun I _ => ?_
  rw [Finset.mul_sum]
  refine Finset.sum_congr rfl fun p _ => ?_
  rw [Finset.mul_sum]
  exact Finset.sum_congr rfl fun q _ => by ring

omit [DecidableEq n] [Fintype M] in
/-- C147: `mfG` is the linear term of a mode after its displacement by the shift: `w z + ⟨g⟩` with `z = -xi`. -/
theorem mfG_linear (shift : Bool) (w : ℝ) (hw : w ≠ 0) (gmat : M → n ⊕ n → n ⊕ n → ℝ) (hs : ∀ I a b, gmat I a b = gmat I b a)
    (pa pb : n → n → ℝ) (I : M) :
    mfG shift gmat pa pb I = w * -hhXi shift gmat w pa pb I + gTr gmat pa pb I := by
  have h : (∑ p, ∑ q, gmat I p q * blockDiag pa pb q p) = gTr gmat pa pb I := by
    unfold gTr
    rw [Finset.sum_comm]
    exact Finset.sum_congr rfl fun a _ => Finset.sum_congr rfl fun b _ => by rw [hs]
  unfold mfG hhXi
  cases shift with
  | false => simp only [Bool.false_eq_true, if_false, neg_zero, mul_zero, zero_add]; exact h
  | true =>
    have hx : xi gmat w pa pb I = gTr gmat pa pb I / w := rfl
    simp only [if_true, hx]
    field_simp
    ring

end

/-- C147: the couplings are symmetric. -/
theorem hhGmat_symm (periodic : Bool) (L : ℕ) (g : ℝ) (gij : Option ℝ) (I : Fin L) (a b : Fin L ⊕ Fin L) :
    hhGmat periodic L g gij I a b = hhGmat periodic L g gij I b a := by
  unfold hhGmat
  rcases a with a | a <;> rcases b with b | b <;> simp only [blockDiag]
  all_goals
    refine if_congr and_comm rfl ?_
    cases gij with
    | none => rfl
    | some x =>
      refine if_congr or_comm rfl (if_congr ?_ rfl rfl)
      tauto

theorem moHop_fold (k : ℕ) (a b : ℕ) :
    ((List.range k).foldl (fun (h : ℕ → ℕ → ℝ) i => setT (setT h (i + 1) i (-1)) i (i + 1) (-1)) fun _ _ => 0) a b =
      if (a + 1 = b ∧ b ≤ k) ∨ (b + 1 = a ∧ a ≤ k) then -1 else 0 := by
  induction k with
  | zero => simp; omega
  | succ k ih =>
    rw [List.range_succ, List.foldl_append]
    simp only [List.foldl_cons, List.foldl_nil, setT]
    rw [ih]
    by_cases h1 : a = k ∧ b = k + 1
    · rw [if_pos h1, if_pos (by omega)]
    · rw [if_neg h1]
      by_cases h2 : a = k + 1 ∧ b = k
      · rw [if_pos h2, if_pos (by omega)]
      · rw [if_neg h2]
        by_cases h3 : (a + 1 = b ∧ b ≤ k) ∨ (b + 1 = a ∧ a ≤ k)
        · rw [if_pos h3, if_pos (by omega)]
        · rw [if_neg h3, if_neg (by omega)]

/-- The hopping of `get_mo` between two sites. -/
theorem moHop_eq (periodic : Bool) (L : ℕ) (hL : 3 ≤ L) (i j : ℕ) (hi : i < L) (hj : j < L) :
    (Neighbours periodic L i j → moHop periodic L i j = -1) ∧ (¬ Neighbours periodic L i j → moHop periodic L i j = 0) := by
  classical
  have hz : ¬ ((L - 1 + 1 = 0 ∧ 0 ≤ L - 1) ∨ (0 + 1 = L - 1 ∧ L - 1 ≤ L - 1)) := by omega
  have hz' : ¬ ((0 + 1 = L - 1 ∧ L - 1 ≤ L - 1) ∨ (L - 1 + 1 = 0 ∧ 0 ≤ L - 1)) := by omega
  have hne : ¬ (0 = L - 1) := by omega
  have e : moHop periodic L i j = if Neighbours periodic L i j then -1 else 0 := by
    unfold moHop
    cases periodic with
    | false =>
      simp only [Bool.false_eq_true, if_false]
      rw [moHop_fold]
      refine if_congr ?_ rfl rfl
      simp only [Neighbours, Bool.false_eq_true, false_and, or_false]
      omega
    | true =>
      simp only [if_true, setT]
      simp only [moHop_fold]
      rw [if_neg hz]
      by_cases h1 : i = 0 ∧ j = L - 1
      · rw [if_pos h1, if_neg (by omega), if_neg hz', if_pos]
        · norm_num
        · simp only [Neighbours, true_and]; omega
      · rw [if_neg h1]
        by_cases h2 : i = L - 1 ∧ j = 0
        · rw [if_pos h2, if_pos]
          · norm_num
          · simp only [Neighbours, true_and]; omega
        · rw [if_neg h2]
          refine if_congr ?_ rfl rfl
          simp only [Neighbours, true_and]
          omega
  rw [e]
  exact ⟨fun h => if_pos h, fun h => if_neg h⟩

/-- C147: with at least three sites the orbitals are made with the hopping of the model. -/
theorem mo_hopping_partial (periodic : Bool) (L : ℕ) (hL : 3 ≤ L) :
    ∃ t, hhT periodic L = some t ∧ ∀ i < L, ∀ j < L, t i j = moHop periodic L i j := by
  obtain ⟨t, ht, -, he⟩ := hh_hopping_partial periodic L hL
  refine ⟨t, ht, fun i hi j hj => ?_⟩
  by_cases h : Neighbours periodic L i j
  · rw [(he i hi j hj).1 h, (moHop_eq periodic L hL i j hi hj).1 h]
  · rw [(he i hi j hj).2 h, (moHop_eq periodic L hL i j hi hj).2 h]

/-- C147 fails: with two sites and open ends the model hops twice as strongly as the mean field that makes its orbitals. -/
theorem mo_hopping_two_fails : ∃ t, hhT false 2 = some t ∧ t 0 1 = -2 ∧ moHop false 2 0 1 = -1 := by
  obtain ⟨⟨t, ht, h, -⟩, -⟩ := hh_two_sites_fails false
  exact ⟨t, ht, h, by norm_num [moHop, setT, List.range_succ]⟩

/-- C147: with broken symmetry the repulsion of the mean field is that of the model. -/
theorem mo_eri_partial {n : Type*} [DecidableEq n] (U : ℝ) (i j k l : n) : moEri true U i j k l = umatS U i j k l := rfl

/-- Orbitals of the open chain of three sites without repulsion: bonding, nonbonding, antibonding. -/
noncomputable def threeOrb (i j : Fin 3) : ℝ :=
  !![1 / 2, √2 / 2, 1 / 2; √2 / 2, 0, -(√2 / 2); 1 / 2, -(√2 / 2), 1 / 2] i j

/-- C147 fails: without broken symmetry `get_mo` leaves the repulsion zero.  For the open chain of three sites with two
electrons the orbitals are then eigenvectors of the hopping, and the Fock matrix of the model couples the occupied
orbital to a virtual one for every repulsion. -/
theorem mo_orbitals_fails (U : ℝ) (hU : U ≠ 0) :
    moEri false U (0 : Fin 3) 0 0 0 = 0 ∧ umatS U (0 : Fin 3) 0 0 0 = U ∧
    (∀ i j : Fin 3, ∑ k : Fin 3, moHop false 3 i k * threeOrb k j = ![-√2, 0, √2] j * threeOrb i j) ∧
    (∀ i j : Fin 3, ∑ k, threeOrb k i * threeOrb k j = if i = j then 1 else 0) ∧
    gfock (fun i j : Fin 3 => moHop false 3 i j) U 1 1 threeOrb threeOrb (.inl 0) (.inl 2) ≠ 0 := by
  have h2 : √2 * √2 = 2 := Real.mul_self_sqrt (by norm_num)
  have hm : ∀ i j : Fin 3, moHop false 3 i j = !![0, -1, 0; -1, 0, -1; 0, -1, 0] i j := by
    intro i j
    unfold moHop
    simp only [Bool.false_eq_true, if_false]
    rw [moHop_fold]
    fin_cases i <;> fin_cases j <;> simp
  refine ⟨by simp [moEri], by simp [umatS], ?_, ?_, ?_⟩
  · intro i j
    simp only [hm, Fin.sum_univ_three]
    fin_cases i <;> fin_cases j <;> simp [threeOrb] <;> nlinarith
  · intro i j
    simp only [Fin.sum_univ_three]
    fin_cases i <;> fin_cases j <;> simp [threeOrb] <;> nlinarith
  · have h : gfock (fun i j : Fin 3 => moHop false 3 i j) U 1 1 threeOrb threeOrb (.inl 0) (.inl 2) = -(U / 8) := by
      rw [(fock_blocks _ U 1 1 threeOrb threeOrb 0 2).1]
      unfold ufockA
      simp only [same_spin_zero, mixed_eq, hm, Fin.sum_univ_three, occ]
      simp [threeOrb]
      ring_nf
      have h4 : √2 ^ 4 = 4 := by
        calc √2 ^ 4 = (√2 * √2) * (√2 * √2) := by ring
          _ = 4 := by rw [h2]; norm_num
      simp only [h4]
      ring
    rw [h]
    intro hc
    apply hU
    linarith

/-- One mode of frequency two coupled with strength three to the single spin-up electron on one site: the shift 3/2 lowers
the Fock matrix by 9. -/
example : hhGfock (n := Fin 1) (M := Fin 1) true (fun _ _ => 0) 0 2 (fun _ a b => if a = b then 3 else 0) (fun _ _ => 1)
    (fun _ _ => 0) (fun _ _ => 1) (fun _ _ => 1) (.inl 0) (.inl 0) = -9 := by
  rw [hh_fock_orbitals]
  norm_num [gintTot, hhXi, xi, Fintype.sum_sum_type, blockDiag, fock, umat]

end OpenMS.Lattice
