import Verif.Model.HubbardInts
import Verif.Props.Lattice
import Mathlib.Tactic

/-!
# C146: unrestricted and general integrals of the Hubbard chain
-/

namespace OpenMS.Lattice

section
variable {n : Type*} [Fintype n] [DecidableEq n]

theorem trans4_sub {n m : Type*} [Fintype n] (V W : n → n → n → n → ℝ) (c1 c2 c3 c4 : n → m → ℝ) (w x y z : m) :
    trans4 (fun p q r s => V p q r s - W p q r s) c1 c2 c3 c4 w x y z =
      trans4 V c1 c2 c3 c4 w x y z - trans4 W c1 c2 c3 c4 w x y z := by
  simp only [trans4, sub_mul, Finset.sum_sub_distrib]

theorem trans4_swap {n m : Type*} [Fintype n] (V : n → n → n → n → ℝ) (c1 c2 c3 c4 : n → m → ℝ) (w x y z : m) :
    trans4 (fun p q r s => V p q s r) c1 c2 c3 c4 w x y z = trans4 V c1 c2 c4 c3 w x z y := by
  unfold trans4
  refine Finset.sum_congr rfl fun p _ => Finset.sum_congr rfl fun q _ => ?_
  rw [Finset.sum_comm]
  exact Finset.sum_congr rfl fun r _ => Finset.sum_congr rfl fun s _ => by ring

/-- C146: antisymmetrising before the transformation to orbitals (`g_aint`) and after it (`g_aint_tot`) give the same integrals. -/
theorem aint_orders (U : ℝ) (ca cb : n → n → ℝ) (w x y z : n ⊕ n) :
    gaintMo U ca cb w x y z = gaintTot U ca cb w x y z := by
  unfold gaintMo gaintTot
  simp only []
  rw [trans4_sub, trans4_swap (umat U)]

/-- The integral of four orbitals over the sites. -/
theorem trans4_umatS (U : ℝ) (c1 c2 c3 c4 : n → n → ℝ) (w x y z : n) :
    trans4 (umatS U) c1 c2 c3 c4 w x y z = U * ∑ i, c1 i w * c2 i x * c3 i y * c4 i z := by
  unfold trans4 umatS
  rw [Finset.mul_sum]
  refine Finset.sum_congr rfl fun p _ => ?_
  rw [Finset.sum_eq_single p, Finset.sum_eq_single p, Finset.sum_eq_single p]
  · simp; ring
  · intro b _ hb; simp [hb.symm]
  · simp
  · intro b _ hb; simp [hb.symm]
  · simp
  · intro b _ hb; simp [hb.symm]
  · simp

/-- C146: integrals of equal spin vanish after antisymmetrisation. -/
theorem same_spin_zero (U : ℝ) (c : n → n → ℝ) (w x y z : n) : uaintSame U c w x y z = 0 := by
  unfold uaintSame
  rw [trans4_sub, trans4_swap (umatS U), trans4_umatS, trans4_umatS, ← mul_sub, ← Finset.sum_sub_distrib]
  rw [Finset.sum_eq_zero, mul_zero]
  intro i _; ring

theorem mixed_eq (U : ℝ) (ca cb : n → n → ℝ) (w x y z : n) :
    uaintMixed U ca cb w x y z = U * ∑ i, ca i w * cb i x * ca i y * cb i z := trans4_umatS U ca cb ca cb w x y z

/-- The transformed on-site repulsion before antisymmetrisation: the spins of the first and third and of the second and fourth orbital agree. -/
theorem trans4_umat (U : ℝ) (ca cb : n → n → ℝ) (w x y z : n ⊕ n) :
    trans4 (umat U) (blockDiag ca cb) (blockDiag ca cb) (blockDiag ca cb) (blockDiag ca cb) w x y z =
      match w, x, y, z with
      | .inl w, .inr x, .inl y, .inr z => U * ∑ i, ca i w * cb i x * ca i y * cb i z
      | .inr w, .inl x, .inr y, .inl z => U * ∑ i, cb i w * ca i x * cb i y * ca i z
      | .inl w, .inl x, .inl y, .inl z => U * ∑ i, ca i w * ca i x * ca i y * ca i z
      | .inr w, .inr x, .inr y, .inr z => U * ∑ i, cb i w * cb i x * cb i y * cb i z
      | _, _, _, _ => 0 := by
  have h := fun c1 c2 c3 c4 : n → n → ℝ => trans4_umatS U c1 c2 c3 c4
  unfold trans4 umatS at h
  unfold trans4
  simp only [Fintype.sum_sum_type]
  rcases w with w | w <;> rcases x with x | x <;> rcases y with y | y <;> rcases z with z | z <;>
    simp [blockDiag, umat, ← h]

/-- C146: the general integrals, spin by spin, are the unrestricted ones. -/
theorem spin_blocks (U : ℝ) (ca cb : n → n → ℝ) (w x y z : n ⊕ n) :
    gaintTot U ca cb w x y z =
      match w, x, y, z with
      | .inl w, .inl x, .inl y, .inl z => uaintSame U ca w x y z
      | .inr w, .inr x, .inr y, .inr z => uaintSame U cb w x y z
      | .inl w, .inr x, .inl y, .inr z => uaintMixed U ca cb w x y z
      | .inr w, .inl x, .inr y, .inl z => uaintMixed U ca cb x w z y
      | .inl w, .inr x, .inr y, .inl z => -uaintMixed U ca cb w x z y
      | .inr w, .inl x, .inl y, .inr z => -uaintMixed U ca cb x w y z
      | _, _, _, _ => 0 := by
  unfold gaintTot
  simp only [trans4_umat]
  rcases w with w | w <;> rcases x with x | x <;> rcases y with y | y <;> rcases z with z | z <;>
    simp only [same_spin_zero, mixed_eq, sub_zero, zero_sub, sub_self]
  all_goals first
    | (rw [← mul_sub, ← Finset.sum_sub_distrib, Finset.sum_eq_zero, mul_zero]; intro i _; ring)
    | (congr 1; exact Finset.sum_congr rfl fun i _ => by ring)
    | (congr 2; exact Finset.sum_congr rfl fun i _ => by ring)

end

section
variable {L : ℕ}

theorem density_occ (k : ℕ) (c : Fin L → Fin L → ℝ) (a b : Fin L) :
    density k c a b = ∑ i, c a i * c b i * occ k i := by
  unfold density occ
  refine Finset.sum_congr rfl fun i _ => ?_
  by_cases h : i.val < k <;> simp [h]

/-- C146: the Fock matrix over orbitals of `g_fock` has the two matrices of `u_fock` as its spin blocks. -/
theorem fock_blocks (t : Fin L → Fin L → ℝ) (U : ℝ) (na nb : ℕ) (ca cb : Fin L → Fin L → ℝ) (p q : Fin L) :
    gfock t U na nb ca cb (.inl p) (.inl q) = ufockA t U na nb ca cb p q ∧
      gfock t U na nb ca cb (.inr p) (.inr q) = ufockB t U na nb ca cb p q ∧
      gfock t U na nb ca cb (.inl p) (.inr q) = 0 ∧ gfock t U na nb ca cb (.inr p) (.inl q) = 0 := by
  obtain ⟨f1, f2, f3, f4⟩ : (∀ i j, fock t U (density na ca) (density nb cb) (.inl i) (.inl j) =
        t i j + if i = j then U * density nb cb i i else 0) ∧
      (∀ i j, fock t U (density na ca) (density nb cb) (.inr i) (.inr j) =
        t i j + if i = j then U * density na ca i i else 0) ∧
      (∀ i j, fock t U (density na ca) (density nb cb) (.inl i) (.inr j) = 0) ∧
      (∀ i j, fock t U (density na ca) (density nb cb) (.inr i) (.inl j) = 0) := by
    refine ⟨fun i j => ?_, fun i j => ?_, fun i j => ?_, fun i j => ?_⟩
    · exact (fock_eq t U (density na ca) (density nb cb) i j).1
    · exact (fock_eq t U (density na ca) (density nb cb) i j).2
    · simp [fock, Fintype.sum_sum_type, umat, blockDiag]
    · simp [fock, Fintype.sum_sum_type, umat, blockDiag]
  have key : ∀ (c d : Fin L → Fin L → ℝ) (k : ℕ), (∑ i, ∑ j, c i p * (t i j + if i = j then U * density k d i i else 0) * c j q) =
      (∑ i, ∑ j, t i j * c i p * c j q) + ∑ r, (U * ∑ i, c i p * d i r * c i q * d i r) * occ k r := by
    intro c d k
    have e1 : ∀ i j, c i p * (t i j + if i = j then U * density k d i i else 0) * c j q =
        t i j * c i p * c j q + if i = j then c i p * (U * density k d i i) * c i q else 0 := by
      intro i j
      by_cases h : i = j
      · subst h; simp; ring
      · simp only [h, if_false]; ring
    simp only [e1, Finset.sum_add_distrib, Finset.sum_ite_eq, Finset.mem_univ, if_true]
    simp only [density_occ]
    congr 1
    simp only [Finset.mul_sum, Finset.sum_mul]
    rw [Finset.sum_comm]
    exact Finset.sum_congr rfl fun i _ => Finset.sum_congr rfl fun j _ => by ring
  unfold gfock ufockA ufockB
  simp only [Fintype.sum_sum_type, blockDiag, f1, f2, f3, f4, zero_mul, mul_zero, Finset.sum_const_zero, add_zero, zero_add,
    same_spin_zero, mixed_eq, and_true]
  refine ⟨key ca cb nb, ?_⟩
  rw [key cb ca na]
  congr 1
  refine Finset.sum_congr rfl fun r _ => ?_
  congr 2
  exact Finset.sum_congr rfl fun i _ => by ring

end

/-- C146: the nine blocks determine integrals that are antisymmetric in both pairs. -/
theorem nine_determine {m : Type*} (o : m → Bool) (V W : m → m → m → m → ℝ)
    (hV : ∀ w x y z, V w x y z = -V x w y z ∧ V w x y z = -V w x z y)
    (hW : ∀ w x y z, W w x y z = -W x w y z ∧ W w x y z = -W w x z y)
    (h : ∀ b ∈ nineBlocks, ∀ w x y z, inBlock o o o o b w x y z → V w x y z = W w x y z) : V = W := by
  funext w x y z
  have hb : ∀ b1 b2 b3 b4, (b1, b2, b3, b4) ∈ nineBlocks → ∀ w x y z, o w = b1 → o x = b2 → o y = b3 → o z = b4 →
      V w x y z = W w x y z := fun b1 b2 b3 b4 hm w x y z h1 h2 h3 h4 => h _ hm w x y z ⟨h1, h2, h3, h4⟩
  -- the first pair as `vv`, `vo` or `oo`, the second as `vv`, `oo`, and `vo` or `ov`
  have s1 : V x w y z = W x w y z → V w x y z = W w x y z := fun e => by rw [(hV w x y z).1, (hW w x y z).1, e]
  have s2 : V w x z y = W w x z y → V w x y z = W w x y z := fun e => by rw [(hV w x y z).2, (hW w x y z).2, e]
  have s3 : V x w z y = W x w z y → V w x y z = W w x y z := fun e => by
    rw [(hV w x y z).1, (hW w x y z).1, (hV x w y z).2, (hW x w y z).2, e]
  cases e1 : o w <;> cases e2 : o x <;> cases e3 : o y <;> cases e4 : o z <;>
    first
      | exact hb _ _ _ _ (by decide) w x y z e1 e2 e3 e4
      | exact s1 (hb _ _ _ _ (by decide) x w y z e2 e1 e3 e4)
      | exact s2 (hb _ _ _ _ (by decide) w x z y e1 e2 e4 e3)
      | exact s3 (hb _ _ _ _ (by decide) x w z y e2 e1 e4 e3)

/-- C146: the general integrals have this antisymmetry, so their nine blocks are enough. -/
theorem gaint_antisymm {n : Type*} [Fintype n] [DecidableEq n] (U : ℝ) (ca cb : n → n → ℝ) (w x y z : n ⊕ n) :
    gaintTot U ca cb w x y z = -gaintTot U ca cb x w y z ∧ gaintTot U ca cb w x y z = -gaintTot U ca cb w x z y := by
  simp only [spin_blocks]
  rcases w with w | w <;> rcases x with x | x <;> rcases y with y | y <;> rcases z with z | z <;>
    simp [same_spin_zero]

/-- C146: the sixteen blocks of the mixed-spin integrals contain every entry in exactly one block. -/
theorem all_partition {m : Type*} (o1 o2 o3 o4 : m → Bool) (w x y z : m) :
    (∃! b, b ∈ allBlocks ∧ inBlock o1 o2 o3 o4 b w x y z) ∧ allBlocks.Nodup := by
  refine ⟨⟨(o1 w, o2 x, o3 y, o4 z), ⟨?_, rfl, rfl, rfl, rfl⟩, ?_⟩, by decide⟩
  · cases o1 w <;> cases o2 x <;> cases o3 y <;> cases o4 z <;> decide
  · rintro ⟨b1, b2, b3, b4⟩ ⟨_, h1, h2, h3, h4⟩
    simp only at h1 h2 h3 h4
    rw [h1, h2, h3, h4]

/-- C146 fails: `make_two_e_blocks` keeps nine blocks also of integrals of different spin: with an occupied and a virtual
orbital of each spin there are other integrals, with the symmetries of real orbitals, and the same nine blocks. -/
theorem nine_mixed_fails {m : Type*} (o1 o2 : m → Bool) (i a : m) (hi : o1 i = true) (ha : o2 a = false)
    (V : m → m → m → m → ℝ) (hs : ∀ w x y z, V w x y z = V y x w z ∧ V w x y z = V w z y x) :
    ∃ W : m → m → m → m → ℝ, W ≠ V ∧ (∀ w x y z, W w x y z = W y x w z ∧ W w x y z = W w z y x) ∧
      ∀ b ∈ nineBlocks, ∀ w x y z, inBlock o1 o2 o1 o2 b w x y z → W w x y z = V w x y z := by
  classical
  refine ⟨fun w x y z => V w x y z + if w = i ∧ y = i ∧ x = a ∧ z = a then 1 else 0, ?_, ?_, ?_⟩
  · intro h
    have := congrFun (congrFun (congrFun (congrFun h i) a) i) a
    simp at this
  · intro w x y z
    refine ⟨?_, ?_⟩
    · beta_reduce; rw [(hs w x y z).1]; congr 1; refine if_congr ?_ rfl rfl; tauto
    · beta_reduce; rw [(hs w x y z).2]; congr 1; refine if_congr ?_ rfl rfl; tauto
  · rintro ⟨b1, b2, b3, b4⟩ hb w x y z ⟨h1, h2, h3, h4⟩
    simp only at h1 h2 h3 h4
    have : ¬ (w = i ∧ y = i ∧ x = a ∧ z = a) := by
      rintro ⟨rfl, rfl, rfl, rfl⟩
      rw [hi] at h1 h3; rw [ha] at h2 h4
      subst h1; subst h2; subst h3; subst h4
      exact absurd hb (by decide)
    simp [this]

/-- Two sites in the basis of the sites: the repulsion of the two electrons of the first site. -/
example (U : ℝ) : uaintMixed U (fun i j : Fin 2 => if i = j then 1 else 0) (fun i j => if i = j then 1 else 0) 0 0 0 0 = U := by
  rw [mixed_eq]; simp

end OpenMS.Lattice
