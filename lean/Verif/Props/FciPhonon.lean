import Verif.Model.FciPhonon
import Verif.Props.FciHubbard

/-!
# C174: site modes, full matrix of the modes and density matrix of the bosons in the full CI
-/

namespace OpenMS.QedFci
set_option linter.unusedSectionVars false

variable {m norb : ℕ} {S : Type*}

/-! ### `contract_eb_new` -/

/-- The loops in terms of the boson operators. -/
theorem ebLoop_eq {Na Nb : ℕ} (N : Fin m → ℕ) (f : Fin m → Str (Fin norb) Na × Str (Fin norb) Nb → ℝ)
    (c : Str (Fin norb) Na × Str (Fin norb) Nb → (Fin m → ℕ) → ℝ) (s : Str (Fin norb) Na × Str (Fin norb) Nb)
    (σ : Fin m → ℕ) :
    ebLoop N f c s σ = ∑ x, f x s * ePart x s * (creBoson N x c s σ + desBoson N x c s σ) := by
  unfold ebLoop creBoson desBoson
  refine Finset.sum_congr rfl fun x _ => ?_
  rw [← Finset.sum_add_distrib, Finset.mul_sum]
  refine Finset.sum_congr rfl fun ip _ => ?_
  rw [mul_add, mul_ite, mul_ite, mul_zero]
  congr 1
  · exact if_congr Iff.rfl (by ring) rfl
  · exact if_congr Iff.rfl (by ring) rfl

theorem masked_occ (A : Finset (Fin norb)) (p : Fin norb) : masked A p.val ↔ p ∈ A := by
  constructor
  · rintro ⟨q, hq, h⟩; rwa [← Fin.ext h]
  · exact fun h => ⟨p, h, rfl⟩

/-- Coupling of mode `x` to the deviation of the occupation of orbital `x` from the mean. -/
noncomputable def siteCoupling (m : ℕ) (g : Fin m → ℝ) (x : Fin m) (p q : Fin norb) : ℝ :=
  g x * ((if p.val = x.val ∧ q.val = x.val then 1 else 0) - (if p = q then 1 else 0) / (m : ℝ))

/-- C174: with one number per mode `contract_eb_new` is `contract_eb` for the coupling of mode `x` to `n_x - n / nmode`, for
all numbers of modes, orbitals and electrons and all vectors. -/
theorem ebNew_spec {Na Nb : ℕ} (N : Fin m → ℕ) (ia : Str (Fin norb) Na → ℕ) (ib : Str (Fin norb) Nb → ℕ) (g : Fin m → ℝ)
    (c : Str (Fin norb) Na × Str (Fin norb) Nb → (Fin m → ℕ) → ℝ) :
    contractEBNew N ia ib (.scalar g) c =
      .ok (contractEB N (linkTable Na) (linkTable Nb) (siteCoupling m g) c) := by
  unfold contractEBNew
  refine congrArg Except.ok ?_
  funext s σ
  rw [ebLoop_eq, c84_contract_eb]
  refine Finset.sum_congr rfl fun x _ => ?_
  obtain ⟨F, hF⟩ : ∃ F : Str (Fin norb) Na × Str (Fin norb) Nb → (Fin m → ℕ) → ℝ,
    F = fun s σ => creBoson N x c s σ + desBoson N x c s σ := ⟨_, rfl⟩
  have hFs : creBoson N x c s σ + desBoson N x c s σ = F s σ := by rw [hF]
  rw [hFs, ← hF]
  have h2 : ∀ p q : Fin norb, siteCoupling m g x p q * exc (linkTable Na) (linkTable Nb) p q F s σ =
      (if p = q then (if p.val = x.val then g x * exc (linkTable Na) (linkTable Nb) p p F s σ else 0) -
        g x / (m : ℝ) * exc (linkTable Na) (linkTable Nb) p p F s σ else 0) := by
    intro p q
    unfold siteCoupling
    by_cases hpq : p = q
    · subst hpq
      by_cases hx : p.val = x.val
      · simp only [hx, and_self, if_true]; ring
      · simp only [hx, and_self, if_true, if_false]; ring
    · have : ¬(p.val = x.val ∧ q.val = x.val) := fun h => hpq (Fin.ext (h.1.trans h.2.symm))
      simp [hpq, this]
  have h3 : ∑ p : Fin norb, ∑ q, siteCoupling m g x p q * exc (linkTable Na) (linkTable Nb) p q F s σ =
      ∑ p : Fin norb, ((if p.val = x.val then g x * exc (linkTable Na) (linkTable Nb) p p F s σ else 0) -
        g x / (m : ℝ) * exc (linkTable Na) (linkTable Nb) p p F s σ) := by
    refine Finset.sum_congr rfl fun p _ => ?_
    simp only [h2, Finset.sum_ite_eq, Finset.mem_univ, if_true]
  rw [h3, Finset.sum_sub_distrib, ← Finset.mul_sum, sum_exc_self (link_counts Na Nb)]
  have h4 : ∑ p : Fin norb, (if p.val = x.val then g x * exc (linkTable Na) (linkTable Nb) p p F s σ else 0) =
      g x * ((if masked s.1.1 x.val then 1 else 0) + (if masked s.2.1 x.val then 1 else 0)) * F s σ := by
    by_cases hx : x.val < norb
    · rw [Finset.sum_eq_single ⟨x.val, hx⟩]
      · rw [if_pos rfl, exc_number]
        have ha := masked_occ s.1.1 ⟨x.val, hx⟩
        have hb := masked_occ s.2.1 ⟨x.val, hx⟩
        simp only [occ, ← ha, ← hb]
        ring
      · intro b _ hb; rw [if_neg fun h => hb (Fin.ext h)]
      · simp
    · have hn : ∀ A : Finset (Fin norb), ¬masked A x.val := by
        rintro A ⟨p, _, hp⟩; omega
      rw [if_neg (hn _), if_neg (hn _), Finset.sum_eq_zero]
      · ring
      · intro p _; rw [if_neg]; omega
  rw [h4]
  unfold ePart
  push_cast
  ring

/-- C174: with at least one mode per orbital the couplings of all modes together cancel: a displacement common to all modes
does not couple to the electrons. -/
theorem ebNew_uniform {Na Nb : ℕ} (hm : 1 ≤ m) (hn : norb ≤ m) (s : Str (Fin norb) Na × Str (Fin norb) Nb) :
    ∑ x : Fin m, ePart x s = 0 := by
  have hc : ∀ A : Finset (Fin norb), ∑ x : Fin m, (if masked A x.val then (1 : ℝ) else 0) = A.card := by
    intro A
    have h1 : ∀ x : Fin m, (if masked A x.val then (1 : ℝ) else 0) = ∑ p ∈ A, if p.val = x.val then 1 else 0 := by
      intro x
      by_cases h : masked A x.val
      · obtain ⟨p, hp, hpx⟩ := h
        rw [if_pos ⟨p, hp, hpx⟩, Finset.sum_eq_single_of_mem p hp, if_pos hpx]
        intro b _ hb; rw [if_neg fun h => hb (Fin.ext (h.trans hpx.symm))]
      · rw [if_neg h, Finset.sum_eq_zero]
        intro p hp; rw [if_neg fun h' => h ⟨p, hp, h'⟩]
    simp only [h1]
    rw [Finset.sum_comm]
    have h2 : ∀ p ∈ A, ∑ x : Fin m, (if p.val = x.val then (1 : ℝ) else 0) = 1 := by
      intro p _
      rw [Finset.sum_eq_single ⟨p.val, by omega⟩]
      · simp
      · intro b _ hb; rw [if_neg fun h => hb (Fin.ext h.symm)]
      · simp
    rw [Finset.sum_congr rfl h2]; simp
  unfold ePart
  simp only [Finset.sum_sub_distrib, Finset.sum_add_distrib, hc, Finset.sum_const, Finset.card_univ, Fintype.card_fin,
    s.1.2, s.2.2]
  have : (m : ℝ) ≠ 0 := by positivity
  simp
  field_simp
  ring

/-- C174 fails: given the matrices of `kernel`, `contract_eb_new` raises unless both numbers of strings are the number of
orbitals. -/
theorem ebNew_fails {Na Nb : ℕ} (N : Fin m → ℕ) (ia : Str (Fin norb) Na → ℕ) (ib : Str (Fin norb) Nb → ℕ)
    (g : Fin m → Fin norb → Fin norb → ℝ) (c : Str (Fin norb) Na × Str (Fin norb) Nb → (Fin m → ℕ) → ℝ)
    (x : Fin m) (hx : 1 ≤ N x) (h1 : norb ≠ 1) (hn : norb.choose Na ≠ norb ∨ norb.choose Nb ≠ norb) :
    contractEBNew N ia ib (.matrix g) c = .error "ValueError" := by
  have hcard : ∀ K : ℕ, Fintype.card (Str (Fin norb) K) = norb.choose K := by
    intro K
    rw [Fintype.card_finset_len, Fintype.card_fin]
  unfold contractEBNew
  dsimp only
  rw [if_pos ⟨⟨x, hx⟩, h1, by rw [hcard, hcard]; tauto⟩]

/-- C174 fails: and if both are (one electron of each spin), an orbital energy that is the same for all orbitals, which ought to
count the electrons, acts on no pair of strings with different positions. -/
theorem ebNew_one_fails (hn : 2 ≤ norb) (x : Fin m) (N : Fin m → ℕ) (hx : 1 ≤ N x) (ia ib : Str (Fin norb) 1 → ℕ)
    (hia : ∀ s, ∃ p ∈ s.1, ia s = p.val) (hib : ∀ s, ∃ p ∈ s.1, ib s = p.val) :
    ∃ (g : Fin m → Fin norb → Fin norb → ℝ) (c : Str (Fin norb) 1 × Str (Fin norb) 1 → (Fin m → ℕ) → ℝ),
      contractEBNew N ia ib (.matrix g) c ≠ .ok (contractEB N (linkTable 1) (linkTable 1) g c) := by
  refine ⟨fun y p q => if y = x ∧ p = q then 1 else 0, fun _ σ => if σ = 0 then 1 else 0, fun h => ?_⟩
  have hcard : Fintype.card (Str (Fin norb) 1) = norb := by
    rw [Fintype.card_finset_len, Fintype.card_fin, Nat.choose_one_right]
  unfold contractEBNew at h
  dsimp only at h
  rw [if_neg (by rw [hcard]; tauto)] at h
  have h := Except.ok.inj h
  obtain ⟨a, ha⟩ : ∃ a : Str (Fin norb) 1, a.1 = {⟨0, by omega⟩} := ⟨⟨{⟨0, by omega⟩}, by simp⟩, rfl⟩
  obtain ⟨b, hb⟩ : ∃ b : Str (Fin norb) 1, b.1 = {⟨1, by omega⟩} := ⟨⟨{⟨1, by omega⟩}, by simp⟩, rfl⟩
  have hia' : ia a = 0 := by
    obtain ⟨p, hp, h⟩ := hia a; rw [ha, Finset.mem_singleton] at hp; rw [h, hp]
  have hib' : ib b = 1 := by
    obtain ⟨p, hp, h⟩ := hib b; rw [hb, Finset.mem_singleton] at hp; rw [h, hp]
  have h := congrFun (congrFun h (a, b)) (Function.update 0 x 1)
  rw [ebLoop_eq, c84_contract_eb] at h
  have hl : ∀ y : Fin m, (if h : ia a < norb ∧ ib b < norb then
      (if y = x ∧ (⟨ia a, h.1⟩ : Fin norb) = ⟨ib b, h.2⟩ then (1 : ℝ) else 0) else 0) = 0 := by
    intro y
    rw [dif_pos ⟨by omega, by omega⟩, if_neg]
    rintro ⟨_, h⟩
    have := Fin.mk.inj h
    omega
  simp only [hl, zero_mul, Finset.sum_const_zero] at h
  rw [Finset.sum_eq_single x] at h
  · have hd : ∀ (F : Str (Fin norb) 1 × Str (Fin norb) 1 → (Fin m → ℕ) → ℝ) (σ : Fin m → ℕ),
        ∑ p : Fin norb, ∑ q, (if x = x ∧ p = q then (1 : ℝ) else 0) * exc (linkTable 1) (linkTable 1) p q F (a, b) σ =
          2 * F (a, b) σ := by
      intro F σ
      have := sum_exc_self (link_counts (n := Fin norb) 1 1) F (a, b) σ
      simp only [true_and, ite_mul, one_mul, zero_mul, Finset.sum_ite_eq, Finset.mem_univ, if_true]
      rw [this]; norm_num
    rw [hd, creBoson_succ _ _ _ _ _ (by simpa using hx), desBoson_eq] at h
    have h1 : Function.update (Function.update (0 : Fin m → ℕ) x 1) x 0 = 0 := by
      rw [Function.update_idem]; exact Function.update_eq_self x 0
    have h2 : Function.update (Function.update (0 : Fin m → ℕ) x 1) x 2 ≠ 0 := by
      intro h; have := congrFun h x; simp at this
    simp only [Function.update_self, Nat.sub_self, h1, if_true, Nat.reduceAdd, h2, if_false, mul_zero, ite_self] at h
    norm_num at h
  · intro y _ hy
    refine Finset.sum_eq_zero fun p _ => Finset.sum_eq_zero fun q _ => ?_
    rw [if_neg fun h => hy h.1, zero_mul]
  · simp

/-! ### `contract_bb_full` -/

theorem annArray_eq (N : Fin m → ℕ) (c : S → (Fin m → ℕ) → ℝ) (x : Fin m) : annArray N c x = desBoson N x c := by
  funext s σ
  unfold annArray desBoson
  exact Finset.sum_congr rfl fun i _ => if_congr Iff.rfl (mul_comm _ _) rfl

/-- What the loops add up to. -/
theorem bbFull_eq (k : Fin m) (nph : ℕ) (Hbb : Fin m → Fin m → ℝ) (zs : Option (Fin m → ℝ)) (c : S → (Fin m → ℕ) → ℝ) :
    contractBBFull (some k) nph Hbb zs c = .ok fun s σ =>
      ∑ x, creBoson (fun _ => nph) x (fun s σ => ∑ y, Hbb k y * desBoson (fun _ => nph) y c s σ) s σ +
        zs.elim 0 fun z => ∑ x, (∑ y, Hbb k y * z y) *
          (creBoson (fun _ => nph) x c s σ + desBoson (fun _ => nph) x c s σ) := by
  unfold contractBBFull
  refine congrArg Except.ok ?_
  funext s σ
  simp only [annArray_eq]
  congr 1
  · unfold creBoson
    exact Finset.sum_congr rfl fun x _ => Finset.sum_congr rfl fun i _ => if_congr Iff.rfl (mul_comm _ _) rfl
  · cases zs with
    | none => rfl
    | some z =>
      simp only [Option.elim]
      refine Finset.sum_congr rfl fun x _ => ?_
      unfold creBoson desBoson
      rw [← Finset.sum_add_distrib, Finset.mul_sum]
      refine Finset.sum_congr rfl fun i _ => ?_
      rw [mul_add, mul_ite, mul_ite, mul_zero]
      congr 1
      · exact if_congr Iff.rfl (by ring) rfl
      · exact if_congr Iff.rfl (by ring) rfl

/-- C174 partial: one mode, and the missing names exist: energy of the bosons and their displacement.  Missing: the names, and
two or more modes. -/
theorem bbFull_partial (nph : ℕ) (Hbb : Fin 1 → Fin 1 → ℝ) (z : Fin 1 → ℝ) (c : S → (Fin 1 → ℕ) → ℝ) :
    ∃ r, contractBBFull (some 0) nph Hbb (some z) c = .ok r ∧ ∀ s σ, InBox (fun _ => nph) σ →
      r s σ = Hbb 0 0 * σ 0 * c s σ +
        Hbb 0 0 * z 0 * (creBoson (fun _ => nph) 0 c s σ + desBoson (fun _ => nph) 0 c s σ) := by
  refine ⟨_, bbFull_eq _ _ _ _ _, fun s σ hσ => ?_⟩
  have h := c47_number (fun _ => nph) (0 : Fin 1) c s σ hσ
  have hc : creBoson (fun _ => nph) (0 : Fin 1) (fun s σ => Hbb 0 0 * desBoson (fun _ => nph) 0 c s σ) s σ =
      Hbb 0 0 * creBoson (fun _ => nph) (0 : Fin 1) (desBoson (fun _ => nph) 0 c) s σ := by
    unfold creBoson
    rw [Finset.mul_sum]
    exact Finset.sum_congr rfl fun i _ => by split_ifs <;> ring
  simp only [Finset.univ_unique, Fin.default_eq_zero, Finset.sum_singleton, Option.elim, hc, h, Fin.isValue]
  ring

/-- C174 fails: `contract_bb_full` raises for all arguments, as names in it are not defined. -/
theorem bbFull_fails (nph : ℕ) (Hbb : Fin m → Fin m → ℝ) (zs : Option (Fin m → ℝ)) (c : S → (Fin m → ℕ) → ℝ) :
    contractBBFull none nph Hbb zs c = .error "NameError" := rfl

/-- C174 fails: and whatever mode the name `mode_id` stood for, the energy of the other modes would be lost. -/
theorem bbFull_modes_fails (k x : Fin m) (hkx : x ≠ k) (nph : ℕ) (hn : 1 ≤ nph) (w : Fin m → ℝ) (hw : w x ≠ 0) :
    ∃ (c : Unit → (Fin m → ℕ) → ℝ) (r : Unit → (Fin m → ℕ) → ℝ) (σ : Fin m → ℕ), InBox (fun _ => nph) σ ∧
      contractBBFull (some k) nph (fun x y => if x = y then w x else 0) none c = .ok r ∧
      r () σ ≠ (∑ y, w y * (σ y : ℝ)) * c () σ := by
  obtain ⟨e, he⟩ : ∃ e : Fin m → ℕ, e = Function.update (0 : Fin m → ℕ) x 1 := ⟨_, rfl⟩
  have hex : e x = 1 := by rw [he]; simp
  have hey : ∀ y, y ≠ x → e y = 0 := by intro y hy; rw [he]; simp [Function.update_of_ne hy]
  refine ⟨fun _ σ => if σ = e then 1 else 0, _, e, ?_, bbFull_eq _ _ _ _ _, ?_⟩
  · intro y
    by_cases hy : y = x
    · rw [hy, hex]; exact hn
    · rw [hey y hy]; exact Nat.zero_le _
  have h0 : (∑ y, w y * (e y : ℝ)) = w x := by
    rw [Finset.sum_eq_single x]
    · rw [hex]; simp
    · intro y _ hy; rw [hey y hy]; simp
    · simp
  have hl : ∀ y : Fin m, creBoson (S := Unit) (fun _ => nph) y (fun s σ => ∑ y, (if k = y then w k else 0) *
      desBoson (fun _ => nph) y (fun _ σ => if σ = e then 1 else 0) s σ) () e = 0 := by
    intro y
    have hin : e y ≤ nph := by
      by_cases hy : y = x
      · rw [hy, hex]; exact hn
      · rw [hey y hy]; exact Nat.zero_le _
    rw [creBoson_succ _ _ _ _ _ hin]
    by_cases hy : y = x
    · subst hy
      simp only [ite_mul, zero_mul, Finset.sum_ite_eq, Finset.mem_univ, if_true]
      rw [desBoson_eq]
      have : Function.update (Function.update e y (e y - 1)) k (Function.update e y (e y - 1) k + 1) ≠ e := by
        intro h
        have := congrFun h k
        rw [Function.update_self, Function.update_of_ne hkx.symm, hey k hkx.symm] at this
        omega
      rw [if_neg this]; simp
    · rw [hey y hy]; simp
  simp only [hl, h0, Option.elim, if_true, mul_one, Finset.sum_const_zero, add_zero]
  exact fun h => hw h.symm

/-! ### `make_rdm1p` -/

/-- C174 partial: with the name `nsite` at the right value and no more modes than orbitals, `make_rdm1p` is the density
matrix `⟨b_p† b_q⟩` of the modes with zeros beyond them: symmetric, without negative eigenvalues, with the mean numbers of bosons on
the diagonal.  Missing: the name, and more modes than orbitals. -/
theorem rdm1p_partial [Fintype S] (N : Fin m → ℕ) (hm : m ≤ norb) (c : S → (Fin m → ℕ) → ℝ) :
    ∃ D, makeRdm1p (some norb) norb N c = .ok D ∧
      (∀ p q : Fin m, D (p.castLE hm) (q.castLE hm) =
        ∑ s, ∑ σ ∈ box N, c s σ * creBoson N p (desBoson N q c) s σ) ∧
      (∀ p q, m ≤ p.val ∨ m ≤ q.val → D p q = 0) ∧
      (∀ p : Fin m, D (p.castLE hm) (p.castLE hm) = ∑ s, ∑ σ ∈ box N, (σ p : ℝ) * c s σ ^ 2) ∧
      (∀ p q, D p q = D q p) ∧ ∀ v : Fin norb → ℝ, 0 ≤ ∑ p, ∑ q, v p * D p q * v q := by
  have hx : ¬∃ x : Fin m, norb ≤ x.val ∧ 1 ≤ N x := by rintro ⟨x, h, _⟩; omega
  refine ⟨fun p q => ∑ s, ∑ σ ∈ box N, (if h : p.val < m then desBoson N ⟨p, h⟩ c s σ else 0) *
    (if h : q.val < m then desBoson N ⟨q, h⟩ c s σ else 0), ?_, ?_, ?_, ?_, ?_, ?_⟩
  · unfold makeRdm1p
    rw [if_neg hx]
    dsimp only
    rw [if_pos rfl]
    simp only [annArray_eq]
  · intro p q
    rw [c47_adjoint]
    simp
  · intro p q h
    refine Finset.sum_eq_zero fun s _ => Finset.sum_eq_zero fun σ _ => ?_
    rcases h with h | h
    · rw [dif_neg (by omega), zero_mul]
    · rw [dif_neg (c := q.val < m) (by omega), mul_zero]
  · intro p
    have h1 : ∑ s, ∑ σ ∈ box N, c s σ * creBoson N p (desBoson N p c) s σ = ∑ s, ∑ σ ∈ box N, (σ p : ℝ) * c s σ ^ 2 := by
      refine Finset.sum_congr rfl fun s _ => Finset.sum_congr rfl fun σ hσ => ?_
      rw [c47_number N p c s σ (mem_box.1 hσ)]; ring
    rw [← h1, c47_adjoint]
    simp
  · intro p q
    exact Finset.sum_congr rfl fun s _ => Finset.sum_congr rfl fun σ _ => mul_comm _ _
  · intro v
    obtain ⟨T, hT⟩ : ∃ T : Fin norb → S → (Fin m → ℕ) → ℝ,
      T = fun (p : Fin norb) (s : S) (σ : Fin m → ℕ) => if h : p.val < m then desBoson N ⟨p, h⟩ c s σ else 0 := ⟨_, rfl⟩
    have hT' : ∀ (p : Fin norb) (s : S) (σ : Fin m → ℕ),
        (if h : p.val < m then desBoson N ⟨p, h⟩ c s σ else 0) = T p s σ := by intro p s σ; rw [hT]
    simp only [hT']
    have : ∑ p, ∑ q, v p * (∑ s, ∑ σ ∈ box N, T p s σ * T q s σ) * v q =
        ∑ s, ∑ σ ∈ box N, (∑ p, v p * T p s σ) ^ 2 := by
      simp only [sq, Finset.sum_mul_sum]
      simp only [Finset.mul_sum, Finset.sum_mul]
      rw [Finset.sum_comm]
      refine (Finset.sum_congr rfl fun p _ => Finset.sum_comm).trans ?_
      rw [Finset.sum_comm]
      refine Finset.sum_congr rfl fun s _ => ?_
      refine (Finset.sum_congr rfl fun p _ => Finset.sum_comm).trans ?_
      rw [Finset.sum_comm]
      refine Finset.sum_congr rfl fun σ _ => ?_
      rw [Finset.sum_comm]
      exact Finset.sum_congr rfl fun p _ => Finset.sum_congr rfl fun q _ => by ring
    rw [this]
    exact Finset.sum_nonneg fun s _ => Finset.sum_nonneg fun σ _ => sq_nonneg _

/-- C174 fails: no matrix comes out where the module has no `nsite`, and none with more modes than orbitals (and a boson
in the last of them), whatever `nsite` is. -/
theorem rdm1p_fails [Fintype S] (N : Fin m → ℕ) (c : S → (Fin m → ℕ) → ℝ) :
    (∀ D, makeRdm1p none norb N c ≠ .ok D) ∧
      ∀ x : Fin m, norb ≤ x.val → 1 ≤ N x → ∀ nsite, makeRdm1p nsite norb N c = .error "IndexError" := by
  refine ⟨fun D => ?_, fun x h1 h2 nsite => ?_⟩
  · unfold makeRdm1p
    split_ifs <;> simp
  · unfold makeRdm1p
    rw [if_pos ⟨x, h1, h2⟩]

/-- C174: where the shapes fit, an entry of the matrix belongs to the positions of the strings: alpha first, beta second. -/
theorem ebNew_matrix {Na Nb : ℕ} (N : Fin m → ℕ) (ia : Str (Fin norb) Na → Fin norb) (ib : Str (Fin norb) Nb → Fin norb)
    (g : Fin m → Fin norb → Fin norb → ℝ) (c : Str (Fin norb) Na × Str (Fin norb) Nb → (Fin m → ℕ) → ℝ)
    (h : norb = 1 ∨ (norb.choose Na = norb ∧ norb.choose Nb = norb)) :
    ∃ r, contractEBNew N (fun s => (ia s).val) (fun s => (ib s).val) (.matrix g) c = .ok r ∧ ∀ s σ,
      r s σ = ∑ x, g x (ia s.1) (ib s.2) * ((if ∃ p ∈ s.1.1, p.val = x.val then 1 else 0) +
        (if ∃ p ∈ s.2.1, p.val = x.val then 1 else 0) - ((Na : ℝ) + Nb) / m) * (creBoson N x c s σ + desBoson N x c s σ) := by
  have hcard : ∀ K : ℕ, Fintype.card (Str (Fin norb) K) = norb.choose K := by
    intro K
    rw [Fintype.card_finset_len, Fintype.card_fin]
  unfold contractEBNew
  dsimp only
  rw [if_neg (by rw [hcard, hcard]; tauto)]
  refine ⟨_, rfl, fun s σ => ?_⟩
  rw [ebLoop_eq]
  refine Finset.sum_congr rfl fun x _ => ?_
  rw [dif_pos ⟨(ia s.1).isLt, (ib s.2).isLt⟩]
  unfold ePart masked
  rw [zero_add, Nat.cast_add]

/-- Two modes, two orbitals, one electron of each spin. -/
example : ∑ x : Fin 2, ePart x (((⟨{0}, rfl⟩, ⟨{1}, rfl⟩) : Str (Fin 2) 1 × Str (Fin 2) 1)) = 0 :=
  ebNew_uniform (by norm_num) le_rfl _

/-- Two of four orbitals: six strings, the matrices do not fit. -/
example : (4 : ℕ) ≠ 1 ∧ (Nat.choose 4 2 ≠ 4 ∨ Nat.choose 4 2 ≠ 4) := by decide

/-- Positions of the strings of one electron as `cistring` orders them. -/
example : ∃ ia : Str (Fin 3) 1 → ℕ, ∀ s, ∃ p ∈ s.1, ia s = p.val :=
  ⟨fun s => (s.1.min' (Finset.card_pos.1 (by rw [s.2]; norm_num))).val, fun _ => ⟨_, Finset.min'_mem _ _, rfl⟩⟩

/-- A vector with one boson in the first of two modes: its density matrix is not zero. -/
example : ∃ D, makeRdm1p (S := Unit) (some 2) 2 ![1, 1] (fun _ σ => if σ = ![1, 0] then 1 else 0) = .ok D ∧
    D 0 0 = 1 := by
  obtain ⟨D, h, -, -, hd, -⟩ := rdm1p_partial (S := Unit) (norb := 2) ![1, 1] le_rfl
    (fun _ σ => if σ = ![1, 0] then 1 else 0)
  refine ⟨D, h, ?_⟩
  have := hd 0
  rw [show (Fin.castLE le_rfl (0 : Fin 2)) = (0 : Fin 2) from rfl] at this
  rw [this, Fintype.sum_unique, Finset.sum_eq_single ![1, 0]]
  · simp
  · intro σ _ hσ; simp [hσ]
  · intro h
    refine absurd (mem_box.2 ?_) h
    intro x; fin_cases x <;> simp

end OpenMS.QedFci
