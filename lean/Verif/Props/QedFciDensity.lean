import Verif.Model.QedFciDensity
import Verif.Props.QedFciElec

/-!
# C132: link tables, two-electron density matrix and diagonal of the full CI with bosons
-/

namespace OpenMS.QedFci
set_option linter.unusedSectionVars false

variable {m : ℕ} {n Sa Sb : Type*} [Fintype n] [Fintype Sa] [Fintype Sb] [DecidableEq Sa] [DecidableEq Sb]

section tables
variable [LinearOrder n]

/-- Matrix elements of the link table. -/
theorem elem_link {N : ℕ} (a i : n) (s s0 : Str n N) :
    elem (linkTable N) a i s s0 =
      if i ∈ s0.1 ∧ (a = i ∨ a ∉ s0.1) ∧ s.1 = insert a (s0.1.erase i) then linkSign a i s0.1 else 0 := by
  classical
  unfold elem linkTable
  rw [List.map_map, Finset.sum_map_toList, Finset.sum_filter]
  simp only [Function.comp_apply]
  rw [Finset.sum_eq_single (a, i)]
  · by_cases h : i ∈ s0.1 ∧ (a = i ∨ a ∉ s0.1)
    · have hc : (insert a (s0.1.erase i)).card = N := by
        have h1 := Finset.card_erase_of_mem h.1
        have h2 : 0 < s0.1.card := Finset.card_pos.2 ⟨i, h.1⟩
        have h3 := s0.2
        have : a ∉ s0.1.erase i := by
          rcases h.2 with h' | h'
          · simp [h']
          · exact fun hh => h' (Finset.mem_of_mem_erase hh)
        rw [Finset.card_insert_of_notMem this]
        omega
      simp only [h, true_and, if_true, dif_pos hc, Subtype.ext_iff, eq_comm (a := s.1), and_self]
    · rw [if_neg h, if_neg fun hh => h ⟨hh.1, hh.2.1⟩]
  · rintro ⟨b, j⟩ _ hb
    have : ¬(b = a ∧ j = i) := fun hh => hb (by rw [hh.1, hh.2])
    simp only [← and_assoc, this, false_and, if_false, ite_self]
  · simp

theorem linkSign_sq (a i : n) (s : Finset n) : linkSign a i s * linkSign a i s = 1 := by
  unfold linkSign
  rw [← mul_pow]; simp

theorem linkSign_self (a : n) (s : Finset n) : linkSign a a s = 1 := by
  have : (s.filter fun j => (a < j ∧ j < a) ∨ (a < j ∧ j < a)) = ∅ := by
    ext j; simp only [Finset.mem_filter, Finset.notMem_empty, iff_false]
    rintro ⟨_, h | h⟩ <;> exact lt_asymm h.1 h.2
  unfold linkSign
  rw [this]; simp

/-- C132: the tables are those of a Hermitian family, `⟨s|a†i|s0⟩ = ⟨s0|i†a|s⟩`. -/
theorem link_symm {N : ℕ} (a i : n) (s s0 : Str n N) :
    elem (linkTable N) a i s s0 = elem (linkTable N) i a s0 s := by
  rw [elem_link, elem_link]
  have key : ∀ (a i : n) (s s0 : Finset n), (i ∈ s0 ∧ (a = i ∨ a ∉ s0) ∧ s = insert a (s0.erase i)) →
      (a ∈ s ∧ (i = a ∨ i ∉ s) ∧ s0 = insert i (s.erase a)) ∧ linkSign a i s0 = linkSign i a s := by
    rintro a i s s0 ⟨h1, h2, rfl⟩
    refine ⟨⟨by simp, ?_, ?_⟩, ?_⟩
    · by_cases h : i = a
      · exact Or.inl h
      · right; simp [h]
    · have : a ∉ s0.erase i := by
        rcases h2 with h' | h'
        · simp [h']
        · exact fun hh => h' (Finset.mem_of_mem_erase hh)
      rw [Finset.erase_insert this, Finset.insert_erase h1]
    · unfold linkSign
      congr 2
      ext j
      simp only [Finset.mem_filter, Finset.mem_insert, Finset.mem_erase]
      constructor
      · rintro ⟨hj, h | h⟩
        · exact ⟨Or.inr ⟨ne_of_lt h.2, hj⟩, Or.inr h⟩
        · exact ⟨Or.inr ⟨ne_of_gt h.1, hj⟩, Or.inl h⟩
      · rintro ⟨hj, h | h⟩
        · rcases hj with hj | hj
          · exact absurd hj (ne_of_lt h.2)
          · exact ⟨hj.2, Or.inr h⟩
        · rcases hj with hj | hj
          · exact absurd hj (ne_of_gt h.1)
          · exact ⟨hj.2, Or.inl h⟩
  by_cases h : i ∈ s0.1 ∧ (a = i ∨ a ∉ s0.1) ∧ s.1 = insert a (s0.1.erase i)
  · rw [if_pos h, if_pos (key _ _ _ _ h).1, (key _ _ _ _ h).2]
  · rw [if_neg h, if_neg fun hh => h (key _ _ _ _ hh).1]

/-- Diagonal entries are the occupations. -/
theorem link_diag {N : ℕ} (k : n) (s s' : Str n N) :
    elem (linkTable N) k k s s' = if s = s' ∧ k ∈ s'.1 then 1 else 0 := by
  rw [elem_link]
  by_cases hk : k ∈ s'.1
  · simp only [hk, true_and, true_or, and_true, Finset.insert_erase hk, linkSign_self, Subtype.ext_iff]
  · simp [hk]

/-- C132: the tables of `Na` and `Nb` electrons satisfy the hypothesis of C49, C85 and C86. -/
theorem link_counts (Na Nb : ℕ) :
    CountsElectrons (linkTable Na : Table n (Str n Na)) (linkTable Nb : Table n (Str n Nb)) (Na + Nb) := by
  have hd : ∀ {N : ℕ} (s : Str n N), ∑ k, elem (linkTable N) k k s s = (N : ℝ) := by
    intro N s
    simp only [link_diag, true_and]
    rw [Finset.sum_ite_mem]; simp [s.2]
  have ho : ∀ {N : ℕ} (s s' : Str n N), s ≠ s' → ∑ k, elem (linkTable N) k k s s' = 0 := by
    intro N s s' h
    simp [link_diag, h]
  intro s s'
  refine ⟨?_, fun r r' => ⟨?_, ?_⟩⟩
  · split_ifs with h
    · rw [h]
    · exact ho _ _ h
  · split_ifs with h
    · rw [h]
    · exact ho _ _ h
  · rw [hd, hd]; push_cast; rfl

/-- Products of two matrix elements out of one string. -/
theorem link_pair {N : ℕ} (p q r t : n) (A : Str n N) :
    ∑ s, elem (linkTable N) q p s A * elem (linkTable N) r t s A =
      (if p = q ∧ r = t ∧ p ∈ A.1 ∧ r ∈ A.1 then 1 else 0) +
      if q = r ∧ p = t ∧ p ∈ A.1 ∧ q ∉ A.1 then 1 else 0 := by
  by_cases hpq : p = q
  · subst hpq
    have h2 : ¬(p = r ∧ p = t ∧ p ∈ A.1 ∧ p ∉ A.1) := fun h => h.2.2.2 h.2.2.1
    rw [if_neg h2, add_zero]
    simp only [link_diag, ite_mul, one_mul, zero_mul]
    rw [Finset.sum_eq_single A]
    · by_cases hrt : r = t
      · subst hrt
        simp only [link_diag, true_and]
        split_ifs <;> first | rfl | (exfalso; tauto)
      · have : elem (linkTable N) r t A A = 0 := by
          rw [elem_link]
          refine if_neg fun h => ?_
          have := h.2.2 ▸ h.1
          simp only [Finset.mem_insert, Finset.mem_erase, ne_eq, not_true_eq_false, false_and, or_false] at this
          exact hrt this.symm
        simp [this, hrt]
    · intro s _ hs; simp [hs]
    · simp
  · have h1 : ¬(p = q ∧ r = t ∧ p ∈ A.1 ∧ r ∈ A.1) := fun h => hpq h.1
    rw [if_neg h1, zero_add]
    by_cases hc : q = r ∧ p = t ∧ p ∈ A.1 ∧ q ∉ A.1
    · rw [if_pos hc]
      obtain ⟨rfl, rfl, hp, hq⟩ := hc
      have hcard : (insert q (A.1.erase p)).card = N := by
        have h1 := Finset.card_erase_of_mem hp
        have h2 : 0 < A.1.card := Finset.card_pos.2 ⟨p, hp⟩
        have h3 := A.2
        rw [Finset.card_insert_of_notMem fun hh => hq (Finset.mem_of_mem_erase hh)]
        omega
      rw [Finset.sum_eq_single ⟨_, hcard⟩]
      · rw [elem_link, if_pos ⟨hp, Or.inr hq, rfl⟩, linkSign_sq]
      · intro s _ hs
        have : elem (linkTable N) q p s A = 0 := by
          rw [elem_link]
          exact if_neg fun h => hs (Subtype.ext h.2.2)
        simp [this]
      · simp
    · rw [if_neg hc]
      refine Finset.sum_eq_zero fun s _ => ?_
      rw [elem_link, elem_link]
      split_ifs with ha hb <;> try simp
      exfalso
      obtain ⟨hp, hq, hs⟩ := ha
      obtain ⟨ht, hr, hs'⟩ := hb
      have hq' : q ∉ A.1 := hq.resolve_left (Ne.symm hpq)
      have hps : p ∉ s.1 := by rw [hs]; simp [hpq]
      have hqs : q ∈ s.1 := by rw [hs]; simp
      rw [hs'] at hps hqs
      simp only [Finset.mem_insert, Finset.mem_erase, not_or, not_and] at hps hqs
      have hpt : p = t := by
        by_contra h
        exact hps.2 h hp
      have hqr : q = r := by
        rcases hqs with h | h
        · exact h
        · exact absurd h.2 hq'
      exact hc ⟨hqr, hpt, hp, hq'⟩

end tables

/-! ### The density matrices -/

section density
variable [DecidableEq n]

/-- Tables of a Hermitian family (`link_symm` shows it for the tables of `cistring`). -/
def Hermitian {S : Type*} [DecidableEq S] (tab : Table n S) : Prop :=
  ∀ a i s s0, elem tab a i s s0 = elem tab i a s0 s

/-- The scalar product of two CI vectors. -/
def ip (N : Fin m → ℕ) (u v : Sa × Sb → (Fin m → ℕ) → ℝ) : ℝ := ∑ s, ∑ σ ∈ box N, u s σ * v s σ

theorem entries_eq {S : Type*} [Fintype S] [DecidableEq S] (a i : n) (l : List (n × n × S × ℝ)) (f : S → ℝ) :
    (l.map fun t => if t.1 = a ∧ t.2.1 = i then t.2.2.2 * f t.2.2.1 else 0).sum =
      ∑ s, (l.map fun t => if t.1 = a ∧ t.2.1 = i ∧ t.2.2.1 = s then t.2.2.2 else 0).sum * f s := by
  induction l with
  | nil => simp
  | cons t l ih =>
    simp only [List.map_cons, List.sum_cons, ih, add_mul, Finset.sum_add_distrib]
    congr 1
    by_cases h : t.1 = a ∧ t.2.1 = i
    · simp only [h, true_and, if_true, and_self, ite_mul, zero_mul]
      rw [Finset.sum_ite_eq]; simp
    · rw [if_neg h]
      symm
      refine Finset.sum_eq_zero fun s _ => ?_
      rw [if_neg fun hh => h ⟨hh.1, hh.2.1⟩, zero_mul]

/-- The array `t1` of `make_rdm12e` holds the excited vectors. -/
theorem t1e_eq {ta : Table n Sa} {tb : Table n Sb} (ha : Hermitian ta) (hb : Hermitian tb)
    (c : Sa × Sb → (Fin m → ℕ) → ℝ) (i a : n) : t1e ta tb c i a = exc ta tb i a c := by
  funext s σ
  unfold t1e exc
  rw [entries_eq a i (ta s.1) (fun s1 => c (s1, s.2) σ), entries_eq a i (tb s.2) (fun s1 => c (s.1, s1) σ)]
  congr 1
  · refine Finset.sum_congr rfl fun s1 _ => ?_
    have := ha a i s1 s.1
    rw [← this]; rfl
  · refine Finset.sum_congr rfl fun s1 _ => ?_
    have := hb a i s1 s.2
    rw [← this]; rfl

/-- `E_pq` and `E_qp` are adjoint. -/
theorem ip_exc {ta : Table n Sa} {tb : Table n Sb} (ha : Hermitian ta) (hb : Hermitian tb) (N : Fin m → ℕ)
    (u v : Sa × Sb → (Fin m → ℕ) → ℝ) (p q : n) :
    ip N u (exc ta tb p q v) = ip N (exc ta tb q p u) v := by
  unfold ip
  rw [Finset.sum_comm, Finset.sum_comm (s := Finset.univ (α := Sa × Sb))]
  refine Finset.sum_congr rfl fun σ _ => ?_
  simp only [exc, mul_add, add_mul, Finset.sum_add_distrib, Finset.mul_sum, Finset.sum_mul,
    Fintype.sum_prod_type]
  congr 1
  · have e1 : ∀ f : Sa → Sb → Sa → ℝ, ∑ x, ∑ y, ∑ z, f x y z = ∑ y, ∑ x, ∑ z, f x y z :=
      fun f => Finset.sum_comm
    rw [e1, e1]
    refine Finset.sum_congr rfl fun y _ => ?_
    rw [Finset.sum_comm]
    refine Finset.sum_congr rfl fun x _ => Finset.sum_congr rfl fun z _ => ?_
    rw [ha p q z x]; ring
  · refine Finset.sum_congr rfl fun x _ => ?_
    rw [Finset.sum_comm]
    refine Finset.sum_congr rfl fun y _ => Finset.sum_congr rfl fun z _ => ?_
    rw [hb p q z y]; ring

theorem rdm1e_eq {ta : Table n Sa} {tb : Table n Sb} (ha : Hermitian ta) (hb : Hermitian tb) (N : Fin m → ℕ)
    (c : Sa × Sb → (Fin m → ℕ) → ℝ) (p q : n) : rdm1e N ta tb c p q = ip N c (exc ta tb p q c) := by
  unfold rdm1e ip
  rw [t1e_eq ha hb]

theorem rdm1e_symm {ta : Table n Sa} {tb : Table n Sb} (ha : Hermitian ta) (hb : Hermitian tb)
    (N : Fin m → ℕ) (c : Sa × Sb → (Fin m → ℕ) → ℝ) (p q : n) :
    rdm1e N ta tb c p q = rdm1e N ta tb c q p := by
  rw [rdm1e_eq ha hb, rdm1e_eq ha hb, ip_exc ha hb]
  unfold ip
  exact Finset.sum_congr rfl fun s _ => Finset.sum_congr rfl fun σ _ => mul_comm _ _

theorem rdm2raw_eq {ta : Table n Sa} {tb : Table n Sb} (ha : Hermitian ta) (hb : Hermitian tb)
    (N : Fin m → ℕ) (c : Sa × Sb → (Fin m → ℕ) → ℝ) (p q r t : n) :
    rdm2raw N ta tb c p q r t = ip N c (exc ta tb p q (exc ta tb r t c)) := by
  rw [ip_exc ha hb]
  unfold rdm2raw ip
  rw [t1e_eq ha hb, t1e_eq ha hb]

/-- C132: both density-matrix functions give the same one-electron matrix. -/
theorem rdm1_agree {ta : Table n Sa} {tb : Table n Sb} (ha : Hermitian ta) (hb : Hermitian tb)
    (N : Fin m → ℕ) (c : Sa × Sb → (Fin m → ℕ) → ℝ) (p q : n) :
    rdm1e N ta tb c p q = makeRdm1e N ta tb c p q := by
  rw [rdm1e_eq ha hb, c86_expectation]; rfl

theorem ip_sum {ι : Type*} (u : Finset ι) (N : Fin m → ℕ) (c : Sa × Sb → (Fin m → ℕ) → ℝ)
    (v : ι → Sa × Sb → (Fin m → ℕ) → ℝ) :
    ip N c (fun s σ => ∑ j ∈ u, v j s σ) = ∑ j ∈ u, ip N c (v j) := by
  unfold ip
  simp only [Finset.mul_sum]
  rw [Finset.sum_comm (s := u)]
  refine Finset.sum_congr rfl fun s _ => ?_
  rw [Finset.sum_comm]

theorem ip_smul (N : Fin m → ℕ) (y : ℝ) (c v : Sa × Sb → (Fin m → ℕ) → ℝ) :
    ip N c (fun s σ => y * v s σ) = y * ip N c v := by
  unfold ip
  simp only [Finset.mul_sum]
  exact Finset.sum_congr rfl fun s _ => Finset.sum_congr rfl fun σ _ => by ring

theorem ip_add (N : Fin m → ℕ) (c v w : Sa × Sb → (Fin m → ℕ) → ℝ) :
    ip N c (fun s σ => v s σ + w s σ) = ip N c v + ip N c w := by
  unfold ip
  simp only [mul_add, Finset.sum_add_distrib]

/-- `⟨c|E_pq E_rt − δ_qr E_pt|c⟩` -/
def gam (N : Fin m → ℕ) (ta : Table n Sa) (tb : Table n Sb) (c : Sa × Sb → (Fin m → ℕ) → ℝ)
    (p q r t : n) : ℝ :=
  ip N c (exc ta tb p q (exc ta tb r t c)) - if q = r then ip N c (exc ta tb p t c) else 0

theorem rdm2e_eq {ta : Table n Sa} {tb : Table n Sb} (ha : Hermitian ta) (hb : Hermitian tb)
    (N : Fin m → ℕ) (c : Sa × Sb → (Fin m → ℕ) → ℝ) (p q r t : n) :
    rdm2e N ta tb c p q r t = (gam N ta tb c p q r t + gam N ta tb c r t p q) * (1 / 2) := by
  unfold rdm2e reorder gam
  simp only [rdm2raw_eq ha hb]
  rw [rdm1e_symm ha hb N c t p, rdm1e_symm ha hb N c q r, rdm1e_eq ha hb, rdm1e_eq ha hb]

theorem ip_elecH (ta : Table n Sa) (tb : Table n Sb) (N : Fin m → ℕ) (h : n → n → ℝ)
    (eri : n → n → n → n → ℝ) (c : Sa × Sb → (Fin m → ℕ) → ℝ) :
    ip N c (elecH ta tb h eri c) = ∑ p, ∑ q, h p q * ip N c (exc ta tb p q c) +
      1 / 2 * ∑ p, ∑ q, ∑ r, ∑ t, eri p q r t * gam N ta tb c p q r t := by
  have e : elecH ta tb h eri c = fun s σ =>
      (∑ p, ∑ q, h p q * exc ta tb p q c s σ) + (1 / 2) * (∑ p, ∑ q, ∑ r, ∑ t, eri p q r t *
      (exc ta tb p q (exc ta tb r t c) s σ + (if q = r then -1 else 0) * exc ta tb p t c s σ)) := by
    funext s σ
    unfold elecH
    congr 3
    funext p; congr 1; funext q; congr 1; funext r; congr 1; funext t
    split_ifs <;> ring
  rw [e, ip_add, ip_smul]
  simp only [ip_sum, ip_smul, ip_add]
  congr 3
  funext p; congr 1; funext q; congr 1; funext r; congr 1; funext t
  unfold gam
  split_ifs <;> ring

/-- C132: the energy computed from the density matrices of `make_rdm12e` is the expectation value of the
electronic Hamiltonian, for every vector and all integrals with the exchange symmetry of the two pairs. -/
theorem rdm12_energy {ta : Table n Sa} {tb : Table n Sb} (ha : Hermitian ta) (hb : Hermitian tb)
    (N : Fin m → ℕ) (c : Sa × Sb → (Fin m → ℕ) → ℝ) (h : n → n → ℝ) (eri : n → n → n → n → ℝ)
    (heri : ∀ p q r t, eri p q r t = eri r t p q) :
    ∑ p, ∑ q, h p q * rdm1e N ta tb c p q + 1 / 2 * ∑ p, ∑ q, ∑ r, ∑ t, eri p q r t * rdm2e N ta tb c p q r t =
      ∑ s, ∑ σ ∈ box N, c s σ * elecH ta tb h eri c s σ := by
  have hE := ip_elecH ta tb N h eri c
  unfold ip at hE
  rw [hE]
  have e1 : ∀ p q, rdm1e N ta tb c p q = ∑ s, ∑ σ ∈ box N, c s σ * exc ta tb p q c s σ := fun p q => by
    rw [rdm1e_eq ha hb]; rfl
  simp only [e1]
  congr 2
  simp only [rdm2e_eq ha hb]
  have h1 : ∑ p, ∑ q, ∑ r, ∑ t, eri p q r t * gam N ta tb c r t p q =
      ∑ p, ∑ q, ∑ r, ∑ t, eri p q r t * gam N ta tb c p q r t := by
    have e2 : ∀ f : n → n → n → n → ℝ, ∑ p, ∑ q, ∑ r, ∑ t, f p q r t = ∑ x : n × n, ∑ y : n × n, f x.1 x.2 y.1 y.2 := by
      intro f
      simp only [Fintype.sum_prod_type]
    rw [e2, e2, Finset.sum_comm]
    exact Finset.sum_congr rfl fun x _ => Finset.sum_congr rfl fun y _ => by rw [heri]
  have h2 : ∑ p, ∑ q, ∑ r, ∑ t, eri p q r t * ((gam N ta tb c p q r t + gam N ta tb c r t p q) * (1 / 2)) =
      1 / 2 * (∑ p, ∑ q, ∑ r, ∑ t, eri p q r t * gam N ta tb c p q r t +
        ∑ p, ∑ q, ∑ r, ∑ t, eri p q r t * gam N ta tb c r t p q) := by
    simp only [← Finset.sum_add_distrib, Finset.mul_sum]
    congr 1; funext p; congr 1; funext q; congr 1; funext r; congr 1; funext t
    ring
  rw [h2, h1]; ring

/-- C132: the partial trace of the two-electron matrix is `N - 1` times the one-electron matrix. -/
theorem rdm2_trace {ta : Table n Sa} {tb : Table n Sb} (ha : Hermitian ta) (hb : Hermitian tb) (ne : ℕ)
    (hc : CountsElectrons ta tb ne) (N : Fin m → ℕ) (c : Sa × Sb → (Fin m → ℕ) → ℝ) (p q : n) :
    ∑ r, rdm2e N ta tb c p q r r = ((ne : ℝ) - 1) * rdm1e N ta tb c p q := by
  have hs : ∀ v : Sa × Sb → (Fin m → ℕ) → ℝ, (fun s σ => ∑ r, exc ta tb r r v s σ) = fun s σ => (ne : ℝ) * v s σ := by
    intro v; funext s σ; exact sum_exc_self hc v s σ
  have h1 : ∑ r, ip N c (exc ta tb p q (exc ta tb r r c)) = ne * ip N c (exc ta tb p q c) := by
    simp only [ip_exc ha hb N c _ p q]
    rw [← ip_sum, hs, ip_smul]
  have h2 : ∑ r, ip N c (exc ta tb r r (exc ta tb p q c)) = ne * ip N c (exc ta tb p q c) := by
    rw [← ip_sum, hs, ip_smul]
  simp only [rdm2e_eq ha hb, gam]
  rw [← Finset.sum_mul, Finset.sum_add_distrib, Finset.sum_sub_distrib, Finset.sum_sub_distrib, h1, h2,
    rdm1e_eq ha hb, Finset.sum_ite_eq, Finset.sum_ite_eq']
  simp only [Finset.mem_univ, if_true]
  ring

/-- C132: the matrix is symmetric under the exchange of the pairs and of the indices within both. -/
theorem rdm2_pair_symm (N : Fin m → ℕ) (ta : Table n Sa) (tb : Table n Sb)
    (c : Sa × Sb → (Fin m → ℕ) → ℝ) (p q r t : n) :
    rdm2e N ta tb c p q r t = rdm2e N ta tb c r t p q := by
  unfold rdm2e reorder
  dsimp only
  ring

end density

/-! ### The diagonal -/

section diag
variable [LinearOrder n]

/-- A basis vector. -/
def unitVec (s0 : Sa × Sb) (σ0 : Fin m → ℕ) : Sa × Sb → (Fin m → ℕ) → ℝ :=
  fun s σ => if s = s0 ∧ σ = σ0 then 1 else 0

theorem exc_unit (ta : Table n Sa) (tb : Table n Sb) (p q : n) (s0 : Sa × Sb) (σ0 : Fin m → ℕ) (s : Sa × Sb)
    (σ : Fin m → ℕ) : exc ta tb p q (unitVec s0 σ0) s σ = if σ = σ0 then
      (if s.2 = s0.2 then elem ta p q s.1 s0.1 else 0) + (if s.1 = s0.1 then elem tb p q s.2 s0.2 else 0) else 0 := by
  unfold exc unitVec
  by_cases h : σ = σ0
  · simp only [h, and_true, if_true, Prod.ext_iff, mul_ite, mul_one, mul_zero]
    congr 1
    · by_cases h2 : s.2 = s0.2
      · simp only [h2, and_true, if_true]
        rw [Finset.sum_ite_eq']; simp
      · simp [h2]
    · by_cases h2 : s.1 = s0.1
      · simp only [h2, true_and, if_true]
        rw [Finset.sum_ite_eq']; simp
      · simp [h2]
  · simp [h]

theorem exc_exc_unit {ta : Table n Sa} {tb : Table n Sb} (ha : Hermitian ta) (hb : Hermitian tb) (p q r t : n)
    (s0 : Sa × Sb) (σ0 : Fin m → ℕ) :
    exc ta tb p q (exc ta tb r t (unitVec s0 σ0)) s0 σ0 =
      ∑ s, elem ta q p s s0.1 * elem ta r t s s0.1 + elem ta p q s0.1 s0.1 * elem tb r t s0.2 s0.2 +
      elem tb p q s0.2 s0.2 * elem ta r t s0.1 s0.1 + ∑ s, elem tb q p s s0.2 * elem tb r t s s0.2 := by
  change ∑ x, elem ta p q s0.1 x * exc ta tb r t (unitVec s0 σ0) (x, s0.2) σ0 +
    ∑ x, elem tb p q s0.2 x * exc ta tb r t (unitVec s0 σ0) (s0.1, x) σ0 = _
  simp only [exc_unit, if_true]
  simp only [mul_add, Finset.sum_add_distrib, mul_ite, mul_zero, Finset.sum_ite_eq', Finset.mem_univ, if_true]
  rw [show ∑ x, elem ta p q s0.1 x * elem ta r t x s0.1 = ∑ s, elem ta q p s s0.1 * elem ta r t s s0.1 from
    Finset.sum_congr rfl fun x _ => by rw [ha p q]]
  rw [show ∑ x, elem tb p q s0.2 x * elem tb r t x s0.2 = ∑ s, elem tb q p s s0.2 * elem tb r t s s0.2 from
    Finset.sum_congr rfl fun x _ => by rw [hb p q]]
  ring

theorem link_here {N : ℕ} (p q : n) (A : Str n N) :
    elem (linkTable N) p q A A = if p = q ∧ p ∈ A.1 then 1 else 0 := by
  by_cases h : p = q
  · subst h
    rw [link_diag]; simp
  · rw [if_neg fun hh => h hh.1, elem_link]
    refine if_neg fun hh => ?_
    have := hh.2.2 ▸ hh.1
    simp only [Finset.mem_insert, Finset.mem_erase, ne_eq, not_true_eq_false, false_and, or_false] at this
    exact h this.symm

theorem ind_and (P Q : Prop) [Decidable P] [Decidable Q] :
    (if P ∧ Q then (1 : ℝ) else 0) = (if P then 1 else 0) * (if Q then 1 else 0) := by
  by_cases P <;> by_cases Q <;> simp_all

theorem ind_not (P : Prop) [Decidable P] : (if ¬P then (1 : ℝ) else 0) = 1 - (if P then 1 else 0) := by
  by_cases P <;> simp_all

/-- Occupation numbers. -/
def occ (A : Finset n) (p : n) : ℝ := if p ∈ A then 1 else 0

/-- Kronecker symbol. -/
def kron (p q : n) : ℝ := if p = q then 1 else 0

theorem sum_occ (A : Finset n) (f : n → ℝ) : ∑ i ∈ A, f i = ∑ i, occ A i * f i := by
  simp only [occ, ite_mul, one_mul, zero_mul]
  rw [Finset.sum_ite_mem]; simp

theorem sum_kron (p : n) (f : n → ℝ) : ∑ q, f q * kron p q = f p := by
  simp only [kron, mul_ite, mul_one, mul_zero, Finset.sum_ite_eq]; simp

/-- C132: the electronic part of `make_hdiag` is the diagonal of the electronic Hamiltonian, for all
integrals, all numbers of orbitals and electrons, every pair of strings. -/
theorem hdiag_elec {Na Nb : ℕ} (h : n → n → ℝ) (eri : n → n → n → n → ℝ) (s : Str n Na × Str n Nb)
    (σ : Fin m → ℕ) :
    hdiagElec h eri s.1.1 s.2.1 = elecH (linkTable Na) (linkTable Nb) h eri (unitVec s σ) s σ := by
  obtain ⟨A, B⟩ := s
  have hl : ∀ {N : ℕ} (p q : n) (A : Str n N), elem (linkTable N) p q A A = kron p q * occ A.1 p :=
    fun p q A => by rw [link_here, ind_and]; rfl
  have hp : ∀ {N : ℕ} (p q r t : n) (A : Str n N),
      ∑ s, elem (linkTable N) q p s A * elem (linkTable N) r t s A =
      kron p q * kron r t * (occ A.1 p * occ A.1 r) + kron q r * kron p t * (occ A.1 p * (1 - occ A.1 q)) := by
    intro N p q r t A
    rw [link_pair]
    simp only [ind_and, ind_not]
    unfold kron occ
    ring
  have hu : ∀ p q, exc (linkTable Na) (linkTable Nb) p q (unitVec (A, B) σ) (A, B) σ =
      kron p q * (occ A.1 p + occ B.1 p) := by
    intro p q
    rw [exc_unit]
    simp only [if_true, hl]
    ring
  have hg : ∀ p q r t, (exc (linkTable Na) (linkTable Nb) p q
        (exc (linkTable Na) (linkTable Nb) r t (unitVec (A, B) σ)) (A, B) σ -
        if q = r then exc (linkTable Na) (linkTable Nb) p t (unitVec (A, B) σ) (A, B) σ else 0) =
      (occ A.1 p + occ B.1 p) * (occ A.1 r + occ B.1 r) * kron r t * kron p q -
      (occ A.1 p * occ A.1 q + occ B.1 p * occ B.1 q) * kron p t * kron q r := by
    intro p q r t
    have e : (if q = r then exc (linkTable Na) (linkTable Nb) p t (unitVec (A, B) σ) (A, B) σ else 0) =
        kron q r * exc (linkTable Na) (linkTable Nb) p t (unitVec (A, B) σ) (A, B) σ := by
      unfold kron; split_ifs <;> simp
    rw [e, exc_exc_unit link_symm link_symm, hp, hp, hu]
    simp only [hl]
    ring
  unfold elecH
  simp only [hg]
  simp only [hu]
  have h1 : ∑ p, ∑ q, h p q * (kron p q * (occ A.1 p + occ B.1 p)) = ∑ p, h p p * (occ A.1 p + occ B.1 p) := by
    refine Finset.sum_congr rfl fun p _ => ?_
    rw [← sum_kron p fun q => h p q * (occ A.1 p + occ B.1 p)]
    exact Finset.sum_congr rfl fun q _ => by ring
  have h2 : ∑ p, ∑ q, ∑ r, ∑ t, eri p q r t * ((occ A.1 p + occ B.1 p) * (occ A.1 r + occ B.1 r) * kron r t * kron p q -
      (occ A.1 p * occ A.1 q + occ B.1 p * occ B.1 q) * kron p t * kron q r) =
      ∑ p, ∑ q, (eri p p q q * ((occ A.1 p + occ B.1 p) * (occ A.1 q + occ B.1 q)) -
        eri p q q p * (occ A.1 p * occ A.1 q + occ B.1 p * occ B.1 q)) := by
    refine Finset.sum_congr rfl fun p _ => ?_
    simp only [mul_sub, Finset.sum_sub_distrib]
    congr 1
    · rw [← sum_kron p fun q => ∑ r, eri p q r r * ((occ A.1 p + occ B.1 p) * (occ A.1 r + occ B.1 r))]
      refine Finset.sum_congr rfl fun q _ => ?_
      rw [Finset.sum_mul]
      refine Finset.sum_congr rfl fun r _ => ?_
      rw [← sum_kron r fun t => eri p q r t * ((occ A.1 p + occ B.1 p) * (occ A.1 r + occ B.1 r)), Finset.sum_mul]
      exact Finset.sum_congr rfl fun t _ => by ring
    · refine Finset.sum_congr rfl fun q _ => ?_
      rw [← sum_kron q fun r => eri p q r p * (occ A.1 p * occ A.1 q + occ B.1 p * occ B.1 q)]
      refine Finset.sum_congr rfl fun r _ => ?_
      rw [← sum_kron p fun t => eri p q r t * (occ A.1 p * occ A.1 q + occ B.1 p * occ B.1 q), Finset.sum_mul]
      exact Finset.sum_congr rfl fun t _ => by ring
  rw [h1, h2]
  unfold hdiagElec
  simp only [sum_occ A.1, sum_occ B.1, Finset.mul_sum]
  rw [mul_comm _ (1 / 2 : ℝ)]
  simp only [← Finset.sum_add_distrib, ← Finset.sum_sub_distrib, Finset.mul_sum]
  refine Finset.sum_congr rfl fun p _ => congrArg₂ _ (by ring) ?_
  exact Finset.sum_congr rfl fun q _ => by ring

/-- C132: what `make_hdiag` returns above the diagonal of the operator that is diagonalised
(electrons, photons and coupling): half a unit for a mode of low energy.  -/
theorem hdiag_error {Na Nb : ℕ} (N : Fin m → ℕ) (h : n → n → ℝ) (eri : n → n → n → n → ℝ) (g : Fin m → n → n → ℝ)
    (Hbb : Fin m → ℝ) (s : Str n Na × Str n Nb) (σ : Fin m → ℕ) (hσ : InBox N σ) :
    makeHdiag N h eri Hbb s σ =
      elecH (linkTable Na) (linkTable Nb) h eri (unitVec s σ) s σ +
      contractEB N (linkTable Na) (linkTable Nb) g (unitVec s σ) s σ +
      contractBB N Hbb none (unitVec s σ) s σ + ∑ x, max (1 / 2 - (σ x : ℝ) * Hbb x) 0 := by
  have hEB : contractEB N (linkTable Na) (linkTable Nb) g (unitVec s σ) s σ = 0 := by
    have hz : ∀ (x : Fin m) (k : ℕ) s', σ x ≠ k → unitVec s σ s' (Function.update σ x k) = 0 := by
      intro x k s' hk
      unfold unitVec
      refine if_neg fun hh => hk ?_
      have := congrFun hh.2 x
      simpa using this.symm
    have hl : ∀ {S : Type _} [DecidableEq S] (l : List (n × n × S × ℝ)) (x : Fin m) (k : ℕ) (s1 : S)
        (f : n × n × S × ℝ → ℝ) (s' : Str n Na × Str n Nb),
        (l.map fun t => (if σ x = k + 1 ∧ t.2.2.1 = s1 then f t * unitVec s σ s' (Function.update σ x k) else 0) +
          (if σ x = k ∧ t.2.2.1 = s1 then f t * unitVec s σ s' (Function.update σ x (k + 1)) else 0)).sum = 0 := by
      intro S _ l x k s1 f s'
      refine List.sum_eq_zero ?_
      intro y hy
      obtain ⟨t, _, rfl⟩ := List.mem_map.1 hy
      have e1 : (if σ x = k + 1 ∧ t.2.2.1 = s1 then f t * unitVec s σ s' (Function.update σ x k) else 0) = 0 := by
        split_ifs with hh
        · rw [hz x k s' (by omega), mul_zero]
        · rfl
      have e2 : (if σ x = k ∧ t.2.2.1 = s1 then f t * unitVec s σ s' (Function.update σ x (k + 1)) else 0) = 0 := by
        split_ifs with hh
        · rw [hz x (k + 1) s' (by omega), mul_zero]
        · rfl
      rw [e1, e2, add_zero]
    unfold contractEB
    refine Finset.sum_eq_zero fun x _ => Finset.sum_eq_zero fun k _ => ?_
    rw [Finset.sum_eq_zero fun s0 _ => hl (linkTable Na s0) x k s.1
        (fun t => g x t.1 t.2.1 * Real.sqrt ((k : ℝ) + 1) * t.2.2.2) (s0, s.2),
      Finset.sum_eq_zero fun s0 _ => hl (linkTable Nb s0) x k s.2
        (fun t => g x t.1 t.2.1 * Real.sqrt ((k : ℝ) + 1) * t.2.2.2) (s.1, s0), add_zero]
  have hBB : contractBB N Hbb none (unitVec s σ) s σ = ∑ x, (σ x : ℝ) * Hbb x := by
    rw [c48_one_dimensional N Hbb _ s σ hσ]
    simp only [unitVec, and_self, if_true, mul_one]
    exact Finset.sum_congr rfl fun x _ => mul_comm _ _
  rw [hEB, hBB, ← hdiag_elec]
  unfold makeHdiag
  rw [add_zero, add_assoc, ← Finset.sum_add_distrib]
  congr 1
  refine Finset.sum_congr rfl fun x _ => ?_
  rw [Finset.sum_ite_eq, if_pos (Finset.mem_range.2 (Nat.lt_succ_of_le (hσ x)))]
  rw [← max_add_add_left]
  rw [max_comm]; congr 1 <;> ring

/-- C132: `make_hdiag` is the diagonal exactly where every mode carries at least half a unit of energy. -/
theorem hdiag_iff {Na Nb : ℕ} (N : Fin m → ℕ) (h : n → n → ℝ) (eri : n → n → n → n → ℝ) (g : Fin m → n → n → ℝ)
    (Hbb : Fin m → ℝ) (s : Str n Na × Str n Nb) (σ : Fin m → ℕ) (hσ : InBox N σ) :
    makeHdiag N h eri Hbb s σ =
      elecH (linkTable Na) (linkTable Nb) h eri (unitVec s σ) s σ +
      contractEB N (linkTable Na) (linkTable Nb) g (unitVec s σ) s σ +
      contractBB N Hbb none (unitVec s σ) s σ ↔ ∀ x, 1 / 2 ≤ (σ x : ℝ) * Hbb x := by
  rw [hdiag_error N h eri g Hbb s σ hσ, add_eq_left, Finset.sum_eq_zero_iff_of_nonneg fun x _ => le_max_right _ _]
  simp only [Finset.mem_univ, true_implies, max_eq_right_iff, sub_nonpos]

/-- C132: on every determinant without photons the returned value is too large by half a unit per mode. -/
theorem hdiag_fails {Na Nb : ℕ} (N : Fin m → ℕ) (h : n → n → ℝ) (eri : n → n → n → n → ℝ) (g : Fin m → n → n → ℝ)
    (Hbb : Fin m → ℝ) (s : Str n Na × Str n Nb) :
    makeHdiag N h eri Hbb s (0 : Fin m → ℕ) =
      elecH (linkTable Na) (linkTable Nb) h eri (unitVec s (0 : Fin m → ℕ)) s (0 : Fin m → ℕ) +
      contractEB N (linkTable Na) (linkTable Nb) g (unitVec s (0 : Fin m → ℕ)) s (0 : Fin m → ℕ) +
      contractBB N Hbb none (unitVec s (0 : Fin m → ℕ)) s (0 : Fin m → ℕ) + m / 2 := by
  rw [hdiag_error N h eri g Hbb s 0 fun x => Nat.zero_le _]
  simp [div_eq_mul_inv]

end diag

/-! ### Examples -/

/-- Two electrons of one spin in three orbitals: `0† 2` on the string `{1, 2}` gives minus `{0, 1}`. -/
example : elem (linkTable 2) (0 : Fin 3) 2 ⟨{0, 1}, by decide⟩ ⟨{1, 2}, by decide⟩ = -1 := by
  rw [elem_link, if_pos (by decide)]
  unfold linkSign
  have : ((({1, 2} : Finset (Fin 3))).filter fun j => (0 < j ∧ j < 2) ∨ (2 < j ∧ j < 0)).card = 1 := by decide
  rw [this]; norm_num

/-- The hypotheses of the density-matrix theorems hold for the tables of any number of electrons. -/
example : Hermitian (linkTable 2 : Table (Fin 4) (Str (Fin 4) 2)) ∧
    CountsElectrons (linkTable 2 : Table (Fin 4) (Str (Fin 4) 2)) (linkTable 1 : Table (Fin 4) (Str (Fin 4) 1)) 3 :=
  ⟨link_symm, link_counts 2 1⟩

/-- The bound of `hdiag_iff` can be met: one photon of energy one. -/
example : ∀ x : Fin 1, (1 : ℝ) / 2 ≤ (((fun _ => 1 : Fin 1 → ℕ) x : ℕ) : ℝ) * ((fun _ => 1 : Fin 1 → ℝ) x) := by
  intro x; norm_num

end OpenMS.QedFci
