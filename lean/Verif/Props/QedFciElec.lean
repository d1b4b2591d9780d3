import Verif.Props.QedFci

/-!
# C49, C83-C86: electronic part of the full CI with bosons
-/

namespace OpenMS.QedFci
set_option linter.unusedSectionVars false

variable {m : ℕ} {n Sa Sb : Type*} [Fintype n] [Fintype Sa] [Fintype Sb] [DecidableEq n]
  [DecidableEq Sa] [DecidableEq Sb]

/-! ### Specification -/

/-- Matrix element `⟨s| a† i |s0⟩` read off a link table. -/
def elem {S : Type*} [DecidableEq S] (tab : Table n S) (a i : n) (s s0 : S) : ℝ :=
  ((tab s0).map fun t => if t.1 = a ∧ t.2.1 = i ∧ t.2.2.1 = s then t.2.2.2 else 0).sum

/-- The spin-summed excitation operator `E_ai = Σ_spin a† i` on CI vectors. -/
def exc (ta : Table n Sa) (tb : Table n Sb) (a i : n) (c : Sa × Sb → (Fin m → ℕ) → ℝ)
    (s : Sa × Sb) (σ : Fin m → ℕ) : ℝ :=
  ∑ s0, elem ta a i s.1 s0 * c (s0, s.2) σ + ∑ s0, elem tb a i s.2 s0 * c (s.1, s0) σ

/-- The tables describe `N` electrons: `Σ_k E_kk = N`. -/
def CountsElectrons (ta : Table n Sa) (tb : Table n Sb) (N : ℕ) : Prop :=
  ∀ (s s' : Sa), ∑ k, elem ta k k s s' = (if s = s' then (∑ k, elem ta k k s s) else 0) ∧
  ∀ (r r' : Sb), ∑ k, elem tb k k r r' = (if r = r' then (∑ k, elem tb k k r r) else 0) ∧
    ∑ k, elem ta k k s s + ∑ k, elem tb k k r r = N

/-! ### Lemmas -/

theorem list_sum_mul {S : Type*} [DecidableEq S] (l : List (n × n × S × ℝ)) (a i : n) (s : S) (y : ℝ) :
    (l.map fun t => if t.1 = a ∧ t.2.1 = i ∧ t.2.2.1 = s then t.2.2.2 * y else 0).sum =
      (l.map fun t => if t.1 = a ∧ t.2.1 = i ∧ t.2.2.1 = s then t.2.2.2 else 0).sum * y := by
  induction l with
  | nil => simp
  | cons t l ih =>
    simp only [List.map_cons, List.sum_cons, ih, add_mul]
    split_ifs <;> ring

theorem t1_eq_exc (ta : Table n Sa) (tb : Table n Sb) (c : Sa × Sb → (Fin m → ℕ) → ℝ) (a i : n) :
    t1 ta tb c a i = exc ta tb a i c := by
  funext s σ
  simp only [t1, exc, elem, list_sum_mul]

/-- Entries of one table weighted by a matrix. -/
theorem sum_tab {S : Type*} [Fintype S] [DecidableEq S] (tab : Table n S) (f : n → n → S → ℝ) (s : S) :
    ∑ s0, ((tab s0).map fun t => if t.2.2.1 = s then t.2.2.2 * f t.1 t.2.1 s0 else 0).sum =
      ∑ a, ∑ i, ∑ s0, elem tab a i s s0 * f a i s0 := by
  have h : ∀ s0, ((tab s0).map fun t => if t.2.2.1 = s then t.2.2.2 * f t.1 t.2.1 s0 else 0).sum =
      ∑ a, ∑ i, elem tab a i s s0 * f a i s0 := by
    intro s0
    have := sum_entries (fun a i => f a i s0) (tab s0) s 1
    simp only [mul_one] at this
    rw [← this]
    refine Finset.sum_congr rfl fun a _ => Finset.sum_congr rfl fun i _ => ?_
    rw [mul_comm]
    rfl
  simp only [h]
  rw [Finset.sum_comm]
  exact Finset.sum_congr rfl fun a _ => Finset.sum_comm

theorem exc_sum {ι : Type*} (u : Finset ι) (ta : Table n Sa) (tb : Table n Sb) (a i : n) (w : ι → ℝ)
    (c : ι → Sa × Sb → (Fin m → ℕ) → ℝ) (s : Sa × Sb) (σ : Fin m → ℕ) :
    exc ta tb a i (fun s σ => ∑ j ∈ u, w j * c j s σ) s σ = ∑ j ∈ u, w j * exc ta tb a i (c j) s σ := by
  simp only [exc, Finset.mul_sum, mul_add, Finset.sum_add_distrib]
  congr 1 <;>
  · rw [Finset.sum_comm]
    exact Finset.sum_congr rfl fun j _ => Finset.sum_congr rfl fun s0 _ => by ring

theorem sum_exc_self {ta : Table n Sa} {tb : Table n Sb} {N : ℕ} (h : CountsElectrons ta tb N)
    (c : Sa × Sb → (Fin m → ℕ) → ℝ) (s : Sa × Sb) (σ : Fin m → ℕ) :
    ∑ k, exc ta tb k k c s σ = N * c s σ := by
  simp only [exc, Finset.sum_add_distrib]
  rw [Finset.sum_comm, Finset.sum_comm (s := Finset.univ (α := n)) (t := Finset.univ (α := Sb))]
  simp only [← Finset.sum_mul]
  have hA : ∑ x, (∑ k, elem ta k k s.1 x) * c (x, s.2) σ = (∑ k, elem ta k k s.1 s.1) * c s σ := by
    rw [Finset.sum_eq_single s.1]
    · intro b _ hb
      rw [(h s.1 b).1, if_neg (Ne.symm hb), zero_mul]
    · simp
  have hB : ∑ x, (∑ k, elem tb k k s.2 x) * c (s.1, x) σ = (∑ k, elem tb k k s.2 s.2) * c s σ := by
    rw [Finset.sum_eq_single s.2]
    · intro b _ hb
      rw [((h s.1 s.1).2 s.2 b).1, if_neg (Ne.symm hb), zero_mul]
    · simp
  rw [hA, hB, ← add_mul, ((h s.1 s.1).2 s.2 s.2).2]

/-! ## C83: electronic contractions -/

/-- C83: `contract_1e` applies `Σ h_pq E_pq`. -/
theorem c83_contract_1e (ta : Table n Sa) (tb : Table n Sb) (h : n → n → ℝ)
    (c : Sa × Sb → (Fin m → ℕ) → ℝ) (s : Sa × Sb) (σ : Fin m → ℕ) :
    contract1e ta tb h c s σ = ∑ p, ∑ q, h p q * exc ta tb p q c s σ := by
  have hA := sum_tab ta (fun a i s0 => c (s0, s.2) σ * h a i) s.1
  have hB := sum_tab tb (fun a i s0 => c (s.1, s0) σ * h a i) s.2
  simp only [← mul_assoc] at hA hB
  simp only [contract1e, hA, hB, ← Finset.sum_add_distrib, exc, mul_add, Finset.mul_sum]
  refine Finset.sum_congr rfl fun a _ => Finset.sum_congr rfl fun i _ => ?_
  congr 1 <;> exact Finset.sum_congr rfl fun s0 _ => by ring

/-- C83: `contract_2e` applies `Σ g_pqrs E_pq E_rs`. -/
theorem c83_contract_2e (ta : Table n Sa) (tb : Table n Sb) (g : n → n → n → n → ℝ)
    (c : Sa × Sb → (Fin m → ℕ) → ℝ) (s : Sa × Sb) (σ : Fin m → ℕ) :
    contract2e ta tb g c s σ =
      ∑ p, ∑ q, ∑ r, ∑ t, g p q r t * exc ta tb p q (exc ta tb r t c) s σ := by
  have hA := sum_tab ta (fun a i s0 => ∑ r, ∑ t, g a i r t * exc ta tb r t c (s0, s.2) σ) s.1
  have hB := sum_tab tb (fun a i s0 => ∑ r, ∑ t, g a i r t * exc ta tb r t c (s.1, s0) σ) s.2
  simp only [contract2e, t1_eq_exc, hA, hB, ← Finset.sum_add_distrib]
  refine Finset.sum_congr rfl fun a _ => Finset.sum_congr rfl fun i _ => ?_
  have := exc_sum (Finset.univ ×ˢ Finset.univ) ta tb a i (fun x : n × n => g a i x.1 x.2)
    (fun x => exc ta tb x.1 x.2 c) s σ
  simp only [Finset.sum_product] at this
  rw [← this]
  rfl

/-! ## C49: the one-electron term is absorbed exactly -/

/-- The electronic Hamiltonian in second quantisation,
`Σ h_pq E_pq + ½ Σ (pq|rs) (E_pq E_rs − δ_qr E_ps)`. -/
noncomputable def elecH (ta : Table n Sa) (tb : Table n Sb) (h : n → n → ℝ) (eri : n → n → n → n → ℝ)
    (c : Sa × Sb → (Fin m → ℕ) → ℝ) (s : Sa × Sb) (σ : Fin m → ℕ) : ℝ :=
  (∑ p, ∑ q, h p q * exc ta tb p q c s σ) +
    1 / 2 * ∑ p, ∑ q, ∑ r, ∑ t, eri p q r t *
      (exc ta tb p q (exc ta tb r t c) s σ - if q = r then exc ta tb p t c s σ else 0)

theorem exc_smul (ta : Table n Sa) (tb : Table n Sb) (a i : n) (y : ℝ)
    (c : Sa × Sb → (Fin m → ℕ) → ℝ) (s : Sa × Sb) (σ : Fin m → ℕ) :
    exc ta tb a i (fun s σ => y * c s σ) s σ = y * exc ta tb a i c s σ := by
  simp only [exc, mul_add, Finset.mul_sum]
  congr 1 <;> exact Finset.sum_congr rfl fun s0 _ => by ring

/-- C49: for every link table of `N ≥ 1` electrons, contracting the modified tensor of `absorb_h1e`
(with the factor one half `kernel` passes) is exactly the electronic Hamiltonian. -/
theorem c49_absorb (ta : Table n Sa) (tb : Table n Sb) (N : ℕ) (hN : 1 ≤ N)
    (hc : CountsElectrons ta tb N) (h : n → n → ℝ) (eri : n → n → n → n → ℝ)
    (c : Sa × Sb → (Fin m → ℕ) → ℝ) (s : Sa × Sb) (σ : Fin m → ℕ) :
    contract2e ta tb (absorbH1e h eri N (1 / 2)) c s σ = elecH ta tb h eri c s σ := by
  have hN0 : (N : ℝ) ≠ 0 := by positivity
  rw [c83_contract_2e]
  set f : n → n → ℝ := fun j k => (h j k - (∑ i, eri j i i k) * (1 / 2)) * (1 / (N : ℝ)) with hf
  have hexp : ∀ p q r t, absorbH1e h eri N (1 / 2) p q r t =
      (eri p q r t + (if p = q then f r t else 0) + (if r = t then f p q else 0)) * (1 / 2) := by
    intro p q r t
    simp only [absorbH1e, hf, if_neg (show N ≠ 0 by omega)]
  simp only [hexp]
  -- the two extra terms
  have e1 : ∑ p, ∑ q, ∑ r, ∑ t, (if p = q then f r t else 0) * exc ta tb p q (exc ta tb r t c) s σ =
      N * ∑ r, ∑ t, f r t * exc ta tb r t c s σ := by
    have : ∀ p, ∑ q, ∑ r, ∑ t, (if p = q then f r t else 0) * exc ta tb p q (exc ta tb r t c) s σ =
        ∑ r, ∑ t, f r t * exc ta tb p p (exc ta tb r t c) s σ := by
      intro p
      rw [Finset.sum_eq_single p]
      · simp
      · intro q _ hq; simp [Ne.symm hq]
      · simp
    simp only [this, Finset.mul_sum]
    rw [Finset.sum_comm]
    refine Finset.sum_congr rfl fun r _ => ?_
    rw [Finset.sum_comm]
    refine Finset.sum_congr rfl fun t _ => ?_
    rw [← Finset.mul_sum, sum_exc_self hc]
    ring
  have e2 : ∑ p, ∑ q, ∑ r, ∑ t, (if r = t then f p q else 0) * exc ta tb p q (exc ta tb r t c) s σ =
      N * ∑ p, ∑ q, f p q * exc ta tb p q c s σ := by
    simp only [Finset.mul_sum]
    refine Finset.sum_congr rfl fun p _ => Finset.sum_congr rfl fun q _ => ?_
    have : ∀ r, ∑ t, (if r = t then f p q else 0) * exc ta tb p q (exc ta tb r t c) s σ =
        f p q * exc ta tb p q (exc ta tb r r c) s σ := by
      intro r
      rw [Finset.sum_eq_single r]
      · simp
      · intro q _ hq; simp [Ne.symm hq]
      · simp
    simp only [this]
    rw [← Finset.mul_sum]
    have h3 := exc_sum Finset.univ ta tb p q (fun _ : n => (1 : ℝ)) (fun r => exc ta tb r r c) s σ
    simp only [one_mul] at h3
    rw [← h3]
    have h4 : (fun s σ => ∑ j, exc ta tb j j c s σ) = fun s σ => (N : ℝ) * c s σ := by
      funext s σ
      exact sum_exc_self hc c s σ
    rw [h4, exc_smul]
    ring
  have e3 : ∑ p, ∑ q, ∑ r, ∑ t, eri p q r t * (if q = r then exc ta tb p t c s σ else 0) =
      ∑ p, ∑ t, (∑ i, eri p i i t) * exc ta tb p t c s σ := by
    refine Finset.sum_congr rfl fun p _ => ?_
    have : ∀ q, ∑ r, ∑ t, eri p q r t * (if q = r then exc ta tb p t c s σ else 0) =
        ∑ t, eri p q q t * exc ta tb p t c s σ := by
      intro q
      rw [Finset.sum_eq_single q]
      · simp
      · intro r _ hr; simp [Ne.symm hr]
      · simp
    simp only [this]
    rw [Finset.sum_comm]
    exact Finset.sum_congr rfl fun t _ => by rw [Finset.sum_mul]
  have split : ∑ p, ∑ q, ∑ r, ∑ t, ((eri p q r t + (if p = q then f r t else 0) +
      (if r = t then f p q else 0)) * (1 / 2)) * exc ta tb p q (exc ta tb r t c) s σ =
      1 / 2 * (∑ p, ∑ q, ∑ r, ∑ t, eri p q r t * exc ta tb p q (exc ta tb r t c) s σ) +
      1 / 2 * (∑ p, ∑ q, ∑ r, ∑ t, (if p = q then f r t else 0) * exc ta tb p q (exc ta tb r t c) s σ) +
      1 / 2 * (∑ p, ∑ q, ∑ r, ∑ t, (if r = t then f p q else 0) * exc ta tb p q (exc ta tb r t c) s σ) := by
    simp only [Finset.mul_sum, ← Finset.sum_add_distrib]
    refine Finset.sum_congr rfl fun p _ => Finset.sum_congr rfl fun q _ =>
      Finset.sum_congr rfl fun r _ => Finset.sum_congr rfl fun t _ => ?_
    ring
  rw [split, e1, e2]
  have hfs : (N : ℝ) * ∑ p, ∑ q, f p q * exc ta tb p q c s σ =
      (∑ p, ∑ q, h p q * exc ta tb p q c s σ) -
        1 / 2 * ∑ p, ∑ t, (∑ i, eri p i i t) * exc ta tb p t c s σ := by
    simp only [Finset.mul_sum, ← Finset.sum_sub_distrib]
    refine Finset.sum_congr rfl fun p _ => Finset.sum_congr rfl fun q _ => ?_
    simp only [hf]
    field_simp
  have hfin : elecH ta tb h eri c s σ = (∑ p, ∑ q, h p q * exc ta tb p q c s σ) +
      1 / 2 * ((∑ p, ∑ q, ∑ r, ∑ t, eri p q r t * exc ta tb p q (exc ta tb r t c) s σ) -
        ∑ p, ∑ t, (∑ i, eri p i i t) * exc ta tb p t c s σ) := by
    rw [← e3]
    simp only [elecH, mul_sub, Finset.sum_sub_distrib]
  rw [hfin, hfs]
  ring

/-- Link table of one electron in two orbitals: string `s` is "orbital `s` occupied". -/
def oneInTwo : Table (Fin 2) (Fin 2) := fun s0 => [(s0, s0, s0, 1), (1 - s0, s0, 1 - s0, 1)]

/-- One alpha and one beta electron in two orbitals: the table counts two electrons. -/
theorem oneInTwo_counts : CountsElectrons oneInTwo oneInTwo 2 := by
  have hd : ∀ s s' : Fin 2, ∑ k, elem oneInTwo k k s s' = if s = s' then 1 else 0 := by
    intro s s'
    fin_cases s <;> fin_cases s' <;> simp [elem, oneInTwo]
  intro s s'
  refine ⟨?_, fun r r' => ⟨?_, ?_⟩⟩
  · simp only [hd, if_true]
  · simp only [hd, if_true]
  · simp only [hd, if_true]; norm_num

/-- The case is not trivial: hopping moves an electron. -/
example : exc (m := 0) oneInTwo oneInTwo 0 1 (fun s _ => if s = (1, 1) then 1 else 0) (0, 1) ![] = 1 := by
  norm_num [exc, elem, oneInTwo]

/-! ## C84: electron-boson coupling -/

/-- C84: `contract_eb` applies `Σ_x Σ_pq g^x_pq E_pq (b_x + b_x†)`. -/
theorem c84_contract_eb (N : Fin m → ℕ) (ta : Table n Sa) (tb : Table n Sb) (g : Fin m → n → n → ℝ)
    (c : Sa × Sb → (Fin m → ℕ) → ℝ) (s : Sa × Sb) (σ : Fin m → ℕ) :
    contractEB N ta tb g c s σ =
      ∑ x, ∑ p, ∑ q, g x p q *
        exc ta tb p q (fun s σ => creBoson N x c s σ + desBoson N x c s σ) s σ := by
  unfold contractEB
  refine Finset.sum_congr rfl fun x _ => ?_
  have hA : ∀ s0 : Sa, ∑ ip ∈ Finset.range (N x), ((ta s0).map fun t =>
        (if σ x = ip + 1 ∧ t.2.2.1 = s.1 then
          (g x t.1 t.2.1 * Real.sqrt ((ip : ℝ) + 1) * t.2.2.2) * c (s0, s.2) (Function.update σ x ip) else 0) +
        (if σ x = ip ∧ t.2.2.1 = s.1 then
          (g x t.1 t.2.1 * Real.sqrt ((ip : ℝ) + 1) * t.2.2.2) * c (s0, s.2) (Function.update σ x (ip + 1))
          else 0)).sum =
      ((ta s0).map fun t => if t.2.2.1 = s.1 then t.2.2.2 *
        ((creBoson N x c (s0, s.2) σ + desBoson N x c (s0, s.2) σ) * g x t.1 t.2.1) else 0).sum := by
    intro s0
    induction ta s0 with
    | nil => simp
    | cons t l ih =>
      simp only [List.map_cons, List.sum_cons, Finset.sum_add_distrib] at ih ⊢
      rw [ih]
      congr 1
      by_cases h : t.2.2.1 = s.1
      · simp only [h, and_true, if_true, creBoson, desBoson, add_mul, mul_add, Finset.sum_mul,
          Finset.mul_sum]
        congr 1 <;>
        · refine Finset.sum_congr rfl fun ip _ => ?_
          split_ifs <;> ring
      · simp [h]
  have hB : ∀ s0 : Sb, ∑ ip ∈ Finset.range (N x), ((tb s0).map fun t =>
        (if σ x = ip + 1 ∧ t.2.2.1 = s.2 then
          (g x t.1 t.2.1 * Real.sqrt ((ip : ℝ) + 1) * t.2.2.2) * c (s.1, s0) (Function.update σ x ip) else 0) +
        (if σ x = ip ∧ t.2.2.1 = s.2 then
          (g x t.1 t.2.1 * Real.sqrt ((ip : ℝ) + 1) * t.2.2.2) * c (s.1, s0) (Function.update σ x (ip + 1))
          else 0)).sum =
      ((tb s0).map fun t => if t.2.2.1 = s.2 then t.2.2.2 *
        ((creBoson N x c (s.1, s0) σ + desBoson N x c (s.1, s0) σ) * g x t.1 t.2.1) else 0).sum := by
    intro s0
    induction tb s0 with
    | nil => simp
    | cons t l ih =>
      simp only [List.map_cons, List.sum_cons, Finset.sum_add_distrib] at ih ⊢
      rw [ih]
      congr 1
      by_cases h : t.2.2.1 = s.2
      · simp only [h, and_true, if_true, creBoson, desBoson, add_mul, mul_add, Finset.sum_mul,
          Finset.mul_sum]
        congr 1 <;>
        · refine Finset.sum_congr rfl fun ip _ => ?_
          split_ifs <;> ring
      · simp [h]
  rw [Finset.sum_add_distrib, Finset.sum_comm, Finset.sum_comm (t := Finset.univ (α := Sb))]
  simp only [hA, hB]
  have h1 := sum_tab ta (fun a i s0 => (creBoson N x c (s0, s.2) σ + desBoson N x c (s0, s.2) σ) * g x a i) s.1
  have h2 := sum_tab tb (fun a i s0 => (creBoson N x c (s.1, s0) σ + desBoson N x c (s.1, s0) σ) * g x a i) s.2
  rw [h1, h2, ← Finset.sum_add_distrib]
  refine Finset.sum_congr rfl fun a _ => ?_
  rw [← Finset.sum_add_distrib]
  refine Finset.sum_congr rfl fun i _ => ?_
  simp only [exc, mul_add, Finset.mul_sum]
  congr 1 <;> exact Finset.sum_congr rfl fun s0 _ => by ring

/-! ## C85: coherent-state representation -/

/-- The Hamiltonian of one mode after the exact displacement `b → b + z` (the identity for
`z = 0`): `H_e + Σ g E (b + b† + 2z) + ω (b†b + z (b + b†) + z²) + E_core`. -/
noncomputable def displacedH (N : Fin 1 → ℕ) (ta : Table n Sa) (tb : Table n Sb) (h : n → n → ℝ)
    (eri : n → n → n → n → ℝ) (g : n → n → ℝ) (w ecore z : ℝ)
    (c : Sa × Sb → (Fin 1 → ℕ) → ℝ) (s : Sa × Sb) (σ : Fin 1 → ℕ) : ℝ :=
  let X : Sa × Sb → (Fin 1 → ℕ) → ℝ := fun s σ => creBoson N 0 c s σ + desBoson N 0 c s σ
  elecH ta tb h eri c s σ + (∑ p, ∑ q, g p q * exc ta tb p q (fun s σ => X s σ + 2 * z * c s σ) s σ) +
    w * (creBoson N 0 (desBoson N 0 c) s σ + z * X s σ + z ^ 2 * c s σ) + ecore * c s σ

/-- C85 partial: without `coherent_state` the operator diagonalised by `kernel` (plus the constant
energy) is the Pauli-Fierz Hamiltonian, for one mode.  Missing: with `coherent_state` (false, see
below) and more than one mode (false, C48). -/
theorem c85_plain_partial (N : Fin 1 → ℕ) (ta : Table n Sa) (tb : Table n Sb) (ne : ℕ) (hne : 1 ≤ ne)
    (hc : CountsElectrons ta tb ne) (h : n → n → ℝ) (eri : n → n → n → n → ℝ) (g : n → n → ℝ)
    (w ecore : ℝ) (c : Sa × Sb → (Fin 1 → ℕ) → ℝ) (s : Sa × Sb) (σ : Fin 1 → ℕ) (hσ : InBox N σ) :
    hop N ta tb h eri (fun _ => g) w ne ecore none c s σ =
      displacedH N ta tb h eri g w ecore 0 c s σ := by
  obtain ⟨r, hr, hE⟩ : ∃ r, contractBB2 N (fun _ _ => w) c = some r ∧ r s σ = w * (σ 0 : ℝ) * c s σ := by
    refine ⟨_, rfl, ?_⟩
    have h1 := c48_one_dimensional N (fun _ => w) c s σ hσ
    simpa [contractBB] using h1
  simp only [hop, Option.elim, displacedH, hr, hE]
  rw [c49_absorb ta tb ne hne hc, c84_contract_eb, c47_number N 0 c s σ hσ]
  simp
  ring

theorem elecH_shift (ta : Table n Sa) (tb : Table n Sb) (h g : n → n → ℝ) (eri : n → n → n → n → ℝ)
    (y : ℝ) (c : Sa × Sb → (Fin m → ℕ) → ℝ) (s : Sa × Sb) (σ : Fin m → ℕ) :
    elecH ta tb (fun p q => h p q + g p q * y) eri c s σ =
      elecH ta tb h eri c s σ + y * ∑ p, ∑ q, g p q * exc ta tb p q c s σ := by
  have : (∑ p, ∑ q, (h p q + g p q * y) * exc ta tb p q c s σ) =
      (∑ p, ∑ q, h p q * exc ta tb p q c s σ) + y * ∑ p, ∑ q, g p q * exc ta tb p q c s σ := by
    simp only [Finset.mul_sum, ← Finset.sum_add_distrib]
    exact Finset.sum_congr rfl fun p _ => Finset.sum_congr rfl fun q _ => by ring
  simp only [elecH, this]
  ring

/-- C85: what is missing with `coherent_state`: exactly the linear term `ω z (b + b†)`. -/
theorem c85_missing_term (N : Fin 1 → ℕ) (ta : Table n Sa) (tb : Table n Sb) (ne : ℕ) (hne : 1 ≤ ne)
    (hc : CountsElectrons ta tb ne) (h : n → n → ℝ) (eri : n → n → n → n → ℝ) (g : n → n → ℝ)
    (w ecore z : ℝ) (c : Sa × Sb → (Fin 1 → ℕ) → ℝ) (s : Sa × Sb) (σ : Fin 1 → ℕ) (hσ : InBox N σ) :
    displacedH N ta tb h eri g w ecore z c s σ =
      hop N ta tb h eri (fun _ => g) w ne ecore (some z) c s σ +
        w * z * (creBoson N 0 c s σ + desBoson N 0 c s σ) := by
  have h0 := c85_plain_partial N ta tb ne hne hc (fun p q => h p q + g p q * (z * 2)) eri g w
    (ecore + w * z * z) c s σ hσ
  have h1 : hop N ta tb h eri (fun _ => g) w ne ecore (some z) c s σ =
      hop N ta tb (fun p q => h p q + g p q * (z * 2)) eri (fun _ => g) w ne (ecore + w * z * z) none
        c s σ := rfl
  rw [h1, h0]
  simp only [displacedH, elecH_shift]
  have h2 : ∀ y : ℝ, ∑ p, ∑ q, g p q * exc ta tb p q
        (fun s σ => (creBoson N 0 c s σ + desBoson N 0 c s σ) + y * c s σ) s σ =
      (∑ p, ∑ q, g p q * exc ta tb p q (fun s σ => creBoson N 0 c s σ + desBoson N 0 c s σ) s σ) +
        y * ∑ p, ∑ q, g p q * exc ta tb p q c s σ := by
    intro y
    simp only [Finset.mul_sum, ← Finset.sum_add_distrib]
    refine Finset.sum_congr rfl fun p _ => Finset.sum_congr rfl fun q _ => ?_
    simp only [exc, mul_add, Finset.mul_sum, Finset.sum_add_distrib]
    have hx : ∀ (A B A' B' : ℝ), A = A' → B = B' → A + B = A' + B' := by intros; simp_all
    have e1 : ∑ x, g p q * (elem ta p q s.1 x * (y * c (x, s.2) σ)) =
        ∑ x, y * (g p q * (elem ta p q s.1 x * c (x, s.2) σ)) :=
      Finset.sum_congr rfl fun x _ => by ring
    have e2 : ∑ x, g p q * (elem tb p q s.2 x * (y * c (s.1, x) σ)) =
        ∑ x, y * (g p q * (elem tb p q s.2 x * c (s.1, x) σ)) :=
      Finset.sum_congr rfl fun x _ => by ring
    rw [e1, e2]
    ring
  have h3 := h2 (2 * z)
  have h4 := h2 (2 * 0)
  simp only [h3, h4]
  ring

/-- C85 fails: for every system with a positive frequency, a non-zero displacement and at least one
boson, some vector is mapped wrongly. -/
theorem c85_coherent_fails (N : Fin 1 → ℕ) (hN : 1 ≤ N 0) (ta : Table n Sa) (tb : Table n Sb) (ne : ℕ)
    (hne : 1 ≤ ne) (hc : CountsElectrons ta tb ne) (h : n → n → ℝ) (eri : n → n → n → n → ℝ)
    (g : n → n → ℝ) (w ecore z : ℝ) (hw : 0 < w) (hz : z ≠ 0) (s : Sa × Sb) :
    ∃ c : Sa × Sb → (Fin 1 → ℕ) → ℝ,
      hop N ta tb h eri (fun _ => g) w ne ecore (some z) c s ![1] ≠
        displacedH N ta tb h eri g w ecore z c s ![1] := by
  refine ⟨fun _ σ => if σ 0 = 0 then 1 else 0, ?_⟩
  have hσ : InBox N ![1] := by
    intro x
    fin_cases x
    simpa using hN
  rw [c85_missing_term N ta tb ne hne hc h eri g w ecore z _ s _ hσ]
  rw [creBoson_succ _ _ _ _ _ (hσ 0), desBoson_eq]
  have : w * z ≠ 0 := mul_ne_zero hw.ne' hz
  simp
  exact ⟨hw.ne', hz⟩

/-- The hypotheses of C85 are met by one alpha and one beta electron in two orbitals. -/
example : (1 : ℕ) ≤ 2 ∧ CountsElectrons oneInTwo oneInTwo 2 ∧ InBox (m := 1) ![3] ![2] :=
  ⟨by norm_num, oneInTwo_counts, fun x => by fin_cases x; simp⟩

/-! ## C86: one-electron density matrix -/

theorem pick_entries {S : Type*} [Fintype S] [DecidableEq S] (a i : n) (l : List (n × n × S × ℝ))
    (F : S → ℝ) :
    (l.map fun t => if t.1 = a ∧ t.2.1 = i then t.2.2.2 * F t.2.2.1 else 0).sum =
      ∑ s : S, (l.map fun t => if t.1 = a ∧ t.2.1 = i ∧ t.2.2.1 = s then t.2.2.2 else 0).sum * F s := by
  induction l with
  | nil => simp
  | cons t l ih =>
    simp only [List.map_cons, List.sum_cons, ih, add_mul, Finset.sum_add_distrib]
    congr 1
    by_cases h : t.1 = a ∧ t.2.1 = i
    · rw [if_pos h, Finset.sum_eq_single t.2.2.1]
      · simp [h]
      · intro b _ hb
        simp [Ne.symm hb]
      · simp
    · rw [if_neg h]
      symm
      refine Finset.sum_eq_zero fun s _ => ?_
      rw [if_neg (fun h' => h ⟨h'.1, h'.2.1⟩), zero_mul]

/-- C86: `make_rdm1e(c)[a, i] = ⟨c| a† i |c⟩`. -/
theorem c86_expectation (N : Fin m → ℕ) (ta : Table n Sa) (tb : Table n Sb)
    (c : Sa × Sb → (Fin m → ℕ) → ℝ) (a i : n) :
    makeRdm1e N ta tb c a i = ∑ s : Sa × Sb, ∑ σ ∈ box N, c s σ * exc ta tb a i c s σ := by
  unfold makeRdm1e
  have kA := fun s0 : Sa => pick_entries a i (ta s0) (fun s1 => ∑ sb, ∑ σ ∈ box N, c (s1, sb) σ * c (s0, sb) σ)
  have kB := fun s0 : Sb => pick_entries a i (tb s0) (fun s1 => ∑ sa, ∑ σ ∈ box N, c (sa, s1) σ * c (sa, s0) σ)
  simp only [kA, kB]
  simp only [exc, mul_add, Finset.sum_add_distrib, Finset.mul_sum, Fintype.sum_prod_type]
  congr 1
  · -- alpha
    rw [Finset.sum_comm]
    refine Finset.sum_congr rfl fun s1 _ => ?_
    rw [Finset.sum_comm]
    refine Finset.sum_congr rfl fun sb _ => ?_
    rw [Finset.sum_comm]
    refine Finset.sum_congr rfl fun σ _ => Finset.sum_congr rfl fun s0 _ => ?_
    simp only [elem]
    ring
  · -- beta
    have : ∀ s0 : Sb, ∑ s1 : Sb, ∑ sa : Sa, ∑ σ ∈ box N,
        ((tb s0).map fun t => if t.1 = a ∧ t.2.1 = i ∧ t.2.2.1 = s1 then t.2.2.2 else 0).sum *
          (c (sa, s1) σ * c (sa, s0) σ) = ∑ sa : Sa, ∑ s1 : Sb, ∑ σ ∈ box N,
        ((tb s0).map fun t => if t.1 = a ∧ t.2.1 = i ∧ t.2.2.1 = s1 then t.2.2.2 else 0).sum *
          (c (sa, s1) σ * c (sa, s0) σ) := fun s0 => Finset.sum_comm
    simp only [this]
    rw [Finset.sum_comm]
    refine Finset.sum_congr rfl fun sa _ => ?_
    rw [Finset.sum_comm]
    refine Finset.sum_congr rfl fun s1 _ => ?_
    rw [Finset.sum_comm]
    refine Finset.sum_congr rfl fun σ _ => Finset.sum_congr rfl fun s0 _ => ?_
    simp only [elem]
    ring

/-- C86: its trace is the number of electrons times the squared norm. -/
theorem c86_trace (N : Fin m → ℕ) (ta : Table n Sa) (tb : Table n Sb) (ne : ℕ)
    (hc : CountsElectrons ta tb ne) (c : Sa × Sb → (Fin m → ℕ) → ℝ) :
    ∑ a, makeRdm1e N ta tb c a a = ne * ∑ s : Sa × Sb, ∑ σ ∈ box N, c s σ ^ 2 := by
  simp only [c86_expectation]
  rw [Finset.sum_comm, Finset.mul_sum]
  refine Finset.sum_congr rfl fun s _ => ?_
  rw [Finset.sum_comm, Finset.mul_sum]
  refine Finset.sum_congr rfl fun σ _ => ?_
  rw [← Finset.mul_sum, sum_exc_self hc]
  ring

/-- C86: it is symmetric when the excitation matrices are adjoint to the de-excitations. -/
theorem c86_symmetric (N : Fin m → ℕ) (ta : Table n Sa) (tb : Table n Sb)
    (ha : ∀ a i s s0, elem ta a i s s0 = elem ta i a s0 s)
    (hb : ∀ a i s s0, elem tb a i s s0 = elem tb i a s0 s) (c : Sa × Sb → (Fin m → ℕ) → ℝ) (a i : n) :
    makeRdm1e N ta tb c a i = makeRdm1e N ta tb c i a := by
  simp only [c86_expectation, exc, mul_add, Finset.sum_add_distrib, Finset.mul_sum,
    Fintype.sum_prod_type]
  congr 1
  · have e : ∀ a i : n, ∑ sa : Sa, ∑ sb : Sb, ∑ σ ∈ box N, ∑ s0, c (sa, sb) σ * (elem ta a i sa s0 * c (s0, sb) σ) =
        ∑ sb : Sb, ∑ σ ∈ box N, ∑ sa : Sa, ∑ s0, c (sa, sb) σ * (elem ta a i sa s0 * c (s0, sb) σ) := by
      intro a i
      rw [Finset.sum_comm]
      exact Finset.sum_congr rfl fun sb _ => Finset.sum_comm
    rw [e, e]
    refine Finset.sum_congr rfl fun sb _ => Finset.sum_congr rfl fun σ _ => ?_
    rw [Finset.sum_comm]
    refine Finset.sum_congr rfl fun s1 _ => Finset.sum_congr rfl fun s0 _ => ?_
    rw [ha a i s0 s1]
    ring
  · refine Finset.sum_congr rfl fun sa _ => ?_
    rw [Finset.sum_comm, Finset.sum_comm (s := Finset.univ (α := Sb))]
    refine Finset.sum_congr rfl fun σ _ => ?_
    rw [Finset.sum_comm]
    refine Finset.sum_congr rfl fun s1 _ => Finset.sum_congr rfl fun s0 _ => ?_
    rw [hb a i s0 s1]
    ring

/-- The one-electron table is symmetric. -/
example : ∀ a i s s0, elem oneInTwo a i s s0 = elem oneInTwo i a s0 s := by
  intro a i s s0
  fin_cases a <;> fin_cases i <;> fin_cases s <;> fin_cases s0 <;> simp [elem, oneInTwo]

end OpenMS.QedFci
