import Verif.Model.Qmd
import Mathlib.Tactic
import Mathlib.Data.List.GetD
import Mathlib.LinearAlgebra.Matrix.Notation

/-!
# C53-C55, C87-C90: molecular dynamics
-/

namespace OpenMS.Qmd
set_option linter.unusedSectionVars false

/-! ## C53: Runge-Kutta -/

/-- C53: for a constant linear generator one step is the fourth-order Taylor polynomial of the
exponential. -/
theorem rk4_linear {K V : Type*} [Field K] [CharZero K] [AddCommGroup V] [Module K V]
    (A : V →ₗ[K] V) (t0 : K) (y : V) (dt : K) :
    rk4 (fun _ y => A y) t0 y dt =
      ∑ k ∈ Finset.range 5, (dt ^ k / (k.factorial : K)) • (A ^ k) y := by
  simp only [rk4, map_add, map_smul, Finset.sum_range_succ, Finset.range_zero, Finset.sum_empty,
    Nat.factorial, pow_zero, pow_succ, Module.End.mul_apply, Module.End.one_apply]
  push_cast
  module

/-- C53: a pure time integral is Simpson's rule. -/
theorem rk4_simpson {K V : Type*} [Field K] [CharZero K] [AddCommGroup V] [Module K V] (g : K → V)
    (t0 : K) (y : V) (dt : K) :
    rk4 (fun t _ => g t) t0 y dt = y + (dt / 6) • (g t0 + (4 : K) • g (t0 + dt / 2) + g (t0 + dt)) := by
  simp only [rk4]
  module

/-- C53: cubic polynomials are integrated exactly. -/
theorem rk4_cubic {K V : Type*} [Field K] [CharZero K] [AddCommGroup V] [Module K V] (a b c d : V)
    (t0 : K) (y : V) (dt : K) :
    let G : K → V := fun t => t • a + (t ^ 2 / 2) • b + (t ^ 3 / 3) • c + (t ^ 4 / 4) • d
    rk4 (fun t _ => a + t • b + t ^ 2 • c + t ^ 3 • d) t0 y dt = y + (G (t0 + dt) - G t0) := by
  intro G
  rw [rk4_simpson]
  simp only [G]
  module

/-- One step of size one for `y' = y` from one: `1 + 1 + 1/2 + 1/6 + 1/24`. -/
example : rk4 (K := ℚ) (fun _ y => (LinearMap.id : ℚ →ₗ[ℚ] ℚ) y) 0 1 1 = 65 / 24 := by
  rw [rk4_linear]
  norm_num [Finset.sum_range_succ, Nat.factorial]

/-! ## C54: surface-hopping Hamiltonian -/

/-- Position at which row `j` starts in the table of couplings, as the code counts. -/
def rowStart (n j : ℕ) : ℕ := ∑ i ∈ Finset.range j, (n - i)

theorem rowStart_succ (n j : ℕ) : rowStart n (j + 1) = rowStart n j + (n - j) := by
  simp [rowStart, Finset.sum_range_succ]

theorem rowStart_total (n : ℕ) : rowStart n n = n * (n + 1) / 2 := by
  have h : ∀ n, 2 * rowStart n n = n * (n + 1) := by
    intro n
    have h1 : rowStart n n = ∑ i ∈ Finset.range n, (i + 1) := by
      rw [rowStart, ← Finset.sum_range_reflect]
      refine Finset.sum_congr rfl fun i hi => ?_
      have := Finset.mem_range.1 hi
      omega
    rw [h1]
    induction n with
    | zero => rfl
    | succ k ih =>
      have ih' := ih (by
        rw [rowStart, ← Finset.sum_range_reflect]
        refine Finset.sum_congr rfl fun i hi => ?_
        have := Finset.mem_range.1 hi
        omega)
      rw [Finset.sum_range_succ, mul_add, ih']
      ring
  have := h n
  omega

/-- The innermost loop over the first `l` turns of row `j`. -/
theorem inner_spec (nact : List ℝ) (j : ℕ) (M : ℕ → ℕ → ℝ) (c l : ℕ) :
    (c + l ≤ nact.length → ∃ M', ((List.range l).map (j + ·)).foldlM (getHInner nact j) (M, c) = some (M', c + l) ∧
      (∀ k, j ≤ k → k < j + l → M' k j = -(nact.getD (c + (k - j)) 0)) ∧
      (∀ k, j < k → k < j + l → M' j k = nact.getD (c + (k - j)) 0) ∧
      ∀ a b, (a ≠ j ∧ b ≠ j) ∨ a < j ∨ b < j → M' a b = M a b) ∧
    (nact.length < c + l → c ≤ nact.length →
      ((List.range l).map (j + ·)).foldlM (getHInner nact j) (M, c) = none) := by
  induction l with
  | zero =>
    refine ⟨fun _ => ⟨M, by simp, ?_, ?_, ?_⟩, fun h1 h2 => by omega⟩
    · intro k h1 h2; omega
    · intro k h1 h2; omega
    · intros; rfl
  | succ l ih =>
    have hsplit : ((List.range (l + 1)).map (j + ·)).foldlM (getHInner nact j) (M, c) =
        (((List.range l).map (j + ·)).foldlM (getHInner nact j) (M, c)).bind
          fun s => getHInner nact j s (j + l) := by
      rw [List.range_succ, List.map_append, List.foldlM_append]
      simp only [List.map_cons, List.map_nil, List.foldlM_cons, List.foldlM_nil]
      congr 1
      funext s
      cases getHInner nact j s (j + l) <;> rfl
    constructor
    · intro h
      obtain ⟨M', hM', h1, h2, h3⟩ := ih.1 (by omega)
      have hget : nact[c + l]? = some (nact.getD (c + l) 0) := by
        rw [List.getD_eq_getElem _ _ (by omega), List.getElem?_eq_getElem (by omega)]
      refine ⟨setH (setH M' j (j + l) (nact.getD (c + l) 0)) (j + l) j (-(nact.getD (c + l) 0)), ?_, ?_, ?_, ?_⟩
      · rw [hsplit, hM']
        simp only [Option.bind_some, getHInner, hget, Option.map_some]
        rfl
      · intro k hk1 hk2
        by_cases hk : k = j + l
        · subst hk
          simp [setH]
        · have := h1 k hk1 (by omega)
          simp only [setH]
          rw [if_neg (by omega), if_neg (by omega), this]
      · intro k hk1 hk2
        by_cases hk : k = j + l
        · subst hk
          simp only [setH]
          rw [if_neg (by omega), if_pos (by simp)]
          congr 1
          omega
        · have := h2 k hk1 (by omega)
          simp only [setH]
          rw [if_neg (by omega), if_neg (by omega), this]
      · intro a b hab
        simp only [setH]
        rw [if_neg (by omega), if_neg (by omega), h3 a b hab]
    · intro h hc
      by_cases h' : nact.length < c + l
      · rw [hsplit, ih.2 h' hc]
        rfl
      · obtain ⟨M', hM', -⟩ := ih.1 (by omega)
        rw [hsplit, hM']
        simp only [Option.bind_some, getHInner]
        rw [List.getElem?_eq_none (by omega)]
        rfl

/-- The rows before `r`. -/
theorem rows_spec (n : ℕ) (e : ℕ → ℝ) (nact : List ℝ) (g : ℕ → ℕ → ℝ) (r : ℕ) (hr : r ≤ n) :
    (rowStart n r ≤ nact.length → ∃ M, (List.range r).foldlM (getHRow n e nact) (g, 0) = some (M, rowStart n r) ∧
      (∀ j < r, ∀ k, j ≤ k → k < n → M k j = -(nact.getD (rowStart n j + (k - j)) 0)) ∧
      (∀ j < r, ∀ k, j < k → k < n → M j k = nact.getD (rowStart n j + (k - j)) 0)) ∧
    (nact.length < rowStart n r → (List.range r).foldlM (getHRow n e nact) (g, 0) = none) := by
  induction r with
  | zero =>
    refine ⟨fun _ => ⟨g, by simp [rowStart], ?_, ?_⟩, fun h => by simp [rowStart] at h⟩
    · intro j hj; omega
    · intro j hj; omega
  | succ r ih =>
    have hsplit : (List.range (r + 1)).foldlM (getHRow n e nact) (g, 0) =
        ((List.range r).foldlM (getHRow n e nact) (g, 0)).bind fun s => getHRow n e nact s r := by
      rw [List.range_succ, List.foldlM_append]
      simp only [List.foldlM_cons, List.foldlM_nil]
      congr 1
      funext s
      cases getHRow n e nact s r <;> rfl
    have ih := ih (by omega)
    constructor
    · intro h
      rw [rowStart_succ] at h
      obtain ⟨M, hM, h1, h2⟩ := ih.1 (by omega)
      obtain ⟨M', hM', h1', h2', h3'⟩ :=
        (inner_spec nact r (setH M r r (e r)) (rowStart n r) (n - r)).1 h
      refine ⟨M', ?_, ?_, ?_⟩
      · rw [hsplit, hM, Option.bind_some, getHRow, hM', rowStart_succ]
      · intro j hj k hk1 hk2
        by_cases hjr : j = r
        · subst hjr
          exact h1' k hk1 (by omega)
        · rw [h3' k j (by omega), setH, if_neg (by omega)]
          exact h1 j (by omega) k hk1 hk2
      · intro j hj k hk1 hk2
        by_cases hjr : j = r
        · subst hjr
          exact h2' k hk1 (by omega)
        · rw [h3' j k (by omega), setH, if_neg (by omega)]
          exact h2 j (by omega) k hk1 hk2
    · intro h
      rw [rowStart_succ] at h
      by_cases h' : nact.length < rowStart n r
      · rw [hsplit, ih.2 h']
        rfl
      · obtain ⟨M, hM, -⟩ := ih.1 (by omega)
        rw [hsplit, hM, Option.bind_some, getHRow]
        exact (inner_spec nact r _ (rowStart n r) (n - r)).2 h (by omega)

/-- C54 partial: with a table that also has an entry for every state, the off-diagonal part is
antisymmetric and every pair of states has its own entry of the table.  Missing: the diagonal, and
tables with one entry per pair; both are wrong. -/
theorem offdiagonal_partial (n : ℕ) (e : ℕ → ℝ) (nact : List ℝ) (g : ℕ → ℕ → ℝ)
    (hl : nact.length = n * (n + 1) / 2) :
    ∃ M, getH n e nact g = some M ∧ (∀ j k, j < k → k < n → M j k = -M k j) ∧
      ∃ pos : ℕ → ℕ → ℕ, (∀ j k, j < k → k < n → M j k = nact.getD (pos j k) 0 ∧ pos j k < nact.length) ∧
        ∀ j k j' k', j < k → k < n → j' < k' → k' < n → pos j k = pos j' k' → j = j' ∧ k = k' := by
  obtain ⟨M, hM, h1, h2⟩ := (rows_spec n e nact g n le_rfl).1 (by rw [rowStart_total, hl])
  have hmono : ∀ a b, a ≤ b → rowStart n a ≤ rowStart n b := by
    intro a b hab
    exact Finset.sum_le_sum_of_subset (Finset.range_mono hab)
  refine ⟨M, by simp [getH, hM], fun j k hjk hk => ?_, fun j k => rowStart n j + (k - j), ?_, ?_⟩
  · rw [h1 j (by omega) k hjk.le hk, h2 j (by omega) k hjk hk, neg_neg]
  · intro j k hjk hk
    refine ⟨h2 j (by omega) k hjk hk, ?_⟩
    have h3 := hmono (j + 1) n (by omega)
    rw [rowStart_succ] at h3
    rw [hl, ← rowStart_total]
    show rowStart n j + (k - j) < _
    omega
  · intro j k j' k' hjk hk hjk' hk' h
    replace h : rowStart n j + (k - j) = rowStart n j' + (k' - j') := h
    rcases lt_trichotomy j j' with hj | hj | hj
    · have h3 := hmono (j + 1) j' hj
      rw [rowStart_succ] at h3
      omega
    · subst hj
      omega
    · have h3 := hmono (j' + 1) j hj
      rw [rowStart_succ] at h3
      omega

/-- C54 fails: with one coupling per pair of states `get_H` raises `IndexError`, for every number of
states. -/
theorem pairs_raise_fails (n : ℕ) (hn : 1 ≤ n) (e : ℕ → ℝ) (nact : List ℝ) (g : ℕ → ℕ → ℝ)
    (hl : nact.length = n * (n - 1) / 2) : getH n e nact g = none := by
  have : nact.length < rowStart n n := by
    rw [rowStart_total, hl]
    obtain ⟨k, rfl⟩ : ∃ k, n = k + 1 := ⟨n - 1, by omega⟩
    have h1 : (k + 1) * (k + 1 + 1) = (k + 1) * (k + 1 - 1) + 2 * (k + 1) := by
      simp; ring
    rw [h1]
    omega
  simp [getH, (rows_spec n e nact g n le_rfl).2 this]

/-- C54 fails: when it does return, the diagonal is minus an entry of the coupling table; the state
energies are not in the Hamiltonian at all. -/
theorem energies_lost_fails (n : ℕ) (e e' : ℕ → ℝ) (nact : List ℝ) (g g' : ℕ → ℕ → ℝ)
    (M M' : ℕ → ℕ → ℝ) (hM : getH n e nact g = some M) (hM' : getH n e' nact g' = some M') :
    (∀ j < n, M j j = -(nact.getD (rowStart n j) 0)) ∧ ∀ j < n, ∀ k < n, M j k = M' j k := by
  have hlen : rowStart n n ≤ nact.length := by
    by_contra h
    simp [getH, (rows_spec n e nact g n le_rfl).2 (by omega)] at hM
  obtain ⟨A, hA, h1, h2⟩ := (rows_spec n e nact g n le_rfl).1 hlen
  obtain ⟨A', hA', h1', h2'⟩ := (rows_spec n e' nact g' n le_rfl).1 hlen
  obtain rfl : A = M := by simpa [getH, hA] using hM
  obtain rfl : A' = M' := by simpa [getH, hA'] using hM'
  refine ⟨fun j hj => by simpa using h1 j hj j le_rfl hj, fun j hj k hk => ?_⟩
  rcases lt_or_ge j k with h | h
  · rw [h2 j hj k h hk, h2' j hj k h hk]
  · rw [h1 k hk j h hj, h1' k hk j h hj]

/-- Two states with energies one and two: the diagonal does not contain them. -/
example : ∃ M, getH 2 (fun j => (j : ℝ) + 1) [5, 7, 9] (fun _ _ => 0) = some M ∧
    M 0 0 = -5 ∧ M 0 1 = 7 ∧ M 1 0 = -7 ∧ M 1 1 = -9 := by
  refine ⟨_, rfl, ?_, ?_, ?_, ?_⟩ <;> norm_num [setH]

/-! ## C88: the electronic equation of motion -/

section Norm
variable {n : Type*} [Fintype n] [DecidableEq n]

/-- Time derivative of the total population `Σ |c_j|²`. -/
noncomputable def normRate (c d : n → ℂ) : ℝ := 2 * ∑ j, ((starRingEnd ℂ) (c j) * d j).re

/-- The documented equation (`qmd/__init__.py` L64): `ċ_j = -i E_j c_j - Σ_k τ_jk c_k`. -/
noncomputable def documentedDot (e : n → ℝ) (tau : n → n → ℝ) (c : n → ℂ) (j : n) : ℂ :=
  -Complex.I * (e j * c j) - ∑ k, (tau j k : ℂ) * c k

/-- The matrix `get_H` is meant to build: energies on, couplings off the diagonal. -/
def hamOf (e : n → ℝ) (tau : n → n → ℝ) (j k : n) : ℝ := if j = k then e j else tau j k

/-- The documented equation conserves the population. -/
theorem documented_conserves (e : n → ℝ) (tau : n → n → ℝ) (h : ∀ j k, tau j k = -tau k j) (c : n → ℂ) :
    normRate c (documentedDot e tau c) = 0 := by
  have h1 : ∑ j, ((starRingEnd ℂ) (c j) * documentedDot e tau c j).re =
      -∑ j, ∑ k, tau j k * ((c j).re * (c k).re + (c j).im * (c k).im) := by
    rw [← Finset.sum_neg_distrib]
    refine Finset.sum_congr rfl fun j _ => ?_
    simp only [documentedDot, mul_sub, Complex.sub_re, Finset.mul_sum, Complex.re_sum]
    have : ((starRingEnd ℂ) (c j) * (-Complex.I * (↑(e j) * c j))).re = 0 := by
      simp [Complex.mul_re, Complex.mul_im]
      ring
    rw [this, zero_sub]
    congr 1
    refine Finset.sum_congr rfl fun k _ => ?_
    simp [Complex.mul_re, Complex.mul_im]
    ring
  have h2 : ∑ j, ∑ k, tau j k * ((c j).re * (c k).re + (c j).im * (c k).im) =
      -∑ j, ∑ k, tau j k * ((c j).re * (c k).re + (c j).im * (c k).im) := by
    conv_lhs => rw [Finset.sum_comm]
    rw [← Finset.sum_neg_distrib]
    refine Finset.sum_congr rfl fun j _ => ?_
    rw [← Finset.sum_neg_distrib]
    refine Finset.sum_congr rfl fun k _ => ?_
    rw [h k j]
    ring
  rw [normRate, h1]
  linarith

/-- C88 partial: the implemented equation is the documented one, and conserves the population, when
the couplings vanish.  Missing: non-zero couplings, where both are false. -/
theorem coefDot_partial (e : n → ℝ) (c : n → ℂ) :
    (∀ j, coefDot (hamOf e fun _ _ => 0) c j = documentedDot e (fun _ _ => 0) c j) ∧
      normRate c (coefDot (hamOf e fun _ _ => 0) c) = 0 := by
  have h : ∀ j, coefDot (hamOf e fun _ _ => 0) c j = documentedDot e (fun _ _ => 0) c j := by
    intro j
    simp only [coefDot, documentedDot, hamOf]
    rw [Finset.sum_eq_single j]
    · simp
    · intro k _ hk; simp [Ne.symm hk]
    · simp
  refine ⟨h, ?_⟩
  rw [show coefDot (hamOf e fun _ _ => 0) c = documentedDot e (fun _ _ => 0) c from funext h]
  exact documented_conserves e _ (by simp) c

/-- C88 fails: with any non-zero antisymmetric coupling the implemented equation creates population
for some coefficients, so it is not the documented one. -/
theorem coefDot_fails (e : n → ℝ) (tau : n → n → ℝ) (h : ∀ j k, tau j k = -tau k j) (a b : n)
    (hab : tau a b ≠ 0) :
    ∃ c : n → ℂ, normRate c (coefDot (hamOf e tau) c) = 4 * tau a b ∧
      normRate c (coefDot (hamOf e tau) c) ≠ 0 ∧
      ∃ j, coefDot (hamOf e tau) c j ≠ documentedDot e tau c j := by
  have hne : a ≠ b := by
    rintro rfl
    have := h a a
    exact hab (by linarith)
  let c : n → ℂ := fun j => if j = a then 1 else if j = b then Complex.I else 0
  have hc : normRate c (coefDot (hamOf e tau) c) = 4 * tau a b := by
    have hsum : ∀ j, ∑ k, (hamOf e tau j k : ℂ) * c k =
        hamOf e tau j a + hamOf e tau j b * Complex.I := by
      intro j
      rw [← Finset.sum_subset (Finset.subset_univ {a, b}), Finset.sum_pair hne]
      · simp [c, hne.symm]
      · intro k _ hk
        simp only [Finset.mem_insert, Finset.mem_singleton, not_or] at hk
        simp [c, hk.1, hk.2]
    have hout : ∑ j, ((starRingEnd ℂ) (c j) * coefDot (hamOf e tau) c j).re =
        ((starRingEnd ℂ) (c a) * coefDot (hamOf e tau) c a).re +
          ((starRingEnd ℂ) (c b) * coefDot (hamOf e tau) c b).re := by
      rw [← Finset.sum_subset (Finset.subset_univ {a, b}), Finset.sum_pair hne]
      intro k _ hk
      simp only [Finset.mem_insert, Finset.mem_singleton, not_or] at hk
      simp [c, hk.1, hk.2]
    rw [normRate, hout]
    simp only [coefDot, hsum]
    have hba := h b a
    simp [c, hne.symm, hamOf, hne, Complex.mul_re, Complex.mul_im]
    linarith
  have hnz : normRate c (coefDot (hamOf e tau) c) ≠ 0 := by
    rw [hc]
    exact mul_ne_zero (by norm_num) hab
  refine ⟨c, hc, hnz, ?_⟩
  by_contra hall
  push Not at hall
  exact hnz (by rw [show coefDot (hamOf e tau) c = documentedDot e tau c from funext hall]; exact documented_conserves e tau h c)

/-- Two states with coupling one. -/
example : (∀ j k, (!![0, 1; -1, 0] : Matrix (Fin 2) (Fin 2) ℝ) j k = -(!![0, 1; -1, 0] : Matrix (Fin 2) (Fin 2) ℝ) k j) ∧
    (!![0, 1; -1, 0] : Matrix (Fin 2) (Fin 2) ℝ) 0 1 ≠ 0 := by
  refine ⟨fun j k => ?_, by norm_num⟩
  fin_cases j <;> fin_cases k <;> norm_num

end Norm

/-! ## C87: geometry at the Runge-Kutta stages -/

section Stages
variable {X M : Type*} [AddCommGroup X] [Module ℝ X]

/-- Electronic steps repeated. -/
noncomputable def elecSteps (H : X → M) (v : X) (edt : ℝ) (k : ℕ) (s : ElecState X M) : ElecState X M :=
  (elecStep H v edt)^[k] s

theorem stages_eq (H : X → M) (v : X) (edt : ℝ) (he : edt ≠ 0) (s : ElecState X M) :
    stages H v edt s =
      [s, ⟨s.coords + (edt / 2) • v, s.time + edt / 2, H (s.coords + (edt / 2) • v)⟩,
       ⟨s.coords + (edt / 2) • v, s.time + edt / 2, H (s.coords + (edt / 2) • v)⟩,
       ⟨s.coords + edt • v, s.time + edt, H (s.coords + edt • v)⟩] := by
  have h1 : s.time + edt / 2 ≠ s.time := by
    intro h
    exact he (by linarith)
  have h2 : s.time + edt ≠ s.time + edt / 2 := by
    intro h
    exact he (by linarith)
  have h3 : s.coords + (edt / 2) • v + (edt / 2) • v = s.coords + edt • v := by
    rw [add_assoc, ← add_smul]
    congr 2
    ring
  simp [stages, refresh, h1, h2, h3]

/-- C87 partial: once the stored Hamiltonian belongs to the stored geometry, in every later
electronic step the four stages use the Hamiltonians at `x`, `x + v δ/2` (twice) and `x + v δ`, and
after `k` steps the geometry and the time have advanced by `k δ`.  Missing: the first step, which
is wrong. -/
theorem stages_partial (H : X → M) (v : X) (edt : ℝ) (he : edt ≠ 0) (x0 : X) (t0 : ℝ) (k : ℕ) :
    let s := elecSteps H v edt k ⟨x0, t0, H x0⟩
    s = ⟨x0 + (k * edt) • v, t0 + k * edt, H (x0 + (k * edt) • v)⟩ ∧
      (stages H v edt s).map ElecState.ham =
        [H s.coords, H (s.coords + (edt / 2) • v), H (s.coords + (edt / 2) • v),
          H (s.coords + edt • v)] := by
  have hk : ∀ k : ℕ, elecSteps H v edt k ⟨x0, t0, H x0⟩ =
      ⟨x0 + (k * edt) • v, t0 + k * edt, H (x0 + (k * edt) • v)⟩ := by
    intro k
    induction k with
    | zero => simp [elecSteps]
    | succ k ih =>
      rw [elecSteps, Function.iterate_succ_apply']
      have hx : (x0 + (k * edt) • v) + edt • v = x0 + ((↑(k + 1) : ℝ) * edt) • v := by
        rw [add_assoc, ← add_smul]
        push_cast
        congr 2
        ring
      have ht : (t0 + k * edt) + edt = t0 + (↑(k + 1) : ℝ) * edt := by
        push_cast
        ring
      rw [elecSteps] at ih
      rw [ih, elecStep, stages_eq H v edt he]
      simp [hx, ht]
  intro s
  refine ⟨hk k, ?_⟩
  rw [stages_eq H v edt he]
  have hs : s.ham = H s.coords := by
    simp only [s, hk k]
  simp [hs]

/-- C87 fails: the first stage of the first step uses whatever `np.empty` put into the Hamiltonian,
so the result is not determined by the input. -/
theorem first_stage_fails (H : X → M) (v : X) (edt : ℝ) (he : edt ≠ 0) (x0 : X) (t0 : ℝ)
    (garbage : M) :
    ((stages H v edt ⟨x0, t0, garbage⟩).map ElecState.ham).head? = some garbage := by
  rw [stages_eq H v edt he]
  rfl

end Stages

/-! ## C55: hops -/

/-- C55: a frustrated hop leaves state and velocity untouched, a successful one moves to the target
state with no velocity component reversed. -/
theorem rescaling_spec (dt : ℝ) (energies : ℕ → ℝ) (nacr : ℕ → ℕ → List ℝ) (si sf : ℕ) (ve : List ℝ) :
    let r := velocityRescaling dt energies nacr si sf ve
    (r.2.2 = 2 ∧ r.1 = si ∧ r.2.1 = ve) ∨
      (r.2.2 = 1 ∧ r.1 = sf ∧ ∀ x ∈ List.zipWith (· * ·) r.2.1 ve, 0 ≤ x) := by
  intro r
  simp only [r, velocityRescaling]
  split_ifs with h
  · exact Or.inl ⟨rfl, rfl, rfl⟩
  · refine Or.inr ⟨rfl, rfl, fun x hx => ?_⟩
    by_contra hneg
    apply h
    rw [List.any_eq_true]
    exact ⟨x, hx, by simpa using hneg⟩

/-- C55: the rule itself: the velocity is kicked along the coupling by the energy released over one
step, and the hop is refused exactly when that would turn a component around. -/
theorem rescaling_exact (dt : ℝ) (energies : ℕ → ℝ) (nacr : ℕ → ℕ → List ℝ) (si sf : ℕ) (ve : List ℝ)
    (hd : (nacr si sf).length = ve.length) :
    let r := velocityRescaling dt energies nacr si sf ve
    let kicked := fun k => ve.getD k 0 + (energies sf - energies si) * dt * (nacr si sf).getD k 0
    (r.2.2 = 1 ↔ ∀ k < ve.length, 0 ≤ kicked k * ve.getD k 0) ∧
    (r.2.2 = 1 → r.2.1.length = ve.length ∧ ∀ k < ve.length, r.2.1.getD k 0 = kicked k) := by
  intro r kicked
  set tmp := List.zipWith (fun v f => v - f * dt) ve
    ((nacr si sf).map fun d => (energies si - energies sf) * d) with htmp
  have hlen : tmp.length = ve.length := by simp [htmp, hd]
  have hk : ∀ k < ve.length, tmp.getD k 0 = kicked k := by
    intro k hk
    have hk' : k < (nacr si sf).length := by omega
    have hk2 : k < tmp.length := by omega
    rw [List.getD_eq_getElem?_getD, List.getElem?_eq_getElem hk2]
    simp only [kicked, List.getD_eq_getElem?_getD, List.getElem?_eq_getElem hk, List.getElem?_eq_getElem hk',
      Option.getD_some, htmp, List.getElem_zipWith, List.getElem_map]
    ring
  have hany : ((List.zipWith (· * ·) tmp ve).any fun x => decide (x < 0)) = true ↔
      ¬ ∀ k < ve.length, 0 ≤ kicked k * ve.getD k 0 := by
    rw [List.any_eq_true]
    push Not
    constructor
    · rintro ⟨x, hx, hneg⟩
      obtain ⟨k, hk1, rfl⟩ := List.mem_iff_getElem.1 hx
      simp only [List.length_zipWith, lt_min_iff] at hk1
      refine ⟨k, hk1.2, ?_⟩
      rw [← hk k hk1.2]
      simpa [List.getD_eq_getElem?_getD, List.getElem?_eq_getElem hk1.1,
        List.getElem?_eq_getElem hk1.2] using hneg
    · rintro ⟨k, hk1, hneg⟩
      have hk2 : k < tmp.length := by omega
      refine ⟨tmp[k] * ve[k], ?_, ?_⟩
      · rw [List.mem_iff_getElem]
        exact ⟨k, by simp [hk1, hk2], by simp⟩
      · rw [← hk k hk1] at hneg
        simpa [List.getD_eq_getElem?_getD, List.getElem?_eq_getElem hk1,
          List.getElem?_eq_getElem hk2] using hneg
  have hr : r = if (List.zipWith (· * ·) tmp ve).any fun x => decide (x < 0) then (si, ve, 2) else (sf, tmp, 1) :=
    rfl
  rw [hr]
  split_ifs with h
  · have := hany.1 h
    exact ⟨⟨fun h => absurd h (by simp), fun h => absurd h this⟩, fun h => absurd h (by simp)⟩
  · refine ⟨⟨fun _ => ?_, fun _ => rfl⟩, fun _ => ⟨hlen, hk⟩⟩
    by_contra hc
    exact h (hany.2 hc)

/-- C55: a state is tried exactly when the random number at its place in the sorted order is below
its hopping probability, and states are tried in that order. -/
theorem candidates_spec (p : ℕ → ℝ) (order : List ℕ) (rnd : ℕ → ℝ) :
    (candidates p order rnd).Sublist order ∧
    ∀ f, f ∈ candidates p order rnd ↔ ∃ k, order[k]? = some f ∧ rnd k < p f := by
  constructor
  · have : order = order.zipIdx.map Prod.fst := by simp
    unfold candidates
    conv_rhs => rw [this]
    exact List.filter_sublist.map _
  · intro f
    simp only [candidates, List.mem_map, List.mem_filter, List.mem_zipIdx_iff_getElem?, decide_eq_true_eq,
      Prod.exists, exists_and_right, exists_eq_right]

/-- A downward hop with the coupling along the motion is accepted, and speeds the particle up. -/
example : velocityRescaling 1 (fun n => if n = 1 then 1 else 0) (fun _ _ => [-1]) 1 0 [1] = (0, [2], 1) := by
  norm_num [velocityRescaling]

/-- Successful hops of one trajectory in one check. -/
noncomputable def hopCount (dt : ℝ) (energies : ℕ → ℝ) (nacr : ℕ → ℕ → List ℝ) (cands : List ℕ)
    (st : ℕ) (ve : List ℝ) : ℕ :=
  ((checkHops dt energies nacr cands st ve).filter fun r => r.2.2 == 1).length

/-- C55 partial: there is at most one hop per accepted random number, so at most one hop when at most
one state passes the test.  Missing: several states passing, where it is false. -/
theorem one_hop_partial (dt : ℝ) (energies : ℕ → ℝ) (nacr : ℕ → ℕ → List ℝ) (cands : List ℕ)
    (st : ℕ) (ve : List ℝ) : hopCount dt energies nacr cands st ve ≤ cands.length := by
  unfold hopCount
  refine (List.length_filter_le _ _).trans (le_of_eq ?_)
  induction cands generalizing st ve with
  | nil => rfl
  | cons f cs ih => simp [checkHops, ih]

/-- C55 fails: for every list of states that pass the test and couplings orthogonal to the motion,
the trajectory hops once for each of them and ends in the last one. -/
theorem many_hops_fails (dt : ℝ) (energies : ℕ → ℝ) (d : ℕ) (cands : List ℕ) (st : ℕ) (ve : List ℝ)
    (hd : ve.length = d) :
    hopCount dt energies (fun _ _ => List.replicate d 0) cands st ve = cands.length ∧
      ((checkHops dt energies (fun _ _ => List.replicate d 0) cands st ve).map Prod.fst) = cands := by
  have hz : ∀ (ve : List ℝ), List.zipWith (fun v f => v - f * dt) ve (List.replicate ve.length 0) = ve := by
    intro ve
    induction ve with
    | nil => rfl
    | cons a l ih => simp [List.replicate_succ, ih]
  have hr : ∀ si sf, velocityRescaling dt energies (fun _ _ => List.replicate d 0) si sf ve = (sf, ve, 1) := by
    intro si sf
    simp only [velocityRescaling, List.map_replicate, mul_zero]
    rw [← hd, hz, if_neg]
    intro h
    rw [List.any_eq_true] at h
    obtain ⟨x, hx, hneg⟩ := h
    have : ∀ l : List ℝ, ∀ x ∈ List.zipWith (· * ·) l l, 0 ≤ x := by
      intro l
      induction l with
      | nil => simp
      | cons a l ih =>
        intro x hx
        simp only [List.zipWith_cons_cons, List.mem_cons] at hx
        rcases hx with rfl | hx
        · exact mul_self_nonneg a
        · exact ih x hx
    have h0 := this ve x hx
    simp at hneg
    linarith
  constructor
  · unfold hopCount
    induction cands generalizing st with
    | nil => rfl
    | cons f cs ih =>
      simp only [checkHops, hr, List.filter_cons]
      simpa using ih f
  · induction cands generalizing st with
    | nil => rfl
    | cons f cs ih =>
      simp only [checkHops, hr, List.map_cons]
      rw [ih f]

/-- Three states, probabilities one half for states one and two, random numbers 0.1: both pass. -/
example : candidates (fun j => if j = 0 then 0 else 1 / 2) [0, 1, 2] (fun _ => 1 / 10) = [1, 2] := by
  norm_num [candidates, List.zipIdx]

/-! ## C90: velocity Verlet -/

section Verlet
variable {ι : Type*}

/-- C90: the integrator is time reversible: reversing the velocities and stepping again leads back
to the start with reversed velocities, for every force field. -/
theorem verlet_reversible (dt : ℝ) (mass : ι → ℝ) (F : (ι → ℝ) → ι → ℝ) (x v : ι → ℝ) :
    let s := verlet dt mass F (x, v)
    verlet dt mass F (s.1, fun i => -s.2 i) = (x, fun i => -v i) := by
  intro s
  have hx : nextPosition dt s.1 (nextVelocity dt mass (F s.1) fun i => -s.2 i) = x := by
    funext i
    simp only [s, verlet, nextPosition, nextVelocity]
    ring
  simp only [verlet]
  rw [hx]
  refine Prod.ext rfl ?_
  funext i
  simp only [s, verlet, nextVelocity]
  ring

/-- C90: for a constant force it is exact. -/
theorem verlet_constant_force (dt : ℝ) (mass f : ι → ℝ) (x v : ι → ℝ) :
    verlet dt mass (fun _ => f) (x, v) =
      (fun i => x i + v i * dt + f i / mass i * dt ^ 2 / 2, fun i => v i + f i / mass i * dt) := by
  refine Prod.ext ?_ ?_
  · funext i
    simp only [verlet, nextPosition, nextVelocity]
    ring
  · funext i
    simp only [verlet, nextVelocity]
    ring

/-- C90: without external force the total momentum is conserved. -/
theorem verlet_momentum [Fintype ι] (dt : ℝ) (mass : ι → ℝ) (hm : ∀ i, mass i ≠ 0)
    (F : (ι → ℝ) → ι → ℝ) (hF : ∀ x, ∑ i, F x i = 0) (x v : ι → ℝ) :
    ∑ i, mass i * (verlet dt mass F (x, v)).2 i = ∑ i, mass i * v i := by
  have h : ∀ i, mass i * (verlet dt mass F (x, v)).2 i = mass i * v i + 0.5 * dt * F x i +
      0.5 * dt * F (verlet dt mass F (x, v)).1 i := by
    intro i
    have := hm i
    simp only [verlet, nextVelocity]
    field_simp
  simp only [h, Finset.sum_add_distrib, ← Finset.mul_sum, hF, mul_zero, add_zero]

/-- Two particles on a spring. -/
example : ∀ x : Fin 2 → ℝ, ∑ i, (fun y : Fin 2 → ℝ => ![y 1 - y 0, y 0 - y 1]) x i = 0 := by
  intro x
  simp [Fin.sum_univ_two]

end Verlet

/-! ## C89: the drivers can be used -/

/-- C89 partial: a Born-Oppenheimer driver can be constructed with any options and then has all the
attributes it sets.  Missing: running it, and constructing a surface-hopping driver; both raise. -/
theorem bomd_constructs_partial (kwargs : Attrs) (name : String)
    (h : name ∈ ["dt", "nsteps", "out_freq", "init_state", "mol", "thermo", "prng"] ∨ name ∈ kwargs) :
    hasAttr bomdMethods (bomdInit [] kwargs) name = true := by
  simp only [hasAttr, bomdInit, Bool.or_eq_true, List.contains_iff_mem]
  left
  simp only [List.mem_append, List.mem_cons] at h ⊢
  tauto

/-- C89 fails: constructing a mixed quantum-classical driver raises for every choice of options, even
when `dt` is among them. -/
theorem mqc_construct_fails (kwargs : Attrs) : mqcInit kwargs = .error "AttributeError" := by
  rfl

/-- C89 fails: the first step of a Born-Oppenheimer run raises for every choice of options that does
not itself supply the missing integrator. -/
theorem bomd_run_fails (kwargs : Attrs) (h : "next_velocity" ∉ kwargs) :
    bomdFirstStep kwargs = .error "AttributeError" := by
  have : hasAttr bomdMethods (bomdInit [] kwargs) "next_velocity" = false := by
    simp [hasAttr, bomdMethods, bomdInit, h]
  simp [bomdFirstStep, this]

end OpenMS.Qmd
