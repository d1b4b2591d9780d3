import Verif.Model.QedLib

/-!
# C169: library of the variational QED-HF method
-/

namespace OpenMS.QedLib

/-- **C169**: the factor of four displacements is the overlap of displaced states: between zero and one, one exactly if the
displacements balance, and the same when bra and ket are exchanged. -/
theorem gaussian_partial (freq p q r s : ℝ) (hf : freq ≠ 0) (hr : r ≠ -1) (hs : s ≠ -1) :
    gaussianFactor freq p q r s = Real.exp (-((p - q + (r - s)) ^ 2 / (2 * freq ^ 2))) ∧
      0 < gaussianFactor freq p q r s ∧ gaussianFactor freq p q r s ≤ 1 ∧
      (gaussianFactor freq p q r s = 1 ↔ p + r = q + s) ∧
      gaussianFactor freq q p s r = gaussianFactor freq p q r s := by
  have e : gaussianFactor freq p q r s = Real.exp (-((p - q + (r - s)) ^ 2 / (2 * freq ^ 2))) := by
    unfold gaussianFactor
    rw [if_pos ⟨hr, hs⟩]
    congr 1
    field_simp
    ring
  have e' : gaussianFactor freq q p s r = Real.exp (-((p - q + (r - s)) ^ 2 / (2 * freq ^ 2))) := by
    unfold gaussianFactor
    rw [if_pos ⟨hs, hr⟩]
    congr 1
    field_simp
    ring
  have hf2 : 0 < 2 * freq ^ 2 := by positivity
  refine ⟨e, by rw [e]; exact Real.exp_pos _, ?_, ?_, by rw [e', e]⟩
  · rw [e, Real.exp_le_one_iff]
    have : 0 ≤ (p - q + (r - s)) ^ 2 / (2 * freq ^ 2) := by positivity
    linarith
  · rw [e, Real.exp_eq_one_iff, neg_eq_zero, div_eq_zero_iff]
    constructor
    · rintro (h | h)
      · have := pow_eq_zero_iff (two_ne_zero) |>.1 h
        linarith
      · exact absurd h hf2.ne'
    · intro h
      left
      rw [show p - q + (r - s) = 0 by linarith]
      ring

/-- **C169**: a displacement of minus one is taken for a missing one: the factor then does not depend on the last displacement and
is wrong unless the two displacements differ by nothing or reverse the difference of the others. -/
theorem sentinel_fails (freq p q s : ℝ) (hf : freq ≠ 0) (h1 : s ≠ -1) (h2 : 2 * (p - q) ≠ s + 1) :
    gaussianFactor freq p q (-1) s ≠ Real.exp (-((p - q + (-1 - s)) ^ 2 / (2 * freq ^ 2))) ∧
      gaussianFactor freq p q (-1) s = gaussianFactor freq p q (-1) 0 := by
  have e : ∀ s, gaussianFactor freq p q (-1) s = Real.exp (-((p - q) ^ 2 / (2 * freq ^ 2))) := by
    intro s
    unfold gaussianFactor
    rw [if_neg (by simp)]
    congr 1
    field_simp
  refine ⟨?_, by rw [e, e]⟩
  rw [e]
  intro h
  have h3 := Real.exp_injective h
  have hf2 : (2 * freq ^ 2) ≠ 0 := by positivity
  have h4 : (p - q) ^ 2 = (p - q + (-1 - s)) ^ 2 := by
    have := neg_injective h3
    field_simp at this
    linarith
  have h5 : (s + 1) * (2 * (p - q) - (s + 1)) = 0 := by linear_combination h4
  rcases mul_eq_zero.1 h5 with h6 | h6
  · exact h1 (by linarith)
  · exact h2 (by linarith)

/-- **C169**: a common shift of all displacements changes the factor, though only differences matter. -/
theorem shift_fails (freq : ℝ) (hf : freq ≠ 0) :
    gaussianFactor freq 0 0 0 1 ≠ gaussianFactor freq (-1) (-1) (-1) 0 := by
  have h := (sentinel_fails freq (-1) (-1) 0 hf (by norm_num) (by norm_num)).1
  have e := (gaussian_partial freq 0 0 0 1 hf (by norm_num) (by norm_num)).1
  rw [e]
  intro h'
  apply h
  rw [← h']
  congr 1
  ring

/-- The numbers of the entries are different. -/
theorem count_inj (N : ℕ) {p q r s p' q' r' s' : ℕ} (hq : q < N) (hr : r < N) (hs : s < N) (hq' : q' < N) (hr' : r' < N)
    (hs' : s' < N) (h : count N p q r s = count N p' q' r' s') : p = p' ∧ q = q' ∧ r = r' ∧ s = s' := by
  unfold count at h
  have key : ∀ a b a' b' : ℕ, b < N → b' < N → a * N + b = a' * N + b' → a = a' ∧ b = b' := by
    intro a b a' b' hb hb' e
    have e1 : (a * N + b) % N = b := by rw [Nat.mul_comm, Nat.mul_add_mod, Nat.mod_eq_of_lt hb]
    have e2 : (a' * N + b') % N = b' := by rw [Nat.mul_comm, Nat.mul_add_mod, Nat.mod_eq_of_lt hb']
    have e3 : b = b' := by rw [← e1, ← e2, e]
    exact ⟨Nat.eq_of_mul_eq_mul_right (show 0 < N by omega) (by omega), e3⟩
  have h1 : ((p * N + q) * N + r) * N + s = ((p' * N + q') * N + r') * N + s' := by
    rw [add_mul, add_mul, add_mul, add_mul, add_mul, add_mul]; exact h
  obtain ⟨h2, rfl⟩ := key _ _ _ _ hs hs' h1
  obtain ⟨h3, rfl⟩ := key _ _ _ _ hr hr' h2
  obtain ⟨rfl, rfl⟩ := key _ _ _ _ hq hq' h3
  exact ⟨rfl, rfl, rfl, rfl⟩

theorem apply_not_mem (l : List (ℕ × ℝ)) (m : ℕ → ℝ) (i : ℕ) (h : ∀ w ∈ l, w.1 ≠ i) : apply l m i = m i := by
  unfold apply
  induction l generalizing m with
  | nil => rfl
  | cons a l ih =>
    rw [List.foldl_cons, ih _ fun w hw => h w (by simp [hw]), Function.update_of_ne (h a (by simp)).symm]

theorem apply_mem (l : List (ℕ × ℝ)) (m : ℕ → ℝ) (w : ℕ × ℝ) (hw : w ∈ l) (h : ∀ v ∈ l, v.1 = w.1 → v.2 = w.2) :
    apply l m w.1 = w.2 := by
  induction l generalizing m with
  | nil => simp at hw
  | cons a l ih =>
    by_cases hl : ∃ v ∈ l, v.1 = w.1
    · obtain ⟨v, hv, e⟩ := hl
      have h2 := h v (by simp [hv]) e
      have : v = w := Prod.ext e h2
      exact ih _ (this ▸ hv) fun v hv => h v (by simp [hv])
    · push Not at hl
      have : apply (a :: l) m w.1 = apply l (Function.update m a.1 a.2) w.1 := rfl
      rw [this, apply_not_mem _ _ _ hl]
      rcases List.mem_cons.1 hw with rfl | hw
      · rw [Function.update_self]
      · exact absurd rfl (hl w hw)

/-- **C169**: `test_gaussian` gives the factor of each four displacements at its place in row-major order inside of the
vector, whatever the order in which the threads write. -/
theorem table_spec (N : ℕ) (freq : ℝ) (eta : ℕ → ℝ) (l : List (ℕ × ℝ)) (hl : l.Perm (writes N freq eta)) (m : ℕ → ℝ)
    (p q r s : ℕ) (hp : p < N) (hq : q < N) (hr : r < N) (hs : s < N) :
    ((p * N + q) * N + r) * N + s < N ^ 4 ∧
      apply l m (((p * N + q) * N + r) * N + s) = gaussianFactor freq (eta p) (eta q) (eta r) (eta s) := by
  have hc : ((p * N + q) * N + r) * N + s = count N p q r s := by unfold count; ring
  constructor
  · have h1 : p * N + q + 1 ≤ N * N := by nlinarith
    have h2 : (p * N + q) * N + r + 1 ≤ N * N * N := by nlinarith
    have h3 : ((p * N + q) * N + r) * N + s + 1 ≤ N * N * N * N := by nlinarith
    calc _ < N * N * N * N := by omega
      _ = N ^ 4 := by ring
  · have mem : ∀ w, w ∈ writes N freq eta ↔ ∃ p < N, ∃ q < N, ∃ r < N, ∃ s < N,
        (count N p q r s, gaussianFactor freq (eta p) (eta q) (eta r) (eta s)) = w := by
      intro w
      simp [writes]
    rw [hc]
    refine apply_mem l m (count N p q r s, gaussianFactor freq (eta p) (eta q) (eta r) (eta s)) (hl.mem_iff.2 ?_) ?_
    · exact (mem _).2 ⟨p, hp, q, hq, r, hr, s, hs, rfl⟩
    · intro v hv e
      obtain ⟨p', hp', q', hq', r', hr', s', hs', rfl⟩ := (mem v).1 (hl.mem_iff.1 hv)
      obtain ⟨rfl, rfl, rfl, rfl⟩ := count_inj N hq' hr' hs' hq hr hs e
      rfl

/-- **C169**: the Fock matrix of `update_fock` is zero whatever the wave function: the vectors filled by the Python functions are copies. -/
theorem update_fails (n_mo : ℕ) (mean : ℝ) (eri : ℕ → ℕ → ℕ → ℕ → ℝ) (p q : ℕ) : fock n_mo afterCalls mean eri p q = 0 := by
  unfold fock fockOne fockTerm afterCalls
  by_cases h : p ≤ q
  · rw [if_pos h]; simp
  · rw [if_neg h]; simp

/-- **C169**: with filled vectors, a symmetric density and integrals of real orbitals, the matrix is symmetric and all its entries are those
of the mean field, with the orbital numbers as displacements and the frequency one. -/
theorem fock_partial (n_mo : ℕ) (v : Vectors) (mean : ℝ) (eri : ℕ → ℕ → ℕ → ℕ → ℝ) (hD : ∀ r s, v.density r s = v.density s r)
    (h1 : ∀ p q r s, eri p q r s = eri q p r s) (h2 : ∀ p q r s, eri p q r s = eri r s p q) (p q : ℕ) :
    fock n_mo v mean eri p q = fock n_mo v mean eri q p ∧
      fock n_mo v mean eri p q = (if p = q then 2 * v.g p * mean else 0) - v.g p * v.g q * v.density p q +
        ∑ r ∈ Finset.range n_mo, ∑ s ∈ Finset.range n_mo, (eri p q r s - eri p s r q / 2) * v.density r s *
          Real.exp (-(((p : ℝ) - q + ((r : ℝ) - s)) ^ 2 / 2)) := by
  have g : ∀ p q r s : ℕ, gaussianFactor 1 p q r s = Real.exp (-(((p : ℝ) - q + ((r : ℝ) - s)) ^ 2 / 2)) := by
    intro p q r s
    have hr : ((r : ℕ) : ℝ) ≠ -1 := by have : (0 : ℝ) ≤ r := Nat.cast_nonneg r; linarith
    have hs : ((s : ℕ) : ℝ) ≠ -1 := by have : (0 : ℝ) ≤ s := Nat.cast_nonneg s; linarith
    rw [(gaussian_partial 1 p q r s one_ne_zero hr hs).1]
    congr 2
    ring
  have sym : ∀ p q r s, eri q p s r = eri p q r s := fun p q r s => by rw [h1 q p, h2 p q, h1 s r, h2 r s]
  have ex : ∀ p q r s, eri q r s p = eri p s r q := fun p q r s => by rw [h2 q r s p, h1 s p, h2 p s, h1 q r, h2 r q]
  have two : ∀ p q, ∑ r ∈ Finset.range n_mo, ∑ s ∈ Finset.range n_mo, fockTerm v eri q p r s
      = ∑ r ∈ Finset.range n_mo, ∑ s ∈ Finset.range n_mo, fockTerm v eri p q r s := by
    intro p q
    rw [Finset.sum_comm]
    refine Finset.sum_congr rfl fun r _ => Finset.sum_congr rfl fun s _ => ?_
    unfold fockTerm
    rw [sym p q r s, ex p q r s, hD s r, g, g,
      show -(((q : ℝ) - p + ((s : ℝ) - r)) ^ 2 / 2) = -(((p : ℝ) - q + ((r : ℝ) - s)) ^ 2 / 2) by ring]
  have one : ∀ p q, p ≤ q → fockOne v mean p q = (if p = q then 2 * v.g p * mean else 0) - v.g p * v.g q * v.density p q := by
    intro p q hpq
    unfold fockOne
    by_cases h : p = q
    · subst h
      rw [if_pos rfl, if_pos rfl, div_one]
    · rw [if_neg h, if_neg h, if_pos (by omega), hD q p, div_one]
  have full : ∀ p q, p ≤ q → fock n_mo v mean eri p q = (if p = q then 2 * v.g p * mean else 0) - v.g p * v.g q * v.density p q +
        ∑ r ∈ Finset.range n_mo, ∑ s ∈ Finset.range n_mo, (eri p q r s - eri p s r q / 2) * v.density r s *
          Real.exp (-(((p : ℝ) - q + ((r : ℝ) - s)) ^ 2 / 2)) := by
    intro p q hpq
    unfold fock
    rw [if_pos hpq, one p q hpq]
    congr 1
    refine Finset.sum_congr rfl fun r _ => Finset.sum_congr rfl fun s _ => ?_
    unfold fockTerm
    rw [g]
    ring
  have symF : ∀ p q, p ≤ q → fock n_mo v mean eri q p = fock n_mo v mean eri p q := by
    intro p q hpq
    by_cases h : p = q
    · rw [h]
    · unfold fock
      rw [if_pos hpq, if_neg (by omega)]
  rcases le_total p q with h | h
  · exact ⟨(symF p q h).symm, full p q h⟩
  · refine ⟨symF q p h, ?_⟩
    rw [symF q p h, full q p h]
    congr 1
    · by_cases e : p = q
      · subst e; rfl
      · rw [if_neg e, if_neg (Ne.symm e), hD q p]; ring
    · have := two q p
      have cvt : ∀ p q, ∑ r ∈ Finset.range n_mo, ∑ s ∈ Finset.range n_mo, (eri p q r s - eri p s r q / 2) * v.density r s *
          Real.exp (-(((p : ℝ) - q + ((r : ℝ) - s)) ^ 2 / 2))
          = ∑ r ∈ Finset.range n_mo, ∑ s ∈ Finset.range n_mo, fockTerm v eri p q r s := by
        intro p q
        refine Finset.sum_congr rfl fun r _ => Finset.sum_congr rfl fun s _ => ?_
        unfold fockTerm
        rw [g]
        ring
      rw [cvt, cvt, this]

/-- **C169**: the Gaussian factors of the two-electron part come from the numbers of the orbitals: with symmetric integrals and a
symmetric density, entries differ from those of equal displacements. -/
theorem label_fails : ∃ (v : Vectors) (eri : ℕ → ℕ → ℕ → ℕ → ℝ), (∀ r s, v.density r s = v.density s r) ∧
    (∀ p q r s, eri p q r s = eri q p r s) ∧ (∀ p q r s, eri p q r s = eri r s p q) ∧
    fock 2 v 0 eri 0 1 ≠ ∑ r ∈ Finset.range 2, ∑ s ∈ Finset.range 2, (eri 0 1 r s - eri 0 s r 1 / 2) * v.density r s := by
  refine ⟨⟨fun _ => 0, fun r s => if r = 0 ∧ s = 0 then 1 else 0⟩, fun _ _ _ _ => 1, fun r s => by simp only [and_comm],
    fun _ _ _ _ => rfl, fun _ _ _ _ => rfl, ?_⟩
  have e := (gaussian_partial 1 ((0 : ℕ) : ℝ) ((1 : ℕ) : ℝ) ((0 : ℕ) : ℝ) ((0 : ℕ) : ℝ) one_ne_zero (by norm_num) (by norm_num)).2.2.2.1
  have hne : gaussianFactor 1 ((0 : ℕ) : ℝ) ((1 : ℕ) : ℝ) ((0 : ℕ) : ℝ) ((0 : ℕ) : ℝ) ≠ 1 := fun h => by
    have := e.1 h
    norm_num at this
  have l : fock 2 ⟨fun _ => 0, fun r s => if r = 0 ∧ s = 0 then 1 else 0⟩ 0 (fun _ _ _ _ => 1) 0 1
      = gaussianFactor 1 ((0 : ℕ) : ℝ) ((1 : ℕ) : ℝ) ((0 : ℕ) : ℝ) ((0 : ℕ) : ℝ) / 2 := by
    unfold fock fockOne fockTerm
    simp [Finset.sum_range_succ]
    norm_num
  rw [l]
  intro h
  apply hne
  simp [Finset.sum_range_succ] at h
  norm_num at h ⊢
  linarith

example : gaussianFactor 1 1 0 0 1 = 1 := ((gaussian_partial 1 1 0 0 1 one_ne_zero (by norm_num) (by norm_num)).2.2.2.1).2 (by norm_num)

end OpenMS.QedLib
