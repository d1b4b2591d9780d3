import Verif.Props.Displacement
import Mathlib.Data.Nat.Choose.Sum

/-!
# C79: the displacement operator in the number basis
-/

namespace OpenMS.Boson

/-! ### Specification: the displacement operator -/

/-- `⟨m| (b†)^k |n⟩`, from `b† |m⟩ = √(m+1) |m+1⟩`. -/
noncomputable def crePow : ℕ → ℕ → ℕ → ℝ
  | 0, m, n => if m = n then 1 else 0
  | _ + 1, 0, _ => 0
  | k + 1, m + 1, n => Real.sqrt (m + 1 : ℕ) * crePow k m n

/-- `⟨m| exp(z b†) |n⟩`; only powers up to `m` contribute. -/
noncomputable def expCre (z : ℝ) (m n : ℕ) : ℝ :=
  ∑ k ∈ Finset.range (m + 1), z ^ k / k.factorial * crePow k m n

/-- `⟨m| D(z) |n⟩` for real `z`, with `D(z) = exp(z b† - z b) = e^{-z²/2} exp(z b†) exp(-z b)`;
`exp(-z b)` is the transpose of `exp(-z b†)`. -/
noncomputable def dOp (z : ℝ) (m n : ℕ) : ℝ :=
  Real.exp (-(1 / 2) * z ^ 2) * ∑ l ∈ Finset.range (m + 1), expCre z m l * expCre (-z) n l

/-! ### Matrix elements -/

theorem crePow_eq (k m n : ℕ) :
    crePow k m n = if m = n + k then Real.sqrt ((m.factorial : ℝ) / n.factorial) else 0 := by
  induction k generalizing m with
  | zero =>
    have : (n.factorial : ℝ) ≠ 0 := by positivity
    unfold crePow
    split_ifs with h1 h2 h2
    · subst h1; simp [div_self this]
    · omega
    · omega
    · rfl
  | succ k ih =>
    rcases m with _ | m
    · simp [crePow]
    · simp only [crePow]
      rw [ih]
      by_cases h : m = n + k
      · rw [if_pos h, if_pos (by omega), ← Real.sqrt_mul (by positivity), Nat.factorial_succ]
        push_cast
        congr 1
        ring
      · rw [if_neg h, if_neg (by omega), mul_zero]

theorem expCre_eq (z : ℝ) (m n : ℕ) : expCre z m n =
    if n ≤ m then z ^ (m - n) / (m - n).factorial * Real.sqrt ((m.factorial : ℝ) / n.factorial) else 0 := by
  unfold expCre
  simp only [crePow_eq]
  split_ifs with h
  · rw [Finset.sum_eq_single (m - n)]
    · rw [if_pos (by omega)]
    · intro k _ hk
      rw [if_neg (by omega), mul_zero]
    · intro hn
      exact absurd (Finset.mem_range.2 (by omega)) hn
  · apply Finset.sum_eq_zero
    intro k _
    rw [if_neg (by omega), mul_zero]

/-- Matrix elements on and below the diagonal. -/
theorem dOp_lower (z : ℝ) (m n : ℕ) (h : n ≤ m) :
    dOp z m n = Real.exp (-(1 / 2) * z ^ 2) * (Real.sqrt ((n.factorial : ℝ) / m.factorial) *
      z ^ (m - n) * laguerre n (m - n) (z ^ 2)) := by
  unfold dOp
  congr 1
  have hsub : Finset.range (n + 1) ⊆ Finset.range (m + 1) := by
    intro i hi; rw [Finset.mem_range] at *; omega
  rw [← Finset.sum_subset hsub]
  · rw [laguerre, Finset.mul_sum, ← Finset.sum_range_reflect]
    apply Finset.sum_congr rfl
    intro k hk
    rw [Finset.mem_range] at hk
    have hk' : n + 1 - 1 - k = n - k := by omega
    rw [hk', expCre_eq, expCre_eq, if_pos (by omega), if_pos (by omega),
      show n - (n - k) = k by omega, show m - (n - k) = m - n + k by omega,
      show n + (m - n) = m by omega]
    have hm0 : (0 : ℝ) < m.factorial := by positivity
    have hn0 : (0 : ℝ) < n.factorial := by positivity
    have hl0 : (0 : ℝ) < (n - k).factorial := by positivity
    have hchoose : (m.choose (n - k) : ℝ) = m.factorial / ((n - k).factorial * (m - n + k).factorial) := by
      have := Nat.choose_mul_factorial_mul_factorial (n := m) (k := n - k) (by omega)
      rw [show m - (n - k) = m - n + k by omega] at this
      rw [eq_div_iff (by positivity)]
      have h' : ((m.choose (n - k) * (n - k).factorial * (m - n + k).factorial : ℕ) : ℝ) = m.factorial := by
        exact_mod_cast this
      push_cast at h'
      linarith
    have hsq : Real.sqrt ((m.factorial : ℝ) / (n - k).factorial) *
        Real.sqrt ((n.factorial : ℝ) / (n - k).factorial) =
        Real.sqrt ((n.factorial : ℝ) / m.factorial) * (m.factorial / (n - k).factorial) := by
      rw [Real.sqrt_div hm0.le, Real.sqrt_div hn0.le, Real.sqrt_div hn0.le]
      have h1 := Real.mul_self_sqrt hm0.le
      have h2 := Real.mul_self_sqrt hl0.le
      have h3 : Real.sqrt (m.factorial : ℝ) ≠ 0 := (Real.sqrt_pos.2 hm0).ne'
      have h4 : Real.sqrt ((n - k).factorial : ℝ) ≠ 0 := (Real.sqrt_pos.2 hl0).ne'
      rw [div_mul_div_comm, div_mul_div_comm, h2, div_eq_div_iff (by positivity) (by positivity)]
      calc _ = (Real.sqrt m.factorial * Real.sqrt m.factorial) * Real.sqrt n.factorial * (n - k).factorial := by ring
        _ = _ := by rw [h1]; ring
    calc z ^ (m - n + k) / ↑(m - n + k).factorial * Real.sqrt (↑m.factorial / ↑(n - k).factorial) *
          ((-z) ^ k / ↑k.factorial * Real.sqrt (↑n.factorial / ↑(n - k).factorial))
        = (Real.sqrt ((m.factorial : ℝ) / (n - k).factorial) *
          Real.sqrt ((n.factorial : ℝ) / (n - k).factorial)) *
          (z ^ (m - n + k) / (m - n + k).factorial * ((-z) ^ k / k.factorial)) := by ring
      _ = _ := by
        rw [hsq, hchoose, pow_add, ← pow_mul, mul_comm 2 k, pow_mul, neg_pow z k]
        field_simp
  · intro l _ hl
    rw [Finset.mem_range] at hl
    rw [expCre_eq (-z), if_neg (by omega), mul_zero]

/-- The operator with opposite displacement is the transpose. -/
theorem dOp_transpose (z : ℝ) (m n : ℕ) : dOp z m n = dOp (-z) n m := by
  unfold dOp
  rw [neg_sq]
  congr 1
  rw [neg_neg]
  rcases Nat.le_total m n with h | h
  · have hsub : Finset.range (m + 1) ⊆ Finset.range (n + 1) := by
      intro i hi; rw [Finset.mem_range] at *; omega
    rw [← Finset.sum_subset hsub]
    · exact Finset.sum_congr rfl fun l _ => mul_comm _ _
    · intro l _ hl
      rw [Finset.mem_range] at hl
      rw [expCre_eq z m l, if_neg (by omega), mul_zero]
  · have hsub : Finset.range (n + 1) ⊆ Finset.range (m + 1) := by
      intro i hi; rw [Finset.mem_range] at *; omega
    rw [← Finset.sum_subset hsub]
    · exact Finset.sum_congr rfl fun l _ => mul_comm _ _
    · intro l _ hl
      rw [Finset.mem_range] at hl
      rw [expCre_eq (-z) n l, if_neg (by omega), mul_zero]

/-- `Σ_{mn} ⟨m| D(-A) |n⟩ ρ_{mn}` over the retained states. -/
noncomputable def trueExpVal (mdim : ℕ) (A : ℝ) (pdm : ℕ → ℕ → ℝ) : ℝ :=
  ∑ m ∈ Finset.range mdim, ∑ n ∈ Finset.range mdim, dOp (-A) m n * pdm m n

theorem sum_square (f : ℕ → ℕ → ℝ) (n : ℕ) :
    ∑ i ∈ Finset.range n, ∑ j ∈ Finset.range n, f i j =
      (∑ i ∈ Finset.range n, ∑ j ∈ Finset.range i, (f i j + f j i)) + ∑ i ∈ Finset.range n, f i i := by
  induction n with
  | zero => simp
  | succ n ih =>
    rw [Finset.sum_range_succ, Finset.sum_range_succ (n := n), Finset.sum_range_succ (n := n)]
    have : ∑ i ∈ Finset.range n, ∑ j ∈ Finset.range (n + 1), f i j =
        (∑ i ∈ Finset.range n, ∑ j ∈ Finset.range n, f i j) + ∑ i ∈ Finset.range n, f i n := by
      rw [← Finset.sum_add_distrib]
      exact Finset.sum_congr rfl fun i _ => Finset.sum_range_succ _ _
    have h2 : ∑ j ∈ Finset.range n, (f n j + f j n) =
        ∑ j ∈ Finset.range n, f n j + ∑ j ∈ Finset.range n, f j n := Finset.sum_add_distrib
    rw [this, ih, h2, Finset.sum_range_succ (fun i => f i i)]
    ring

/-- **C79 (part)**: the code's expectation value is `Σ ⟨m|D|n⟩ ρ_mn` for every symmetric density
matrix without coherences between occupations of different parity; in particular for diagonal
ones. -/
theorem displacement_operator_partial (mdim : ℕ) (A : ℝ) (pdm : ℕ → ℕ → ℝ)
    (hs : ∀ m n, pdm m n = pdm n m) (h : ∀ m n, n < m → m < mdim → Odd (m - n) → pdm m n = 0) :
    displacementExpVal mdim A pdm true = trueExpVal mdim A pdm := by
  unfold displacementExpVal trueExpVal
  rw [trilStrict_sum (fun m n => 2 * pdm m n * Real.sqrt ((n.factorial : ℝ) / m.factorial) *
      (-A) ^ (m - n) * laguerre n (m - n) (A ^ 2)), range_map_sum, sum_square, add_mul,
      Finset.sum_mul, Finset.sum_mul]
  simp only [gfact, if_true]
  congr 1
  · apply Finset.sum_congr rfl
    intro m hm
    rw [Finset.sum_mul]
    apply Finset.sum_congr rfl
    intro n hn
    rw [Finset.mem_range] at hm hn
    by_cases hodd : Odd (m - n)
    · rw [hs n m, h m n hn hm hodd]; ring
    · rw [Nat.not_odd_iff_even] at hodd
      rw [dOp_transpose (-A) n m, neg_neg, hs n m, dOp_lower _ m n hn.le, dOp_lower _ m n hn.le, neg_sq,
        hodd.neg_pow]
      ring
  · apply Finset.sum_congr rfl
    intro m _
    have : (m.factorial : ℝ) ≠ 0 := by positivity
    rw [dOp_lower _ m m le_rfl, Nat.sub_self, div_self this, neg_sq]
    simp
    ring

/-- **C79 fails**: for two boson states with a symmetric density matrix, the matrix elements
`⟨0|D|1⟩` and `⟨1|D|0⟩` cancel, but the code counts the lower one twice. -/
theorem displacement_operator_fails :
    ∃ pdm : ℕ → ℕ → ℝ, (∀ i j, pdm i j = pdm j i) ∧ ∀ A : ℝ, A ≠ 0 →
      trueExpVal 2 A pdm = 0 ∧ displacementExpVal 2 A pdm true ≠ 0 := by
  refine ⟨fun i j => if i = j then 0 else 1, fun i j => by simp [eq_comm], fun A hA => ⟨?_, ?_⟩⟩
  · unfold trueExpVal
    have h1 : dOp (-A) 0 1 = - dOp (-A) 1 0 := by
      rw [dOp_transpose (-A) 0 1, dOp_lower _ 1 0 (by norm_num), dOp_lower _ 1 0 (by norm_num)]
      simp
    simp [Finset.sum_range_succ, h1]
  · have := Real.exp_pos (-(1 / 2) * A ^ 2)
    norm_num [displacementExpVal, trilStrict, gfact, List.range_succ, laguerre]
    exact hA

end OpenMS.Boson
