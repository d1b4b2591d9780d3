import Verif.Model.Displacement
import Verif.Props.Packing
import Mathlib.Analysis.Calculus.Deriv.Pow
import Mathlib.Analysis.Calculus.Deriv.Add
import Mathlib.Analysis.Calculus.Deriv.Mul
import Mathlib.Analysis.SpecialFunctions.ExpDeriv
import Mathlib.Tactic.Linarith
import Mathlib.Tactic.FieldSimp

/-!
# C32, C33, C79: expectation values of the displacement operator and their derivatives
-/

namespace OpenMS.Boson

/-! ### Sums over index pairs -/

theorem trilStrict_sum (f : ℕ → ℕ → ℝ) (n : ℕ) :
    ((trilStrict n).map fun p => f p.1 p.2).sum =
      ∑ i ∈ Finset.range n, ∑ j ∈ Finset.range i, f i j := by
  have hrow : ∀ (m : ℕ) (g : ℕ → ℝ), ((List.range m).map g).sum = ∑ j ∈ Finset.range m, g j := by
    intro m g
    induction m with
    | zero => simp
    | succ m ih => rw [List.range_succ, List.map_append, List.sum_append, ih, Finset.sum_range_succ]; simp
  unfold trilStrict
  rw [List.map_flatMap]
  simp only [List.map_map]
  rw [← hrow n]
  induction n with
  | zero => simp
  | succ n ih =>
    rw [List.range_succ, List.flatMap_append, List.sum_append, ih, List.map_append, List.sum_append]
    simp [hrow, Function.comp_def]

theorem range_map_sum (m : ℕ) (g : ℕ → ℝ) : ((List.range m).map g).sum = ∑ j ∈ Finset.range m, g j := by
  induction m with
  | zero => simp
  | succ m ih => rw [List.range_succ, List.map_append, List.sum_append, ih, Finset.sum_range_succ]; simp

/-- A list filled at the packed positions is the packed list. -/
theorem fill_packed (v : ℕ → ℕ → ℝ) (n : ℕ) :
    (tril n).foldl (fun l p => l.set (packedIndex p.1 p.2) (v p.1 p.2))
      (List.replicate (n * (n + 1) / 2) 0) = packSymmetric v n := by
  -- entries of the filled list
  have hfill : ∀ (ps : List (ℕ × ℕ)) (l : List ℝ),
      (ps.foldl (fun l p => l.set (packedIndex p.1 p.2) (v p.1 p.2)) l).length = l.length := by
    intro ps
    induction ps with
    | nil => intro l; rfl
    | cons p ps ih => intro l; rw [List.foldl_cons, ih, List.length_set]
  have hval : ∀ (ps : List (ℕ × ℕ)), (∀ p ∈ ps, p.2 ≤ p.1) → ∀ (l : List ℝ) (i j : ℕ), j ≤ i →
      packedIndex i j < l.length → ((i, j) ∈ ps ∨ l[packedIndex i j]? = some (v i j)) →
      (ps.foldl (fun l p => l.set (packedIndex p.1 p.2) (v p.1 p.2)) l)[packedIndex i j]? =
        some (v i j) := by
    intro ps
    induction ps with
    | nil =>
      intro _ l i j _ _ h
      simpa using h
    | cons p ps ih =>
      intro hps l i j hj hlt h
      rw [List.foldl_cons]
      apply ih (fun q hq => hps q (List.mem_cons_of_mem _ hq)) _ i j hj (by simpa using hlt)
      by_cases hp : packedIndex p.1 p.2 = packedIndex i j
      · right
        obtain ⟨h1, h2⟩ := (packed_index_bijection 0).2.2.1 p.1 p.2 i j (hps p List.mem_cons_self) hj hp
        rw [hp, List.getElem?_set_self hlt, h1, h2]
      · rcases h with h | h
        · rcases List.mem_cons.1 h with h | h
          · subst h; exact absurd rfl hp
          · exact Or.inl h
        · right
          rw [List.getElem?_set_ne hp]; exact h
  have hmem : ∀ p : ℕ × ℕ, p ∈ tril n ↔ p.2 ≤ p.1 ∧ p.1 < n := by
    rintro ⟨a, b⟩
    simp only [tril, List.mem_flatMap, List.mem_range, List.mem_map, Prod.mk.injEq]
    constructor
    · rintro ⟨m, hm, k, hk, rfl, rfl⟩; exact ⟨by omega, hm⟩
    · rintro ⟨h1, h2⟩; exact ⟨a, h2, b, by omega, rfl, rfl⟩
  have hl := (pack_entries v n).1
  apply List.ext_getElem?
  intro m
  by_cases hm : m < n * (n + 1) / 2
  · obtain ⟨i, j, hj, hi, rfl⟩ := (packed_index_bijection n).2.2.2 m hm
    rw [(pack_entries v n).2 i j hj hi]
    exact hval _ (fun p hp => ((hmem p).1 hp).1) _ i j hj (by simpa using hm)
      (Or.inl ((hmem _).2 ⟨hj, hi⟩))
  · rw [List.getElem?_eq_none (by rw [hfill]; simpa using hm), List.getElem?_eq_none (by omega)]

theorem packed_sum (M v : ℕ → ℕ → ℝ) (n : ℕ) :
    ((packSymmetric M n).zipWith (· * ·) (packSymmetric v n)).sum =
      (∑ i ∈ Finset.range n, ∑ j ∈ Finset.range i, M i j * v i j) +
        ∑ i ∈ Finset.range n, M i i * v i i := by
  induction n with
  | zero => simp [packSymmetric]
  | succ n ih =>
    rw [packSymmetric_succ, packSymmetric_succ, List.zipWith_append
      (by rw [(pack_entries _ n).1, (pack_entries _ n).1]), List.sum_append, ih,
      List.zipWith_map, List.zipWith_self, range_map_sum, Finset.sum_range_succ,
      Finset.sum_range_succ (n := n), Finset.sum_range_succ (n := n)]
    ring

/-- **C32**: the expectation value from the packed displacement matrix equals the direct double
sum, for every number of states, amplitude and density matrix (only its lower triangle is
used by either). -/
theorem packed_eq_direct (mdim : ℕ) (A : ℝ) (pdm : ℕ → ℕ → ℝ) (scale : Bool) :
    displacementMatrix mdim A pdm scale = displacementExpVal mdim A pdm scale := by
  unfold displacementMatrix displacementExpVal dispMat
  rw [fill_packed, List.zipWith_map_right]
  have : (fun a b => a * (b * gfact scale A) : ℝ → ℝ → ℝ) = fun a b => (a * b) * gfact scale A := by
    funext a b; ring
  rw [this, ← List.map_zipWith (f := (· * gfact scale A)), List.sum_map_mul_right, List.map_id'']
  · rw [packed_sum, trilStrict_sum (fun m n => 2 * pdm m n * Real.sqrt ((n.factorial : ℝ) / m.factorial) *
      (-A) ^ (m - n) * laguerre n (m - n) (A ^ 2)), range_map_sum]
    congr 2
    · apply Finset.sum_congr rfl
      intro i _
      apply Finset.sum_congr rfl
      intro j hj
      rw [Finset.mem_range] at hj
      rw [dispVal, if_neg (by omega)]
      ring
    · apply Finset.sum_congr rfl
      intro i _
      rw [dispVal, if_pos rfl]
  · intro x; rfl

/-- Two states: `L₀ = 1`, `L₁(x) = 1 - x`, off-diagonal `-2 A`. -/
example : displacementExpVal 2 3 (fun i j => if i = j then 1 / 2 else 1 / 4) false =
    1 / 2 + 1 / 2 * (1 - 9) + 2 * (1 / 4) * (-3) := by
  norm_num [displacementExpVal, trilStrict, gfact, laguerre, List.range_succ, Finset.sum_range_succ]

/-! ### Derivatives -/

/-- Derivative of a generalised Laguerre polynomial. -/
theorem laguerre_deriv (n α : ℕ) (x : ℝ) :
    HasDerivAt (laguerre n α) (if n > 0 then -laguerre (n - 1) (α + 1) x else 0) x := by
  have h : HasDerivAt (laguerre n α) (∑ k ∈ Finset.range (n + 1),
      (-1) ^ k * ((n + α).choose (n - k) : ℝ) / (k.factorial : ℝ) * (k * x ^ (k - 1))) x := by
    unfold laguerre
    exact HasDerivAt.fun_sum fun k _ => (hasDerivAt_pow k x).const_mul _
  refine h.congr_deriv ?_
  rcases n with _ | n
  · simp
  · rw [if_pos (by omega), Finset.sum_range_succ']
    simp only [laguerre, Nat.cast_zero, zero_mul, mul_zero, add_zero]
    rw [← Finset.sum_neg_distrib]
    simp only [Nat.add_sub_cancel]
    apply Finset.sum_congr rfl
    intro k _
    have hk : ((k + 1 : ℕ) : ℝ) ≠ 0 := by positivity
    rw [show n + (α + 1) = n + 1 + α by ring, show n + 1 - (k + 1) = n - k by omega,
      Nat.factorial_succ]
    push_cast at hk ⊢
    have : (k.factorial : ℝ) ≠ 0 := by positivity
    field_simp
    ring

/-- The term of a pair below the diagonal and its derivative in the amplitude. -/
theorem pair_deriv (d n : ℕ) (A : ℝ) :
    HasDerivAt (fun A => (-A) ^ d * laguerre n d (A ^ 2))
      (-(d : ℝ) * (-A) ^ (d - 1) * laguerre n d (A ^ 2) -
        (if n > 0 then (-A) ^ d * (2 * A) * laguerre (n - 1) (d + 1) (A ^ 2) else 0)) A := by
  have h1 : HasDerivAt (fun A : ℝ => (-A) ^ d) (-(d : ℝ) * (-A) ^ (d - 1)) A := by
    refine (((hasDerivAt_id A).neg).pow d).congr_deriv ?_
    simp
  have h2 : HasDerivAt (fun A : ℝ => laguerre n d (A ^ 2))
      ((if n > 0 then -laguerre (n - 1) (d + 1) (A ^ 2) else 0) * (2 * A)) A := by
    refine ((laguerre_deriv n d (A ^ 2)).comp A (hasDerivAt_pow 2 A)).congr_deriv ?_
    simp
  refine (h1.mul h2).congr_deriv ?_
  split_ifs <;> ring

/-- What the derivative kernel leaves out: the derivative of `(-A)¹` for neighbouring
occupations. -/
noncomputable def missing (mdim : ℕ) (A : ℝ) (pdm : ℕ → ℕ → ℝ) : ℝ :=
  (∑ n ∈ Finset.range (mdim - 1),
    2 * pdm (n + 1) n * Real.sqrt (1 / (n + 1)) * laguerre n 1 (A ^ 2)) * Real.exp (-(1 / 2) * A ^ 2)

/-- **C33, exact relation**: the derivative of the expectation value is the returned kernel
minus the left-out terms of neighbouring occupations. -/
theorem displacement_derivative (mdim : ℕ) (A : ℝ) (pdm : ℕ → ℕ → ℝ) :
    HasDerivAt (fun A => displacementExpVal mdim A pdm true)
      (displacementDeriv mdim A pdm - missing mdim A pdm) A := by
  have hexp : HasDerivAt (fun A : ℝ => Real.exp (-(1 / 2) * A ^ 2))
      (-A * Real.exp (-(1 / 2) * A ^ 2)) A := by
    refine ((hasDerivAt_pow 2 A).const_mul (-(1 / 2) : ℝ)).exp.congr_deriv ?_
    push_cast
    ring
  -- coefficient of a pair
  set c : ℕ → ℕ → ℝ := fun m n => 2 * pdm m n * Real.sqrt ((n.factorial : ℝ) / m.factorial) with hc
  have hS : HasDerivAt (fun A => (∑ m ∈ Finset.range mdim, ∑ n ∈ Finset.range m,
        c m n * ((-A) ^ (m - n) * laguerre n (m - n) (A ^ 2))) +
        ∑ m ∈ Finset.range mdim, pdm m m * laguerre m 0 (A ^ 2))
      ((∑ m ∈ Finset.range mdim, ∑ n ∈ Finset.range m,
        c m n * (-((m - n : ℕ) : ℝ) * (-A) ^ (m - n - 1) * laguerre n (m - n) (A ^ 2) -
        (if n > 0 then (-A) ^ (m - n) * (2 * A) * laguerre (n - 1) (m - n + 1) (A ^ 2) else 0))) +
        ∑ m ∈ Finset.range mdim, pdm m m *
          ((if m > 0 then -laguerre (m - 1) (0 + 1) (A ^ 2) else 0) * (2 * A))) A := by
    apply HasDerivAt.add
    · apply HasDerivAt.fun_sum
      intro m _
      apply HasDerivAt.fun_sum
      intro n _
      exact (pair_deriv (m - n) n A).const_mul _
    · apply HasDerivAt.fun_sum
      intro m _
      refine (((laguerre_deriv m 0 (A ^ 2)).comp A (hasDerivAt_pow 2 A)).const_mul
        (pdm m m)).congr_deriv ?_
      simp
  have hfun : (fun A => displacementExpVal mdim A pdm true) = fun A =>
      ((∑ m ∈ Finset.range mdim, ∑ n ∈ Finset.range m,
        c m n * ((-A) ^ (m - n) * laguerre n (m - n) (A ^ 2))) +
        ∑ m ∈ Finset.range mdim, pdm m m * laguerre m 0 (A ^ 2)) * Real.exp (-(1 / 2) * A ^ 2) := by
    funext A
    unfold displacementExpVal
    rw [trilStrict_sum (fun m n => 2 * pdm m n * Real.sqrt ((n.factorial : ℝ) / m.factorial) *
      (-A) ^ (m - n) * laguerre n (m - n) (A ^ 2)), range_map_sum]
    simp only [gfact, if_true, hc, mul_assoc]
  rw [hfun]
  refine (hS.mul hexp).congr_deriv ?_
  unfold displacementDeriv missing
  rw [trilStrict_sum (fun m n => derivPair A pdm m n), range_map_sum]
  -- the kernel, pair by pair
  have hpair : ∀ m n, n < m → derivPair A pdm m n =
      c m n * (-((m - n : ℕ) : ℝ) * (-A) ^ (m - n - 1) * laguerre n (m - n) (A ^ 2) -
        (if n > 0 then (-A) ^ (m - n) * (2 * A) * laguerre (n - 1) (m - n + 1) (A ^ 2) else 0)) +
      c m n * ((-A) ^ (m - n) * laguerre n (m - n) (A ^ 2)) * (-A) +
      (if m = n + 1 then c m n * laguerre n 1 (A ^ 2) else 0) := by
    intro m n hmn
    by_cases h1 : m = n + 1
    · subst h1
      simp only [derivPair, hc, show n + 1 - n = 1 by omega]
      simp only [gt_iff_lt, lt_self_iff_false, if_false, if_true]
      split_ifs <;> simp <;> ring
    · have h2 : m - n > 1 := by omega
      simp only [derivPair, hc, if_pos h2, if_neg h1]
      split_ifs <;> ring
  have hsum1 : (∑ m ∈ Finset.range mdim, ∑ n ∈ Finset.range m, derivPair A pdm m n) =
      (∑ m ∈ Finset.range mdim, ∑ n ∈ Finset.range m,
        c m n * (-((m - n : ℕ) : ℝ) * (-A) ^ (m - n - 1) * laguerre n (m - n) (A ^ 2) -
        (if n > 0 then (-A) ^ (m - n) * (2 * A) * laguerre (n - 1) (m - n + 1) (A ^ 2) else 0))) +
      (∑ m ∈ Finset.range mdim, ∑ n ∈ Finset.range m,
        c m n * ((-A) ^ (m - n) * laguerre n (m - n) (A ^ 2))) * (-A) +
      ∑ m ∈ Finset.range mdim, ∑ n ∈ Finset.range m,
        (if m = n + 1 then c m n * laguerre n 1 (A ^ 2) else 0) := by
    rw [Finset.sum_mul, ← Finset.sum_add_distrib, ← Finset.sum_add_distrib]
    apply Finset.sum_congr rfl
    intro m _
    rw [Finset.sum_mul, ← Finset.sum_add_distrib, ← Finset.sum_add_distrib]
    apply Finset.sum_congr rfl
    intro n hn
    exact hpair m n (Finset.mem_range.1 hn)
  have hmiss : (∑ m ∈ Finset.range mdim, ∑ n ∈ Finset.range m,
        (if m = n + 1 then c m n * laguerre n 1 (A ^ 2) else 0)) =
      ∑ n ∈ Finset.range (mdim - 1),
        2 * pdm (n + 1) n * Real.sqrt (1 / (n + 1)) * laguerre n 1 (A ^ 2) := by
    rcases mdim with _ | k
    · simp
    · rw [Finset.sum_range_succ']
      simp only [Finset.range_zero, Finset.sum_empty, add_zero, Nat.add_sub_cancel]
      apply Finset.sum_congr rfl
      intro m _
      rw [Finset.sum_range_succ, Finset.sum_eq_zero, zero_add, if_pos rfl]
      · simp only [hc]
        congr 3
        rw [Nat.factorial_succ]
        have : (m.factorial : ℝ) ≠ 0 := by positivity
        push_cast
        field_simp
      · intro n hn
        rw [Finset.mem_range] at hn
        rw [if_neg (by omega)]
  have hdiag : (∑ m ∈ Finset.range mdim, derivDiag A pdm m) =
      (∑ m ∈ Finset.range mdim, pdm m m *
          ((if m > 0 then -laguerre (m - 1) (0 + 1) (A ^ 2) else 0) * (2 * A))) +
      (∑ m ∈ Finset.range mdim, pdm m m * laguerre m 0 (A ^ 2)) * (-A) := by
    rw [Finset.sum_mul, ← Finset.sum_add_distrib]
    apply Finset.sum_congr rfl
    intro m _
    simp only [derivDiag]
    split_ifs <;> ring
  rw [hsum1, hmiss, hdiag]
  ring

/-- **C33 (part)**: the returned function is the derivative if the density matrix has no
elements between neighbouring occupations (for example a diagonal one). -/
theorem displacement_deriv_partial (mdim : ℕ) (A : ℝ) (pdm : ℕ → ℕ → ℝ)
    (h : ∀ n, n + 1 < mdim → pdm (n + 1) n = 0) :
    HasDerivAt (fun A => displacementExpVal mdim A pdm true) (displacementDeriv mdim A pdm) A := by
  have := displacement_derivative mdim A pdm
  have h0 : missing mdim A pdm = 0 := by
    unfold missing
    rw [Finset.sum_eq_zero, zero_mul]
    intro n hn
    rw [Finset.mem_range] at hn
    rw [h n (by omega)]; ring
  rwa [h0, sub_zero] at this

example : ∀ n, n + 1 < 3 → (fun i j : ℕ => if i = j then (1 / 3 : ℝ) else 0) (n + 1) n = 0 := by
  intro n _; simp

/-- **C33 fails**: for two boson states and a density matrix with coherence, the returned
function is not the derivative, already at amplitude zero (0 instead of −2). -/
theorem displacement_deriv_fails :
    ∃ pdm : ℕ → ℕ → ℝ, (∀ i j, pdm i j = pdm j i) ∧ displacementDeriv 2 0 pdm = 0 ∧
      HasDerivAt (fun A => displacementExpVal 2 A pdm true) (-2) 0 := by
  refine ⟨fun _ _ => 1, fun _ _ => rfl, ?_, ?_⟩
  · norm_num [displacementDeriv, trilStrict, derivPair, derivDiag, List.range_succ]
  · have := displacement_derivative 2 0 (fun _ _ => 1)
    refine this.congr_deriv ?_
    norm_num [missing, displacementDeriv, trilStrict, derivPair, derivDiag, List.range_succ, laguerre]

end OpenMS.Boson
