import Verif.Model.Energy
import Mathlib.Tactic.FieldSimp
import Mathlib.Tactic.LinearCombination
import Mathlib.Tactic.NormNum
import Mathlib.Data.Fintype.BigOperators
import Mathlib.Algebra.BigOperators.Pi

/-!
# Approximate exchange schemes (C72, C73)
-/

set_option linter.unusedSectionVars false

namespace OpenMS.Energy

open Matrix OpenMS.Green

variable {p i i' g : Type*} [Fintype p] [Fintype i] [Fintype i'] [Fintype g]

/-! ## C72: mixed sparsity and low rank -/

/-- A plan describes the matrices: the factors of a low-rank entry multiply to the matrix, and
a matrix on the banded route has no entry outside the band. -/
def PlanValid {N : ℕ} (L : Matrix (Fin N) (Fin N) ℂ) (bw : ℕ) : Plan N → Prop
  | .lowrank _ X U => X * Uᵀ = L
  | .banded => ∀ a b : Fin N, bw < Nat.dist a b → L a b = 0

theorem bandedLTG_eq {N M : ℕ} (L : Matrix (Fin N) (Fin N) ℂ) (G : Matrix (Fin N) (Fin M) ℂ)
    (bw : ℕ) (h : ∀ a b : Fin N, bw < Nat.dist a b → L a b = 0) : bandedLTG L G bw = Lᵀ * G := by
  ext q b
  simp only [bandedLTG, Matrix.of_apply, Matrix.mul_apply, Matrix.transpose_apply]
  rw [Finset.sum_filter]
  refine Finset.sum_congr rfl fun a _ => ?_
  split_ifs with hc
  · rfl
  · rw [h a q, zero_mul]
    unfold Nat.dist
    omega

/-- **C72 (partial).** For symmetric matrices and a valid plan the mixed scheme gives the
exchange energy of the reference implementation. -/
theorem exx_mixed_partial {N : ℕ} (Ls : g → Matrix (Fin N) (Fin N) ℂ)
    (G : Matrix (Fin N) (Fin N) ℂ) (plan : g → Plan N) (bw : ℕ)
    (hv : ∀ l, PlanValid (Ls l) bw (plan l))
    (hs : ∀ l, (∃ k X U, plan l = .lowrank k X U) → (Ls l)ᵀ = Ls l) :
    exxMixed Ls G plan bw = exx Ls G := by
  unfold exxMixed exx
  rw [mul_comm]
  congr 1
  refine Finset.sum_congr rfl fun l _ => ?_
  have : planLG (Ls l) G bw (plan l) = (Ls l)ᵀ * G := by
    have hl := hv l
    have hsl := hs l
    cases hp : plan l with
    | lowrank k X U =>
      rw [hp] at hl
      rw [hsl ⟨k, X, U, hp⟩]
      have : X * Uᵀ = Ls l := hl
      rw [planLG, Matrix.transpose_mul, Matrix.transpose_transpose, ← Matrix.mul_assoc, this]
    | banded =>
      rw [hp] at hl
      exact bandedLTG_eq _ _ _ hl
  rw [this]

/-- The half-bandwidth returned by `get_blksize` is large enough: every entry outside the band
is below the threshold. -/
theorem blksize_covers {N : ℕ} (L : List (Matrix (Fin N) (Fin N) ℂ)) (thr : ℝ) (bw : ℕ)
    (h : getBlksize L thr = some bw) (M : Matrix (Fin N) (Fin N) ℂ) (hM : M ∈ L) (a b : Fin N)
    (hab : bw < Nat.dist a b) : ‖M a b‖ < thr := by
  have none_stays : ∀ l : List (Matrix (Fin N) (Fin N) ℂ), l.foldl (fun acc M => acc.bind fun b =>
      open Classical in
      let idx := (Finset.univ : Finset (Fin N × Fin N)).filter (fun x => thr ≤ ‖M x.1 x.2‖)
      if idx.Nonempty then some (max b (idx.sup fun x => Nat.dist x.1 x.2)) else none)
      (none : Option ℕ) = none := by
    intro l
    induction l with
    | nil => rfl
    | cons x l ih => simpa using ih
  have key : ∀ (l : List (Matrix (Fin N) (Fin N) ℂ)) (b0 bw : ℕ),
      l.foldl (fun acc M => acc.bind fun b =>
      open Classical in
      let idx := (Finset.univ : Finset (Fin N × Fin N)).filter (fun x => thr ≤ ‖M x.1 x.2‖)
      if idx.Nonempty then some (max b (idx.sup fun x => Nat.dist x.1 x.2)) else none)
      (some b0 : Option ℕ) = some bw → b0 ≤ bw ∧
        ∀ M ∈ l, ∀ a b : Fin N, thr ≤ ‖M a b‖ → Nat.dist a b ≤ bw := by
    intro l
    induction l with
    | nil =>
      intro b0 bw h
      simp at h
      exact ⟨h.le, by simp⟩
    | cons x l ih =>
      intro b0 bw h
      rw [List.foldl_cons] at h
      simp only [Option.bind_some] at h
      split_ifs at h with hne
      · obtain ⟨h1, h2⟩ := ih _ _ h
        refine ⟨le_trans (le_max_left _ _) h1, ?_⟩
        intro M hM a b hab
        rcases List.mem_cons.1 hM with rfl | hM
        · refine le_trans (le_trans ?_ (le_max_right _ _)) h1
          exact Finset.le_sup (f := fun x : Fin N × Fin N => Nat.dist x.1 x.2) (b := (a, b))
            (by simp [hab])
        · exact h2 M hM a b hab
      · rw [none_stays] at h
        exact absurd h (by simp)
  by_contra hc
  have := (key L 0 bw h).2 M hM a b (not_lt.1 hc)
  omega

/-- The half-bandwidth is not larger than needed: unless it is zero, it is the distance from the
diagonal of an entry that reaches the threshold. -/
theorem blksize_attained {N : ℕ} (L : List (Matrix (Fin N) (Fin N) ℂ)) (thr : ℝ) (bw : ℕ)
    (h : getBlksize L thr = some bw) :
    bw = 0 ∨ ∃ M ∈ L, ∃ a b : Fin N, thr ≤ ‖M a b‖ ∧ Nat.dist a b = bw := by
  have none_stays : ∀ l : List (Matrix (Fin N) (Fin N) ℂ), l.foldl (fun acc M => acc.bind fun b =>
      open Classical in
      let idx := (Finset.univ : Finset (Fin N × Fin N)).filter (fun x => thr ≤ ‖M x.1 x.2‖)
      if idx.Nonempty then some (max b (idx.sup fun x => Nat.dist x.1 x.2)) else none)
      (none : Option ℕ) = none := by
    intro l
    induction l with
    | nil => rfl
    | cons x l ih => simpa using ih
  have key : ∀ (l : List (Matrix (Fin N) (Fin N) ℂ)) (b0 bw : ℕ),
      l.foldl (fun acc M => acc.bind fun b =>
      open Classical in
      let idx := (Finset.univ : Finset (Fin N × Fin N)).filter (fun x => thr ≤ ‖M x.1 x.2‖)
      if idx.Nonempty then some (max b (idx.sup fun x => Nat.dist x.1 x.2)) else none)
      (some b0 : Option ℕ) = some bw →
        bw = b0 ∨ ∃ M ∈ l, ∃ a b : Fin N, thr ≤ ‖M a b‖ ∧ Nat.dist a b = bw := by
    intro l
    induction l with
    | nil =>
      intro b0 bw h
      simp at h
      exact Or.inl h.symm
    | cons x l ih =>
      intro b0 bw h
      rw [List.foldl_cons] at h
      simp only [Option.bind_some] at h
      split_ifs at h with hne
      · rcases ih _ _ h with h1 | ⟨M, hM, hrest⟩
        · rcases max_choice b0 ((Finset.univ.filter fun y : Fin N × Fin N =>
              thr ≤ ‖x y.1 y.2‖).sup fun y => Nat.dist y.1 y.2) with h2 | h2
          · left; convert h1.trans h2
          · right
            obtain ⟨y, hy, hy2⟩ := Finset.exists_mem_eq_sup _ hne
              (fun y : Fin N × Fin N => Nat.dist y.1 y.2)
            refine ⟨x, List.mem_cons_self, y.1, y.2, (Finset.mem_filter.1 hy).2, ?_⟩
            rw [← hy2, h1]
            exact (by convert h2.symm)
        · exact Or.inr ⟨M, List.mem_cons_of_mem _ hM, hrest⟩
      · rw [none_stays] at h
        exact absurd h (by simp)
  exact key L 0 bw h

/-- **C72 fails for rotated (non-symmetric) matrices**: the low-rank route multiplies by `L`
where the reference multiplies by its transpose. -/
theorem exx_mixed_fails :
    ∃ (L G : Matrix (Fin 2) (Fin 2) ℂ) (X U : Matrix (Fin 2) (Fin 1) ℂ),
      PlanValid L 1 (.lowrank 1 X U) ∧ isLowRank 2 1 = true ∧
      exx (g := Fin 1) (fun _ => L) G = 1 / 2 ∧
      exxMixed (g := Fin 1) (fun _ => L) G (fun _ => .lowrank 1 X U) 1 = 2 := by
  refine ⟨!![0, 1; 0, 0], !![0, 1; 2, 0], !![1; 0], !![0; 1], ?_, by decide, ?_, ?_⟩
  · ext a b
    fin_cases a <;> fin_cases b <;> simp [Matrix.mul_apply]
  · simp [exx, Matrix.mul_apply, Fin.sum_univ_two]
  · simp [exxMixed, planLG, Matrix.mul_apply, Fin.sum_univ_two]

/-- The hypotheses of `exx_mixed_partial` are met by a symmetric rank-one matrix and by a
tridiagonal one. -/
example : PlanValid (!![1, 2; 2, 4] : Matrix (Fin 2) (Fin 2) ℂ) 0 (.lowrank 1 !![1; 2] !![1; 2]) ∧
    (!![1, 2; 2, 4] : Matrix (Fin 2) (Fin 2) ℂ)ᵀ = !![1, 2; 2, 4] ∧
    PlanValid (!![1, 2, 0; 5, 4, 1; 0, 1, 1] : Matrix (Fin 3) (Fin 3) ℂ) 1 .banded := by
  refine ⟨?_, ?_, ?_⟩
  · ext a b
    fin_cases a <;> fin_cases b <;> simp [Matrix.mul_apply] <;> norm_num
  · ext a b
    fin_cases a <;> fin_cases b <;> simp
  · intro a b h
    fin_cases a <;> fin_cases b <;> simp [Nat.dist] at h ⊢

/-- A matrix without an entry above the threshold makes `get_blksize` raise. -/
theorem blksize_zero_raises {N : ℕ} (L : List (Matrix (Fin N) (Fin N) ℂ)) (thr : ℝ)
    (h : ∀ a b, ‖(0 : Matrix (Fin N) (Fin N) ℂ) a b‖ < thr) : getBlksize (0 :: L) thr = none := by
  have none_stays : ∀ l : List (Matrix (Fin N) (Fin N) ℂ), l.foldl (fun acc M => acc.bind fun b =>
      open Classical in
      let idx := (Finset.univ : Finset (Fin N × Fin N)).filter (fun x => thr ≤ ‖M x.1 x.2‖)
      if idx.Nonempty then some (max b (idx.sup fun x => Nat.dist x.1 x.2)) else none)
      (none : Option ℕ) = none := by
    intro l
    induction l with
    | nil => rfl
    | cons x l ih => simpa using ih
  unfold getBlksize
  rw [List.foldl_cons]
  simp only [Option.bind_some]
  rw [if_neg]
  · exact none_stays L
  · rw [Finset.not_nonempty_iff_eq_empty, Finset.filter_eq_empty_iff]
    intro x _
    exact not_le.2 (h x.1 x.2)

/-! ## C73: stochastic resolution of the identity -/

/-- Average over all sign matrices. -/
noncomputable def average {n : ℕ} [DecidableEq g] (f : (Fin n → g → Bool) → ℝ) : ℝ :=
  (∑ θ, f θ) / Fintype.card (Fin n → g → Bool)

/-- Sign. -/
def sgn (b : Bool) : ℝ := if b then 1 else -1

theorem sgn_mul_self (b : Bool) : sgn b * sgn b = 1 := by cases b <;> simp [sgn]

/-- Flip one sign. -/
def flip {n : ℕ} [DecidableEq g] (u : Fin n) (γ : g) (θ : Fin n → g → Bool) : Fin n → g → Bool :=
  Function.update θ u (Function.update (θ u) γ (!θ u γ))

theorem flip_flip {n : ℕ} [DecidableEq g] (u : Fin n) (γ : g) (θ : Fin n → g → Bool) :
    flip u γ (flip u γ θ) = θ := by
  funext v δ
  unfold flip
  by_cases hv : v = u
  · subst hv
    by_cases hd : δ = γ
    · subst hd; simp
    · simp
  · simp [hv]

theorem cross_zero {n : ℕ} [DecidableEq g] (u : Fin n) (γ δ : g) (h : γ ≠ δ) :
    ∑ θ : Fin n → g → Bool, sgn (θ u γ) * sgn (θ u δ) = 0 := by
  have e : ∑ θ : Fin n → g → Bool, sgn (θ u γ) * sgn (θ u δ) =
      ∑ θ : Fin n → g → Bool, -(sgn (θ u γ) * sgn (θ u δ)) := by
    refine Finset.sum_nbij' (flip u γ) (flip u γ) (by simp) (by simp)
      (fun θ _ => flip_flip u γ θ) (fun θ _ => flip_flip u γ θ) ?_
    intro θ _
    have h1 : flip u γ θ u γ = !θ u γ := by simp [flip]
    have h2 : flip u γ θ u δ = θ u δ := by simp [flip, h.symm]
    rw [h1, h2]
    cases θ u γ <;> cases θ u δ <;> simp [sgn]
  rw [Finset.sum_neg_distrib] at e
  linarith

/-- **C73.** Averaged over all sign choices, the stochastic vectors reproduce the two-electron
integrals exactly, for every number of stochastic vectors. -/
theorem stochastic_ri_unbiased {n : ℕ} [DecidableEq g] (hn : 0 < n) (L : g → Matrix p p ℝ)
    (a b c d : p) :
    average (fun θ => ∑ u : Fin n, stochasticThc n L θ u a b * stochasticThc n L θ u c d) =
      ∑ γ, L γ a b * L γ c d := by
  have hn' : (n : ℝ) ≠ 0 := by exact_mod_cast hn.ne'
  have hsq : Real.sqrt n * Real.sqrt n = n := Real.mul_self_sqrt (Nat.cast_nonneg n)
  have hs0 : Real.sqrt n ≠ 0 := by
    intro h0; rw [h0, mul_zero] at hsq; exact hn' hsq.symm
  have card_ne : (Fintype.card (Fin n → g → Bool) : ℝ) ≠ 0 := by
    exact_mod_cast Fintype.card_ne_zero
  unfold average
  rw [div_eq_iff card_ne]
  have expand : ∀ (θ : Fin n → g → Bool) (u : Fin n),
      stochasticThc n L θ u a b * stochasticThc n L θ u c d =
      ∑ γ, ∑ δ, L γ a b * L δ c d / n * (sgn (θ u γ) * sgn (θ u δ)) := by
    intro θ u
    simp only [stochasticThc, Matrix.of_apply]
    rw [Finset.sum_mul]
    refine Finset.sum_congr rfl fun γ _ => ?_
    rw [Finset.mul_sum]
    refine Finset.sum_congr rfl fun δ _ => ?_
    have h1 : (if θ u γ = true then (1 : ℝ) else -1) = sgn (θ u γ) := rfl
    have h2 : (if θ u δ = true then (1 : ℝ) else -1) = sgn (θ u δ) := rfl
    rw [h1, h2]
    have h3 : (1 : ℝ) / n = 1 / Real.sqrt n * (1 / Real.sqrt n) := by
      rw [div_mul_div_comm, hsq, one_mul]
    linear_combination (-(L γ a b * L δ c d * (sgn (θ u γ) * sgn (θ u δ)))) * h3
  have inner : ∀ (u : Fin n) (γ δ : g), ∑ θ : Fin n → g → Bool,
      L γ a b * L δ c d / n * (sgn (θ u γ) * sgn (θ u δ)) =
      if γ = δ then L γ a b * L δ c d / n * Fintype.card (Fin n → g → Bool) else 0 := by
    intro u γ δ
    rw [← Finset.mul_sum]
    split_ifs with h
    · subst h
      simp only [sgn_mul_self]
      rw [Finset.sum_const, Finset.card_univ, nsmul_eq_mul, mul_one]
    · rw [cross_zero u γ δ h, mul_zero]
  calc ∑ θ : Fin n → g → Bool, ∑ u, stochasticThc n L θ u a b * stochasticThc n L θ u c d
      = ∑ u : Fin n, ∑ γ, ∑ δ, ∑ θ : Fin n → g → Bool,
          L γ a b * L δ c d / n * (sgn (θ u γ) * sgn (θ u δ)) := by
        rw [Finset.sum_comm]
        refine Finset.sum_congr rfl fun u _ => ?_
        simp only [expand]
        rw [Finset.sum_comm]
        exact Finset.sum_congr rfl fun γ _ => Finset.sum_comm
    _ = ∑ u : Fin n, ∑ γ, L γ a b * L γ c d / n * Fintype.card (Fin n → g → Bool) := by
        simp only [inner, Finset.sum_ite_eq, Finset.mem_univ, if_true]
    _ = _ := by
        rw [Finset.sum_const, Finset.card_univ, Fintype.card_fin, nsmul_eq_mul, ← Finset.sum_mul,
          ← mul_assoc, Finset.mul_sum]
        congr 1
        exact Finset.sum_congr rfl fun γ _ => by field_simp

/-- Without averaging the identity does not hold: two fields, one vector, equal signs. -/
example : ∃ (L : Fin 2 → Matrix (Fin 1) (Fin 1) ℝ) (θ : Fin 1 → Fin 2 → Bool),
    (∑ u : Fin 1, stochasticThc 1 L θ u 0 0 * stochasticThc 1 L θ u 0 0) ≠
      ∑ γ, L γ 0 0 * L γ 0 0 := by
  refine ⟨fun _ => !![1], fun _ _ => true, ?_⟩
  simp [stochasticThc]

end OpenMS.Energy
