import Verif.Model.DipoleBasis
import Mathlib.Tactic

/-!
# C136: degenerate groups of the dipole basis
-/

namespace OpenMS.DipoleBasis

open Finset

variable {ι : Type*} [Fintype ι]

/-- Two neighbouring eigenvalues count as equal. -/
def Near (thr : ℝ) (ev : ℕ → ℝ) (p : ℕ) : Prop := |ev (p + 1) - ev p| < thr

/-- `[r, s)` is a maximal group of two or more neighbours that count as equal. -/
def Group (thr : ℝ) (ev : ℕ → ℝ) (nao r s : ℕ) : Prop :=
  r + 2 ≤ s ∧ s ≤ nao ∧ (∀ p, r ≤ p → p + 1 < s → Near thr ev p) ∧
    (r = 0 ∨ ¬ Near thr ev (r - 1)) ∧ (s = nao ∨ ¬ Near thr ev (s - 1))

theorem degLoop_succ (thr : ℝ) (ev : ℕ → ℝ) (n : ℕ) :
    degLoop thr ev (n + 1) = degStep thr ev (degLoop thr ev n) n := by
  unfold degLoop
  rw [List.range_succ, List.foldl_append]
  rfl

/-- The loop after `n` turns: the counter is the length of the group that ends at `n`, the list holds the groups
that ended before. -/
theorem degLoop_inv (thr : ℝ) (ev : ℕ → ℝ) (n : ℕ) (hne : ∀ p < n, |ev (p + 1) - ev p| ≠ thr) :
    (1 ≤ (degLoop thr ev n).1 ∧ (degLoop thr ev n).1 ≤ n + 1 ∧
      (∀ p, n + 1 - (degLoop thr ev n).1 ≤ p → p < n → Near thr ev p) ∧
      (n + 1 - (degLoop thr ev n).1 = 0 ∨ ¬ Near thr ev (n - (degLoop thr ev n).1))) ∧
    ∀ r s, (r, s) ∈ (degLoop thr ev n).2 ↔
      r + 2 ≤ s ∧ s ≤ n ∧ (∀ p, r ≤ p → p + 1 < s → Near thr ev p) ∧
        (r = 0 ∨ ¬ Near thr ev (r - 1)) ∧ ¬ Near thr ev (s - 1) := by
  induction n with
  | zero =>
    refine ⟨⟨le_refl _, le_refl _, fun p _ h => absurd h (Nat.not_lt_zero _), Or.inl rfl⟩, fun r s => ?_⟩
    simp only [degLoop, List.range_zero, List.foldl_nil, List.not_mem_nil, false_iff]
    rintro ⟨h1, h2, -⟩
    omega
  | succ n ih =>
    obtain ⟨⟨h1, h2, h3, h4⟩, h5⟩ := ih fun p hp => hne p (by omega)
    have hn := hne n (by omega)
    rw [degLoop_succ]
    generalize degLoop thr ev n = st at h1 h2 h3 h4 h5
    obtain ⟨d, bs⟩ := st
    simp only at h1 h2 h3 h4 h5
    by_cases hs : |ev (n + 1) - ev n| < thr
    · have e : degStep thr ev (d, bs) n = (d + 1, bs) := by simp [degStep, hs]
      rw [e]
      refine ⟨⟨by simp, by simp only; omega, ?_, ?_⟩, fun r s => ?_⟩
      · intro p hp hp'
        simp only at hp
        rcases Nat.lt_succ_iff_lt_or_eq.1 hp' with h | h
        · exact h3 p (by omega) h
        · rw [h]; exact hs
      · simp only
        rcases h4 with h | h
        · left; omega
        · right
          rw [show n + 1 - (d + 1) = n - d by omega]; exact h
      · simp only
        rw [h5]
        constructor
        · rintro ⟨a, b, c⟩; exact ⟨a, by omega, c⟩
        · rintro ⟨a, b, c, c', c''⟩
          refine ⟨a, ?_, c, c', c''⟩
          by_contra hh
          have : s = n + 1 := by omega
          subst this
          exact c'' hs
    · have hl : thr < |ev (n + 1) - ev n| := lt_of_le_of_ne (not_lt.1 hs) (Ne.symm hn)
      by_cases hd : 1 < d
      · have e : degStep thr ev (d, bs) n = (1, bs ++ [(n + 1 - d, n + 1)]) := by simp [degStep, hs, hl, hd]
        rw [e]
        refine ⟨⟨le_refl _, by simp, fun p hp hp' => by simp only at hp; omega, Or.inr hs⟩, fun r s => ?_⟩
        simp only [List.mem_append, List.mem_singleton, Prod.mk.injEq]
        rw [h5]
        constructor
        · rintro (⟨a, b, c⟩ | ⟨rfl, rfl⟩)
          · exact ⟨a, by omega, c⟩
          · refine ⟨by omega, le_refl _, fun p hp hp' => h3 p hp (by omega), ?_, hs⟩
            rcases h4 with h | h
            · exact Or.inl h
            · right; rw [show n + 1 - d - 1 = n - d by omega]; exact h
        · rintro ⟨a, b, c, c', c''⟩
          by_cases hh : s ≤ n
          · exact Or.inl ⟨a, hh, c, c', c''⟩
          · right
            have hs' : s = n + 1 := by omega
            subst hs'
            refine ⟨?_, rfl⟩
            by_contra hr
            rcases Nat.lt_or_gt_of_ne hr with h | h
            · rcases h4 with h4 | h4
              · omega
              · exact h4 (c (n - d) (by omega) (by omega))
            · rcases c' with c' | c'
              · omega
              · exact c' (h3 (r - 1) (by omega) (by omega))
      · have hd1 : d = 1 := by omega
        subst hd1
        have e : degStep thr ev (1, bs) n = (1, bs) := by simp [degStep, hs]
        rw [e]
        refine ⟨⟨le_refl _, by simp, fun p hp hp' => by simp only at hp; omega, Or.inr hs⟩, fun r s => ?_⟩
        simp only
        rw [h5]
        constructor
        · rintro ⟨a, b, c⟩; exact ⟨a, by omega, c⟩
        · rintro ⟨a, b, c, c', c''⟩
          refine ⟨a, ?_, c, c', c''⟩
          by_contra hh
          have hs' : s = n + 1 := by omega
          subst hs'
          rcases h4 with h4 | h4
          · omega
          · exact h4 (c (n - 1) (by omega) (by omega))

/-- C136: with no gap exactly at the threshold the slices that are turned are the groups of eigenvalues that count
as equal, except the group that holds the largest eigenvalue. -/
theorem turned_iff (thr : ℝ) (ev : ℕ → ℝ) (nao : ℕ) (hne : ∀ p, p + 1 < nao → |ev (p + 1) - ev p| ≠ thr) (r s : ℕ) :
    (r, s) ∈ turned thr ev nao ↔ Group thr ev nao r s ∧ s ≠ nao := by
  unfold turned
  rw [(degLoop_inv thr ev (nao - 1) fun p hp => hne p (by omega)).2]
  unfold Group
  constructor
  · rintro ⟨a, b, c, c', c''⟩
    exact ⟨⟨a, by omega, c, c', Or.inr c''⟩, by omega⟩
  · rintro ⟨⟨a, b, c, c', c''⟩, h⟩
    exact ⟨a, by omega, c, c', c''.resolve_left h⟩

/-- C136: a degenerate group at the upper end of the spectrum is left as the eigensolver gave it, for every
spectrum and every threshold. -/
theorem top_group_fails (thr : ℝ) (ev : ℕ → ℝ) (nao : ℕ) (hne : ∀ p, p + 1 < nao → |ev (p + 1) - ev p| ≠ thr)
    (r : ℕ) (h : Group thr ev nao r nao) : ∀ b ∈ turned thr ev nao, ∀ j, b.1 ≤ j → j < b.2 → ¬ (r ≤ j ∧ j < nao) := by
  rintro ⟨r', s'⟩ hb j h1 h2 ⟨h3, h4⟩
  simp only at h1 h2
  obtain ⟨⟨g1, g2, g3, g4, g5⟩, g6⟩ := (turned_iff thr ev nao hne r' s').1 hb
  obtain ⟨k1, k2, k3, k4, k5⟩ := h
  rcases g5 with g5 | g5
  · exact g6 g5
  · exact g5 (k3 (s' - 1) (by omega) (by omega))

/-- C136: when all eigenvalues are equal (a coupling proportional to the unit matrix, or zero) nothing is turned. -/
theorem all_equal_fails (thr : ℝ) (hthr : 0 < thr) (ev : ℕ → ℝ) (nao : ℕ) (h : ∀ p, p + 1 < nao → ev (p + 1) = ev p) :
    turned thr ev nao = [] := by
  rcases hl : turned thr ev nao with _ | ⟨⟨r, s⟩, l⟩
  · rfl
  · have hm : (r, s) ∈ turned thr ev nao := by rw [hl]; simp
    have hne : ∀ p, p + 1 < nao → |ev (p + 1) - ev p| ≠ thr := by
      intro p hp
      rw [h p hp, sub_self, abs_zero]; exact ne_of_lt hthr
    obtain ⟨⟨g1, g2, g3, g4, g5⟩, g6⟩ := (turned_iff thr ev nao hne r s).1 hm
    rcases g5 with g5 | g5
    · exact absurd g5 g6
    · exact absurd (by unfold Near; rw [h (s - 1) (by omega), sub_self, abs_zero]; exact hthr) g5

/-- C136: a gap exactly at the threshold keeps the counter, so that the slice turned later is shifted by one: it
takes the second member of the degenerate pair together with a vector that is not degenerate with it. -/
theorem at_threshold_fails (thr : ℝ) (hthr : 0 < thr) (e g : ℝ) (hg : thr < g) :
    turned thr (fun p => if p ≤ 1 then e else if p = 2 then e + thr else e + thr + g) 4 = [(1, 3)] := by
  have h0 : ¬ (thr < 0) := by linarith
  have ht : |thr| = thr := abs_of_pos hthr
  have hgp : |g| = g := abs_of_pos (by linarith)
  simp only [turned, degLoop, List.range_succ, List.range_zero, List.nil_append, List.foldl_append, List.foldl_cons,
    List.foldl_nil]
  simp [degStep, hthr, ht, hgp, hg, not_lt.2 hg.le]

/-! ### The turns keep the basis -/

theorem transform_turn (V : ι → ℕ → ℝ) (r s : ℕ) (Q : ℕ → ℕ → ℝ) (A : ι → ι → ℝ) (a b : ℕ) :
    transform (turn V r s Q) A a b =
      if r ≤ a ∧ a < s then
        if r ≤ b ∧ b < s then
          ∑ k ∈ range (s - r), ∑ l ∈ range (s - r), Q k (a - r) * transform V A (r + k) (r + l) * Q l (b - r)
        else ∑ k ∈ range (s - r), Q k (a - r) * transform V A (r + k) b
      else
        if r ≤ b ∧ b < s then ∑ l ∈ range (s - r), transform V A a (r + l) * Q l (b - r)
        else transform V A a b := by
  unfold transform turn
  split_ifs with ha hb hb
  · simp only [Finset.sum_mul, Finset.mul_sum]
    rw [Finset.sum_congr rfl fun i _ => Finset.sum_congr rfl fun j _ => Finset.sum_comm]
    rw [Finset.sum_congr rfl fun i _ => Finset.sum_comm]
    rw [Finset.sum_comm]
    refine Finset.sum_congr rfl fun k _ => ?_
    rw [Finset.sum_congr rfl fun i _ => Finset.sum_comm]
    rw [Finset.sum_comm]
    refine Finset.sum_congr rfl fun l _ => Finset.sum_congr rfl fun i _ => Finset.sum_congr rfl fun j _ => ?_
    ring
  · simp only [Finset.sum_mul, Finset.mul_sum]
    rw [Finset.sum_congr rfl fun i _ => Finset.sum_comm]
    rw [Finset.sum_comm]
    refine Finset.sum_congr rfl fun k _ => Finset.sum_congr rfl fun i _ => Finset.sum_congr rfl fun j _ => ?_
    ring
  · simp only [Finset.sum_mul, Finset.mul_sum]
    rw [Finset.sum_congr rfl fun i _ => Finset.sum_comm]
    rw [Finset.sum_comm]
    refine Finset.sum_congr rfl fun k _ => Finset.sum_congr rfl fun i _ => Finset.sum_congr rfl fun j _ => ?_
    ring
  · rfl

/-- A turn of a slice within which `D` is constant keeps a diagonal form with entries `D`. -/
theorem turn_diag (V : ι → ℕ → ℝ) (r s nao : ℕ) (hs : s ≤ nao) (Q : ℕ → ℕ → ℝ) (A : ι → ι → ℝ) (D : ℕ → ℝ)
    (hQ : ∀ a < s - r, ∀ b < s - r, ∑ k ∈ range (s - r), Q k a * Q k b = if a = b then 1 else 0)
    (hD : ∀ a b, r ≤ a → a < s → r ≤ b → b < s → D a = D b)
    (hV : ∀ a < nao, ∀ b < nao, transform V A a b = if a = b then D a else 0) :
    ∀ a < nao, ∀ b < nao, transform (turn V r s Q) A a b = if a = b then D a else 0 := by
  intro a ha b hb
  rw [transform_turn]
  by_cases h1 : r ≤ a ∧ a < s
  · by_cases h2 : r ≤ b ∧ b < s
    · rw [if_pos h1, if_pos h2]
      have e : ∀ k ∈ range (s - r), ∑ l ∈ range (s - r), Q k (a - r) * transform V A (r + k) (r + l) * Q l (b - r) =
          D a * (Q k (a - r) * Q k (b - r)) := by
        intro k hk
        have hk' := Finset.mem_range.1 hk
        rw [Finset.sum_eq_single k]
        · rw [hV _ (by omega) _ (by omega), if_pos rfl, hD (r + k) a (by omega) (by omega) h1.1 h1.2]; ring
        · intro l hl hlk
          have hl' := Finset.mem_range.1 hl
          rw [hV _ (by omega) _ (by omega), if_neg (by omega)]; ring
        · intro h; exact absurd hk h
      rw [Finset.sum_congr rfl e, ← Finset.mul_sum, hQ _ (by omega) _ (by omega)]
      by_cases hab : a = b
      · rw [if_pos (by rw [hab]), if_pos hab, mul_one]
      · rw [if_neg (by omega), if_neg hab, mul_zero]
    · rw [if_pos h1, if_neg h2, if_neg (by rintro rfl; exact h2 h1)]
      refine Finset.sum_eq_zero fun k hk => ?_
      have hk' := Finset.mem_range.1 hk
      rw [hV _ (by omega) _ hb, if_neg (by omega), mul_zero]
  · by_cases h2 : r ≤ b ∧ b < s
    · rw [if_neg h1, if_pos h2, if_neg (by rintro rfl; exact h1 h2)]
      refine Finset.sum_eq_zero fun k hk => ?_
      have hk' := Finset.mem_range.1 hk
      rw [hV _ ha _ (by omega), if_neg (by omega), zero_mul]
    · rw [if_neg h1, if_neg h2, hV a ha b hb]

/-- C136: when the eigenvalues within every turned slice are equal, the turned vectors diagonalise the same matrices
with the same eigenvalues: the unit matrix (`A = 1`, `D = 1`: the basis stays orthonormal) and the coupling. -/
theorem resolve_diag {fock : ι → ι → ℝ} {V V' : ι → ℕ → ℝ} {bs : List (ℕ × ℕ)} (h : Resolve fock V bs V') (nao : ℕ)
    (hbs : ∀ b ∈ bs, b.2 ≤ nao) (A : ι → ι → ℝ) (D : ℕ → ℝ)
    (hD : ∀ c ∈ bs, ∀ a b, c.1 ≤ a → a < c.2 → c.1 ≤ b → b < c.2 → D a = D b)
    (hV : ∀ a < nao, ∀ b < nao, transform V A a b = if a = b then D a else 0) :
    ∀ a < nao, ∀ b < nao, transform V' A a b = if a = b then D a else 0 := by
  induction h with
  | nil V => exact hV
  | cons V r s bs Q V' hQ _ ih =>
    exact ih (fun b hb => hbs b (List.mem_cons_of_mem _ hb)) (fun c hc => hD c (List.mem_cons_of_mem _ hc))
      (turn_diag V r s nao (hbs (r, s) (by simp)) Q A D hQ.1 (hD (r, s) (by simp)) hV)

/-- C136: the basis stays orthonormal, whatever the eigenvalues. -/
theorem resolve_orthonormal [DecidableEq ι] {fock : ι → ι → ℝ} {V V' : ι → ℕ → ℝ} {bs : List (ℕ × ℕ)}
    (h : Resolve fock V bs V') (nao : ℕ) (hbs : ∀ b ∈ bs, b.2 ≤ nao)
    (hV : ∀ a < nao, ∀ b < nao, ∑ i, V i a * V i b = if a = b then 1 else 0) :
    ∀ a < nao, ∀ b < nao, ∑ i, V' i a * V' i b = if a = b then 1 else 0 := by
  have e : ∀ (U : ι → ℕ → ℝ) a b, transform U (fun i j => if i = j then 1 else 0) a b = ∑ i, U i a * U i b := by
    intro U a b
    unfold transform
    refine Finset.sum_congr rfl fun i _ => ?_
    rw [Finset.sum_eq_single i]
    · simp
    · intro j _ hj; simp [Ne.symm hj]
    · intro hh; exact absurd (Finset.mem_univ i) hh
  have := resolve_diag h nao hbs (fun i j => if i = j then 1 else 0) (fun _ => 1) (fun _ _ _ _ _ _ _ _ => rfl)
    (fun a ha b hb => by rw [e]; exact hV a ha b hb)
  intro a ha b hb
  rw [← e]; exact this a ha b hb

/-- Columns outside the slices are not touched. -/
theorem resolve_outside {fock : ι → ι → ℝ} {V V' : ι → ℕ → ℝ} {bs : List (ℕ × ℕ)} (h : Resolve fock V bs V') (j : ℕ)
    (hj : ∀ b ∈ bs, ¬ (b.1 ≤ j ∧ j < b.2)) (i : ι) : V' i j = V i j := by
  induction h with
  | nil V => rfl
  | cons V r s bs Q V' hQ _ ih =>
    rw [ih fun b hb => hj b (List.mem_cons_of_mem _ hb)]
    unfold turn
    rw [if_neg (hj (r, s) (by simp))]

/-- C136: after the loop the Fock matrix is diagonal within every slice that was turned. -/
theorem resolve_fock {fock : ι → ι → ℝ} {V V' : ι → ℕ → ℝ} {bs : List (ℕ × ℕ)} (h : Resolve fock V bs V')
    (hdis : bs.Pairwise fun b c => ∀ j, ¬ ((b.1 ≤ j ∧ j < b.2) ∧ (c.1 ≤ j ∧ j < c.2))) :
    ∀ c ∈ bs, ∀ a b, c.1 ≤ a → a < c.2 → c.1 ≤ b → b < c.2 → a ≠ b → transform V' fock a b = 0 := by
  induction h with
  | nil V => intro c hc; simp at hc
  | cons V r s bs Q V' hQ hR ih =>
    rw [List.pairwise_cons] at hdis
    intro c hc a b ha ha' hb hb' hab
    rcases List.mem_cons.1 hc with rfl | hc
    · simp only at ha ha' hb hb'
      have e : ∀ j, r ≤ j → j < s → ∀ i, V' i j = turn V r s Q i j := fun j h1 h2 i =>
        resolve_outside hR j (fun c hc hh => hdis.1 c hc j ⟨⟨h1, h2⟩, hh⟩) i
      have e2 : transform V' fock a b = transform (turn V r s Q) fock a b := by
        unfold transform
        simp only [e a ha ha', e b hb hb']
      rw [e2, transform_turn, if_pos ⟨ha, ha'⟩, if_pos ⟨hb, hb'⟩]
      exact hQ.2 (a - r) (by omega) (b - r) (by omega) (by omega)
    · exact ih hdis.2 c hc a b ha ha' hb hb' hab

/-- The slices of the loop are disjoint and in order. -/
theorem degLoop_pairwise (thr : ℝ) (ev : ℕ → ℝ) (n : ℕ) :
    (degLoop thr ev n).2.Pairwise (fun b c => b.2 ≤ c.1) ∧
      (degLoop thr ev n).1 ≤ n + 1 ∧ 1 ≤ (degLoop thr ev n).1 ∧
      ∀ b ∈ (degLoop thr ev n).2, b.2 + (degLoop thr ev n).1 ≤ n + 1 := by
  induction n with
  | zero => simp [degLoop]
  | succ n ih =>
    obtain ⟨h1, h2, h3, h4⟩ := ih
    rw [degLoop_succ]
    generalize degLoop thr ev n = st at h1 h2 h3 h4
    obtain ⟨d, bs⟩ := st
    simp only at h1 h2 h3 h4
    unfold degStep
    simp only
    split_ifs with ha hb
    · exact ⟨h1, by simp only; omega, by simp only; omega, fun b hb => by have := h4 b hb; simp only; omega⟩
    · refine ⟨?_, by simp, by simp, ?_⟩
      · rw [List.pairwise_append]
        refine ⟨h1, by simp, fun b hb' c hc => ?_⟩
        rw [List.mem_singleton.1 hc]
        have := h4 b hb'
        simp only; omega
      · intro b hb'
        simp only
        rcases List.mem_append.1 hb' with h | h
        · have := h4 b h; omega
        · rw [List.mem_singleton.1 h]
    · exact ⟨h1, by simp only; omega, h3, fun b hb => by have := h4 b hb; simp only; omega⟩

/-- C136: the whole function: for every orthonormal eigenbasis of a coupling matrix whose eigenvalues are equal
within the turned slices, the new columns are an orthonormal eigenbasis with the same eigenvalues in which the Fock
matrix is diagonal within every turned slice. -/
theorem resolve_spec [DecidableEq ι] (thr : ℝ) (ev : ℕ → ℝ) (nao : ℕ) {fock g : ι → ι → ℝ} {V V' : ι → ℕ → ℝ}
    (h : Resolve fock V (turned thr ev nao) V')
    (hev : ∀ c ∈ turned thr ev nao, ∀ a b, c.1 ≤ a → a < c.2 → c.1 ≤ b → b < c.2 → ev a = ev b)
    (hV : ∀ a < nao, ∀ b < nao, ∑ i, V i a * V i b = if a = b then 1 else 0)
    (hg : ∀ a < nao, ∀ b < nao, transform V g a b = if a = b then ev a else 0) :
    (∀ a < nao, ∀ b < nao, ∑ i, V' i a * V' i b = if a = b then 1 else 0) ∧
    (∀ a < nao, ∀ b < nao, transform V' g a b = if a = b then ev a else 0) ∧
    ∀ c ∈ turned thr ev nao, ∀ a b, c.1 ≤ a → a < c.2 → c.1 ≤ b → b < c.2 → a ≠ b → transform V' fock a b = 0 := by
  obtain ⟨h1, h2, h3, h4⟩ := degLoop_pairwise thr ev (nao - 1)
  have hbs : ∀ b ∈ turned thr ev nao, b.2 ≤ nao := by
    intro b hb
    have := h4 b hb
    omega
  refine ⟨resolve_orthonormal h nao hbs hV, resolve_diag h nao hbs g ev hev hg, resolve_fock h ?_⟩
  exact h1.imp fun hbc j hh => by omega

/-! ### Storing the integrals of several modes -/

/-- C136: with one mode the squares of the transformed vectors are the transformed integrals. -/
theorem chol_one_mode {γ : Type*} [Fintype γ] (eri : ι → ι → ι → ι → ℝ) (L : γ → ι → ι → ℝ)
    (hL : ∀ p q r s, eri p q r s = ∑ g, L g p q * L g r s) (U : ι → ι → ℝ) :
    ∃ E M, storeEri eri [U] = some E ∧ storeChol L [U] = some M ∧
      ∀ u v w t, E u v w t = ∑ g, M g u v * M g w t := by
  refine ⟨_, _, rfl, rfl, fun u v w t => ?_⟩
  unfold eriDO cholDO
  simp only [hL, Finset.mul_sum, Finset.sum_mul]
  symm
  rw [Finset.sum_comm]
  calc _ = ∑ r, ∑ s, ∑ p, ∑ q, ∑ g, U p u * U q v * U r w * U s t * (L g p q * L g r s) := ?_
    _ = _ := ?_
  · refine Finset.sum_congr rfl fun r _ => ?_
    rw [Finset.sum_comm]
    refine Finset.sum_congr rfl fun s _ => ?_
    rw [Finset.sum_comm]
    refine Finset.sum_congr rfl fun p _ => ?_
    rw [Finset.sum_comm]
    refine Finset.sum_congr rfl fun q _ => Finset.sum_congr rfl fun g _ => ?_
    ring
  · rw [Finset.sum_congr rfl fun r _ => Finset.sum_comm, Finset.sum_comm]
    refine Finset.sum_congr rfl fun p _ => ?_
    rw [Finset.sum_congr rfl fun r _ => Finset.sum_comm, Finset.sum_comm]

/-- C136: with several modes the integrals kept are those of the last mode. -/
theorem eri_last (eri : ι → ι → ι → ι → ℝ) (Us : List (ι → ι → ℝ)) (U : ι → ι → ℝ) :
    storeEri eri (Us ++ [U]) = some (eriDO U eri) := by
  unfold storeEri
  rw [List.foldl_append]; rfl

/-- C136: with several modes the vectors kept are those of the first mode. -/
theorem chol_first {γ : Type*} (L : γ → ι → ι → ℝ) (U : ι → ι → ℝ) (Us : List (ι → ι → ℝ)) :
    storeChol L (U :: Us) = some fun g => cholDO U (L g) := by
  unfold storeChol
  rw [List.foldl_cons]
  induction Us with
  | nil => rfl
  | cons a l ih => rw [List.foldl_cons]; exact ih

/-- C136: with two modes of different basis the two ways to keep the integrals disagree, for every nonzero integral:
one orbital, bases of scale `x` and `y`. -/
theorem store_fails (x y c : ℝ) (hc : c ≠ 0) (hxy : x ^ 4 ≠ y ^ 4) :
    ∃ (E : Unit → Unit → Unit → Unit → ℝ) (M : Unit → Unit → Unit → ℝ),
      storeEri (fun _ _ _ _ => c ^ 2) [fun _ _ => x, fun _ _ => y] = some E ∧
      storeChol (fun _ _ _ => c) [fun _ _ => x, fun _ _ => y] = some M ∧
      E () () () () ≠ ∑ g, M g () () * M g () () := by
  refine ⟨_, _, eri_last _ [fun _ _ => x] _, chol_first _ _ _, ?_⟩
  simp only [eriDO, cholDO, Finset.univ_unique, Finset.sum_singleton]
  intro h
  apply hxy
  have h2 : c ^ 2 * (x ^ 4 - y ^ 4) = 0 := by linarith [h, show x * c * x * (x * c * x) = c ^ 2 * x ^ 4 by ring, show y * y * y * y * c ^ 2 = c ^ 2 * y ^ 4 by ring]
  rcases mul_eq_zero.1 h2 with h3 | h3
  · exact absurd (pow_eq_zero_iff (by norm_num) |>.1 h3) hc
  · linarith

/-! ### Photon expectation value -/

/-- C136: `photon_exp_val` is the sum of the coefficients times twice the sum of `n` times the coefficients. -/
theorem photonExpVal_eq (nstates : List ℕ) (C : ℕ → ℕ → ℝ) (imode : ℕ) :
    photonExpVal nstates C imode =
      (∑ i ∈ range (nstates.getD imode 0), C ((nstates.take imode).sum + i) (nstates.take imode).sum) *
        (2 * ∑ j ∈ range (nstates.getD imode 0), (j : ℝ) * C ((nstates.take imode).sum + j) (nstates.take imode).sum) := by
  unfold photonExpVal
  rw [Finset.mul_sum, Finset.sum_mul_sum]
  refine Finset.sum_congr rfl fun i _ => Finset.sum_congr rfl fun j _ => ?_
  ring

/-- C136: for one mode in a superposition of no photon and one photon the value is twice the occupation exactly if
one of the two coefficients vanishes. -/
theorem photonExpVal_two_iff (C : ℕ → ℕ → ℝ) :
    photonExpVal [2] C 0 = 2 * bosonOcc [2] C 0 ↔ C 0 0 * C 1 0 = 0 := by
  simp [photonExpVal, bosonOcc, Finset.sum_range_succ]

/-- C136: the start of the boson class (all weight in column 0) gives zero for every mode but the first, whatever
the occupation. -/
theorem photonExpVal_fails (nstates : List ℕ) (C : ℕ → ℕ → ℝ) (imode : ℕ) (hC : ∀ i j, 0 < j → C i j = 0)
    (hpos : 0 < (nstates.take imode).sum) : photonExpVal nstates C imode = 0 := by
  rw [photonExpVal_eq, Finset.sum_eq_zero, zero_mul]
  intro i _
  exact hC _ _ hpos

/-! ### Examples -/

/-- A degenerate pair at the lower end is turned, the pair at the upper end is not. -/
example : turned (1 / 10) (fun p => if p ≤ 1 then 0 else 1) 4 = [(0, 2)] := by
  simp only [turned, degLoop, List.range_succ, List.range_zero, List.nil_append, List.foldl_append, List.foldl_cons,
    List.foldl_nil]
  norm_num [degStep]

example : Group (1 / 10) (fun p => if p ≤ 1 then 0 else 1) 4 2 4 := by
  refine ⟨by norm_num, by norm_num, ?_, Or.inr ?_, Or.inl rfl⟩
  · intro p h1 h2
    have : p = 2 := by omega
    subst this
    norm_num [Near]
  · norm_num [Near]

/-- A slice that is really turned: in a two fold degenerate space the Fock matrix `[[-7, 24], [24, 7]] / 25` gives new
columns `(3, 4) / 5` and `(4, -3) / 5`. -/
example : ∃ V', Resolve (fun i j : Fin 3 => if i = 0 ∧ j = 0 then -7 / 25 else if i = 1 ∧ j = 1 then 7 / 25 else
      if i.val + j.val = 1 then 24 / 25 else 0) (fun i j => if i.val = j then 1 else 0) [(0, 2)] V' ∧ V' 0 0 = 3 / 5 := by
  refine ⟨_, Resolve.cons _ 0 2 [] (fun k l => if k = 0 ∧ l = 0 then 3 / 5 else if k = 1 ∧ l = 1 then -3 / 5 else 4 / 5) _
    ⟨?_, ?_⟩ (Resolve.nil _), ?_⟩
  · intro a ha b hb
    interval_cases a <;> interval_cases b <;> norm_num [Finset.sum_range_succ]
  · intro a ha b hb hab
    interval_cases a <;> interval_cases b <;>
      first
        | exact absurd rfl hab
        | norm_num [Finset.sum_range_succ, transform, Fin.sum_univ_three]
  · norm_num [turn, Finset.sum_range_succ]

example : photonExpVal [2] (fun _ _ => 1) 0 = 4 ∧ 2 * bosonOcc [2] (fun _ _ => 1) 0 = 2 := by
  norm_num [photonExpVal, bosonOcc, Finset.sum_range_succ]

end OpenMS.DipoleBasis
