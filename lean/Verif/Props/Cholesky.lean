import Verif.Model.Integrals
import Mathlib.Data.Sym.Card
import Mathlib.Algebra.BigOperators.Field
import Mathlib.Tactic.FieldSimp
import Mathlib.Tactic.LinearCombination
import Mathlib.Tactic.NormNum
import Mathlib.Tactic.Linarith
import Mathlib.Tactic.FinCases

/-!
# Pivoted Cholesky decomposition of the integrals (C28)

Specification: `M` is symmetric positive semidefinite; the returned vectors reproduce it.
-/

set_option linter.unusedSectionVars false

namespace OpenMS.Integrals

variable {n m : Type*} [Fintype n] [Fintype m]

/-- Symmetric positive semidefinite, written out. -/
def IsPSD (M : Matrix n n ℝ) : Prop :=
  (∀ i j, M i j = M j i) ∧ ∀ v : n → ℝ, 0 ≤ ∑ i, ∑ j, v i * M i j * v j

/-- What the vectors do not reproduce. -/
def residual (M : Matrix n n ℝ) (vs : List (n → ℝ)) : Matrix n n ℝ :=
  Matrix.of fun i j => M i j - (vs.map fun L => L i * L j).sum

/-- `numpy.argmax` returns a position of the largest entry. -/
def IsArgmax (argmax : (n → ℝ) → n) : Prop := ∀ (f : n → ℝ) (i : n), f i ≤ f (argmax f)

theorem residual_snoc (M : Matrix n n ℝ) (vs : List (n → ℝ)) (L : n → ℝ) (i j : n) :
    residual M (vs ++ [L]) i j = residual M vs i j - L i * L j := by
  simp [residual]; ring

theorem psd_diag [DecidableEq n] {M : Matrix n n ℝ} (h : IsPSD M) (i : n) : 0 ≤ M i i := by
  have := h.2 (fun a => if a = i then 1 else 0)
  simpa using this

/-- Value of the quadratic form on `v + t e_k`. -/
theorem quad_shift [DecidableEq n] {M : Matrix n n ℝ} (hs : ∀ i j, M i j = M j i) (v : n → ℝ)
    (k : n) (t : ℝ) :
    ∑ i, ∑ j, (v i + if i = k then t else 0) * M i j * (v j + if j = k then t else 0) =
      (∑ i, ∑ j, v i * M i j * v j) + 2 * t * (∑ j, M k j * v j) + t * t * M k k := by
  have e : ∀ i j, (v i + if i = k then t else 0) * M i j * (v j + if j = k then t else 0) =
      v i * M i j * v j + (if i = k then t * M i j * v j else 0) +
      ((if j = k then t * (M i j * v i) else 0) +
      (if i = k then (if j = k then t * t * M i j else 0) else 0)) := by
    intro i j
    split_ifs <;> ring
  simp only [e, Finset.sum_add_distrib, Finset.sum_ite_eq', Finset.mem_univ, if_true]
  have e2 : ∑ x, (∑ j, if x = k then t * M x j * v j else 0) = t * ∑ j, M k j * v j := by
    rw [Finset.sum_eq_single k]
    · simp [Finset.mul_sum, mul_assoc]
    · intro b _ hb; simp [hb]
    · simp
  have e3 : ∑ x, t * (M x k * v x) = t * ∑ j, M k j * v j := by
    rw [Finset.mul_sum]
    exact Finset.sum_congr rfl fun x _ => by rw [hs x k]
  have e4 : ∑ x, (∑ j, if x = k then (if j = k then t * t * M x j else 0) else 0) =
      t * t * M k k := by
    rw [Finset.sum_eq_single k]
    · simp
    · intro b _ hb; simp [hb]
    · simp
  rw [e2, e3, e4]
  ring

/-- Cauchy-Schwarz for a positive semidefinite matrix. -/
theorem psd_cs [DecidableEq n] {M : Matrix n n ℝ} (h : IsPSD M) (c : ℝ) (hc : ∀ i, M i i ≤ c)
    (i j : n) : |M i j| ≤ c := by
  have key : ∀ s : ℝ, s * s = 1 → 0 ≤ M i i + 2 * s * M i j + M j j := by
    intro s hs
    have h0 := h.2 (fun a => (if a = i then 1 else 0) + if a = j then s else 0)
    rw [quad_shift h.1 (fun a => if a = i then 1 else 0) j s] at h0
    simp only [hs] at h0
    simp at h0
    rw [h.1 j i] at h0
    linarith
  have h1 := key 1 (by norm_num)
  have h2 := key (-1) (by norm_num)
  have hi := hc i
  have hj := hc j
  rw [abs_le]
  constructor <;> linarith

/-- Removing the pivot column keeps the matrix positive semidefinite. -/
theorem psd_step [DecidableEq n] {M : Matrix n n ℝ} (h : IsPSD M) (k : n) (hk : 0 < M k k) :
    IsPSD (Matrix.of fun i j => M i j - M i k / Real.sqrt (M k k) * (M j k / Real.sqrt (M k k))) := by
  have hsq : Real.sqrt (M k k) * Real.sqrt (M k k) = M k k := Real.mul_self_sqrt hk.le
  have e : ∀ i j, M i k / Real.sqrt (M k k) * (M j k / Real.sqrt (M k k)) = M i k * M j k / M k k := by
    intro i j
    rw [div_mul_div_comm, hsq]
  refine ⟨fun i j => ?_, fun v => ?_⟩
  · simp only [Matrix.of_apply, e]
    rw [h.1 i j, mul_comm (M i k)]
  · simp only [Matrix.of_apply, e]
    have hq := h.2 (fun a => v a + if a = k then -((∑ j, M k j * v j) / M k k) else 0)
    rw [quad_shift h.1] at hq
    have e2 : ∑ i, ∑ j, v i * (M i j - M i k * M j k / M k k) * v j =
        (∑ i, ∑ j, v i * M i j * v j) - (∑ j, M k j * v j) * (∑ j, M k j * v j) / M k k := by
      rw [Finset.sum_mul, Finset.sum_div, ← Finset.sum_sub_distrib]
      refine Finset.sum_congr rfl fun i _ => ?_
      rw [Finset.mul_sum, Finset.sum_div, ← Finset.sum_sub_distrib]
      refine Finset.sum_congr rfl fun j _ => ?_
      rw [h.1 k i, h.1 k j]
      field_simp
    rw [e2]
    have e3 : (∑ i, ∑ j, v i * M i j * v j) + 2 * -((∑ j, M k j * v j) / M k k) *
        (∑ j, M k j * v j) + -((∑ j, M k j * v j) / M k k) * -((∑ j, M k j * v j) / M k k) * M k k =
        (∑ i, ∑ j, v i * M i j * v j) - (∑ j, M k j * v j) * (∑ j, M k j * v j) / M k k := by
      field_simp
      ring
    rw [← e3]
    exact hq

/-- Everything known at the head of the loop: `vs` are the finished vectors, `last` the one
already computed but not yet accounted for. -/
structure LoopInv (M : Matrix n n ℝ) (f : n → m) (vs : List (n → ℝ)) (last approx : n → ℝ)
    (dmax : ℝ) : Prop where
  approx_eq : ∀ i, approx i = (vs.map fun L => L i * L i).sum
  psd : IsPSD (residual M vs)
  pivot : ∃ nu, dmax = residual M vs nu nu ∧ (∀ i, residual M vs i i ≤ dmax) ∧
    last = fun i => residual M vs i nu / Real.sqrt dmax
  done : ∃ ps : List n, ps.length = vs.length ∧ (ps.map f).Nodup ∧
    ∀ p ∈ ps, ∀ q, f q = f p → ∀ j, residual M vs q j = 0
  same : ∀ i i', f i = f i' → ∀ j, residual M vs i j = residual M vs i' j

/-- What is claimed about the result. -/
structure GoodResult (M : Matrix n n ℝ) (f : n → m) (thr : ℝ) (vs : List (n → ℝ)) : Prop where
  close : ∀ i j, |M i j - (vs.map fun L => L i * L j).sum| ≤ thr
  diag : ∀ i, 0 ≤ M i i - (vs.map fun L => L i * L i).sum
  exact_rows : ∃ ps : List n, ps.length = vs.length ∧ (ps.map f).Nodup ∧
    ∀ p ∈ ps, ∀ j, M p j = (vs.map fun L => L p * L j).sum

theorem inv_step [DecidableEq n] (M : Matrix n n ℝ) (f : n → m) (thr : ℝ) (hthr : 0 ≤ thr)
    (argmax : (n → ℝ) → n) (ha : IsArgmax argmax) (vs : List (n → ℝ)) (last approx : n → ℝ)
    (dmax : ℝ) (h : LoopInv M f vs last approx dmax) (hd : |dmax| > thr) :
    let approx' : n → ℝ := fun i => approx i + last i * last i
    let nu := argmax fun i => |M i i - approx' i|
    let dm := |M nu nu - approx' nu|
    LoopInv M f (vs ++ [last]) (nextVec M (vs ++ [last]) nu dm) approx' dm := by
  intro approx' nu dm
  obtain ⟨h1, hpsd, ⟨k, hk, hmax, hlast⟩, ⟨ps, hpl, hpn, hp0⟩, hsame⟩ := h
  have hd0 : 0 ≤ dmax := by rw [hk]; exact psd_diag hpsd k
  have hdpos : 0 < dmax := by rw [abs_of_nonneg hd0] at hd; linarith
  have hsq : Real.sqrt dmax * Real.sqrt dmax = dmax := Real.mul_self_sqrt hd0
  have hsq0 : Real.sqrt dmax ≠ 0 := by
    intro h0; rw [h0, mul_zero] at hsq; linarith
  have hres : residual M (vs ++ [last]) = Matrix.of fun i j => residual M vs i j -
      residual M vs i k / Real.sqrt (residual M vs k k) *
        (residual M vs j k / Real.sqrt (residual M vs k k)) := by
    ext i j
    rw [residual_snoc, Matrix.of_apply, ← hk, hlast]
  have hpsd' : IsPSD (residual M (vs ++ [last])) := by
    rw [hres]; exact psd_step hpsd k (hk ▸ hdpos)
  have happ : ∀ i, M i i - approx' i = residual M (vs ++ [last]) i i := by
    intro i
    simp only [approx', h1 i, residual, Matrix.of_apply, List.map_append, List.sum_append,
      List.map_cons, List.map_nil, List.sum_cons, List.sum_nil, add_zero]
  have hdm : dm = residual M (vs ++ [last]) nu nu := by
    simp only [dm, happ]
    exact abs_of_nonneg (psd_diag hpsd' _)
  refine ⟨?_, hpsd', ⟨nu, hdm, ?_, ?_⟩, ⟨ps ++ [k], ?_, ?_, ?_⟩, ?_⟩
  · intro i
    simp only [approx', h1 i, List.map_append, List.sum_append, List.map_cons, List.map_nil,
      List.sum_cons, List.sum_nil, add_zero]
  · intro i
    have := ha (fun i => |M i i - approx' i|) i
    simp only [happ] at this
    rw [abs_of_nonneg (psd_diag hpsd' i)] at this
    refine this.trans ?_
    simp only [dm, happ]
    exact le_of_eq (by congr 2 <;> simp only [nu, happ])
  · funext i
    simp only [nextVec, residual, Matrix.of_apply]
    congr 2
    congr 1
    exact List.map_congr_left fun L _ => mul_comm _ _
  · simp [hpl]
  · rw [List.map_append, List.nodup_append]
    refine ⟨hpn, by simp, ?_⟩
    intro a hfa b hb
    obtain ⟨p, hp, rfl⟩ := List.mem_map.1 hfa
    simp only [List.map_cons, List.map_nil, List.mem_singleton] at hb
    subst hb
    intro hc
    have := hp0 p hp k hc.symm k
    rw [hk, this] at hdpos
    exact lt_irrefl _ hdpos
  · intro p hp q hq j
    rcases List.mem_append.1 hp with hp | hp
    · rw [hres, Matrix.of_apply, hp0 p hp q hq j, hp0 p hp q hq k]; simp
    · simp only [List.mem_singleton] at hp
      subst hp
      rw [hres, Matrix.of_apply, ← hk, hsame q p hq j, hsame q p hq p, ← hk, div_mul_div_comm, hsq,
        hpsd.1 j p]
      field_simp
      ring
  · intro i i' hi j
    rw [hres, Matrix.of_apply, Matrix.of_apply, hsame i i' hi j, hsame i i' hi k]

theorem loop_spec [DecidableEq n] (M : Matrix n n ℝ) (f : n → m) (thr : ℝ) (hthr : 0 ≤ thr)
    (maxc : ℕ) (argmax : (n → ℝ) → n) (ha : IsArgmax argmax) (fuel : ℕ) :
    ∀ (vs : List (n → ℝ)) (last approx : n → ℝ) (dmax : ℝ),
      LoopInv M f vs last approx dmax → fuel + (vs.length + 1) = maxc →
      (∀ r, cholLoop M thr maxc argmax fuel (vs ++ [last]) approx dmax = some r →
        GoodResult M f thr r ∧ r.length < maxc) ∧
      (cholLoop M thr maxc argmax fuel (vs ++ [last]) approx dmax = none →
        ∃ ps : List n, (ps.map f).Nodup ∧ ps.length = maxc) := by
  induction fuel with
  | zero =>
    intro vs last approx dmax h hf
    by_cases hd : |dmax| > thr
    · rw [cholLoop, if_pos hd]
      refine ⟨fun r hr => by simp at hr, fun _ => ?_⟩
      obtain ⟨ps, hl, hn, -⟩ := (inv_step M f thr hthr argmax ha vs last approx dmax h hd).done
      refine ⟨ps, hn, ?_⟩
      rw [hl]; simp; omega
    · rw [cholLoop, if_neg hd]
      refine ⟨fun r hr => ?_, fun hc => by simp at hc⟩
      simp only [List.dropLast_concat, Option.some.injEq] at hr
      subst hr
      obtain ⟨h1, hpsd, ⟨k, hk, hmax, hlast⟩, ⟨ps, hpl, hpn, hp0⟩, hsame⟩ := h
      have hd0 : 0 ≤ dmax := by rw [hk]; exact psd_diag hpsd k
      rw [abs_of_nonneg hd0, gt_iff_lt, not_lt] at hd
      refine ⟨⟨fun i j => psd_cs hpsd thr (fun i => (hmax i).trans hd) i j,
        fun i => psd_diag hpsd i, ps, hpl, hpn, fun p hp j => ?_⟩, by omega⟩
      have := hp0 p hp p rfl j
      simp only [residual, Matrix.of_apply] at this
      linarith
  | succ fuel ih =>
    intro vs last approx dmax h hf
    by_cases hd : |dmax| > thr
    · have hstep := inv_step M f thr hthr argmax ha vs last approx dmax h hd
      rw [cholLoop, if_pos hd]
      have hl : (vs ++ [last]).getLastD 0 = last := by simp
      simp only [hl]
      rw [if_neg (by simp; omega)]
      exact ih _ _ _ _ hstep (by simp; omega)
    · rw [cholLoop, if_neg hd]
      refine ⟨fun r hr => ?_, fun hc => by simp at hc⟩
      simp only [List.dropLast_concat, Option.some.injEq] at hr
      subst hr
      obtain ⟨h1, hpsd, ⟨k, hk, hmax, hlast⟩, ⟨ps, hpl, hpn, hp0⟩, hsame⟩ := h
      have hd0 : 0 ≤ dmax := by rw [hk]; exact psd_diag hpsd k
      rw [abs_of_nonneg hd0, gt_iff_lt, not_lt] at hd
      refine ⟨⟨fun i j => psd_cs hpsd thr (fun i => (hmax i).trans hd) i j,
        fun i => psd_diag hpsd i, ps, hpl, hpn, fun p hp j => ?_⟩, by omega⟩
      have := hp0 p hp p rfl j
      simp only [residual, Matrix.of_apply] at this
      linarith

/-- **C28.** For every symmetric positive semidefinite matrix, every threshold and every limit
on the number of vectors: a returned list reproduces every entry within the threshold,
never overshoots the diagonal, reproduces the rows of its pivots exactly, and has fewer
vectors than the limit; an error is only possible if more pivots with different rows than
the limit allows were needed.  `f` groups indices with identical rows. -/
theorem chols_blocked_spec [DecidableEq n] (M : Matrix n n ℝ) (hM : IsPSD M) (f : n → m)
    (hf : ∀ i i', f i = f i' → ∀ j, M i j = M i' j) (thr : ℝ) (hthr : 0 ≤ thr) (maxc : ℕ)
    (argmax : (n → ℝ) → n) (ha : IsArgmax argmax) :
    (∀ r, cholsBlocked M thr maxc argmax = some r → GoodResult M f thr r ∧ r.length < maxc) ∧
    (cholsBlocked M thr maxc argmax = none → maxc ≤ Fintype.card m) := by
  unfold cholsBlocked
  by_cases h0 : maxc = 0
  · simp [h0]
  simp only [if_neg h0]
  have hinv : LoopInv M f [] (fun i => M i (argmax fun i => M i i) /
      Real.sqrt (M (argmax fun i => M i i) (argmax fun i => M i i))) (fun _ => 0)
      (M (argmax fun i => M i i) (argmax fun i => M i i)) := by
    have e : residual M [] = M := by ext i j; simp [residual]
    refine ⟨by simp, by rw [e]; exact hM, ⟨argmax fun i => M i i, by rw [e], ?_, by rw [e]⟩,
      ⟨[], rfl, by simp, by simp⟩, by rw [e]; exact hf⟩
    intro i
    rw [e]
    exact ha (fun i => M i i) i
  obtain ⟨h1, h2⟩ := loop_spec M f thr hthr maxc argmax ha (maxc - 1) _ _ _ _ hinv (by simp; omega)
  refine ⟨h1, fun hn => ?_⟩
  obtain ⟨ps, hnd, hl⟩ := h2 hn
  have := hnd.length_le_card
  rw [List.length_map, hl] at this
  exact this

/-- **C28 for real orbitals.** With `nao ≤ 28` basis functions and the default limit of
`15 nao` vectors the decomposition always succeeds: integrals are symmetric in the orbitals
of a pair, so at most `nao (nao+1)/2` pivots exist. -/
theorem chols_blocked_default (nao : ℕ) (hn : 0 < nao) (hn' : nao ≤ 28)
    (M : Matrix (Fin nao × Fin nao) (Fin nao × Fin nao) ℝ) (hM : IsPSD M)
    (hsym : ∀ a b x, M (a, b) x = M (b, a) x) (thr : ℝ) (hthr : 0 ≤ thr)
    (argmax : (Fin nao × Fin nao → ℝ) → Fin nao × Fin nao) (ha : IsArgmax argmax) :
    ∃ r, cholsBlocked M thr (15 * nao) argmax = some r ∧
      (∀ i j, |M i j - (r.map fun L => L i * L j).sum| ≤ thr) ∧ r.length < 15 * nao := by
  have hf : ∀ i i' : Fin nao × Fin nao, Sym2.mk i.1 i.2 = Sym2.mk i'.1 i'.2 → ∀ j, M i j = M i' j := by
    rintro ⟨a, b⟩ ⟨c, d⟩ h j
    rw [Sym2.eq_iff] at h
    rcases h with ⟨rfl, rfl⟩ | ⟨rfl, rfl⟩
    · rfl
    · exact hsym _ _ _
  obtain ⟨h1, h2⟩ := chols_blocked_spec M hM (fun i => Sym2.mk i.1 i.2) hf thr hthr (15 * nao) argmax ha
  cases hc : cholsBlocked M thr (15 * nao) argmax with
  | none =>
    have := h2 hc
    rw [Sym2.card, Fintype.card_fin, Nat.choose_two_right] at this
    have h3 : (nao + 1) * (nao + 1 - 1) ≤ 29 * nao := by
      rw [Nat.add_sub_cancel]; exact Nat.mul_le_mul_right _ (by omega)
    have h4 : (nao + 1) * (nao + 1 - 1) / 2 ≤ 29 * nao / 2 := Nat.div_le_div_right h3
    omega
  | some r =>
    obtain ⟨hg, hl⟩ := h1 r hc
    exact ⟨r, rfl, hg.close, hl⟩

/-- The hypotheses are met by a rank-one matrix, and an `argmax` exists. -/
example : IsPSD (!![1, 2; 2, 4] : Matrix (Fin 2) (Fin 2) ℝ) ∧
    ∃ argmax : (Fin 2 → ℝ) → Fin 2, IsArgmax argmax := by
  refine ⟨⟨?_, fun v => ?_⟩, fun f => if f 0 ≤ f 1 then 1 else 0, ?_⟩
  · intro i j
    fin_cases i <;> fin_cases j <;> rfl
  · simp [Fin.sum_univ_two]
    nlinarith [sq_nonneg (v 0 + 2 * v 1)]
  · intro f i
    by_cases h : f 0 ≤ f 1
    · simp only [if_pos h]; fin_cases i <;> simp [h]
    · simp only [if_neg h]; fin_cases i <;> simp [(not_le.1 h).le]

end OpenMS.Integrals
