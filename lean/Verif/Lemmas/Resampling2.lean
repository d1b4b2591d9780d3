import Verif.Lemmas.Resampling

/-! Selection functions of the two resampling methods. -/

set_option linter.unusedSectionVars false

namespace OpenMS.PopulationControl

variable {K : Type*} [Field K] [LinearOrder K] [IsStrictOrderedRing K] {α : Type*}

/-- Normalised cumulative weight of the first `j` walkers. -/
def cumP (weights : List K) (j : ℕ) : K := (weights.take j).sum / weights.sum

theorem sum_map_div (l : List K) (t : K) : (l.map (· / t)).sum = l.sum / t := by
  induction l with
  | nil => simp
  | cons a l ih => simp only [List.map_cons, List.sum_cons, ih]; ring

theorem cum_getElem (weights : List K) (t : K) (j : ℕ)
    (hj : j < (cumsumFrom 0 (weights.map (· / t))).length) (ht : t = weights.sum) :
    (cumsumFrom 0 (weights.map (· / t)))[j] = cumP weights (j + 1) := by
  rw [cumsumFrom_getElem, zero_add, ← List.map_take, sum_map_div, cumP, ht]

theorem cum_length (weights : List K) (t : K) :
    (cumsumFrom 0 (weights.map (· / t))).length = weights.length := by
  rw [cumsumFrom_length, List.length_map]

theorem cumP_zero (weights : List K) : cumP weights 0 = 0 := by simp [cumP]

theorem cumP_length (weights : List K) (h : 0 < weights.sum) :
    cumP weights weights.length = 1 := by
  rw [cumP, List.take_length, div_self h.ne']

theorem cumP_succ (weights : List K) (j : ℕ) (w : K) (hj : weights[j]? = some w) :
    cumP weights (j + 1) = cumP weights j + w / weights.sum := by
  obtain ⟨h, rfl⟩ := List.getElem?_eq_some_iff.1 hj
  rw [cumP, cumP, List.take_add_one, List.sum_append, hj]
  simp [add_div]

theorem cumP_mono (weights : List K) (hpos : ∀ w ∈ weights, 0 ≤ w) (h : 0 < weights.sum) :
    Monotone (cumP weights) := by
  apply monotone_nat_of_le_succ
  intro j
  by_cases hj : j < weights.length
  · rw [cumP_succ weights j _ (List.getElem?_eq_getElem hj)]
    have := div_nonneg (hpos _ (List.getElem_mem hj)) h.le
    linarith
  · rw [cumP, cumP, List.take_of_length_le (by omega), List.take_of_length_le (by omega)]

section
variable (weights : List K) (hpos : ∀ w ∈ weights, 0 ≤ w) (htot : 0 < weights.sum)
include hpos htot

/-- First index whose cumulative weight exceeds `x`. -/
theorem findIdx_lt_eq_iff (x : K) (hx0 : 0 ≤ x) (j : ℕ) (hj : j < weights.length) :
    ((cumsumFrom 0 (weights.map (· / weights.sum))).findIdx fun c => decide (x < c)) = j ↔
      cumP weights j ≤ x ∧ x < cumP weights (j + 1) := by
  have hl := cum_length weights weights.sum
  have hm := cumP_mono weights hpos htot
  rw [List.findIdx_eq (by omega)]
  simp only [cum_getElem weights weights.sum _ _ rfl, decide_eq_true_eq, decide_eq_false_iff_not,
    not_lt]
  constructor
  · rintro ⟨h1, h2⟩
    refine ⟨?_, h1⟩
    cases j with
    | zero => rw [cumP_zero]; exact hx0
    | succ j => exact h2 j (by omega)
  · rintro ⟨h1, h2⟩
    exact ⟨h2, fun j' hj' => le_trans (hm (by omega)) h1⟩

theorem findIdx_lt_lt (x : K) (hx1 : x < 1) :
    ((cumsumFrom 0 (weights.map (· / weights.sum))).findIdx fun c => decide (x < c))
      < weights.length := by
  have hl := cum_length weights weights.sum
  have hn : weights ≠ [] := by rintro rfl; simp at htot
  have hlen : 0 < weights.length := List.length_pos_iff.2 hn
  have h2 : weights.length - 1 < (cumsumFrom 0 (weights.map (· / weights.sum))).length := by omega
  rw [← hl]
  rw [List.findIdx_lt_length]
  refine ⟨_, List.getElem_mem h2, ?_⟩
  rw [cum_getElem _ _ _ _ rfl]
  have : weights.length - 1 + 1 = weights.length := by omega
  rw [this, cumP_length _ htot]
  simpa using hx1

/-- First index whose cumulative weight reaches `x`. -/
theorem findIdx_le_eq_iff (x : K) (hx0 : 0 < x) (j : ℕ) (hj : j < weights.length) :
    ((cumsumFrom 0 (weights.map (· / weights.sum))).findIdx fun c => decide (x ≤ c)) = j ↔
      cumP weights j < x ∧ x ≤ cumP weights (j + 1) := by
  have hl := cum_length weights weights.sum
  have hm := cumP_mono weights hpos htot
  rw [List.findIdx_eq (by omega)]
  simp only [cum_getElem weights weights.sum _ _ rfl, decide_eq_true_eq, decide_eq_false_iff_not,
    not_le]
  constructor
  · rintro ⟨h1, h2⟩
    refine ⟨?_, h1⟩
    cases j with
    | zero => rw [cumP_zero]; exact hx0
    | succ j => exact h2 j (by omega)
  · rintro ⟨h1, h2⟩
    exact ⟨h2, fun j' hj' => lt_of_le_of_lt (hm (by omega)) h1⟩

theorem findIdx_le_lt (x : K) (hx1 : x ≤ 1) :
    ((cumsumFrom 0 (weights.map (· / weights.sum))).findIdx fun c => decide (x ≤ c))
      < weights.length := by
  have hl := cum_length weights weights.sum
  have hn : weights ≠ [] := by rintro rfl; simp at htot
  have hlen : 0 < weights.length := List.length_pos_iff.2 hn
  have h2 : weights.length - 1 < (cumsumFrom 0 (weights.map (· / weights.sum))).length := by omega
  rw [← hl]
  rw [List.findIdx_lt_length]
  refine ⟨_, List.getElem_mem h2, ?_⟩
  rw [cum_getElem _ _ _ _ rfl]
  have : weights.length - 1 + 1 = weights.length := by omega
  rw [this, cumP_length _ htot]
  simpa using hx1

end

theorem length_pos_of_sum_pos (weights : List K) (h : 0 < weights.sum) : 0 < weights.length := by
  rcases weights with _ | ⟨a, l⟩
  · simp at h
  · simp

theorem pos_lt_one (N i : ℕ) (start : K) (hi : i < N) (h1 : start < 1 / N) :
    start + (i : K) / N < 1 := by
  have hN : (0 : K) < N := by exact_mod_cast (by omega : 0 < N)
  have h2 : ((i : K) + 1) ≤ N := by exact_mod_cast hi
  have : (i : K) / N + 1 / N ≤ 1 := by
    rw [← add_div, div_le_one hN]; exact h2
  linarith

theorem pos_nonneg (N i : ℕ) (start : K) (h0 : 0 ≤ start) : 0 ≤ start + (i : K) / N := by
  have : (0 : K) ≤ (i : K) / N := by positivity
  linarith

theorem pos_mono (N : ℕ) (start : K) (i : ℕ) :
    start + (i : K) / N ≤ start + ((i + 1 : ℕ) : K) / N := by
  have : (i : K) / N ≤ ((i + 1 : ℕ) : K) / N := by
    apply div_le_div_of_nonneg_right _ (by positivity)
    push_cast; linarith
  linarith

/-- Selection made by the reconfiguration for grid point `i`. -/
def selR (weights : List K) (start : K) (i : ℕ) : ℕ :=
  (cumsumFrom 0 (weights.map (· / weights.sum))).findIdx fun c =>
    decide (start + (i : K) / weights.length < c)

/-- Selection made by the comb for grid point `i`. -/
def selC (weights : List K) (start : K) (i : ℕ) : ℕ :=
  (cumsumFrom 0 (weights.map (· / weights.sum))).findIdx fun c =>
    decide (start + (i : K) / weights.length ≤ c)

theorem reconfiguration_eq (start : K) (phiw : List α) (weights : List K) (d : α)
    (hlen : phiw.length = weights.length) (hpos : ∀ w ∈ weights, 0 ≤ w) (htot : 0 < weights.sum)
    (h1 : start < 1 / weights.length) :
    stochasticReconfiguration start phiw weights =
      .ok ((List.range weights.length).map fun i => phiw.getD (selR weights start i) d,
        List.replicate weights.length (weights.sum / weights.length)) := by
  have hN := length_pos_of_sum_pos weights htot
  unfold stochasticReconfiguration
  simp only
  rw [if_neg (by omega), if_neg htot.ne', reconfLoop_spec (d := d)]
  · simp [selR, List.range_eq_range']
  · exact fun i => pos_mono _ _ i
  · intro i hi
    have hlt := findIdx_lt_lt weights hpos htot (start + (i : K) / weights.length)
      (pos_lt_one _ _ _ hi h1)
    replace hlt := lt_of_lt_of_eq hlt (cum_length weights weights.sum).symm
    rw [List.findIdx_lt_length] at hlt
    obtain ⟨c, hc, hc'⟩ := hlt
    exact ⟨c, hc, by simpa using hc'⟩
  · rw [cum_length, hlen]
  · intro j' hj'; omega

theorem comb_eq (offset : K) (phiw : List α) (weights : List K) (d : α)
    (hlen : phiw.length = weights.length) (hpos : ∀ w ∈ weights, 0 ≤ w) (htot : 0 < weights.sum)
    (h1 : offset < 1 / weights.length) :
    combResampling offset phiw weights =
      .ok ((List.range weights.length).map fun i => phiw.getD (selC weights offset i) d,
        List.replicate weights.length (weights.sum / weights.length)) := by
  have hN := length_pos_of_sum_pos weights htot
  unfold combResampling
  simp only
  rw [if_neg (by omega), if_neg htot.ne',
    mapM_option_eq _ _ (fun i => phiw.getD (selC weights offset i) d)]
  intro i hi
  have hi := List.mem_range.1 hi
  have hlt := findIdx_le_lt weights hpos htot (offset + (i : K) / weights.length)
    (pos_lt_one _ _ _ hi h1).le
  replace hlt := lt_of_lt_of_eq hlt hlen.symm
  unfold searchsortedLeft selC
  simp [hlt]

theorem count_map_range (N : ℕ) (f : ℕ → ℕ) (j : ℕ) :
    ((List.range N).map f).count j = ((Finset.range N).filter fun i => f i = j).card := by
  induction N with
  | zero => simp
  | succ n ih =>
    rw [List.range_succ, List.map_append, List.count_append, ih, Finset.range_add_one,
      Finset.filter_insert]
    by_cases h : f n = j
    · rw [if_pos h, Finset.card_insert_of_notMem (by simp)]
      simp [h]
    · rw [if_neg h]
      simp [h]

variable [FloorRing K]

/-- Copies made by the reconfiguration. -/
theorem count_selR (weights : List K) (start : K) (hpos : ∀ w ∈ weights, 0 ≤ w)
    (htot : 0 < weights.sum) (h0 : 0 ≤ start) (h1 : start < 1 / weights.length)
    (j : ℕ) (hj : j < weights.length) :
    (((List.range weights.length).map (selR weights start)).count j : ℤ) =
      ⌈weights.length * cumP weights (j + 1) - weights.length * start⌉ -
      ⌈weights.length * cumP weights j - weights.length * start⌉ := by
  have hN := length_pos_of_sum_pos weights htot
  have hNK : (0 : K) < weights.length := by exact_mod_cast hN
  have hm := cumP_mono weights hpos htot
  have hNs : weights.length * start < 1 := by
    rw [lt_div_iff₀ hNK] at h1; linarith
  have hPj : 0 ≤ cumP weights j := by rw [← cumP_zero weights]; exact hm (Nat.zero_le _)
  have hPj1 : cumP weights (j + 1) ≤ 1 := by
    rw [← cumP_length weights htot]; exact hm hj
  rw [count_map_range, ← card_Ico_grid weights.length]
  · congr 2
    apply Finset.filter_congr
    intro i hi
    rw [selR, findIdx_lt_eq_iff weights hpos htot _ (pos_nonneg _ _ _ h0) j hj]
    have e1 : cumP weights j ≤ start + (i : K) / weights.length ↔
        weights.length * cumP weights j - weights.length * start ≤ i := by
      rw [← sub_le_iff_le_add', le_div_iff₀ hNK]
      constructor <;> intro h <;> linarith
    have e2 : start + (i : K) / weights.length < cumP weights (j + 1) ↔
        (i : K) < weights.length * cumP weights (j + 1) - weights.length * start := by
      rw [← lt_sub_iff_add_lt', div_lt_iff₀ hNK]
      constructor <;> intro h <;> linarith
    rw [e1, e2]
  · have := mul_nonneg hNK.le hPj
    linarith
  · have := mul_le_mul_of_nonneg_left (hm (Nat.le_succ j)) hNK.le
    simp only [Nat.succ_eq_add_one] at this
    linarith
  · have h2 := mul_le_mul_of_nonneg_left hPj1 hNK.le
    have h3 := mul_nonneg hNK.le h0
    linarith

/-- Copies made by the comb, for a positive offset. -/
theorem count_selC (weights : List K) (start : K) (hpos : ∀ w ∈ weights, 0 ≤ w)
    (htot : 0 < weights.sum) (h0 : 0 < start) (h1 : start < 1 / weights.length)
    (j : ℕ) (hj : j < weights.length) :
    (((List.range weights.length).map (selC weights start)).count j : ℤ) =
      ⌊weights.length * cumP weights (j + 1) - weights.length * start⌋ -
      ⌊weights.length * cumP weights j - weights.length * start⌋ := by
  have hN := length_pos_of_sum_pos weights htot
  have hNK : (0 : K) < weights.length := by exact_mod_cast hN
  have hm := cumP_mono weights hpos htot
  have hNs : weights.length * start < 1 := by
    rw [lt_div_iff₀ hNK] at h1; linarith
  have hPj : 0 ≤ cumP weights j := by rw [← cumP_zero weights]; exact hm (Nat.zero_le _)
  have hPj1 : cumP weights (j + 1) ≤ 1 := by
    rw [← cumP_length weights htot]; exact hm hj
  rw [count_map_range, ← card_Ioc_grid weights.length]
  · congr 2
    apply Finset.filter_congr
    intro i hi
    have hxi : 0 < start + (i : K) / weights.length := by
      have : (0 : K) ≤ (i : K) / weights.length := by positivity
      linarith
    rw [selC, findIdx_le_eq_iff weights hpos htot _ hxi j hj]
    have e1 : cumP weights j < start + (i : K) / weights.length ↔
        weights.length * cumP weights j - weights.length * start < i := by
      rw [← sub_lt_iff_lt_add', lt_div_iff₀ hNK]
      constructor <;> intro h <;> linarith
    have e2 : start + (i : K) / weights.length ≤ cumP weights (j + 1) ↔
        (i : K) ≤ weights.length * cumP weights (j + 1) - weights.length * start := by
      rw [← le_sub_iff_add_le', div_le_iff₀ hNK]
      constructor <;> intro h <;> linarith
    rw [e1, e2]
  · have := mul_nonneg hNK.le hPj
    linarith
  · have := mul_le_mul_of_nonneg_left (hm (Nat.le_succ j)) hNK.le
    simp only [Nat.succ_eq_add_one] at this
    linarith
  · have h2 := mul_le_mul_of_nonneg_left hPj1 hNK.le
    have h3 := mul_pos hNK h0
    linarith

end OpenMS.PopulationControl
