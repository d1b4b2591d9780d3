import Verif.Model.Stats
import Mathlib.Tactic.Linarith
import Mathlib.Tactic.NormNum
import Mathlib.Tactic.Ring
import Mathlib.Tactic.FieldSimp
import Mathlib.Tactic.Positivity
import Mathlib.Algebra.Order.BigOperators.Group.List

/-!
# C29: statistics helpers
-/

namespace OpenMS.Stats

set_option linter.unusedSectionVars false

/-! ### `get_mean_std` -/

theorem lastSlice_length {α : Type*} (m : ℕ) (xs : List α) (h : m ≤ xs.length) :
    (lastSlice m xs).length = m := by
  simp [lastSlice]; omega

theorem sum_getD (xs : List ℝ) : xs.sum = ∑ i ∈ Finset.range xs.length, xs.getD i 0 := by
  induction xs with
  | nil => simp
  | cons x xs ih => rw [List.sum_cons, List.length_cons, Finset.sum_range_succ', ih]; simp [add_comm]

/-- **C29**: `get_mean_std` averages the real parts of exactly the last `max(1, len // N)`
energies, and its standard deviation is the root mean square deviation of the same window. -/
theorem mean_std_window (energies : List ℂ) (hne : energies ≠ []) (N : ℕ) (hN : 0 < N) :
    ∃ m μ σ, m = max 1 (energies.length / N) ∧ m ≤ energies.length ∧
      getMeanStd energies N = some (μ, σ) ∧
      μ = (∑ i ∈ Finset.range m, (energies.getD (energies.length - m + i) 0).re) / m ∧
      0 ≤ σ ∧
      σ ^ 2 = (∑ i ∈ Finset.range m,
        ((energies.getD (energies.length - m + i) 0).re - μ) ^ 2) / m := by
  have hl : 0 < energies.length := List.length_pos_iff.2 hne
  have hm : max 1 (energies.length / N) ≤ energies.length := by
    have := Nat.div_le_self energies.length N
    omega
  have hsum : ∀ (f : ℂ → ℝ) (m : ℕ), m ≤ energies.length →
      ((lastSlice m energies).map f).sum =
        ∑ i ∈ Finset.range m, f (energies.getD (energies.length - m + i) 0) := by
    intro f m hm
    rw [sum_getD, List.length_map, lastSlice_length m _ hm]
    apply Finset.sum_congr rfl
    intro i hi
    rw [Finset.mem_range] at hi
    have h1 : energies.length - m + i < energies.length := by omega
    rw [List.getD_eq_getElem _ _ (by rw [List.length_map, lastSlice_length m _ hm]; exact hi),
      List.getD_eq_getElem _ _ h1]
    simp [lastSlice]
  refine ⟨_, _, _, rfl, hm, by unfold getMeanStd; rw [if_neg (by omega)], ?_, ?_, ?_⟩
  · rw [mean, hsum _ _ hm, List.length_map, lastSlice_length _ _ hm]
  · exact Real.sqrt_nonneg _
  · unfold std
    rw [Real.sq_sqrt]
    · conv_lhs => rw [mean, List.map_map]
      rw [hsum _ _ hm, List.length_map, lastSlice_length _ _ hm]
      rfl
    · unfold mean
      apply div_nonneg _ (by positivity)
      apply List.sum_nonneg
      intro x hx
      rw [List.mem_map] at hx
      obtain ⟨y, -, rfl⟩ := hx
      positivity

/-- Twelve energies with `N = 10`: only the last one counts. -/
example : getMeanStd ((List.replicate 11 0) ++ [3]) 10 = some (3, 0) := by
  simp [getMeanStd, lastSlice, mean, std]

/-! ### `auto_window` -/

variable {K : Type*} [Field K] [LinearOrder K]

/-- The criterion of `auto_window` holds at lag `k`: the window may be closed there. -/
def Closed (c : K) (times : List K) (k : ℕ) : Prop := c * times.getD k 0 ≤ k

theorem windowMask_getElem (c : K) (times : List K) (k : ℕ) (h : k < (windowMask c times).length) :
    (windowMask c times)[k] = true ↔ ¬ Closed c times k := by
  have h' : k < times.length := by simpa [windowMask] using h
  rw [Closed, List.getD_eq_getElem _ _ h']
  simp [windowMask]

/-- **C29**: the automatic window is always a valid index. -/
theorem auto_window_valid (c : K) (times : List K) (hne : times ≠ []) :
    0 ≤ autoWindow c times ∧ autoWindow c times < times.length := by
  have hl : 0 < times.length := List.length_pos_iff.2 hne
  have hlen : (windowMask c times).length = times.length := by simp [windowMask]
  unfold autoWindow argminBool
  split_ifs with h1 h2
  · simpa using hl
  · refine ⟨by positivity, ?_⟩
    rw [← hlen]
    have : (windowMask c times).findIdx (!·) < (windowMask c times).length := by
      apply List.findIdx_lt_length_of_exists
      simpa using h2
    exact_mod_cast this
  · constructor <;> omega

/-- **C29 (part)**: if the window is open at lag 0 and closes somewhere, `auto_window` returns
the first lag at which it closes. -/
theorem auto_window_partial (c : K) (times : List K) (h0 : ¬ Closed c times 0)
    (hex : ∃ k, k < times.length ∧ Closed c times k) :
    ∃ w : ℕ, autoWindow c times = w ∧ w < times.length ∧ Closed c times w ∧
      ∀ j < w, ¬ Closed c times j := by
  obtain ⟨k, hk, hc⟩ := hex
  have hlen : (windowMask c times).length = times.length := by simp [windowMask]
  have hany : (windowMask c times).any id = true := by
    rw [List.any_eq_true]
    exact ⟨(windowMask c times)[0]'(by omega), List.getElem_mem _,
      (windowMask_getElem c times 0 (by omega)).2 h0⟩
  have hmk : (windowMask c times)[k]'(by omega) = false := by
    rw [← Bool.not_eq_true, windowMask_getElem]; simpa using hc
  have hall : (windowMask c times).all id = false := by
    rw [List.all_eq_false]
    exact ⟨_, List.getElem_mem (by omega : k < _), by simp [hmk]⟩
  have hlt : (windowMask c times).findIdx (!·) < (windowMask c times).length := by
    apply List.findIdx_lt_length_of_exists
    exact ⟨_, List.getElem_mem (by omega : k < _), by simp [hmk]⟩
  refine ⟨(windowMask c times).findIdx (!·), ?_, by omega, ?_, ?_⟩
  · unfold autoWindow argminBool
    rw [if_pos hany, hall]; simp
  · have := List.findIdx_getElem (p := (!·)) (xs := windowMask c times) (w := hlt)
    by_contra hn
    rw [← windowMask_getElem c times _ hlt] at hn
    simp [hn] at this
  · intro j hj
    have := List.not_of_lt_findIdx hj
    rw [← windowMask_getElem c times j (by omega)]
    simpa using this

example : autoWindow (5 : ℚ) [1, 2, 1 / 5, 9] = 2 := by
  norm_num [autoWindow, windowMask, argminBool, List.findIdx_cons]

/-- **C29 fails for a window that never closes**: with every lag still open, `auto_window`
returns lag 0 (`argmin` of an all-true mask), not the last lag; and when the criterion already
holds at lag 0 but everywhere, it returns the last lag, not the first. -/
theorem auto_window_fails :
    (∃ times : List ℚ, (∀ k < times.length, ¬ Closed 5 times k) ∧ times.length = 2 ∧
      autoWindow 5 times = 0) ∧
    (∃ times : List ℚ, Closed 5 times 0 ∧ times.length = 2 ∧ autoWindow 5 times = 1) := by
  refine ⟨⟨[1, 3], ?_, rfl, ?_⟩, ⟨[0, 0], ?_, rfl, ?_⟩⟩
  · intro k hk
    have : k = 0 ∨ k = 1 := by simp at hk; omega
    rcases this with rfl | rfl <;> norm_num [Closed]
  · norm_num [autoWindow, windowMask, argminBool]
  · norm_num [Closed]
  · norm_num [autoWindow, windowMask, argminBool]

/-! ### `remove_outliers` -/

theorem mean_replicate (n : ℕ) (hn : 0 < n) (a : ℝ) : mean (List.replicate n a) = a := by
  have : (n : ℝ) ≠ 0 := by positivity
  simp [mean, this]

/-- **C29 fails for constant data**: the z-score filter drops every sample of a constant
series, whatever the threshold. -/
theorem zscore_constant_fails (n : ℕ) (hn : 0 < n) (a thr : ℝ) :
    removeOutliers (List.replicate n a) "zscore" thr = .ok [] := by
  have : std (List.replicate n a) = 0 := by
    rw [std, mean_replicate n hn, List.map_replicate, mean_replicate n hn]
    simp
  simp [removeOutliers, zscoreFilter, this]

theorem std_sq (xs : List ℝ) : std xs ^ 2 = mean (xs.map fun x => (x - mean xs) ^ 2) := by
  unfold std
  rw [Real.sq_sqrt]
  unfold mean
  apply div_nonneg _ (by positivity)
  apply List.sum_nonneg
  intro x hx
  rw [List.mem_map] at hx
  obtain ⟨y, -, rfl⟩ := hx
  positivity

/-- **C29 (part)**: for data that are not constant and a threshold above one, the z-score
filter returns a non-empty sublist: some sample always lies within one standard deviation. -/
theorem zscore_nonempty_partial (data : List ℝ) (h : std data ≠ 0) (thr : ℝ) (ht : 1 < thr) :
    ∃ kept, removeOutliers data "zscore" thr = .ok kept ∧ kept ≠ [] ∧ List.Sublist kept data ∧
      ∀ x, x ∈ kept ↔ x ∈ data ∧ |x - mean data| < thr * std data := by
  have hpos : 0 < std data := lt_of_le_of_ne (Real.sqrt_nonneg _) (Ne.symm h)
  have hmem : ∀ x, x ∈ zscoreFilter data thr ↔ x ∈ data ∧ |x - mean data| < thr * std data := by
    intro x
    rw [zscoreFilter, if_neg h, List.mem_filter]
    simp only [decide_eq_true_eq, abs_div, abs_of_pos hpos, div_lt_iff₀ hpos]
  refine ⟨zscoreFilter data thr, by simp [removeOutliers], ?_, ?_, hmem⟩
  · -- otherwise every squared deviation exceeds the mean squared deviation
    have hne : data ≠ [] := by rintro rfl; simp [std, mean] at h
    have hl : (0 : ℝ) < data.length := by exact_mod_cast List.length_pos_iff.2 hne
    intro he
    have hall : ∀ x ∈ data, std data ^ 2 < (x - mean data) ^ 2 := by
      intro x hx
      have : ¬ |x - mean data| < thr * std data := by
        intro hlt
        have := (hmem x).2 ⟨hx, hlt⟩
        rw [he] at this; simp at this
      push Not at this
      have h1 : std data < |x - mean data| := by nlinarith
      rw [← sq_abs (x - mean data)]
      nlinarith
    have hlt : (data.map fun _ => std data ^ 2).sum < (data.map fun x => (x - mean data) ^ 2).sum :=
      List.sum_lt_sum_of_ne_nil hne _ _ hall
    have := std_sq data
    conv_rhs at this => rw [mean, List.length_map]
    rw [eq_div_iff hl.ne'] at this
    simp at hlt
    rw [← this] at hlt
    linarith [mul_comm (std data ^ 2) (data.length : ℝ)]
  · unfold zscoreFilter
    rw [if_neg h]
    exact List.filter_sublist

example : std [0, 2] ≠ 0 := by norm_num [std, mean]

/-- Sorted data, as used by `percentile`. -/
theorem sorted_mono (data : List ℝ) (a b : ℕ) (hab : a ≤ b) (hb : b < data.length) :
    (data.insertionSort (· ≤ ·)).getD a 0 ≤ (data.insertionSort (· ≤ ·)).getD b 0 := by
  have hl : (data.insertionSort (· ≤ ·)).length = data.length := List.length_insertionSort _ _
  rw [List.getD_eq_getElem _ _ (by omega), List.getD_eq_getElem _ _ (by omega)]
  rcases Nat.eq_or_lt_of_le hab with rfl | hlt
  · exact le_rfl
  · exact List.pairwise_iff_getElem.1 (List.pairwise_insertionSort (· ≤ ·) data) _ _ _ _ hlt

theorem percentile_le (data : List ℝ) (p : ℝ) (hp : 0 ≤ p) (m : ℕ) (hm : m < data.length)
    (h : p * ((data.length : ℝ) - 1) ≤ m) :
    percentile data p ≤ (data.insertionSort (· ≤ ·)).getD m 0 := by
  have hl1 : (1 : ℝ) ≤ data.length := by exact_mod_cast (by omega : 1 ≤ data.length)
  have hpos : 0 ≤ p * ((data.length : ℝ) - 1) := mul_nonneg hp (by linarith)
  unfold percentile
  simp only
  set pos := p * ((data.length : ℝ) - 1) with hposdef
  have h1 := Nat.floor_le hpos
  have h2 := Nat.lt_floor_add_one pos
  have hlo : ⌊pos⌋₊ ≤ m := by
    have := Nat.floor_le_floor (R := ℝ) h
    rwa [Nat.floor_natCast] at this
  rcases Nat.eq_or_lt_of_le hlo with he | hlt
  · have : pos = ⌊pos⌋₊ := by
      apply le_antisymm _ h1
      rw [he]; exact h
    rw [← this, sub_self, mul_zero, add_zero, he]
  · have hmin : min (⌊pos⌋₊ + 1) (data.length - 1) = ⌊pos⌋₊ + 1 := by omega
    rw [hmin]
    have ha := sorted_mono data ⌊pos⌋₊ (⌊pos⌋₊ + 1) (by omega) (by omega)
    have hb := sorted_mono data (⌊pos⌋₊ + 1) m (by omega) hm
    nlinarith

theorem le_percentile (data : List ℝ) (p : ℝ) (hp1 : p < 1) (m : ℕ)
    (hm : m < data.length) (h : (m : ℝ) ≤ p * ((data.length : ℝ) - 1)) :
    (data.insertionSort (· ≤ ·)).getD m 0 ≤ percentile data p := by
  have hl1 : (1 : ℝ) ≤ data.length := by exact_mod_cast (by omega : 1 ≤ data.length)
  have hpos : 0 ≤ p * ((data.length : ℝ) - 1) := le_trans (Nat.cast_nonneg _) h
  unfold percentile
  simp only
  set pos := p * ((data.length : ℝ) - 1) with hposdef
  have h1 := Nat.floor_le hpos
  have h2 := Nat.lt_floor_add_one pos
  have hlo : m ≤ ⌊pos⌋₊ := Nat.le_floor h
  have hlt : ⌊pos⌋₊ < data.length := by
    have : (⌊pos⌋₊ : ℝ) < data.length := by nlinarith
    exact_mod_cast this
  have ha := sorted_mono data m ⌊pos⌋₊ hlo hlt
  have hb := sorted_mono data ⌊pos⌋₊ (min (⌊pos⌋₊ + 1) (data.length - 1)) (by omega) (by omega)
  nlinarith

/-- Specification: `q` is the quantile `p` of the data, linearly interpolated between the
neighbouring order statistics. -/
def IsQuantile (data : List ℝ) (p q : ℝ) : Prop :=
  ∀ s : List ℝ, s.Pairwise (· ≤ ·) → s.Perm data →
    ∃ (k : ℕ) (t : ℝ), p * ((data.length : ℝ) - 1) = k + t ∧ 0 ≤ t ∧ t < 1 ∧
      ((t = 0 ∧ s[k]? = some q) ∨
        ∃ x y, s[k]? = some x ∧ s[k + 1]? = some y ∧ q = (1 - t) * x + t * y)

theorem percentile_isQuantile (data : List ℝ) (hne : data ≠ []) (p : ℝ) (hp : 0 ≤ p) (hp1 : p < 1) :
    IsQuantile data p (percentile data p) := by
  intro s hs hperm
  have hl : 0 < data.length := List.length_pos_iff.2 hne
  have hL : (1 : ℝ) ≤ data.length := by exact_mod_cast hl
  have hsort : data.insertionSort (· ≤ ·) = s := by
    apply List.Perm.eq_of_pairwise (le := (· ≤ ·))
    · intro a b _ _ hab hba; exact le_antisymm hab hba
    · exact List.pairwise_insertionSort _ _
    · exact hs
    · exact (List.perm_insertionSort _ _).trans hperm.symm
  have hpos : 0 ≤ p * ((data.length : ℝ) - 1) := mul_nonneg hp (by linarith)
  have hlen : s.length = data.length := hperm.length_eq
  unfold percentile
  simp only
  rw [hsort]
  set pos := p * ((data.length : ℝ) - 1) with hposdef
  have h1 := Nat.floor_le hpos
  have h2 := Nat.lt_floor_add_one pos
  have hlt : ⌊pos⌋₊ < data.length := by
    have : (⌊pos⌋₊ : ℝ) < data.length := by nlinarith
    exact_mod_cast this
  refine ⟨⌊pos⌋₊, pos - ⌊pos⌋₊, by ring, by linarith, by linarith, ?_⟩
  by_cases ht : pos - ⌊pos⌋₊ = 0
  · left
    refine ⟨ht, ?_⟩
    rw [ht, mul_zero, add_zero, List.getD_eq_getElem _ _ (by omega), List.getElem?_eq_getElem]
  · right
    have hk : ⌊pos⌋₊ + 1 < data.length := by
      have h3 : (⌊pos⌋₊ : ℝ) < pos := lt_of_le_of_ne h1 (fun h => ht (by linarith))
      have h4 : pos ≤ (data.length : ℝ) - 1 := by nlinarith
      have : ((⌊pos⌋₊ + 1 : ℕ) : ℝ) < data.length := by push_cast; linarith
      exact_mod_cast this
    refine ⟨s[⌊pos⌋₊]'(by omega), s[⌊pos⌋₊ + 1]'(by omega), List.getElem?_eq_getElem _,
      List.getElem?_eq_getElem _, ?_⟩
    rw [show min (⌊pos⌋₊ + 1) (data.length - 1) = ⌊pos⌋₊ + 1 by omega,
      List.getD_eq_getElem _ _ (by omega), List.getD_eq_getElem _ _ (by omega)]
    ring

/-- **C29**: for a threshold of at least one half (the documented value is 1.5) the
interquartile filter returns a non-empty sublist of the data, namely the entries within the
given multiple of the interquartile range. -/
theorem iqr_nonempty (data : List ℝ) (hne : data ≠ []) (thr : ℝ) (ht : 1 / 2 ≤ thr) :
    ∃ kept, removeOutliers data "iqr" thr = .ok kept ∧ kept ≠ [] ∧ List.Sublist kept data ∧
      ∃ q1 q3, IsQuantile data (1 / 4) q1 ∧ IsQuantile data (3 / 4) q3 ∧
        ∀ x, x ∈ kept ↔ x ∈ data ∧ q1 - thr * (q3 - q1) ≤ x ∧ x ≤ q3 + thr * (q3 - q1) := by
  have hl : 0 < data.length := List.length_pos_iff.2 hne
  refine ⟨iqrFilter data thr, by simp [removeOutliers], ?_, List.filter_sublist,
    percentile data (1 / 4), percentile data (3 / 4),
    percentile_isQuantile data hne _ (by norm_num) (by norm_num),
    percentile_isQuantile data hne _ (by norm_num) (by norm_num), fun x => by
      unfold iqrFilter
      rw [List.mem_filter, Bool.and_eq_true, decide_eq_true_eq, decide_eq_true_eq]⟩
  set s := data.insertionSort (· ≤ ·) with hs
  have hsl : s.length = data.length := List.length_insertionSort _ _
  -- a sorted element inside the bounds
  suffices hx : ∃ m < data.length,
      percentile data (1 / 4) - thr * (percentile data (3 / 4) - percentile data (1 / 4)) ≤ s.getD m 0 ∧
      s.getD m 0 ≤ percentile data (3 / 4) + thr * (percentile data (3 / 4) - percentile data (1 / 4)) by
    obtain ⟨m, hm, hlo, hhi⟩ := hx
    have hmem : s.getD m 0 ∈ data := by
      rw [List.getD_eq_getElem _ _ (by omega), ← List.mem_insertionSort (· ≤ ·)]
      exact List.getElem_mem _
    apply List.ne_nil_of_mem (a := s.getD m 0)
    unfold iqrFilter
    rw [List.mem_filter]
    refine ⟨hmem, ?_⟩
    rw [Bool.and_eq_true, decide_eq_true_eq, decide_eq_true_eq]
    exact ⟨hlo, hhi⟩
  have hL : (1 : ℝ) ≤ data.length := by exact_mod_cast hl
  rcases Nat.lt_or_ge data.length 3 with h3 | h3
  · have hcase : data.length = 1 ∨ data.length = 2 := by omega
    rcases hcase with h1 | h2
    · refine ⟨0, hl, ?_⟩
      have e1 : percentile data (1 / 4) = s.getD 0 0 := by simp [percentile, h1, ← hs]
      have e2 : percentile data (3 / 4) = s.getD 0 0 := by simp [percentile, h1, ← hs]
      rw [e1, e2]; simp
    · refine ⟨0, hl, ?_⟩
      have f1 : ⌊(1 / 4 : ℝ) * ((2 : ℕ) - 1 : ℝ)⌋₊ = 0 := by
        rw [Nat.floor_eq_zero]; norm_num
      have f2 : ⌊(3 / 4 : ℝ) * ((2 : ℕ) - 1 : ℝ)⌋₊ = 0 := by
        rw [Nat.floor_eq_zero]; norm_num
      have e1 : percentile data (1 / 4) = s.getD 0 0 + (s.getD 1 0 - s.getD 0 0) * (1 / 4) := by
        simp only [percentile, h2, ← hs, f1]; norm_num
      have e2 : percentile data (3 / 4) = s.getD 0 0 + (s.getD 1 0 - s.getD 0 0) * (3 / 4) := by
        simp only [percentile, h2, ← hs, f2]; norm_num
      have := sorted_mono data 0 1 (by omega) (by omega)
      rw [← hs] at this
      rw [e1, e2]
      constructor <;> nlinarith
  · refine ⟨(data.length - 1) / 2, by omega, ?_⟩
    have hq1 := percentile_le data (1 / 4) (by norm_num) ((data.length - 1) / 2) (by omega) (by
      have : data.length - 1 ≤ 4 * ((data.length - 1) / 2) := by omega
      have h' : ((data.length - 1 : ℕ) : ℝ) ≤ 4 * (((data.length - 1) / 2 : ℕ) : ℝ) := by
        exact_mod_cast this
      rw [Nat.cast_sub (by omega)] at h'
      push_cast at h' ⊢
      linarith)
    have hq3 := le_percentile data (3 / 4) (by norm_num) ((data.length - 1) / 2) (by omega) (by
      have : 4 * ((data.length - 1) / 2) ≤ 3 * (data.length - 1) := by omega
      have h' : 4 * (((data.length - 1) / 2 : ℕ) : ℝ) ≤ 3 * ((data.length - 1 : ℕ) : ℝ) := by
        exact_mod_cast this
      rw [Nat.cast_sub (by omega)] at h'
      push_cast at h' ⊢
      linarith)
    rw [← hs] at hq1 hq3
    constructor <;> nlinarith

/-- **C29**: the interquartile filter keeps identical data unchanged. -/
theorem iqr_constant (n : ℕ) (hn : 0 < n) (a thr : ℝ) :
    removeOutliers (List.replicate n a) "iqr" thr = .ok (List.replicate n a) := by
  have hmono : ∀ m < n, ((List.replicate n a).insertionSort (· ≤ ·)).getD m 0 = a := by
    intro m hm
    have hl : ((List.replicate n a).insertionSort (· ≤ ·)).length = n := by
      rw [List.length_insertionSort, List.length_replicate]
    rw [List.getD_eq_getElem _ _ (by omega)]
    have := List.getElem_mem (by omega : m < ((List.replicate n a).insertionSort (· ≤ ·)).length)
    rw [List.mem_insertionSort] at this
    exact List.eq_of_mem_replicate this
  have hq : ∀ p : ℝ, 0 ≤ p → p < 1 → percentile (List.replicate n a) p = a := by
    intro p hp hp1
    have h0 : (1 : ℝ) ≤ n := by exact_mod_cast hn
    have hlt : ⌊p * ((n : ℝ) - 1)⌋₊ < n := by
      rw [Nat.floor_lt (mul_nonneg hp (by linarith))]
      nlinarith
    unfold percentile
    simp only [List.length_replicate]
    rw [hmono _ hlt, hmono _ (by omega)]
    ring
  have : iqrFilter (List.replicate n a) thr = List.replicate n a := by
    unfold iqrFilter
    simp only [hq (1 / 4) (by norm_num) (by norm_num), hq (3 / 4) (by norm_num) (by norm_num)]
    rw [List.filter_eq_self]
    intro x hx
    rw [List.eq_of_mem_replicate hx]
    simp
  simp [removeOutliers, this]

end OpenMS.Stats
