import Verif.Lemmas.Resampling2

/-!
# Properties of reconfiguration and comb resampling (C06 - C09)
-/

set_option linter.unusedSectionVars false

namespace OpenMS.PopulationControl

variable {K : Type*} [Field K] [LinearOrder K] [IsStrictOrderedRing K] {α : Type*}

/-! ## Specification -/

/-- `out` is a selection of `N` elements of `inp` that keeps the order of `inp`. -/
def OrderedSelection (N : ℕ) (inp out : List α) : Prop :=
  ∃ sel : List ℕ, sel.length = N ∧ sel.Pairwise (· ≤ ·) ∧ (∀ j ∈ sel, j < inp.length) ∧
    out.map some = sel.map fun j => inp[j]?

/-- Number of copies of walker number `j` in the output of a run on the walker numbers. -/
def copies (j : ℕ) : Except Err (List ℕ × List K) → ℕ
  | .ok (labels, _) => labels.count j
  | .error _ => 0

theorem sel_ordered (P : K → K → Bool) (cum : List K)
    (hmono : ∀ x y c, x ≤ y → P y c = true → P x c = true) (start : K) (N : ℕ) :
    ((List.range N).map fun i : ℕ => cum.findIdx (P (start + (i : K) / N))).Pairwise (· ≤ ·) := by
  rw [List.pairwise_map]
  refine List.Pairwise.imp ?_ List.pairwise_lt_range
  intro i j hij
  apply List.findIdx_le_findIdx
  intro c _
  apply hmono
  have : (i : K) / N ≤ (j : K) / N :=
    div_le_div_of_nonneg_right (by exact_mod_cast hij.le) (by positivity)
  linarith

theorem ordered_of_map (phiw : List α) (N : ℕ) (sel : ℕ → ℕ) (d : α)
    (hs : ((List.range N).map sel).Pairwise (· ≤ ·)) (hl : ∀ i, i < N → sel i < phiw.length) :
    OrderedSelection N phiw ((List.range N).map fun i => phiw.getD (sel i) d) := by
  refine ⟨(List.range N).map sel, by simp, hs, ?_, ?_⟩
  · intro j hj
    obtain ⟨i, hi, rfl⟩ := List.mem_map.1 hj
    exact hl i (List.mem_range.1 hi)
  · rw [List.map_map, List.map_map]
    apply List.map_congr_left
    intro i hi
    have := hl i (List.mem_range.1 hi)
    simp [this]

theorem sum_replicate_div (N : ℕ) (W : K) (hN : 0 < N) :
    (List.replicate N (W / N)).sum = W := by
  have : (N : K) ≠ 0 := by exact_mod_cast hN.ne'
  rw [List.sum_replicate, nsmul_eq_mul]
  field_simp

/-! ## C06 -/

/-- **C06.** Reconfiguration succeeds for every admissible offset, returns exactly
`N` input walkers in input order and `N` equal weights with the total of the input. -/
theorem reconfiguration_size (start : K) (phiw : List α) (weights : List K)
    (hlen : phiw.length = weights.length) (hpos : ∀ w ∈ weights, 0 ≤ w) (htot : 0 < weights.sum)
    (h1 : start < 1 / weights.length) :
    ∃ newWalkers newWeights,
      stochasticReconfiguration start phiw weights = .ok (newWalkers, newWeights) ∧
      OrderedSelection weights.length phiw newWalkers ∧
      newWalkers.length = weights.length ∧ newWeights.length = weights.length ∧
      (∀ w ∈ newWeights, w = weights.sum / weights.length) ∧
      newWeights.sum = weights.sum := by
  have hN := length_pos_of_sum_pos weights htot
  obtain ⟨d, hd⟩ : ∃ d, d ∈ phiw := List.exists_mem_of_length_pos (by omega)
  refine ⟨_, _, reconfiguration_eq start phiw weights d hlen hpos htot h1, ?_, by simp, by simp,
    ?_, sum_replicate_div _ _ hN⟩
  · apply ordered_of_map
    · exact sel_ordered (fun x c => decide (x < c)) _
        (fun x y c h => by simpa using fun h' => lt_of_le_of_lt h h') start weights.length
    · intro i hi
      rw [hlen]
      exact findIdx_lt_lt weights hpos htot _ (pos_lt_one _ _ _ hi h1)
  · intro w hw
    exact (List.mem_replicate.1 hw).2

/-- An empty population and a population of total weight zero are rejected by an exception. -/
theorem reconfiguration_rejects (start : K) (phiw : List α) (weights : List K)
    (h : weights = [] ∨ weights.sum = 0) :
    ∃ e, stochasticReconfiguration start phiw weights = .error e := by
  rcases h with rfl | h
  · exact ⟨_, rfl⟩
  · unfold stochasticReconfiguration
    by_cases h0 : weights.length = 0
    · exact ⟨_, by simp only; rw [if_pos h0]⟩
    · exact ⟨_, by simp only; rw [if_neg h0, if_pos h]⟩

/-- A concrete run: three walkers, the first carries half of the weight, the second none. -/
example : stochasticReconfiguration (1 / 4 : ℚ) ["a", "b", "c"] [2, 0, 2] =
    .ok (["a", "c", "c"], [4 / 3, 4 / 3, 4 / 3]) := by
  norm_num [stochasticReconfiguration, cumsumFrom]
  iterate 6 (rw [reconfLoop]; norm_num)
  rfl

/-! ## C07 -/

/-- **C07.** A walker of weight `w` is copied `⌊N w / W⌋` or `⌈N w / W⌉` times. -/
theorem reconfiguration_copies [FloorRing K] (start : K) (weights : List K)
    (hpos : ∀ w ∈ weights, 0 ≤ w) (htot : 0 < weights.sum)
    (h0 : 0 ≤ start) (h1 : start < 1 / weights.length) :
    ∃ labels newWeights,
      stochasticReconfiguration start (List.range weights.length) weights
        = .ok (labels, newWeights) ∧
      ∀ j w, weights[j]? = some w →
        ⌊weights.length * w / weights.sum⌋ ≤ (labels.count j : ℤ) ∧
        (labels.count j : ℤ) ≤ ⌈weights.length * w / weights.sum⌉ ∧
        (w = 0 → j ∉ labels) := by
  have hrange : ∀ i, i ∈ List.range weights.length →
      (List.range weights.length).getD (selR weights start i) 0 = selR weights start i := by
    intro i hi
    have : selR weights start i < weights.length :=
      findIdx_lt_lt weights hpos htot _ (pos_lt_one _ _ _ (List.mem_range.1 hi) h1)
    simp [this]
  refine ⟨_, _, reconfiguration_eq start _ weights 0 (by simp) hpos htot h1, ?_⟩
  rw [List.map_congr_left hrange]
  intro j w hw
  have hj : j < weights.length := (List.getElem?_eq_some_iff.1 hw).1
  have hc := count_selR weights start hpos htot h0 h1 j hj
  have hb := ceil_sub_bounds (weights.length * cumP weights j - weights.length * start)
    (weights.length * w / weights.sum)
  have he : weights.length * cumP weights j - weights.length * start +
      weights.length * w / weights.sum =
      weights.length * cumP weights (j + 1) - weights.length * start := by
    rw [cumP_succ weights j w hw]; ring
  rw [he, ← hc] at hb
  refine ⟨hb.1, hb.2, fun h => ?_⟩
  rw [← List.count_eq_zero]
  have := hb.2
  rw [h, mul_zero, zero_div, Int.ceil_zero] at this
  omega

/-- The hypotheses are met by the run above, where the second walker has no weight. -/
example : (∀ w ∈ ([2, 0, 2] : List ℚ), 0 ≤ w) ∧ (0 : ℚ) < [2, 0, 2].sum ∧
    (0 : ℚ) ≤ 1 / 4 ∧ (1 / 4 : ℚ) < 1 / ([2, 0, 2] : List ℚ).length := by
  norm_num

/-! ## C08 -/

/-- **C08, first part.** Comb resampling succeeds for every admissible offset,
returns `N` input walkers in input order and `N` equal weights with the total of
the input. -/
theorem comb_size (offset : K) (phiw : List α) (weights : List K)
    (hlen : phiw.length = weights.length) (hpos : ∀ w ∈ weights, 0 ≤ w) (htot : 0 < weights.sum)
    (h1 : offset < 1 / weights.length) :
    ∃ newWalkers newWeights,
      combResampling offset phiw weights = .ok (newWalkers, newWeights) ∧
      OrderedSelection weights.length phiw newWalkers ∧
      newWalkers.length = weights.length ∧ newWeights.length = weights.length ∧
      (∀ w ∈ newWeights, w = weights.sum / weights.length) ∧
      newWeights.sum = weights.sum := by
  have hN := length_pos_of_sum_pos weights htot
  obtain ⟨d, hd⟩ : ∃ d, d ∈ phiw := List.exists_mem_of_length_pos (by omega)
  refine ⟨_, _, comb_eq offset phiw weights d hlen hpos htot h1, ?_, by simp, by simp,
    ?_, sum_replicate_div _ _ hN⟩
  · apply ordered_of_map
    · exact sel_ordered (fun x c => decide (x ≤ c)) _
        (fun x y c h => by simpa using fun h' => le_trans h h') offset weights.length
    · intro i hi
      rw [hlen]
      exact findIdx_le_lt weights hpos htot _ (pos_lt_one _ _ _ hi h1).le
  · intro w hw
    exact (List.mem_replicate.1 hw).2

/-- **C08, second part (partial).** For a positive offset a walker of weight `w` is
copied `⌊N w / W⌋` or `⌈N w / W⌉` times.  Missing: the offset zero, which
`uniform(0, 1/N)` can return and for which the claim is false, see
`comb_copies_fails`. -/
theorem comb_copies_partial [FloorRing K] (offset : K) (weights : List K)
    (hpos : ∀ w ∈ weights, 0 ≤ w) (htot : 0 < weights.sum)
    (h0 : 0 < offset) (h1 : offset < 1 / weights.length) :
    ∃ labels newWeights,
      combResampling offset (List.range weights.length) weights = .ok (labels, newWeights) ∧
      ∀ j w, weights[j]? = some w →
        ⌊weights.length * w / weights.sum⌋ ≤ (labels.count j : ℤ) ∧
        (labels.count j : ℤ) ≤ ⌈weights.length * w / weights.sum⌉ ∧
        (w = 0 → j ∉ labels) := by
  have hrange : ∀ i, i ∈ List.range weights.length →
      (List.range weights.length).getD (selC weights offset i) 0 = selC weights offset i := by
    intro i hi
    have : selC weights offset i < weights.length :=
      findIdx_le_lt weights hpos htot _ (pos_lt_one _ _ _ (List.mem_range.1 hi) h1).le
    simp [this]
  refine ⟨_, _, comb_eq offset _ weights 0 (by simp) hpos htot h1, ?_⟩
  rw [List.map_congr_left hrange]
  intro j w hw
  have hj : j < weights.length := (List.getElem?_eq_some_iff.1 hw).1
  have hc := count_selC weights offset hpos htot h0 h1 j hj
  have hb := floor_sub_bounds (weights.length * cumP weights j - weights.length * offset)
    (weights.length * w / weights.sum)
  have he : weights.length * cumP weights j - weights.length * offset +
      weights.length * w / weights.sum =
      weights.length * cumP weights (j + 1) - weights.length * offset := by
    rw [cumP_succ weights j w hw]; ring
  rw [he, ← hc] at hb
  refine ⟨hb.1, hb.2, fun h => ?_⟩
  rw [← List.count_eq_zero]
  have := hb.2
  rw [h, mul_zero, zero_div, Int.ceil_zero] at this
  omega

/-- The hypotheses are met with unequal weights and a small offset. -/
example : (∀ w ∈ ([2, 0, 2] : List ℚ), 0 ≤ w) ∧ (0 : ℚ) < [2, 0, 2].sum ∧
    (0 : ℚ) < 1 / 4 ∧ (1 / 4 : ℚ) < 1 / ([2, 0, 2] : List ℚ).length := by
  norm_num

/-- **C08, negation.** With offset zero the comb keeps a walker of weight zero. -/
theorem comb_copies_fails :
    ∃ (weights : List ℚ) (labels : List ℕ) (newWeights : List ℚ),
      (∀ w ∈ weights, 0 ≤ w) ∧ 0 < weights.sum ∧
      combResampling 0 (List.range weights.length) weights = .ok (labels, newWeights) ∧
      weights[0]? = some 0 ∧ 0 ∈ labels := by
  refine ⟨[0, 1], [0, 1], [1 / 2, 1 / 2], by norm_num, by norm_num, ?_, rfl, by simp⟩
  norm_num [combResampling, cumsumFrom, searchsortedLeft, List.findIdx, List.findIdx.go,
    List.range, List.range.loop, List.mapM_cons]
  rfl

/-! ## C09 -/

open intervalIntegral MeasureTheory in
/-- **C09, reconfiguration.** With the offset uniform in `[0, 1/N)` the mean number of
copies of a walker of weight `w` is `N w / W`. -/
theorem reconfiguration_unbiased (weights : List ℝ)
    (hpos : ∀ w ∈ weights, 0 ≤ w) (htot : 0 < weights.sum) (j : ℕ) (w : ℝ)
    (hw : weights[j]? = some w) :
    ∫ u in (0 : ℝ)..1, (copies j (stochasticReconfiguration (u / weights.length)
      (List.range weights.length) weights) : ℝ) = weights.length * w / weights.sum := by
  have hN := length_pos_of_sum_pos weights htot
  have hNR : (0 : ℝ) < weights.length := by exact_mod_cast hN
  have hj : j < weights.length := (List.getElem?_eq_some_iff.1 hw).1
  obtain ⟨i1, v1⟩ := integral_ceil_sub (weights.length * cumP weights (j + 1))
  obtain ⟨i2, v2⟩ := integral_ceil_sub (weights.length * cumP weights j)
  have hae : ∀ᵐ u ∂(volume : Measure ℝ), u ∈ Set.uIoc (0 : ℝ) 1 →
      (copies j (stochasticReconfiguration (u / weights.length)
        (List.range weights.length) weights) : ℝ) =
      ((⌈weights.length * cumP weights (j + 1) - u⌉ : ℤ) : ℝ) -
      ((⌈weights.length * cumP weights j - u⌉ : ℤ) : ℝ) := by
    filter_upwards [ae_ne 1] with u hu hm
    rw [Set.uIoc_of_le zero_le_one] at hm
    have h1 : u / weights.length < 1 / weights.length :=
      div_lt_div_of_pos_right (lt_of_le_of_ne hm.2 hu) hNR
    have h0 : 0 ≤ u / weights.length := div_nonneg hm.1.le hNR.le
    have hrange : ∀ i, i ∈ List.range weights.length →
        (List.range weights.length).getD (selR weights (u / weights.length) i) 0 =
          selR weights (u / weights.length) i := by
      intro i hi
      have : selR weights (u / weights.length) i < weights.length :=
        findIdx_lt_lt weights hpos htot _ (pos_lt_one _ _ _ (List.mem_range.1 hi) h1)
      simp [this]
    rw [reconfiguration_eq _ _ weights 0 (by simp) hpos htot h1, List.map_congr_left hrange]
    have hc := count_selR weights (u / weights.length) hpos htot h0 h1 j hj
    have hu' : weights.length * (u / weights.length) = u := by field_simp
    rw [hu'] at hc
    unfold copies
    exact_mod_cast hc
  rw [intervalIntegral.integral_congr_ae hae, intervalIntegral.integral_sub i1 i2, v1, v2,
    cumP_succ weights j w hw]
  ring

open intervalIntegral MeasureTheory in
/-- **C09, comb.** The same mean for the comb. -/
theorem comb_unbiased (weights : List ℝ)
    (hpos : ∀ w ∈ weights, 0 ≤ w) (htot : 0 < weights.sum) (j : ℕ) (w : ℝ)
    (hw : weights[j]? = some w) :
    ∫ u in (0 : ℝ)..1, (copies j (combResampling (u / weights.length)
      (List.range weights.length) weights) : ℝ) = weights.length * w / weights.sum := by
  have hN := length_pos_of_sum_pos weights htot
  have hNR : (0 : ℝ) < weights.length := by exact_mod_cast hN
  have hj : j < weights.length := (List.getElem?_eq_some_iff.1 hw).1
  obtain ⟨i1, v1⟩ := integral_floor_sub (weights.length * cumP weights (j + 1))
  obtain ⟨i2, v2⟩ := integral_floor_sub (weights.length * cumP weights j)
  have hae : ∀ᵐ u ∂(volume : Measure ℝ), u ∈ Set.uIoc (0 : ℝ) 1 →
      (copies j (combResampling (u / weights.length)
        (List.range weights.length) weights) : ℝ) =
      ((⌊weights.length * cumP weights (j + 1) - u⌋ : ℤ) : ℝ) -
      ((⌊weights.length * cumP weights j - u⌋ : ℤ) : ℝ) := by
    filter_upwards [ae_ne 1] with u hu hm
    rw [Set.uIoc_of_le zero_le_one] at hm
    have h1 : u / weights.length < 1 / weights.length :=
      div_lt_div_of_pos_right (lt_of_le_of_ne hm.2 hu) hNR
    have h0 : 0 < u / weights.length := div_pos hm.1 hNR
    have hrange : ∀ i, i ∈ List.range weights.length →
        (List.range weights.length).getD (selC weights (u / weights.length) i) 0 =
          selC weights (u / weights.length) i := by
      intro i hi
      have : selC weights (u / weights.length) i < weights.length :=
        findIdx_le_lt weights hpos htot _ (pos_lt_one _ _ _ (List.mem_range.1 hi) h1).le
      simp [this]
    rw [comb_eq _ _ weights 0 (by simp) hpos htot h1, List.map_congr_left hrange]
    have hc := count_selC weights (u / weights.length) hpos htot h0 h1 j hj
    have hu' : weights.length * (u / weights.length) = u := by field_simp
    rw [hu'] at hc
    unfold copies
    exact_mod_cast hc
  rw [intervalIntegral.integral_congr_ae hae, intervalIntegral.integral_sub i1 i2, v1, v2,
    cumP_succ weights j w hw]
  ring

/-- Hypotheses of the two theorems, met by three unequal weights: the mean number of copies
of the heaviest walker is `3/2`. -/
example : ∫ u in (0 : ℝ)..1, (copies 2 (stochasticReconfiguration (u / 3)
    (List.range 3) [1, 2, 3]) : ℝ) = 3 / 2 := by
  have := reconfiguration_unbiased [1, 2, 3] (by norm_num) (by norm_num) 2 3 rfl
  norm_num at this ⊢
  exact this

end OpenMS.PopulationControl
