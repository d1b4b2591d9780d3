import Verif.Props.Branching

/-!
# Other branching routines, method dispatch (C05, C10, C11)
-/

set_option linter.unusedSectionVars false

namespace OpenMS.PopulationControl

variable {K : Type*} [Field K] [LinearOrder K] [IsStrictOrderedRing K] {α : Type*}

/-! ## C05 -/

theorem constantLoop_length (minW maxW : K) (rnd : ℕ → K) (idx : List ℕ) (x : List α) (w : List K)
    (s e : ℕ) (x' : List α) (w' : List K)
    (h : constantLoop minW maxW rnd idx x w s e = .ok (x', w')) :
    x'.length = x.length ∧ w'.length = w.length := by
  induction hn : e - s using Nat.strong_induction_on generalizing x w s e with
  | _ n ih =>
  rw [constantLoop] at h
  by_cases hse : s < e
  · rw [if_pos hse] at h
    split at h
    · split at h
      · split at h
        · simp only at h
          split at h
          · have := ih (e - 1 - (s + 1)) (by omega) _ _ _ _ h rfl
            simpa using this
          · have := ih (e - 1 - (s + 1)) (by omega) _ _ _ _ h rfl
            simpa using this
        · cases h; exact ⟨rfl, rfl⟩
      · cases h
    · cases h
  · rw [if_neg hse] at h
    cases h; exact ⟨rfl, rfl⟩

theorem constantLoop_ok (minW maxW : K) (rnd : ℕ → K) (idx : List ℕ) (x : List α) (w : List K)
    (s e : ℕ) (hxw : x.length = w.length) (hidx : ∀ i ∈ idx, i < w.length)
    (he : s < e → e < idx.length) :
    ∃ r, constantLoop minW maxW rnd idx x w s e = .ok r := by
  induction hn : e - s using Nat.strong_induction_on generalizing x w s e with
  | _ n ih =>
  rw [constantLoop]
  by_cases hse : s < e
  · rw [if_pos hse]
    have h1 : s < idx.length := by have := he hse; omega
    have h2 : e < idx.length := he hse
    rw [List.getElem?_eq_getElem h1, List.getElem?_eq_getElem h2]
    have h3 := hidx _ (List.getElem_mem h1)
    have h4 := hidx _ (List.getElem_mem h2)
    simp only
    rw [List.getElem?_eq_getElem h3, List.getElem?_eq_getElem h4,
      List.getElem?_eq_getElem (hxw ▸ h3), List.getElem?_eq_getElem (hxw ▸ h4)]
    simp only
    split
    · split
      · exact ih (e - 1 - (s + 1)) (by omega) _ _ _ _ (by simpa using hxw) (by simpa using hidx)
          (by omega) rfl
      · exact ih (e - 1 - (s + 1)) (by omega) _ _ _ _ (by simpa using hxw) (by simpa using hidx)
          (by omega) rfl
    · exact ⟨_, rfl⟩
  · rw [if_neg hse]; exact ⟨_, rfl⟩

theorem dynLoop_length (minW maxW : K) (rnd : ℕ → K) (idx : List ℕ) (x : List α) (target : ℕ)
    (w : List K) (acc : List (α × K)) (s e1 k : ℕ) (w' : List K) (acc' : List (α × K))
    (hacc : acc.length ≤ target)
    (h : dynLoop minW maxW rnd idx x target w acc s e1 k = .ok (w', acc')) :
    acc'.length ≤ target := by
  induction hn : e1 - s using Nat.strong_induction_on generalizing w acc s e1 k with
  | _ n ih =>
  rw [dynLoop] at h
  split at h
  · rename_i hc
    split at h
    · split at h
      · split at h
        · simp only at h
          split at h
          · exact ih (e1 - 1 - (s + 1)) (by omega) _ _ _ _ _ (by simp; omega) h rfl
          · exact ih (e1 - 1 - (s + 1)) (by omega) _ _ _ _ _ (by simp; omega) h rfl
        · exact ih (e1 - 1 - s) (by omega) _ _ _ _ _ (by simp; omega) h rfl
      · cases h
    · cases h
  · cases h; exact hacc

theorem dynPad_length (x : List α) (w : List K) (target : ℕ) (acc : List (α × K)) (pad : List ℕ)
    (out : List (α × K)) (hacc : acc.length ≤ target) (h : dynPad x w target acc pad = .ok out) :
    out.length = target := by
  induction pad generalizing acc with
  | nil =>
    unfold dynPad at h
    split at h
    · cases h
    · cases h; omega
  | cons i is ih =>
    unfold dynPad at h
    split at h
    · split at h
      · exact ih _ (by simp; omega) h
      · cases h
    · cases h; omega

/-- **C05 (partial), `branching_dp_constant`.** It always succeeds on a sorted order and keeps the number of
walkers and weights.  Missing: conservation of the total weight, which is false, see
`branching_constant_weight_fails`. -/
theorem branching_constant_count_partial (order : List ℕ) (minW maxW : K) (rnd : ℕ → K)
    (walkers : List α) (weights : List K) (hlen : walkers.length = weights.length)
    (hsort : IsArgsort order weights) :
    ∃ newWalkers newWeights,
      branchingDPConstant order minW maxW rnd walkers weights = .ok (newWalkers, newWeights) ∧
      newWalkers.length = walkers.length ∧ newWeights.length = weights.length := by
  have hn : order.length = weights.length := by simpa using hsort.perm.length_eq
  obtain ⟨⟨x, w⟩, hr⟩ := constantLoop_ok minW maxW rnd order walkers weights 0 (walkers.length - 1)
    hlen (fun i hi => List.mem_range.1 ((hsort.perm.mem_iff).1 hi)) (by omega)
  exact ⟨x, w, hr, constantLoop_length _ _ _ _ _ _ _ _ _ _ hr⟩

/-- **C05, negation for `branching_dp_constant`.** One pair of weights `0, 1` with the
default thresholds: the returned weights are `0, 1/2`. -/
theorem branching_constant_weight_fails :
    ∃ (order : List ℕ) (weights newWeights : List ℚ) (walkers newWalkers : List String),
      IsArgsort order weights ∧
      branchingDPConstant order (1 / 5) 4 (fun _ => 0) walkers weights
        = .ok (newWalkers, newWeights) ∧
      (newWeights.map fun w => |w|).sum ≠ (weights.map fun w => |w|).sum := by
  refine ⟨[0, 1], [0, 1], [0, 1 / 2], ["a", "b"], ["a", "a"], ⟨by decide, by simp⟩, ?_,
    by norm_num⟩
  norm_num [branchingDPConstant, constantLoop]

/-- **C05 (partial), `branching_dp_dynamics`.** Whenever it returns, it returns the
target number of walkers.  Missing: conservation of the total weight, which is false,
see `branching_dynamics_weight_fails`. -/
theorem branching_dynamics_count_partial (order : List ℕ) (minW maxW : K) (rnd : ℕ → K)
    (pad : List ℕ) (walkers : List α) (weights : List K) (out : List (α × K))
    (h : branchingDPDynamics order minW maxW rnd pad walkers weights = .ok out) :
    out.length = walkers.length := by
  unfold branchingDPDynamics at h
  split at h
  · rename_i w acc hd
    exact dynPad_length _ _ _ _ _ _ (dynLoop_length _ _ _ _ _ _ _ _ _ _ _ _ _ (by simp) hd) h
  · cases h

/-- **C05, negation for `branching_dp_dynamics`.** One pair of weights `0, 1` with the default
thresholds; the padding draws the walker of weight zero and the total drops to `1/2`. -/
theorem branching_dynamics_weight_fails :
    ∃ (order : List ℕ) (weights : List ℚ) (walkers : List String) (out : List (String × ℚ)),
      IsArgsort order weights ∧
      branchingDPDynamics order (1 / 5) 2 (fun _ => 0) [0] walkers weights = .ok out ∧
      (out.map fun p => |p.2|).sum ≠ (weights.map fun w => |w|).sum := by
  refine ⟨[0, 1], [0, 1], ["a", "b"], [("a", 1 / 2), ("a", 0)], ⟨by decide, by simp⟩, ?_,
    by norm_num⟩
  unfold branchingDPDynamics
  iterate 2 (rw [dynLoop]; norm_num)
  norm_num [dynPad]

/-! ## C10 -/

/-- **C10, no-op.** For any method that is not one of the three registered names
(including Python's `None`), population control returns its input. -/
theorem population_control_unknown (d : Draws K) (method : Option String)
    (walkers : List α) (weights : List K)
    (h : method ∉ [some "branching", some "reconfiguration", some "comb"]) :
    populationControl d method walkers weights = .ok (walkers, weights) := by
  have : lookupMethod method = none := by
    unfold lookupMethod
    split
    · simp at h
    · simp at h
    · simp at h
    · rfl
  unfold populationControl
  rw [this]

/-- **C10, dispatch.** The three registered names run the method of that name. -/
theorem population_control_known (d : Draws K) (walkers : List α) (weights : List K) :
    populationControl d (some "branching") walkers weights =
      branchingDP0 d.order (1 / 10) 2 d.rnd walkers weights ∧
    populationControl d (some "reconfiguration") walkers weights =
      stochasticReconfiguration d.offset walkers weights ∧
    populationControl d (some "comb") walkers weights =
      combResampling d.offset walkers weights := ⟨rfl, rfl, rfl⟩

/-- `None`, the default of the simulation, and a misspelt name are both ignored. -/
example (d : Draws ℚ) : populationControl d none ["a", "b"] [0, 100] = .ok (["a", "b"], [0, 100]) ∧
    populationControl d (some "Comb") ["a", "b"] [0, 100] = .ok (["a", "b"], [0, 100]) :=
  ⟨population_control_unknown d _ _ _ (by simp), population_control_unknown d _ _ _ (by simp)⟩

/-! ## C11 -/

/-- Weight carried by the copies of walker number `i`. -/
def carriedBy (i : ℕ) (l : List (ℕ × K)) : K :=
  ((l.filter fun p => p.1 = i).map Prod.snd).sum

/-- The population with walkers replaced by their numbers `k, k+1, …`. -/
def labelled (k : ℕ) : List K → List (ℕ × K)
  | [] => []
  | w :: ws => (k, w) :: labelled (k + 1) ws

/-- What the code does to one walker (specification by cases). -/
theorem threshold_one [FloorRing K] (ub lb : K) (rnd : ℕ → K) (k : ℕ) (x : α) (w : K) :
    thresholdBranch ub lb rnd k [(x, w)] =
      if w > ub then List.replicate (⌊w / ub⌋).toNat (x, w / ((⌊w / ub⌋).toNat : ℕ))
      else if w < lb then (if rnd k < w / lb then [(x, lb)] else [])
      else [(x, w)] := by
  simp [thresholdBranch]

theorem threshold_cons [FloorRing K] (ub lb : K) (rnd : ℕ → K) (k : ℕ) (p : α × K)
    (l : List (α × K)) :
    thresholdBranch ub lb rnd k (p :: l) =
      thresholdBranch ub lb rnd k [p] ++ thresholdBranch ub lb rnd (k + 1) l := by
  obtain ⟨x, w⟩ := p
  simp [thresholdBranch]

theorem copies_pos [FloorRing K] (ub w : K) (hub : 0 < ub) (hw : w > ub) :
    0 < (⌊w / ub⌋).toNat := by
  have : 1 ≤ ⌊w / ub⌋ := by
    rw [Int.le_floor]; push_cast
    rw [le_div_iff₀ hub]; linarith
  omega

/-- **C11, splitting.** A walker above the upper bound is split into at least one copy,
the copies add up to its weight and each copy weighs at least `ub` and less than `2 ub`. -/
theorem threshold_split [FloorRing K] (ub lb : K) (rnd : ℕ → K) (k : ℕ) (x : α) (w : K)
    (hub : 0 < ub) (hw : w > ub) :
    let out := thresholdBranch ub lb rnd k [(x, w)]
    out ≠ [] ∧ (out.map Prod.snd).sum = w ∧
    ∀ p ∈ out, p.1 = x ∧ ub ≤ p.2 ∧ p.2 < 2 * ub := by
  have hn := copies_pos ub w hub hw
  have hnK : (0 : K) < ((⌊w / ub⌋).toNat : ℕ) := by exact_mod_cast hn
  have hcast : (((⌊w / ub⌋).toNat : ℕ) : K) = ((⌊w / ub⌋ : ℤ) : K) := by
    have : ((⌊w / ub⌋).toNat : ℤ) = ⌊w / ub⌋ := Int.toNat_of_nonneg (by omega)
    exact_mod_cast congrArg (Int.cast : ℤ → K) this
  have hfl : ((⌊w / ub⌋ : ℤ) : K) ≤ w / ub := Int.floor_le _
  have hfl2 : w / ub < ((⌊w / ub⌋ : ℤ) : K) + 1 := Int.lt_floor_add_one _
  have hn1 : (1 : K) ≤ ((⌊w / ub⌋).toNat : ℕ) := by exact_mod_cast hn
  simp only [threshold_one, if_pos hw]
  refine ⟨?_, ?_, ?_⟩
  · intro h
    have := congrArg List.length h
    simp at this
    omega
  · rw [List.map_replicate, List.sum_replicate, nsmul_eq_mul]
    field_simp
  · intro p hp
    rw [(List.mem_replicate.1 hp).2]
    refine ⟨rfl, ?_, ?_⟩
    · rw [le_div_iff₀ hnK, hcast]
      rw [le_div_iff₀ hub] at hfl
      linarith
    · rw [div_lt_iff₀ hnK]
      rw [div_lt_iff₀ hub, ← hcast] at hfl2
      nlinarith

/-- Splitting `w = 7` at `ub = 2` gives three copies of weight `7/3`. -/
example : thresholdBranch (2 : ℚ) (1 / 2) (fun _ => 0) 0 [("a", 7)] =
    [("a", 7 / 3), ("a", 7 / 3), ("a", 7 / 3)] := by
  have : ⌊(7 / 2 : ℚ)⌋ = 3 := by rw [Int.floor_eq_iff]; norm_num
  rw [threshold_one, if_pos (by norm_num), this]
  norm_num
  rfl

theorem carriedBy_append (i : ℕ) (l l' : List (ℕ × K)) :
    carriedBy i (l ++ l') = carriedBy i l + carriedBy i l' := by
  simp [carriedBy]

theorem mem_threshold [FloorRing K] (ub lb : K) (rnd : ℕ → K) (k : ℕ) (l : List (α × K))
    (p : α × K) (hp : p ∈ thresholdBranch ub lb rnd k l) : ∃ q ∈ l, q.1 = p.1 := by
  induction l generalizing k with
  | nil => simp [thresholdBranch] at hp
  | cons q l ih =>
    rw [threshold_cons, List.mem_append] at hp
    rcases hp with h | h
    · refine ⟨q, by simp, ?_⟩
      obtain ⟨x, w⟩ := q
      rw [threshold_one] at h
      split_ifs at h
      · rw [(List.mem_replicate.1 h).2]
      · simp at h; rw [h]
      · simp at h
      · simp at h; rw [h]
    · obtain ⟨q', h1, h2⟩ := ih _ h
      exact ⟨q', by simp [h1], h2⟩

theorem labelled_ge (k : ℕ) (ws : List K) (p : ℕ × K) (hp : p ∈ labelled k ws) : k ≤ p.1 := by
  induction ws generalizing k with
  | nil => simp [labelled] at hp
  | cons w ws ih =>
    simp only [labelled, List.mem_cons] at hp
    rcases hp with rfl | h
    · exact le_rfl
    · have := ih _ h; omega

theorem carriedBy_eq_zero (i : ℕ) (l : List (ℕ × K)) (h : ∀ p ∈ l, p.1 ≠ i) :
    carriedBy i l = 0 := by
  have : (l.filter fun p => p.1 = i) = [] := by
    rw [List.filter_eq_nil_iff]
    intro p hp
    simpa using h p hp
  simp [carriedBy, this]

/-- The weight carried by walker `i` is decided by its own weight and its own draw. -/
theorem threshold_carried [FloorRing K] (ub lb : K) (rnd : ℕ → K) (ws : List K) (k i : ℕ) (w : K)
    (hw : ws[i]? = some w) :
    carriedBy (k + i) (thresholdBranch ub lb rnd k (labelled k ws)) =
      ((thresholdBranch ub lb rnd (k + i) [((), w)]).map Prod.snd).sum := by
  induction ws generalizing k i with
  | nil => simp at hw
  | cons v ws ih =>
    rw [labelled, threshold_cons, carriedBy_append]
    cases i with
    | zero =>
      simp only [List.getElem?_cons_zero, Option.some.injEq] at hw
      subst hw
      rw [carriedBy_eq_zero (k + 0) (thresholdBranch ub lb rnd (k + 1) (labelled (k + 1) ws)),
        add_zero, add_zero]
      · rw [threshold_one, threshold_one]
        split_ifs <;> simp [carriedBy]
      · intro p hp
        obtain ⟨q, h1, h2⟩ := mem_threshold _ _ _ _ _ _ hp
        have := labelled_ge _ _ _ h1
        omega
    | succ i =>
      have h1 := ih (k + 1) i (by simpa using hw)
      have e : k + 1 + i = k + (i + 1) := by omega
      rw [e] at h1
      rw [h1, carriedBy_eq_zero, zero_add]
      intro p hp
      obtain ⟨q, h1, h2⟩ := mem_threshold _ _ _ _ _ _ hp
      simp at h1
      rw [← h2, h1]
      simp

/-- **C11, mean weight.** For every walker of non-negative weight, the mean (over its own
draw, for any values of the other draws) of the weight it carries after the step is its
weight before; the weight does not depend on the other draws. -/
theorem threshold_unbiased (ub lb : ℝ) (hub : 0 < ub) (hlb : 0 < lb)
    (weights : List ℝ) (i : ℕ) (w : ℝ) (hw : weights[i]? = some w) (hw0 : 0 ≤ w) :
    (∀ rnd rnd' : ℕ → ℝ, rnd i = rnd' i →
      carriedBy i (thresholdBranch ub lb rnd 0 (labelled 0 weights)) =
      carriedBy i (thresholdBranch ub lb rnd' 0 (labelled 0 weights))) ∧
    ∀ rnd : ℕ → ℝ, ∫ x in (0 : ℝ)..1,
      carriedBy i (thresholdBranch ub lb (Function.update rnd i x) 0 (labelled 0 weights)) = w := by
  have key : ∀ rnd : ℕ → ℝ, carriedBy i (thresholdBranch ub lb rnd 0 (labelled 0 weights)) =
      if w > ub then w else if w < lb then (if rnd i < w / lb then lb else 0) else w := by
    intro rnd
    have h := threshold_carried ub lb rnd weights 0 i w hw
    rw [Nat.zero_add] at h
    rw [h]
    by_cases h1 : w > ub
    · rw [if_pos h1]
      exact (threshold_split ub lb rnd i () w hub h1).2.1
    · rw [threshold_one, if_neg h1, if_neg h1]
      split_ifs <;> simp
  refine ⟨fun rnd rnd' h => by rw [key, key, h], fun rnd => ?_⟩
  simp_rw [key, Function.update_self]
  by_cases h1 : w > ub
  · simp [h1]
  · by_cases h2 : w < lb
    · simp only [if_neg h1, if_pos h2]
      rw [integral_step _ _ _ (div_nonneg hw0 hlb.le) (by rw [div_le_one hlb]; exact h2.le)]
      field_simp
      ring
    · simp [h1, h2]

/-- Hypotheses met by the default bounds and a light walker. -/
example : ([3, 1 / 4, 1] : List ℝ)[1]? = some (1 / 4) ∧ (0 : ℝ) ≤ 1 / 4 := by norm_num

/-- **C11, in range.** A walker within the bounds is left alone. -/
theorem threshold_keep [FloorRing K] (ub lb : K) (rnd : ℕ → K) (k : ℕ) (x : α) (w : K)
    (h1 : w ≤ ub) (h2 : lb ≤ w) : thresholdBranch ub lb rnd k [(x, w)] = [(x, w)] := by
  rw [threshold_one, if_neg (not_lt.2 h1), if_neg (not_lt.2 h2)]

example : thresholdBranch (2 : ℚ) (1 / 2) (fun _ => 0) 0 [("a", 1)] = [("a", 1)] :=
  threshold_keep _ _ _ _ _ _ (by norm_num) (by norm_num)

/-- `branching_control` never returns. -/
theorem branching_control_raises (walkers : List α) (bound : K) :
    branchingControl walkers bound = .error .nameError := rfl

end OpenMS.PopulationControl
