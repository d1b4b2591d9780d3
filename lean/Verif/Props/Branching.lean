import Verif.Lemmas.Branching
import Mathlib.MeasureTheory.Integral.IntervalIntegral.Basic
import Mathlib.Tactic.NormNum

/-!
# Properties of the pair branching population control (C01 - C04)

The claims are stated on the returned lists only.
-/

set_option linter.unusedSectionVars false

namespace OpenMS.PopulationControl

variable {K : Type*} [Field K] [LinearOrder K] [IsStrictOrderedRing K] {α : Type*}

/-! ## Specification -/

/-- Total weight carried by all copies of walker number `i`. -/
def carried (i : ℕ) (out : List ℕ × List K) : K :=
  (((out.1.zip out.2).filter fun p => p.1 = i).map Prod.snd).sum

/-! ## C01, C02 -/

/-- Everything there is to know about the output, in one place. -/
theorem branching_output (order : List ℕ) (minW maxW : K) (rnd : ℕ → K)
    (walkers : List α) (weights : List K) (hlen : walkers.length = weights.length)
    (hsort : order.Perm (List.range weights.length)) :
    ∃ arr : List (Rec K),
      pairLoop minW maxW rnd (order.map fun i => ⟨|weights.getD i 0|, 1, i⟩) 0
        ((order.map fun i => (⟨|weights.getD i 0|, 1, i⟩ : Rec K)).length - 1) = .ok arr ∧
      arr.map Rec.orgIdx = order ∧
      branchingDP0 order minW maxW rnd walkers weights = emit walkers arr := by
  obtain ⟨arr, harr⟩ := pairLoop_ok minW maxW rnd
    (order.map fun i => (⟨|weights.getD i 0|, 1, i⟩ : Rec K))
  refine ⟨arr, harr, ?_, ?_⟩
  · rw [pairLoop_orgIdx _ _ _ _ _ harr, List.map_map]
    simp [Function.comp_def]
  · unfold branchingDP0
    rw [if_pos hlen, sorted_eq order weights hsort]
    simp only
    rw [harr]

/-- **C01.** Branching returns as many walkers and weights as it was given, for
every random stream, every thresholds and every order of equal weights; all
returned walkers are input walkers. -/
theorem branching_count (order : List ℕ) (minW maxW : K) (rnd : ℕ → K)
    (walkers : List α) (weights : List K) (hlen : walkers.length = weights.length)
    (hsort : IsArgsort order weights) :
    ∃ newWalkers newWeights,
      branchingDP0 order minW maxW rnd walkers weights = .ok (newWalkers, newWeights) ∧
      newWalkers.length = walkers.length ∧ newWeights.length = weights.length ∧
      ∀ x ∈ newWalkers, x ∈ walkers := by
  obtain ⟨arr, harr, horg, hb⟩ := branching_output order minW maxW rnd walkers weights hlen hsort.perm
  have hidx : ∀ r ∈ arr, r.orgIdx < walkers.length := by
    intro r hr
    have : r.orgIdx ∈ order := by rw [← horg]; exact List.mem_map_of_mem hr
    rw [hlen]
    exact List.mem_range.1 ((hsort.perm.mem_iff).1 this)
  cases walkers with
  | nil =>
    have h0 : weights = [] := List.length_eq_zero_iff.1 hlen.symm
    have ho : order = [] := by
      have := hsort.perm; rw [h0] at this; simpa using this
    have : arr = [] := by rw [ho] at horg; simpa using horg
    subst this
    exact ⟨[], [], by rw [hb]; rfl, rfl, by rw [h0], by simp⟩
  | cons d ws =>
    rw [emit_eq _ _ d hidx] at hb
    have hcount := pairLoop_sum (fun r : Rec K => r.status) minW maxW rnd _ arr
      (by simp) (by intro a b h1 h2; simp [h1, h2]) harr
    have hn : order.length = weights.length := by simpa using hsort.perm.length_eq
    have hlen' : (arr.flatMap fun r => List.replicate r.status r).length = weights.length := by
      rw [List.length_flatMap]
      simp only [List.length_replicate]
      rw [hcount, List.map_map]
      simp [Function.comp_def, hn]
    refine ⟨_, _, hb, ?_, ?_, ?_⟩
    · rw [List.length_map, hlen', hlen]
    · rw [List.length_map, hlen']
    · intro x hx
      obtain ⟨r, hr, rfl⟩ := List.mem_map.1 hx
      obtain ⟨r', hr', hm⟩ := List.mem_flatMap.1 hr
      have := (List.mem_replicate.1 hm).2
      subst this
      have hlt := hidx _ hr'
      rw [List.getD_eq_getElem?_getD, List.getElem?_eq_getElem hlt]
      exact List.getElem_mem hlt

/-- A length mismatch is rejected by the `assert`. -/
theorem branching_rejects (order : List ℕ) (minW maxW : K) (rnd : ℕ → K)
    (walkers : List α) (weights : List K) (hlen : walkers.length ≠ weights.length) :
    branchingDP0 order minW maxW rnd walkers weights = .error .assertionError := by
  unfold branchingDP0
  rw [if_neg hlen]

/-- **C02.** The weights returned by branching add up to the total absolute
weight that was passed in. -/
theorem branching_total_weight (order : List ℕ) (minW maxW : K) (rnd : ℕ → K)
    (walkers : List α) (weights : List K) (hsort : IsArgsort order weights)
    (newWalkers : List α) (newWeights : List K)
    (h : branchingDP0 order minW maxW rnd walkers weights = .ok (newWalkers, newWeights)) :
    newWeights.sum = (weights.map fun w => |w|).sum := by
  have hlen : walkers.length = weights.length := by
    by_contra hne
    rw [branching_rejects _ _ _ _ _ _ hne] at h
    cases h
  obtain ⟨arr, harr, horg, hb⟩ := branching_output order minW maxW rnd walkers weights hlen hsort.perm
  have hidx : ∀ r ∈ arr, r.orgIdx < walkers.length := by
    intro r hr
    have : r.orgIdx ∈ order := by rw [← horg]; exact List.mem_map_of_mem hr
    rw [hlen]
    exact List.mem_range.1 ((hsort.perm.mem_iff).1 this)
  cases walkers with
  | nil =>
    have h0 : weights = [] := List.length_eq_zero_iff.1 hlen.symm
    have ho : order = [] := by
      have := hsort.perm; rw [h0] at this; simpa using this
    have : arr = [] := by rw [ho] at horg; simpa using horg
    subst this
    rw [hb] at h
    cases h
    rw [h0]; rfl
  | cons d ws =>
    rw [hb, emit_eq _ _ d hidx] at h
    injection h with h
    injection h with h1 h2
    rw [← h2, sum_map_emitted]
    rw [pairLoop_sum (fun r : Rec K => r.status • r.weight) minW maxW rnd _ arr
      (by simp) (by intro a b h1 h2; simp [h1, h2]) harr, List.map_map]
    simp only [Function.comp_def, one_smul]
    exact sum_order order weights hsort.perm

/-- A non-trivial run: two of four walkers are outside the thresholds, the random number
kills the light one, and the heavy one is doubled with half the pair weight. -/
example : branchingDP0 (α := String) [0, 2, 1, 3] (1 / 10) 2 (fun _ => (1 / 2 : ℚ))
    ["a", "b", "c", "d"] [1 / 20, 3 / 2, 1, 3] =
      .ok (["c", "b", "d", "d"], [1, 3 / 2, 61 / 40, 61 / 40]) := by
  norm_num [branchingDP0, sorted_eq, pairLoop, emit, initRecs, List.mapM_cons, List.mapIdx,
    List.mapIdx.go]
  rfl

/-! ## C03 -/

/-- The walkers are only moved around: a run on arbitrary walkers is the run on
the walker numbers, with the walkers looked up. -/
theorem branching_natural (order : List ℕ) (minW maxW : K) (rnd : ℕ → K)
    (walkers : List α) (weights : List K) (hlen : walkers.length = weights.length)
    (hsort : IsArgsort order weights) :
    ∃ labels newWalkers newWeights,
      branchingDP0 order minW maxW rnd (List.range weights.length) weights =
        .ok (labels, newWeights) ∧
      branchingDP0 order minW maxW rnd walkers weights = .ok (newWalkers, newWeights) ∧
      newWalkers.map some = labels.map fun i => walkers[i]? := by
  obtain ⟨arr, harr, horg, hb⟩ := branching_output order minW maxW rnd walkers weights hlen hsort.perm
  obtain ⟨arr', harr', horg', hb'⟩ := branching_output order minW maxW rnd
    (List.range weights.length) weights (by simp) hsort.perm
  rw [harr] at harr'
  cases harr'
  have hidx : ∀ r ∈ arr, r.orgIdx < weights.length := by
    intro r hr
    have : r.orgIdx ∈ order := by rw [← horg]; exact List.mem_map_of_mem hr
    exact List.mem_range.1 ((hsort.perm.mem_iff).1 this)
  cases walkers with
  | nil =>
    have h0 : weights = [] := List.length_eq_zero_iff.1 hlen.symm
    have ho : order = [] := by
      have := hsort.perm; rw [h0] at this; simpa using this
    have : arr = [] := by rw [ho] at horg; simpa using horg
    subst this
    exact ⟨[], [], [], by rw [hb']; rfl, by rw [hb]; rfl, rfl⟩
  | cons d ws =>
    rw [emit_eq _ _ d (by rw [hlen]; exact hidx)] at hb
    rw [emit_eq _ _ 0 (by simpa using hidx)] at hb'
    refine ⟨_, _, _, hb', hb, ?_⟩
    simp only [List.map_map]
    apply List.map_congr_left
    intro r hr
    obtain ⟨r', hr', hm⟩ := List.mem_flatMap.1 hr
    have := (List.mem_replicate.1 hm).2
    subst this
    have hlt := hidx _ hr'
    have hlt' : r.orgIdx < (d :: ws).length := by omega
    simp only [Function.comp, List.getD_eq_getElem?_getD, List.getElem?_eq_getElem hlt',
      List.getElem?_range hlt, Option.getD_some]

/-- Carried weight in terms of the final records. -/
theorem carried_eq (arr : List (Rec K)) (n i : ℕ) (h : ∀ r ∈ arr, r.orgIdx < n) :
    carried i
      (((arr.flatMap fun r => List.replicate r.status r)).map
          fun r => (List.range n).getD r.orgIdx 0,
       ((arr.flatMap fun r => List.replicate r.status r)).map Rec.weight) =
    (arr.map fun r => if r.orgIdx = i then r.status • r.weight else 0).sum := by
  have h1 : (arr.flatMap fun r => List.replicate r.status r).map
      (fun r => (List.range n).getD r.orgIdx 0) =
      (arr.flatMap fun r => List.replicate r.status r).map Rec.orgIdx := by
    apply List.map_congr_left
    intro r hr
    obtain ⟨r', hr', hm⟩ := List.mem_flatMap.1 hr
    have := (List.mem_replicate.1 hm).2
    subst this
    simp [h _ hr']
  rw [h1]
  have h2 : ∀ l : List (Rec K), carried i (l.map Rec.orgIdx, l.map Rec.weight) =
      (l.map fun r => if r.orgIdx = i then r.weight else 0).sum := by
    intro l
    induction l with
    | nil => rfl
    | cons a l ih =>
      unfold carried at ih ⊢
      by_cases ha : a.orgIdx = i
      · simp only [List.map_cons, List.zip_cons_cons, ha, List.filter_cons_of_pos, decide_true,
          List.sum_cons, if_true]
        simp only at ih
        rw [ih]
      · simp only [List.map_cons, List.zip_cons_cons, ha, List.sum_cons, if_false, zero_add]
        simp only at ih
        rw [List.filter_cons_of_neg (by simpa using ha), ih]
  rw [h2, sum_map_emitted]
  congr 1
  apply List.map_congr_left
  intro r _
  split_ifs <;> simp

theorem sum_single {M : Type*} [AddCommMonoid M] (n : ℕ) (g : M) (p : ℕ) (hp : p < n)
    (f : ℕ → M) (hf : ∀ j, j < n → f j = if j = p then g else 0) :
    ∑ j ∈ Finset.range n, f j = g := by
  rw [Finset.sum_congr rfl fun j hj => hf j (Finset.mem_range.1 hj)]
  simp [hp]

open intervalIntegral MeasureTheory in
/-- Mean of a step function on the unit interval. -/
theorem integral_step (c A B : ℝ) (h0 : 0 ≤ c) (h1 : c ≤ 1) :
    ∫ x in (0 : ℝ)..1, (if x < c then A else B) = c * A + (1 - c) * B := by
  have i1 : ∫ x in (0 : ℝ)..c, (if x < c then A else B) = ∫ x in (0 : ℝ)..c, A := by
    apply intervalIntegral.integral_congr_ae
    have : ∀ᵐ x ∂(volume : Measure ℝ), x ≠ c := by
      rw [ae_iff]; simp
    filter_upwards [this] with x hx hxm
    rw [Set.uIoc_of_le h0] at hxm
    rw [if_pos (lt_of_le_of_ne hxm.2 hx)]
  have i2 : ∫ x in c..1, (if x < c then A else B) = ∫ x in c..1, B := by
    apply intervalIntegral.integral_congr
    intro x hx
    rw [Set.uIcc_of_le h1] at hx
    exact if_neg (not_lt.2 hx.1)
  have hint : ∀ a b : ℝ, IntervalIntegrable (fun x => if x < c then A else B) volume a b := by
    intro a b
    apply IntervalIntegrable.congr_ae (f := fun x => (Set.Iio c).indicator (fun _ => A - B) x + B)
    · apply IntervalIntegrable.add _ intervalIntegrable_const
      constructor
      · exact (integrable_const _).indicator measurableSet_Iio
      · exact (integrable_const _).indicator measurableSet_Iio
    · apply Filter.Eventually.of_forall
      intro x
      by_cases hx : x < c
      · simp [Set.indicator, hx]
      · simp [Set.indicator, hx]
  rw [← intervalIntegral.integral_add_adjacent_intervals (hint 0 c) (hint c 1), i1, i2]
  simp

/-- **C03.** Branching is unbiased.  For every walker there is one random draw `k`
that decides its fate: the weight it carries afterwards does not depend on the
other draws, and its mean over that draw (uniform on `[0, 1]`) is the absolute
weight it had. -/
theorem branching_unbiased (order : List ℕ) (minW maxW : ℝ) (weights : List ℝ)
    (hsort : IsArgsort order weights) :
    ∃ run : (ℕ → ℝ) → List ℕ × List ℝ,
      (∀ rnd, branchingDP0 order minW maxW rnd (List.range weights.length) weights
        = .ok (run rnd)) ∧
      ∀ i w, weights[i]? = some w → ∃ k,
        (∀ rnd rnd', rnd k = rnd' k → carried i (run rnd) = carried i (run rnd')) ∧
        ∀ rnd, ∫ x in (0 : ℝ)..1, carried i (run (Function.update rnd k x)) = |w| := by
  have hn : order.length = weights.length := by simpa using hsort.perm.length_eq
  have hnd : order.Nodup := hsort.perm.nodup_iff.2 List.nodup_range
  set srt : List (Rec ℝ) := order.map fun i => ⟨|weights.getD i 0|, 1, i⟩ with hsrt
  have hsl : srt.length = order.length := by simp [hsrt]
  have H : ∀ rnd : ℕ → ℝ, ∃ arr : List (Rec ℝ),
      pairLoop minW maxW rnd srt 0 (srt.length - 1) = .ok arr ∧
      arr.map Rec.orgIdx = order ∧
      branchingDP0 order minW maxW rnd (List.range weights.length) weights
        = emit (List.range weights.length) arr := fun rnd =>
    branching_output order minW maxW rnd (List.range weights.length) weights (by simp) hsort.perm
  choose arr ha1 ha2 ha3 using H
  have hidx : ∀ rnd, ∀ r ∈ arr rnd, r.orgIdx < weights.length := by
    intro rnd r hr
    have : r.orgIdx ∈ order := by rw [← ha2 rnd]; exact List.mem_map_of_mem hr
    exact List.mem_range.1 ((hsort.perm.mem_iff).1 this)
  refine ⟨fun rnd => (((arr rnd).flatMap fun r => List.replicate r.status r).map
      fun r => (List.range weights.length).getD r.orgIdx 0,
      (((arr rnd).flatMap fun r => List.replicate r.status r)).map Rec.weight), ?_, ?_⟩
  · intro rnd
    rw [ha3, emit_eq _ _ 0 (by simpa using hidx rnd)]
  intro i w hiw
  have hi : i < weights.length := by
    by_contra h
    rw [List.getElem?_eq_none (by omega)] at hiw
    cases hiw
  have hmem : i ∈ order := (hsort.perm.mem_iff).2 (List.mem_range.2 hi)
  obtain ⟨p, hp, hpi⟩ := List.getElem_of_mem hmem
  set k := min p (srt.length - 1 - p) with hk
  -- carried weight of walker `i` from the record at position `p`
  have hcar : ∀ rnd, carried i (((arr rnd).flatMap fun r => List.replicate r.status r).map
      fun r => (List.range weights.length).getD r.orgIdx 0,
      (((arr rnd).flatMap fun r => List.replicate r.status r)).map Rec.weight) =
      (finalRec minW maxW rnd srt 0 (srt.length - 1) p ⟨|w|, 1, i⟩).status •
      (finalRec minW maxW rnd srt 0 (srt.length - 1) p ⟨|w|, 1, i⟩).weight := by
    intro rnd
    rw [carried_eq _ _ _ (hidx rnd)]
    obtain ⟨out', o1, o2, -, o4⟩ := pairLoop_spec minW maxW rnd srt srt 0 (srt.length - 1) rfl
      (by omega) (fun _ _ _ => rfl)
    rw [ha1 rnd] at o1
    cases o1
    rw [sum_map_eq_range, o2]
    apply sum_single _ _ p (by omega)
    intro j hj
    rw [hsl] at hj
    have horg : ((arr rnd).map Rec.orgIdx)[j]? = some order[j] := by
      rw [ha2 rnd, List.getElem?_eq_getElem hj]
    rw [List.getElem?_map] at horg
    by_cases hjp : j = p
    · subst hjp
      rw [if_pos rfl, o4 j (by omega) (by omega)]
      have : srt[j]? = some ⟨|w|, 1, i⟩ := by
        rw [hsrt, List.getElem?_map, List.getElem?_eq_getElem hj, hpi]
        simp [hiw]
      rw [this]
      have ho : (finalRec minW maxW rnd srt 0 (srt.length - 1) j ⟨|w|, 1, i⟩).orgIdx = i := by
        have h5 := o4 j (by omega) (by omega)
        rw [this] at h5
        rw [h5] at horg
        simp only [Option.map_some, Option.some.injEq, zero_add] at horg
        rw [horg, hpi]
      simp only [Option.map_some, Option.getD_some, zero_add]
      rw [if_pos ho]
    · rw [if_neg hjp]
      cases hx : (arr rnd)[j]? with
      | none => rfl
      | some r =>
        rw [hx] at horg
        simp only [Option.map_some, Option.some.injEq] at horg
        have : r.orgIdx ≠ i := by
          rw [horg, ← hpi]
          intro h
          exact hjp ((List.Nodup.getElem_inj_iff hnd).1 h)
        simp [this]
  refine ⟨k, ?_, ?_⟩
  · intro rnd rnd' hr
    rw [hcar, hcar]
    unfold finalRec
    rw [← hk, hr]
  · intro rnd
    simp_rw [hcar]
    by_cases hact : Active minW maxW srt 0 (srt.length - 1) k
    · have hlt := hact.1
      have hkl : k < srt.length := by omega
      have hkl' : srt.length - 1 - k < srt.length := by omega
      have hp' : srt[p]? = some ⟨|w|, 1, i⟩ := by
        rw [hsrt, List.getElem?_map, List.getElem?_eq_getElem hp, hpi]
        simp [hiw]
      unfold finalRec
      rw [← hk, List.getElem?_eq_getElem hkl, List.getElem?_eq_getElem hkl']
      simp only [Function.update_self]
      simp only [if_pos hact]
      have hpos : ∀ j (hj : j < srt.length), 0 ≤ srt[j].weight := by
        intro j hj
        simp [hsrt]
      have na := hpos k hkl
      have nb := hpos _ hkl'
      set a := srt[k].weight with hadef
      set b := srt[srt.length - 1 - k].weight with hbdef
      have hfrac0 : 0 ≤ b / (a + b) := div_nonneg nb (add_nonneg na nb)
      have hfrac1 : b / (a + b) ≤ 1 := div_le_one_of_le₀ (by linarith) (add_nonneg na nb)
      have hcancel : b / (a + b) * (a + b) = b := by
        rcases eq_or_lt_of_le (add_nonneg na nb) with h | h
        · rw [← h]; have : b = 0 := by linarith
          rw [this]; simp
        · field_simp
      by_cases hlt' : p < srt.length - 1 - p
      · have hkp : k = p := by omega
        have hw : a = |w| := by
          have : srt[k]? = some ⟨|w|, 1, i⟩ := by rw [hkp]; exact hp'
          rw [List.getElem?_eq_getElem hkl] at this
          rw [hadef, Option.some.inj this]
        simp only [if_pos hlt']
        have : ∀ x : ℝ, (if x < b / (a + b) then (⟨0, 0, i⟩ : Rec ℝ)
            else ⟨1 / 2 * (a + b), 2, i⟩).status •
            (if x < b / (a + b) then (⟨0, 0, i⟩ : Rec ℝ)
            else ⟨1 / 2 * (a + b), 2, i⟩).weight = if x < b / (a + b) then 0 else a + b := by
          intro x
          split_ifs
          · simp
          · simp
        simp_rw [this]
        rw [integral_step _ _ _ hfrac0 hfrac1, ← hw]
        linear_combination -hcancel
      · have hkp : srt.length - 1 - k = p := by omega
        have hw : b = |w| := by
          have : srt[srt.length - 1 - k]? = some ⟨|w|, 1, i⟩ := by rw [hkp]; exact hp'
          rw [List.getElem?_eq_getElem hkl'] at this
          rw [hbdef, Option.some.inj this]
        simp only [if_neg hlt']
        have : ∀ x : ℝ, (if x < b / (a + b) then (⟨1 / 2 * (a + b), 2, i⟩ : Rec ℝ)
            else ⟨0, 0, i⟩).status •
            (if x < b / (a + b) then (⟨1 / 2 * (a + b), 2, i⟩ : Rec ℝ)
            else ⟨0, 0, i⟩).weight = if x < b / (a + b) then a + b else 0 := by
          intro x
          split_ifs
          · simp
          · simp
        simp_rw [this]
        rw [integral_step _ _ _ hfrac0 hfrac1, ← hw]
        linear_combination hcancel
    · simp_rw [fun x => finalRec_of_not_active (rnd := Function.update rnd k x)
        (by rw [← hk]; exact hact) (⟨|w|, 1, i⟩ : Rec ℝ)]
      simp

/-! ## C04 -/

/-- **C04 (partial).** For non-negative weights the total weight is conserved.
Missing: signed weights, for which the claim is false, see
`branching_signed_total_fails`. -/
theorem branching_signed_total_partial (order : List ℕ) (minW maxW : K) (rnd : ℕ → K)
    (walkers : List α) (weights : List K) (hsort : IsArgsort order weights)
    (hpos : ∀ w ∈ weights, 0 ≤ w)
    (newWalkers : List α) (newWeights : List K)
    (h : branchingDP0 order minW maxW rnd walkers weights = .ok (newWalkers, newWeights)) :
    newWeights.sum = weights.sum := by
  rw [branching_total_weight order minW maxW rnd walkers weights hsort _ _ h]
  congr 1
  conv_rhs => rw [← List.map_id weights]
  exact List.map_congr_left fun w hw => abs_of_nonneg (hpos w hw)

/-- **C04, negation.** With weights `-1, 1` (inside the default thresholds, no pair is
branched) the returned weights are `1, 1`: the sign is lost. -/
theorem branching_signed_total_fails :
    ∃ (order : List ℕ) (walkers : List String) (weights newWeights : List ℚ)
      (newWalkers : List String),
      IsArgsort order weights ∧
      (∀ rnd : ℕ → ℚ, branchingDP0 order (1 / 10) 2 rnd walkers weights
        = .ok (newWalkers, newWeights)) ∧
      newWeights.sum ≠ weights.sum := by
  refine ⟨[0, 1], ["a", "b"], [-1, 1], [1, 1], ["a", "b"], ⟨by decide, ?_⟩, ?_, by norm_num⟩
  · simp
  · intro rnd
    norm_num [branchingDP0, pairLoop, emit, initRecs, List.mapM_cons, List.mapIdx,
      List.mapIdx.go]

end OpenMS.PopulationControl
