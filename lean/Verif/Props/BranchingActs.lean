import Verif.Props.Branching
import Mathlib.Tactic

/-!
# C94: branching acts on every pair outside the thresholds, and on nothing else
-/

set_option linter.unusedSectionVars false

namespace OpenMS.PopulationControl

variable {K : Type*} [Field K] [LinearOrder K] [IsStrictOrderedRing K] {α : Type*}

/-- C94: a returned weight is one of three things: the weight of an input walker that lies within the
thresholds; half the sum of a light and a heavy walker of which the light one is below the lower or
the heavy one above the upper threshold; or the weight of the walker left without a partner in the
middle of the sorted list, when the number of walkers is odd. -/
theorem branching_acts (order : List ℕ) (minW maxW : K) (rnd : ℕ → K)
    (walkers : List α) (weights : List K) (hsort : IsArgsort order weights)
    (newWalkers : List α) (newWeights : List K)
    (h : branchingDP0 order minW maxW rnd walkers weights = .ok (newWalkers, newWeights))
    (v : K) (hv : v ∈ newWeights) :
    (∃ (i : ℕ) (w : K), weights[i]? = some w ∧ v = |w| ∧ minW ≤ v ∧ v ≤ maxW) ∨
    (∃ (i j : ℕ) (a b : K), i ≠ j ∧ weights[i]? = some a ∧ weights[j]? = some b ∧ |a| ≤ |b| ∧
      (|a| < minW ∨ maxW < |b|) ∧ v = 1 / 2 * (|a| + |b|)) ∨
    (weights.length % 2 = 1 ∧ ∃ (i : ℕ) (w : K), order[weights.length / 2]? = some i ∧ weights[i]? = some w ∧ v = |w|) := by
  have hlen : walkers.length = weights.length := by
    by_contra hne
    rw [branching_rejects _ _ _ _ _ _ hne] at h
    cases h
  obtain ⟨arr, harr, horg, hb⟩ := branching_output order minW maxW rnd walkers weights hlen hsort.perm
  have hn : order.length = weights.length := by simpa using hsort.perm.length_eq
  set srt : List (Rec K) := order.map fun i => (⟨|weights.getD i 0|, 1, i⟩ : Rec K) with hsrt
  have hsl : srt.length = weights.length := by simp [hsrt, hn]
  obtain ⟨out, o1, o2, -, o4⟩ := pairLoop_spec minW maxW rnd srt srt 0 (srt.length - 1) rfl
    (by omega) (fun _ _ _ => rfl)
  rw [harr] at o1
  cases o1
  have hidx : ∀ r ∈ arr, r.orgIdx < walkers.length := by
    intro r hr
    have : r.orgIdx ∈ order := by rw [← horg]; exact List.mem_map_of_mem hr
    rw [hlen]
    exact List.mem_range.1 ((hsort.perm.mem_iff).1 this)
  -- positions of the sorted list
  have hpos : ∀ p, p < weights.length → ∃ (i : ℕ) (w : K), order[p]? = some i ∧ weights[i]? = some w ∧
      srt[p]? = some ⟨|w|, 1, i⟩ := by
    intro p hp
    have hp' : p < order.length := by omega
    have hi : order[p] < weights.length :=
      List.mem_range.1 ((hsort.perm.mem_iff).1 (List.getElem_mem hp'))
    refine ⟨order[p], weights[order[p]], by simp [hp'], by simp [hi], ?_⟩
    simp [hsrt, hp', hi]
  have hmono : ∀ (p q i j : ℕ) (a b : K), p ≤ q → order[p]? = some i → order[q]? = some j → weights[i]? = some a →
      weights[j]? = some b → |a| ≤ |b| := by
    intro p q i j a b hpq hi hj ha hb'
    rcases Nat.eq_or_lt_of_le hpq with rfl | hlt
    · rw [hi] at hj
      cases hj
      rw [ha] at hb'
      cases hb'
      exact le_rfl
    · obtain ⟨hq, hjq⟩ := List.getElem?_eq_some_iff.1 hj
      obtain ⟨hp, hip⟩ := List.getElem?_eq_some_iff.1 hi
      have := List.pairwise_iff_getElem.1 hsort.sorted p q hp hq hlt a b
      rw [hip, hjq] at this
      exact this ha hb'
  have hnd : order.Nodup := hsort.perm.nodup_iff.2 List.nodup_range
  have hne : ∀ p q i j : ℕ, p ≠ q → order[p]? = some i → order[q]? = some j → i ≠ j := by
    intro p q i j hpq hi hj hij
    subst hij
    obtain ⟨hp, hip⟩ := List.getElem?_eq_some_iff.1 hi
    obtain ⟨hq, hiq⟩ := List.getElem?_eq_some_iff.1 hj
    exact hpq ((List.Nodup.getElem_inj_iff hnd).1 (hip.trans hiq.symm))
  -- where the weight comes from
  have hmem : ∃ r ∈ arr, r.status ≠ 0 ∧ r.weight = v := by
    cases walkers with
    | nil =>
      have h0 : weights = [] := List.length_eq_zero_iff.1 hlen.symm
      have : arr = [] := by
        have : arr.length = 0 := by rw [o2, hsl, h0]; rfl
        exact List.length_eq_zero_iff.1 this
      rw [hb, this] at h
      cases h
      simp at hv
    | cons d ws =>
      rw [hb, emit_eq _ _ d hidx] at h
      injection h with h
      injection h with h1 h2
      rw [← h2] at hv
      obtain ⟨r, hr, hrv⟩ := List.mem_map.1 hv
      obtain ⟨r', hr', hm⟩ := List.mem_flatMap.1 hr
      have hm := List.mem_replicate.1 hm
      have h3 := hm.2
      subst h3
      exact ⟨_, hr', hm.1, hrv⟩
  obtain ⟨r, hr, hst, hrv⟩ := hmem
  obtain ⟨p, hp, hpr⟩ := List.mem_iff_getElem.1 hr
  have hpn : p < weights.length := by omega
  set t := 0 + (srt.length - 1) with ht
  have htn : t = weights.length - 1 := by omega
  have hk : min p (t - p) < weights.length := by omega
  have hk' : t - min p (t - p) < weights.length := by omega
  obtain ⟨i, a, hi, ha, hsa⟩ := hpos _ hk
  obtain ⟨j, b, hj, hb2, hsb⟩ := hpos _ hk'
  obtain ⟨i0, w0, hi0, hw0, hs0⟩ := hpos p hpn
  have ho := o4 p (by omega) (by omega)
  rw [List.getElem?_eq_getElem hp, hpr, hs0, Option.map_some, Option.some.injEq] at ho
  unfold finalRec at ho
  rw [hsa, hsb] at ho
  simp only at ho
  by_cases hact : Active minW maxW srt 0 t (min p (t - p))
  · -- a branched pair
    refine Or.inr (Or.inl ⟨i, j, a, b, hne _ _ _ _ (by have := hact.1; omega) hi hj, ha, hb2,
      hmono _ _ _ _ _ _ (by have := hact.1; omega) hi hj ha hb2, ?_, ?_⟩)
    · exact hact.2 _ (Nat.zero_le _) le_rfl _ _ hsa hsb
    · rw [if_pos hact] at ho
      rw [← hrv]
      split_ifs at ho <;> subst ho <;> first | rfl | exact absurd rfl hst
  · rw [if_neg hact] at ho
    have hv0 : v = |w0| := by rw [← hrv, ho]
    by_cases hmid : min p (t - p) < t - min p (t - p)
    · -- some earlier pair was within the thresholds
      have : ∃ q ≤ min p (t - p), ∃ x y : Rec K, srt[q]? = some x ∧ srt[t - q]? = some y ∧
          ¬ (x.weight < minW ∨ y.weight > maxW) := by
        by_contra hcon
        push Not at hcon
        exact hact ⟨hmid, fun q _ hq x y hx hy => hcon q hq x y hx hy⟩
      obtain ⟨q, hq, x, y, hx, hy, hc⟩ := this
      push Not at hc
      obtain ⟨iq, wq, h1, h2, h3⟩ := hpos q (by omega)
      obtain ⟨jq, uq, h4, h5, h6⟩ := hpos (t - q) (by omega)
      rw [h3] at hx
      rw [h6] at hy
      cases hx
      cases hy
      refine Or.inl ⟨i0, w0, hw0, hv0, ?_, ?_⟩
      · rw [hv0]
        exact hc.1.trans (hmono q p _ _ _ _ (by omega) h1 hi0 h2 hw0)
      · rw [hv0]
        exact (hmono p (t - q) _ _ _ _ (by omega) hi0 h4 hw0 h5).trans hc.2
    · refine Or.inr (Or.inr ⟨by omega, i0, w0, ?_, hw0, hv0⟩)
      have : weights.length / 2 = p := by omega
      rw [this]
      exact hi0

/-- C94: in particular with an even number of walkers every returned weight outside the thresholds is
that of a branched pair. -/
theorem branching_acts_even (order : List ℕ) (minW maxW : K) (rnd : ℕ → K)
    (walkers : List α) (weights : List K) (hsort : IsArgsort order weights)
    (heven : weights.length % 2 = 0) (newWalkers : List α) (newWeights : List K)
    (h : branchingDP0 order minW maxW rnd walkers weights = .ok (newWalkers, newWeights))
    (v : K) (hv : v ∈ newWeights) (hout : v < minW ∨ maxW < v) :
    ∃ (i j : ℕ) (a b : K), i ≠ j ∧ weights[i]? = some a ∧ weights[j]? = some b ∧ v = 1 / 2 * (|a| + |b|) ∧
      (|a| < minW ∨ maxW < |b|) := by
  rcases branching_acts order minW maxW rnd walkers weights hsort newWalkers newWeights h v hv with
    ⟨i, w, -, -, h1, h2⟩ | ⟨i, j, a, b, h1, h2, h3, -, h4, h5⟩ | ⟨h1, -⟩
  · rcases hout with h3 | h3
    · exact absurd h1 (not_le.2 h3)
    · exact absurd h2 (not_le.2 h3)
  · exact ⟨i, j, a, b, h1, h2, h3, h5, h4⟩
  · omega

/-- Weights `1/20, 3/2, 1, 3` sorted as `0, 2, 1, 3`: the hypotheses hold. -/
example : IsArgsort [0, 2, 1, 3] [(1 / 20 : ℚ), 3 / 2, 1, 3] := by
  refine ⟨by decide, ?_⟩
  simp
  norm_num

end OpenMS.PopulationControl
