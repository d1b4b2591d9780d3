import Verif.Props.Walkers

/-!
# Population control keeps weights non-negative, whatever the draws
-/

set_option linter.unusedSectionVars false

namespace OpenMS.PopulationControl

variable {K : Type*} [Field K] [LinearOrder K] [IsStrictOrderedRing K] {α : Type*}

theorem pairLoop_nonneg (minW maxW : K) (rnd : ℕ → K) (arr out : List (Rec K)) (s e : ℕ)
    (h : ∀ r ∈ arr, 0 ≤ r.weight) (hout : pairLoop minW maxW rnd arr s e = .ok out) :
    ∀ r ∈ out, 0 ≤ r.weight := by
  induction hn : e - s using Nat.strong_induction_on generalizing arr s e with
  | _ n ih =>
    rw [pairLoop] at hout
    split_ifs at hout with hse
    · split at hout
      · rename_i a b ha hb
        have ha' : 0 ≤ a.weight := h a (List.mem_of_getElem? ha)
        have hb' : 0 ≤ b.weight := h b (List.mem_of_getElem? hb)
        simp only at hout
        split_ifs at hout
        · refine ih _ (by omega) _ _ _ ?_ hout rfl
          intro r hr
          rcases List.mem_or_eq_of_mem_set hr with hr | rfl
          · rcases List.mem_or_eq_of_mem_set hr with hr | rfl
            · exact h r hr
            · simp only; positivity
          · simp
        · refine ih _ (by omega) _ _ _ ?_ hout rfl
          intro r hr
          rcases List.mem_or_eq_of_mem_set hr with hr | rfl
          · rcases List.mem_or_eq_of_mem_set hr with hr | rfl
            · exact h r hr
            · simp only; positivity
          · simp
        · cases hout; exact h
      · cases hout
    · cases hout; exact h

theorem mapM_option_mem {β γ : Type*} (f : β → Option γ) (l : List β) (out : List γ)
    (h : l.mapM f = some out) : ∀ y ∈ out, ∃ x ∈ l, f x = some y := by
  induction l generalizing out with
  | nil => simp at h; subst h; simp
  | cons a l ih =>
    rw [List.mapM_cons] at h
    cases hfa : f a with
    | none => rw [hfa] at h; simp at h
    | some b =>
      rw [hfa] at h
      cases hl : l.mapM f with
      | none => rw [hl] at h; simp at h
      | some bs =>
        rw [hl] at h
        simp at h
        subst h
        intro y hy
        rcases List.mem_cons.1 hy with rfl | hy
        · exact ⟨a, by simp, hfa⟩
        · obtain ⟨x, hx, hxy⟩ := ih bs hl y hy
          exact ⟨x, by simp [hx], hxy⟩

theorem branching_nonneg (order : List ℕ) (minW maxW : K) (rnd : ℕ → K)
    (walkers newWalkers : List α) (weights newWeights : List K)
    (h : branchingDP0 order minW maxW rnd walkers weights = .ok (newWalkers, newWeights)) :
    ∀ w ∈ newWeights, 0 ≤ w := by
  unfold branchingDP0 at h
  split_ifs at h
  split at h
  · rename_i srt hsrt
    split at h
    · rename_i arr harr
      have h1 : ∀ r ∈ srt, 0 ≤ r.weight := by
        intro r hr
        obtain ⟨i, _, hi⟩ := mapM_option_mem _ _ _ hsrt r hr
        rw [initRecs_getElem?] at hi
        obtain ⟨w, _, rfl⟩ := Option.map_eq_some_iff.1 hi
        exact abs_nonneg w
      have h2 := pairLoop_nonneg minW maxW rnd srt arr _ _ h1 harr
      unfold emit at h
      split at h
      · rename_i l hl
        cases h
        intro w hw
        obtain ⟨p, hp, rfl⟩ := List.mem_map.1 hw
        obtain ⟨r, hr, hrp⟩ := mapM_option_mem _ _ _ hl p hp
        obtain ⟨r', hr', hm⟩ := List.mem_flatMap.1 hr
        have := (List.mem_replicate.1 hm).2
        subst this
        obtain ⟨x, _, rfl⟩ := Option.map_eq_some_iff.1 hrp
        exact h2 _ hr'
      · cases h
    · cases h
  · cases h

/-- Whatever the random draws, all control methods return non-negative weights for
non-negative weights. -/
theorem populationControl_nonneg (d : Draws K) (method : Option String)
    (walkers newWalkers : List α) (weights newWeights : List K)
    (hw : ∀ w ∈ weights, 0 ≤ w)
    (h : populationControl d method walkers weights = .ok (newWalkers, newWeights)) :
    ∀ w ∈ newWeights, 0 ≤ w := by
  unfold populationControl at h
  have hs : 0 ≤ weights.sum / (weights.length : K) :=
    div_nonneg (List.sum_nonneg hw) (Nat.cast_nonneg _)
  split at h
  · exact branching_nonneg _ _ _ _ _ _ _ _ h
  · unfold stochasticReconfiguration at h
    simp only at h
    split_ifs at h
    split at h
    · cases h
      intro w hw
      rw [(List.mem_replicate.1 hw).2]; exact hs
    · cases h
  · unfold combResampling at h
    simp only at h
    split_ifs at h
    split at h
    · cases h
      intro w hw
      rw [(List.mem_replicate.1 hw).2]; exact hs
    · cases h
  · cases h; exact hw

end OpenMS.PopulationControl
