import Verif.Props.Measure

/-!
# A second call of `kernel` on the same object (C68)
-/

set_option linter.unusedSectionVars false

namespace OpenMS.Measure

variable {K : Type*} [Field K] [DecidableEq K]

theorem foldl_succ (freq : ℕ) (dt : K) (procs : ℕ → List (List (Sample K)))
    (estimate : ℕ → K × K) (o : Out K) (n : ℕ) :
    (List.range (n + 1)).foldl (stepOnce freq dt procs estimate) o =
      stepOnce freq dt procs estimate
        ((List.range n).foldl (stepOnce freq dt procs estimate) o) n := by
  rw [List.range_succ, List.foldl_append]; rfl

/-- Times and energies do not depend on the state that the loop starts with. -/
theorem recorded_indep (freq : ℕ) (dt : K) (procs : ℕ → List (List (Sample K)))
    (estimate : ℕ → K × K) (s s' : St K) (n : ℕ) :
    ((List.range n).foldl (stepOnce freq dt procs estimate) ⟨s, [], []⟩).times =
      ((List.range n).foldl (stepOnce freq dt procs estimate) ⟨s', [], []⟩).times ∧
    ((List.range n).foldl (stepOnce freq dt procs estimate) ⟨s, [], []⟩).energies =
      ((List.range n).foldl (stepOnce freq dt procs estimate) ⟨s', [], []⟩).energies := by
  induction n with
  | zero => exact ⟨rfl, rfl⟩
  | succ n ih =>
    rw [foldl_succ, foldl_succ]
    generalize (List.range n).foldl (stepOnce freq dt procs estimate) ⟨s, [], []⟩ = o at *
    generalize (List.range n).foldl (stepOnce freq dt procs estimate) ⟨s', [], []⟩ = o' at *
    unfold stepOnce
    simp only
    split_ifs
    · exact ⟨by rw [ih.1], by rw [ih.2]⟩
    · exact ih

/-- C68: the times and energies of the second run are those of a fresh object that sees the same
walkers. -/
theorem second_run_energies (freq : ℕ) (dt : K) (size : ℕ) (e0 : K) (o : Out K)
    (procs : ℕ → List (List (Sample K))) (estimate : ℕ → K × K) (n : ℕ) :
    (kernelAgain freq dt o procs estimate n).times =
      (kernel freq dt size e0 procs estimate n).times ∧
    (kernelAgain freq dt o procs estimate n).energies =
      (kernel freq dt size e0 procs estimate n).energies :=
  recorded_indep freq dt procs estimate _ _ n

/-- The buffers after `n` steps do not depend on the shift at the start, nor does the shift from the
first measurement on. -/
theorem shift_indep (freq : ℕ) (dt : K) (procs : ℕ → List (List (Sample K)))
    (estimate : ℕ → K × K) (b : List (Buffer K)) (e e' : Option K) (n : ℕ) :
    ((List.range n).foldl (stepOnce freq dt procs estimate) ⟨⟨b, e⟩, [], []⟩).st.buffers =
      ((List.range n).foldl (stepOnce freq dt procs estimate) ⟨⟨b, e'⟩, [], []⟩).st.buffers ∧
    (freq ≤ n → 0 < freq →
      ((List.range n).foldl (stepOnce freq dt procs estimate) ⟨⟨b, e⟩, [], []⟩).st.eshift =
      ((List.range n).foldl (stepOnce freq dt procs estimate) ⟨⟨b, e'⟩, [], []⟩).st.eshift) := by
  induction n with
  | zero => exact ⟨rfl, fun h h' => by omega⟩
  | succ n ih =>
    rw [foldl_succ, foldl_succ]
    generalize (List.range n).foldl (stepOnce freq dt procs estimate) ⟨⟨b, e⟩, [], []⟩ = o at *
    generalize (List.range n).foldl (stepOnce freq dt procs estimate) ⟨⟨b, e'⟩, [], []⟩ = o' at *
    unfold stepOnce propertyStack
    simp only
    split_ifs with hdue
    · simp [ih.1]
    · refine ⟨by simp [ih.1], fun h h0 => ?_⟩
      have : freq ≤ n := by
        rcases Nat.lt_or_ge n freq with h1 | h1
        · have : n + 1 = freq := by omega
          rw [this] at hdue
          simp at hdue
        · exact h1
      simpa using ih.2 this h0

theorem buffers_after_block (freq : ℕ) (dt : K) (size : ℕ) (e0 : K)
    (procs : ℕ → List (List (Sample K))) (estimate : ℕ → K × K)
    (hp : ∀ s, (procs s).length = size) (n : ℕ) (hdvd : freq ∣ n) :
    (kernel freq dt size e0 procs estimate n).st.buffers = List.replicate size Buffer.zero := by
  cases n with
  | zero => rfl
  | succ n =>
    rcases Nat.eq_zero_or_pos freq with h0 | hf
    · subst h0; simp at hdvd
    have hl := (kernel_inv freq hf dt size e0 procs estimate hp n).1
    unfold kernel
    rw [foldl_succ]
    change (stepOnce freq dt procs estimate (kernel freq dt size e0 procs estimate n) n).st.buffers = _
    unfold stepOnce propertyStack
    simp only [Nat.mod_eq_zero_of_dvd hdvd, if_true]
    rw [List.map_const', List.length_zipWith, List.length_map, hp, hl, Nat.min_self]

/-- **C68, partial.** If the number of steps of the first run is a multiple of the measurement
frequency, then the second run leaves the buffers and, from its first measurement on, the shift of a
fresh object that sees the same walkers.  Missing: any other number of steps (`second_run_fails`),
and the shift before the first measurement, which is the one the first run ended with. -/
theorem second_run_partial (freq : ℕ) (hf : 0 < freq) (dt : K) (size : ℕ) (e0 : K)
    (procs procs' : ℕ → List (List (Sample K))) (estimate estimate' : ℕ → K × K)
    (hp : ∀ s, (procs s).length = size) (n n' : ℕ) (hdvd : freq ∣ n) :
    let o := kernel freq dt size e0 procs estimate n
    (kernelAgain freq dt o procs' estimate' n').st.buffers =
      (kernel freq dt size e0 procs' estimate' n').st.buffers ∧
    (freq ≤ n' → (kernelAgain freq dt o procs' estimate' n').st.eshift =
      (kernel freq dt size e0 procs' estimate' n').st.eshift) ∧
    (n' < freq → (kernelAgain freq dt o procs' estimate' n').st.eshift = o.st.eshift) := by
  intro o
  have hb : o.st = ⟨List.replicate size Buffer.zero, o.st.eshift⟩ := by
    rw [← buffers_after_block freq dt size e0 procs estimate hp n hdvd]
  refine ⟨?_, fun h => ?_, ?_⟩
  · unfold kernelAgain kernel
    rw [hb]
    exact (shift_indep freq dt procs' estimate' _ _ _ n').1
  · unfold kernelAgain kernel
    rw [hb]
    exact (shift_indep freq dt procs' estimate' _ _ _ n').2 h hf
  · intro h
    unfold kernelAgain
    clear hb
    induction n' with
    | zero => rfl
    | succ n' ih =>
      rw [foldl_succ]
      have hnd : ¬ (n' + 1) % freq = 0 := by
        rw [Nat.mod_eq_of_lt h]; omega
      simp only [stepOnce, propertyStack, hnd, if_false]
      exact ih (by omega)

/-- The buffers of a run of fewer than `freq` steps from any state. -/
theorem buffers_within_block (freq : ℕ) (dt : K) (procs : ℕ → List (List (Sample K)))
    (estimate : ℕ → K × K) (s : St K) (hp : ∀ i, (procs i).length = s.buffers.length) (n : ℕ)
    (hn : n < freq) :
    let o := (List.range n).foldl (stepOnce freq dt procs estimate) ⟨s, [], []⟩
    o.st.buffers.length = s.buffers.length ∧
    (o.st.buffers.map Buffer.weights).sum =
      (s.buffers.map Buffer.weights).sum + ∑ i ∈ Finset.range n, stepWeight (procs i) ∧
    (o.st.buffers.map Buffer.hybrid).sum =
      (s.buffers.map Buffer.hybrid).sum + ∑ i ∈ Finset.range n, stepHybrid (procs i) := by
  induction n with
  | zero => simp
  | succ n ih =>
    intro o
    have h := ih (by omega)
    have ho : o = stepOnce freq dt procs estimate
        ((List.range n).foldl (stepOnce freq dt procs estimate) ⟨s, [], []⟩) n := foldl_succ ..
    rw [ho]
    generalize (List.range n).foldl (stepOnce freq dt procs estimate) ⟨s, [], []⟩ = o1 at *
    obtain ⟨h1, h2, h3⟩ := h
    have hnd : ¬ (n + 1) % freq = 0 := by
      rw [Nat.mod_eq_of_lt hn]; omega
    have hlen : o1.st.buffers.length = ((procs n).map increment).length := by
      rw [List.length_map, hp, h1]
    simp only [stepOnce, propertyStack, hnd, if_false]
    refine ⟨by rw [List.length_zipWith, ← hlen, Nat.min_self, h1], ?_, ?_⟩
    · rw [sum_zipWith_add Buffer.weights (fun _ _ => rfl) _ _ hlen, h2, Finset.sum_range_succ,
        ← add_assoc, List.map_map]
      rfl
    · rw [sum_zipWith_add Buffer.hybrid (fun _ _ => rfl) _ _ hlen, h3, Finset.sum_range_succ,
        ← add_assoc, List.map_map]
      rfl

/-- **C68, negation (value).** After its first measurement the second run has the shift that averages
over its first `f` steps *and* the last `n mod f` steps of the first run. -/
theorem second_run_leftovers (freq : ℕ) (hf : 0 < freq) (dt : K) (size : ℕ) (e0 : K)
    (procs procs' : ℕ → List (List (Sample K))) (estimate estimate' : ℕ → K × K)
    (hp : ∀ s, (procs s).length = size) (hp' : ∀ s, (procs' s).length = size) (n : ℕ)
    (hw : (∑ i ∈ Finset.Ico (n / freq * freq) n, stepWeight (procs i)) +
        ∑ i ∈ Finset.range freq, stepWeight (procs' i) ≠ 0) :
    (kernelAgain freq dt (kernel freq dt size e0 procs estimate n) procs' estimate' freq).st.eshift =
      some (((∑ i ∈ Finset.Ico (n / freq * freq) n, stepHybrid (procs i)) +
          ∑ i ∈ Finset.range freq, stepHybrid (procs' i)) /
        ((∑ i ∈ Finset.Ico (n / freq * freq) n, stepWeight (procs i)) +
          ∑ i ∈ Finset.range freq, stepWeight (procs' i))) := by
  obtain ⟨i1, i2, i3, -, -, -⟩ := kernel_inv freq hf dt size e0 procs estimate hp n
  set o := kernel freq dt size e0 procs estimate n with ho
  obtain ⟨m, rfl⟩ : ∃ m, freq = m + 1 := ⟨freq - 1, by omega⟩
  obtain ⟨j1, j2, j3⟩ := buffers_within_block (m + 1) dt procs' estimate' o.st
    (by intro i; rw [hp', i1]) m (by omega)
  unfold kernelAgain
  rw [foldl_succ]
  generalize (List.range m).foldl (stepOnce (m + 1) dt procs' estimate') ⟨o.st, [], []⟩ = o1 at *
  have hlen : o1.st.buffers.length = ((procs' m).map increment).length := by
    rw [List.length_map, hp', j1, i1]
  have hfold := foldl_add_weights
    (o1.st.buffers.zipWith Buffer.add ((procs' m).map increment)) Buffer.zero
  have hW := sum_zipWith_add Buffer.weights (fun _ _ => rfl) _ _ hlen
  have hH := sum_zipWith_add Buffer.hybrid (fun _ _ => rfl) _ _ hlen
  rw [j2, i2, add_assoc, List.map_map] at hW
  rw [j3, i3, add_assoc, List.map_map] at hH
  simp only [stepOnce, propertyStack, Nat.mod_self, if_true]
  rw [hfold.1, hfold.2, hW, hH]
  have eW : ((procs' m).map (Buffer.weights ∘ increment)).sum = stepWeight (procs' m) := rfl
  have eH : ((procs' m).map (Buffer.hybrid ∘ increment)).sum = stepHybrid (procs' m) := rfl
  rw [eW, eH, ← Finset.sum_range_succ, ← Finset.sum_range_succ]
  simp only [Buffer.zero, zero_add, divide]
  rw [if_neg hw]

/-- **C68, negation.** A first run of one step with frequency two, then a second run of two steps:
the shift (2) is not the average over the second run (1). -/
theorem second_run_fails : ∃ (procs procs' : ℕ → List (List (Sample ℚ))) (estimate : ℕ → ℚ × ℚ),
    (kernelAgain 2 1 (kernel 2 1 1 0 procs estimate 1) procs' estimate 2).st.eshift = some 2 ∧
    (kernel 2 1 1 0 procs' estimate 2).st.eshift = some 1 := by
  refine ⟨fun _ => [[⟨1, 1, 4, 0⟩]], fun _ => [[⟨1, 1, 1, 0⟩]], fun _ => (1, 1), ?_, ?_⟩
  · rw [second_run_leftovers 2 (by norm_num) 1 1 0 _ _ _ _ (fun _ => rfl) (fun _ => rfl) 1] <;>
      norm_num [stepWeight, stepHybrid, Finset.sum_range_succ]
  · norm_num [kernel, stepOnce, propertyStack, increment, List.range, List.range.loop, divide,
      Buffer.add, Buffer.zero]

/-- The hypotheses of `second_run_partial`: four steps with frequency two. -/
example : (kernelAgain 2 1 (kernel 2 1 1 0 (fun s => [[⟨1, 1, (s : ℚ), 0⟩]]) (fun _ => (1, 1)) 4)
    (fun _ => [[⟨1, 1, 1, 0⟩]]) (fun _ => (1, 1)) 2).st.eshift = some (1 : ℚ) := by
  rw [(second_run_partial 2 (by norm_num) 1 1 0 _ _ _ _ (fun _ => rfl) 4 2 ⟨2, rfl⟩).2.1 le_rfl]
  norm_num [kernel, stepOnce, propertyStack, increment, List.range, List.range.loop, divide,
    Buffer.add, Buffer.zero]

end OpenMS.Measure
