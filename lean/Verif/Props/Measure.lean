import Verif.Model.Measure
import Mathlib.Algebra.BigOperators.Intervals
import Mathlib.Tactic.Ring
import Mathlib.Tactic.NormNum
import Mathlib.Data.Rat.Defs
import Mathlib.Algebra.Field.Rat

/-!
# Measurements along a run (C17)
-/

set_option linter.unusedSectionVars false

namespace OpenMS.Measure

variable {K : Type*} [Field K] [DecidableEq K]

/-- Specification: total weight of all walkers of all processes at one step. -/
def stepWeight (procs : List (List (Sample K))) : K :=
  (procs.map fun ws => (ws.map Sample.weight).sum).sum

/-- Specification: weighted sum of the hybrid energies at one step. -/
def stepHybrid (procs : List (List (Sample K))) : K :=
  (procs.map fun ws => (ws.map fun s => s.ehybrid * s.weight).sum).sum

theorem foldl_add_weights (l : List (Buffer K)) (b : Buffer K) :
    (l.foldl Buffer.add b).weights = b.weights + (l.map Buffer.weights).sum ∧
    (l.foldl Buffer.add b).hybrid = b.hybrid + (l.map Buffer.hybrid).sum := by
  induction l generalizing b with
  | nil => simp
  | cons a l ih =>
    rw [List.foldl_cons]
    obtain ⟨h1, h2⟩ := ih (b.add a)
    rw [h1, h2]
    simp only [Buffer.add, List.map_cons, List.sum_cons]
    constructor <;> ring

theorem sum_zipWith_add (f : Buffer K → K) (hf : ∀ a b, f (a.add b) = f a + f b)
    (l m : List (Buffer K)) (h : l.length = m.length) :
    ((l.zipWith Buffer.add m).map f).sum = (l.map f).sum + (m.map f).sum := by
  induction l generalizing m with
  | nil =>
    cases m with
    | nil => simp
    | cons _ _ => simp at h
  | cons a l ih =>
    cases m with
    | nil => simp at h
    | cons b m =>
      simp only [List.length_cons, Nat.succ.injEq] at h
      simp only [List.zipWith_cons_cons, List.map_cons, List.sum_cons, hf, ih m h]
      ring

/-- The invariant of the loop after `n` steps: the buffers hold the sums over the steps
since the last multiple of `freq`. -/
theorem kernel_inv (freq : ℕ) (hf : 0 < freq) (dt : K) (size : ℕ) (e0 : K)
    (procs : ℕ → List (List (Sample K))) (estimate : ℕ → K × K)
    (hp : ∀ s, (procs s).length = size) (n : ℕ) :
    let o := kernel freq dt size e0 procs estimate n
    o.st.buffers.length = size ∧
    (o.st.buffers.map Buffer.weights).sum =
      ∑ s ∈ Finset.Ico (n / freq * freq) n, stepWeight (procs s) ∧
    (o.st.buffers.map Buffer.hybrid).sum =
      ∑ s ∈ Finset.Ico (n / freq * freq) n, stepHybrid (procs s) ∧
    o.st.eshift = (if n < freq then some e0 else
      divide (∑ s ∈ Finset.Ico ((n / freq - 1) * freq) (n / freq * freq), stepHybrid (procs s))
        (∑ s ∈ Finset.Ico ((n / freq - 1) * freq) (n / freq * freq), stepWeight (procs s))) ∧
    o.times = (List.range (n / freq)).map (fun k : ℕ => dt * ((freq * (k + 1) - 1 : ℕ) : K)) ∧
    o.energies = (List.range (n / freq)).map
      (fun k => divide (estimate (freq * (k + 1) - 1)).1 (estimate (freq * (k + 1) - 1)).2) := by
  induction n with
  | zero =>
    simp [kernel, Buffer.zero, hf]
  | succ n ih =>
    have hk : kernel freq dt size e0 procs estimate (n + 1) =
        stepOnce freq dt procs estimate (kernel freq dt size e0 procs estimate n) n := by
      unfold kernel
      rw [List.range_succ, List.foldl_append]
      rfl
    rw [hk]
    generalize kernel freq dt size e0 procs estimate n = o at ih
    obtain ⟨i1, i2, i3, i4, i5, i6⟩ := ih
    have hlen : o.st.buffers.length = ((procs n).map increment).length := by
      rw [List.length_map, hp, i1]
    have hw := sum_zipWith_add Buffer.weights (fun _ _ => rfl) o.st.buffers
      ((procs n).map increment) hlen
    have hh := sum_zipWith_add Buffer.hybrid (fun _ _ => rfl) o.st.buffers
      ((procs n).map increment) hlen
    have hw' : (((procs n).map increment).map Buffer.weights).sum = stepWeight (procs n) := by
      rw [List.map_map]; rfl
    have hh' : (((procs n).map increment).map Buffer.hybrid).sum = stepHybrid (procs n) := by
      rw [List.map_map]; rfl
    rw [hw', i2] at hw
    rw [hh', i3] at hh
    have hle : n / freq * freq ≤ n := Nat.div_mul_le_self n freq
    rw [← Finset.sum_Ico_succ_top hle] at hw hh
    have hblen : (o.st.buffers.zipWith Buffer.add ((procs n).map increment)).length = size := by
      rw [List.length_zipWith, ← hlen, i1, Nat.min_self]
    by_cases hdue : (n + 1) % freq = 0
    · -- a measurement step
      have hdvd : freq ∣ n + 1 := Nat.dvd_of_mod_eq_zero hdue
      obtain ⟨k, hk1⟩ := hdvd
      have hkpos : 0 < k := by
        rcases Nat.eq_zero_or_pos k with h | h
        · rw [h] at hk1; omega
        · exact h
      have hq1 : (n + 1) / freq = k := by rw [hk1]; exact Nat.mul_div_cancel_left k hf
      have hq : n / freq = k - 1 := by
        have h1 : freq * (k - 1) ≤ n := by
          have : freq * k = freq * (k - 1) + freq := by
            conv_lhs => rw [show k = (k - 1) + 1 by omega]
            rw [Nat.mul_succ]
          omega
        have h2 : n < freq * (k - 1 + 1) := by
          rw [show k - 1 + 1 = k by omega]; omega
        rw [Nat.div_eq_of_lt_le (k := k - 1)]
        · rw [mul_comm]; exact h1
        · rw [mul_comm]; exact h2
      have hfold := foldl_add_weights
        (o.st.buffers.zipWith Buffer.add ((procs n).map increment)) Buffer.zero
      simp only [stepOnce, propertyStack, hdue, if_true]
      refine ⟨by rw [List.length_map, hblen], ?_, ?_, ?_, ?_, ?_⟩
      · rw [hq1, mul_comm k, ← hk1, List.map_map]
        simp [Buffer.zero, Function.comp_def, -List.map_zipWith]
      · rw [hq1, mul_comm k, ← hk1, List.map_map]
        simp [Buffer.zero, Function.comp_def, -List.map_zipWith]
      · rw [hfold.1, hfold.2, hw, hh, hq1, hq, mul_comm k freq, ← hk1]
        have : ¬ (n + 1 < freq) := by
          intro h
          rw [Nat.div_eq_of_lt h] at hq1
          omega
        rw [if_neg this]
        simp [Buffer.zero]
      · rw [i5, hq, hq1]
        conv_rhs => rw [show k = (k - 1) + 1 by omega, List.range_succ, List.map_append]
        simp only [List.map_cons, List.map_nil]
        rw [show k - 1 + 1 = k by omega, ← hk1, Nat.add_sub_cancel]
      · rw [i6, hq, hq1]
        conv_rhs => rw [show k = (k - 1) + 1 by omega, List.range_succ, List.map_append]
        simp only [List.map_cons, List.map_nil]
        rw [show k - 1 + 1 = k by omega, ← hk1, Nat.add_sub_cancel]
    · have hq : (n + 1) / freq = n / freq := by
        rw [Nat.succ_div_of_not_dvd]
        intro h
        exact hdue (Nat.mod_eq_zero_of_dvd h)
      simp only [stepOnce, propertyStack, hdue, if_false]
      rw [hq]
      refine ⟨hblen, hw, hh, ?_, i5, i6⟩
      rw [i4]
      by_cases h : n + 1 < freq
      · rw [if_pos h, if_pos (by omega)]
      · have h' : ¬ n < freq := by
          intro h2
          have : n + 1 = freq := by omega
          rw [this] at hdue
          simp at hdue
        rw [if_neg h, if_neg h']

/-- **C17.** After any number `n` of steps of a run with measurement frequency `f`: exactly
`⌊n / f⌋` times and energies have been recorded, at the steps `f - 1, 2f - 1, …`, each
energy being the estimator of that step; and the energy shift is the weighted average of
the hybrid energies of all walkers on all processes over exactly the `f` steps that end
with the last measurement (the initial value before the first measurement). -/
theorem measurements (freq : ℕ) (hf : 0 < freq) (dt : K) (size : ℕ) (e0 : K)
    (procs : ℕ → List (List (Sample K))) (estimate : ℕ → K × K)
    (hp : ∀ s, (procs s).length = size) (hest : ∀ s, (estimate s).2 ≠ 0) (n : ℕ) :
    let o := kernel freq dt size e0 procs estimate n
    o.times.length = n / freq ∧ o.energies.length = n / freq ∧
    (∀ k, k < n / freq → o.times[k]? = some (dt * ((freq * (k + 1) - 1 : ℕ) : K)) ∧
      o.energies[k]? = some (some
        ((estimate (freq * (k + 1) - 1)).1 / (estimate (freq * (k + 1) - 1)).2))) ∧
    (n < freq → o.st.eshift = some e0) ∧
    (∀ m, freq * (m + 1) ≤ n → n < freq * (m + 2) →
      (∑ s ∈ Finset.Ico (freq * m) (freq * (m + 1)), stepWeight (procs s)) ≠ 0 →
      o.st.eshift = some
        ((∑ s ∈ Finset.Ico (freq * m) (freq * (m + 1)), stepHybrid (procs s)) /
         (∑ s ∈ Finset.Ico (freq * m) (freq * (m + 1)), stepWeight (procs s)))) := by
  intro o
  obtain ⟨_, _, _, h4, h5, h6⟩ := kernel_inv freq hf dt size e0 procs estimate hp n
  change o.st.eshift = _ at h4
  change o.times = _ at h5
  change o.energies = _ at h6
  refine ⟨by rw [h5]; simp, by rw [h6]; simp, ?_, ?_, ?_⟩
  · intro k hk
    rw [h5, h6]
    simp [hk, divide, hest]
  · intro h; rw [h4, if_pos h]
  · intro m h1 h2 hne
    have hq : n / freq = m + 1 := by
      rw [Nat.div_eq_of_lt_le (k := m + 1)]
      · rw [mul_comm]; exact h1
      · rw [mul_comm]; exact h2
    have : ¬ n < freq := by
      intro h
      rw [Nat.div_eq_of_lt h] at hq
      omega
    rw [h4, if_neg this, hq, Nat.add_sub_cancel, mul_comm m, mul_comm (m + 1), divide, if_neg hne]

/-- After a measurement the accumulators are clear, whatever they held. -/
theorem buffers_cleared (freq : ℕ) (st : St K) (step : ℕ) (procs : List (List (Sample K)))
    (h : (step + 1) % freq = 0) :
    ∀ b ∈ (propertyStack freq st step procs).buffers, b = ⟨0, 0, 0, 0⟩ := by
  intro b hb
  simp only [propertyStack, h, if_true] at hb
  obtain ⟨_, _, rfl⟩ := List.mem_map.1 hb
  rfl

/-- Two processes with one walker each, frequency 2, five steps: two energies are recorded and
the shift is the average over steps 2 and 3. -/
example : (kernel 2 (1 / 10 : ℚ) 2 0 (fun s => [[⟨1, 1, s, 0⟩], [⟨3, 1, 2, 0⟩]])
    (fun s => ((s : ℚ), 2)) 5).energies = [some (1 / 2), some (3 / 2)] ∧
    (kernel 2 (1 / 10 : ℚ) 2 0 (fun s => [[⟨1, 1, s, 0⟩], [⟨3, 1, 2, 0⟩]])
    (fun s => ((s : ℚ), 2)) 5).st.eshift = some (17 / 8) := by
  constructor <;> norm_num [kernel, stepOnce, propertyStack, List.range, List.range.loop, divide,
    increment, Buffer.zero, Buffer.add, List.replicate, -List.reduceReplicate]

end OpenMS.Measure
