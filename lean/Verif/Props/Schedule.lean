import Verif.Model.Schedule
import Mathlib.Tactic

/-!
# C142: order of operations of a run
-/

set_option linter.unusedSectionVars false

namespace OpenMS.Schedule

variable {K : Type*} [Field K]

theorem times_append (a b : List (Ev K)) : times (a ++ b) = times a ++ times b := by
  simp [times]

theorem props_append (a b : List (Ev K)) : props (a ++ b) = props a + props b := by
  simp [props]

theorem orthos_append (a b : List (Ev K)) : orthos (a ++ b) = orthos a + orthos b := by
  simp [orthos]

theorem times_turn (p : Par K) (m : String) (n : ℕ) :
    times (turn p m n) = if (n + 1) % p.prop = 0 then [p.dt * (n : K)] else [] := by
  unfold turn times
  by_cases h1 : (n + 1) % p.renorm = 0 <;> by_cases h2 : (n + 1) % p.prop = 0 <;> simp [h1, h2]

theorem props_turn (p : Par K) (m : String) (n : ℕ) : props (turn p m n) = 1 := by
  unfold turn props
  by_cases h1 : (n + 1) % p.renorm = 0 <;> by_cases h2 : (n + 1) % p.prop = 0 <;>
    simp [h1, h2]

theorem orthos_turn (p : Par K) (m : String) (n : ℕ) :
    orthos (turn p m n) = if (n + 1) % p.renorm = 0 then 1 else 0 := by
  unfold turn orthos
  by_cases h1 : (n + 1) % p.renorm = 0 <;> by_cases h2 : (n + 1) % p.prop = 0 <;>
    simp [h1, h2]

theorem props_loop (p : Par K) (m : String) (n : ℕ) : props ((List.range n).flatMap (turn p m)) = n := by
  induction n with
  | zero => rfl
  | succ n ih => rw [List.range_succ, List.flatMap_append, props_append, ih]; simp [props_turn]

theorem times_loop (p : Par K) (m : String) (n : ℕ) :
    times ((List.range n).flatMap (turn p m)) =
      (List.range (n / p.prop)).map fun j => p.dt * (((j + 1) * p.prop - 1 : ℕ) : K) := by
  induction n with
  | zero => simp [times]
  | succ n ih =>
    rw [List.range_succ, List.flatMap_append, times_append, ih]
    simp only [List.flatMap_cons, List.flatMap_nil, List.append_nil, times_turn]
    by_cases h : (n + 1) % p.prop = 0
    · have hd : (n + 1) / p.prop = n / p.prop + 1 := Nat.succ_div_of_dvd (Nat.dvd_of_mod_eq_zero h)
      have hm : (n / p.prop + 1) * p.prop = n + 1 := by rw [← hd]; exact Nat.div_mul_cancel (Nat.dvd_of_mod_eq_zero h)
      rw [if_pos h, hd, List.range_succ, List.map_append]
      simp [hm]
    · have hd : (n + 1) / p.prop = n / p.prop := Nat.succ_div_of_not_dvd fun hh => h (Nat.mod_eq_zero_of_dvd hh)
      rw [if_neg h, hd, List.append_nil]

/-- C142: both kernels propagate once per step, measure `nsteps / prop` times, and orthogonalise once at the start and
`nsteps / renorm` times in the loop. -/
theorem counts (p : Par K) (_hp : 0 < p.prop) (_hr : 0 < p.renorm) (es : List (Ev K))
    (he : es = methodKernel p ∨ es = functionKernel p) :
    props es = p.nsteps ∧ (times es).length = p.nsteps / p.prop ∧ orthos es = 1 + p.nsteps / p.renorm := by
  have ho : ∀ m n, orthos ((List.range n).flatMap (turn p m)) = n / p.renorm := by
    intro m n
    induction n with
    | zero => simp [orthos]
    | succ n ih =>
      rw [List.range_succ, List.flatMap_append, orthos_append, ih]
      simp only [List.flatMap_cons, List.flatMap_nil, List.append_nil, orthos_turn]
      by_cases h : (n + 1) % p.renorm = 0
      · rw [if_pos h, Nat.succ_div_of_dvd (Nat.dvd_of_mod_eq_zero h)]
      · rw [if_neg h, Nat.succ_div_of_not_dvd fun hh => h (Nat.mod_eq_zero_of_dvd hh)]; rfl
  rcases he with rfl | rfl
  · refine ⟨?_, ?_, ?_⟩
    · rw [methodKernel, props_append, props_loop]; simp [props]
    · rw [methodKernel, times_append, times_loop p _]; simp [times]
    · rw [methodKernel, orthos_append, ho]; rfl
  · refine ⟨?_, ?_, ?_⟩
    · rw [functionKernel, props_append, props_loop]; simp [props]
    · rw [functionKernel, times_append, times_loop p _]; simp [times]
    · rw [functionKernel, orthos_append, ho]; rfl

/-- C142: the times of the energies, for both kernels: `dt (prop - 1)`, `dt (2 prop - 1)`, ... -/
theorem times_eq (p : Par K) (_hp : 0 < p.prop) :
    times (methodKernel p) = (List.range (p.nsteps / p.prop)).map (fun j => p.dt * (((j + 1) * p.prop - 1 : ℕ) : K)) ∧
      times (functionKernel p) = times (methodKernel p) := by
  have h0 : times ([.build, .ortho, .stack (-1)] : List (Ev K)) = [] := by simp [times]
  refine ⟨?_, ?_⟩
  · rw [methodKernel, times_append, times_loop p _, h0]; rfl
  · rw [functionKernel, methodKernel, times_append, times_append, times_loop p _, times_loop p _]

/-- C142 fails: wherever an energy is measured, the recorded time is one step less than the imaginary time propagated so
far. -/
theorem time_early_fails (p : Par K) (pre post : List (Ev K)) (t : K)
    (h : methodKernel p = pre ++ .measure t :: post) : t + p.dt = p.dt * (props pre : K) := by
  have key : ∀ (n : ℕ) (pre post : List (Ev K)),
      (List.range n).flatMap (turn p p.method) = pre ++ .measure t :: post → t + p.dt = p.dt * (props pre : K) := by
    intro n
    induction n with
    | zero => intro pre post h; simp at h
    | succ n ih =>
      intro pre post h
      rw [List.range_succ, List.flatMap_append] at h
      simp only [List.flatMap_cons, List.flatMap_nil, List.append_nil] at h
      rcases List.append_eq_append_iff.1 h with ⟨a, h1, h2⟩ | ⟨a, h1, h2⟩
      · -- the measurement is in the last turn
        rw [h1, props_append, props_loop]
        have hc : t = p.dt * (n : K) ∧ props a = 1 := by
          unfold turn at h2
          by_cases hr : (n + 1) % p.renorm = 0 <;> by_cases hm : (n + 1) % p.prop = 0 <;>
            simp only [hr, hm, if_true, if_false, List.cons_append, List.nil_append, List.append_nil] at h2 <;>
            rcases a with _ | ⟨a1, _ | ⟨a2, _ | ⟨a3, _ | ⟨a4, _ | ⟨a5, a6⟩⟩⟩⟩⟩ <;>
            simp at h2 <;>
            first
              | (obtain ⟨rfl, rfl, rfl, rfl, ht, _⟩ := h2; exact ⟨ht.symm, by simp [props]⟩)
              | (obtain ⟨rfl, rfl, rfl, ht, _⟩ := h2; exact ⟨ht.symm, by simp [props]⟩)
        rw [hc.1, hc.2]; push_cast; ring
      · rcases a with _ | ⟨a1, a2⟩
        · simp at h2
          -- the measurement is first in the last turn: impossible
          exfalso
          have h3 := h2
          unfold turn at h3
          by_cases hr : (n + 1) % p.renorm = 0 <;> simp [hr] at h3
        · simp only [List.cons_append, List.cons.injEq] at h2
          rw [← h2.1] at h1
          exact ih pre a2 h1
  unfold methodKernel at h
  rcases pre with _ | ⟨e1, _ | ⟨e2, _ | ⟨e3, pre⟩⟩⟩
  · simp at h
  · simp at h
  · simp at h
  · simp only [List.cons_append, List.nil_append, List.cons.injEq] at h
    obtain ⟨rfl, rfl, rfl, h⟩ := h
    have := key p.nsteps pre post h
    rw [this]
    simp [props]

/-- C142: the function and the method do the same operations in the same order exactly when there is no step or the
method of the weight control is the default one. -/
theorem kernels_agree_iff (p : Par K) :
    functionKernel p = methodKernel p ↔ p.nsteps = 0 ∨ p.method = "reconfiguration" := by
  unfold functionKernel methodKernel
  rw [List.append_cancel_left_eq]
  constructor
  · intro h
    rcases Nat.eq_zero_or_pos p.nsteps with h0 | h0
    · exact Or.inl h0
    · right
      obtain ⟨n, hn⟩ : ∃ n, p.nsteps = n + 1 := ⟨p.nsteps - 1, by omega⟩
      rw [hn, List.range_succ_eq_map] at h
      simp only [List.flatMap_cons] at h
      unfold turn at h
      by_cases hr : (0 + 1) % p.renorm = 0
      · simp only [hr, if_true, List.cons_append, List.nil_append, List.cons.injEq, Ev.control.injEq] at h
        exact h.2.2.1.2.2.symm
      · simp only [hr, if_false, List.cons_append, List.nil_append, List.cons.injEq, Ev.control.injEq] at h
        exact h.2.1.2.2.symm
  · rintro (h | h)
    · rw [h]; rfl
    · rw [h]

/-- A run of four steps with energies every second step: the times are `dt` and `3 dt`. -/
example : times (methodKernel (⟨1 / 10, 4, 3, 5, 2, "comb"⟩ : Par ℚ)) = [1 / 10, 3 / 10] := by
  rw [(times_eq _ (by norm_num)).1]
  norm_num [List.range_succ]

end OpenMS.Schedule
