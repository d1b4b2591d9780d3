import Verif.Model.Run
import Verif.Lemmas.Control
import Verif.Props.WeightUpdate

/-!
# Weights along a run (C15)
-/

namespace OpenMS.Run

open OpenMS.PopulationControl OpenMS.Walkers OpenMS.Propagators

variable {α : Type*}

/-- All weights of all processes are non-negative, and so are the recorded totals. -/
structure NonNeg (st : State α ℝ) : Prop where
  weights : ∀ p ∈ st.procs, ∀ w ∈ p.2, 0 ≤ w
  total : 0 ≤ st.totalWeight
  nominal : 0 ≤ st.totalWeight0

theorem updateWeight_nonneg (scheme : Option String) (dt : ℝ) (eshift : ℂ) (w e : ℝ)
    (x : UpdateInput) (w' e' : ℝ) (hw : 0 ≤ w)
    (h : updateWeight scheme dt eshift w e x = .ok (w', e')) : 0 ≤ w' := by
  unfold updateWeight at h
  split_ifs at h
  · unfold updateHybrid at h
    simp only [Except.ok.injEq, Prod.mk.injEq] at h
    rw [← h.1]
    exact mul_nonneg hw (mul_nonneg (norm_nonneg _) (le_max_left _ _))
  · unfold updateLocal at h
    simp only [Except.ok.injEq, Prod.mk.injEq] at h
    rw [← h.1]
    exact mul_nonneg hw (mul_nonneg (Real.exp_pos _).le (le_max_left _ _))

theorem updateProc_nonneg (scheme : Option String) (dt : ℝ) (eshift : ℂ) (ws : List ℝ)
    (xs : List (ℝ × UpdateInput)) (ws' : List ℝ) (hw : ∀ w ∈ ws, 0 ≤ w)
    (h : updateProc scheme dt eshift ws xs = .ok ws') : ∀ w ∈ ws', 0 ≤ w := by
  induction ws generalizing xs ws' with
  | nil =>
    cases xs with
    | nil => simp [updateProc] at h; subst h; simp
    | cons x xs => simp [updateProc] at h
  | cons w ws ih =>
    cases xs with
    | nil => simp [updateProc] at h
    | cons x xs =>
      obtain ⟨e, x⟩ := x
      unfold updateProc at h
      cases h1 : updateWeight scheme dt eshift w e x with
      | error m => rw [h1] at h; cases h
      | ok p =>
        rw [h1] at h
        simp only at h
        cases h2 : updateProc scheme dt eshift ws xs with
        | error m => rw [h2] at h; cases h
        | ok qs =>
          rw [h2] at h
          cases h
          intro v hv
          rcases List.mem_cons.1 hv with rfl | hv
          · exact updateWeight_nonneg scheme dt eshift w e x p.1 p.2 (hw w (by simp)) h1
          · exact ih xs qs (fun u hu => hw u (by simp [hu])) h2 v hv

theorem updateAll_nonneg (scheme : Option String) (dt : ℝ) (eshift : ℂ)
    (ps : List (List α × List ℝ)) (xs : List (List (ℝ × UpdateInput)))
    (ps' : List (List α × List ℝ)) (hw : ∀ p ∈ ps, ∀ w ∈ p.2, 0 ≤ w)
    (h : updateAll scheme dt eshift ps xs = .ok ps') : ∀ p ∈ ps', ∀ w ∈ p.2, 0 ≤ w := by
  induction ps generalizing xs ps' with
  | nil =>
    cases xs with
    | nil => simp [updateAll] at h; subst h; simp
    | cons x xs => simp [updateAll] at h
  | cons p ps ih =>
    cases xs with
    | nil => simp [updateAll] at h
    | cons x xs =>
      unfold updateAll at h
      cases h1 : updateProc scheme dt eshift p.2 x with
      | error m => rw [h1] at h; cases h
      | ok ws =>
        rw [h1] at h
        simp only at h
        cases h2 : updateAll scheme dt eshift ps xs with
        | error m => rw [h2] at h; cases h
        | ok qs =>
          rw [h2] at h
          cases h
          intro q hq
          rcases List.mem_cons.1 hq with rfl | hq
          · exact updateProc_nonneg scheme dt eshift _ _ _ (hw p (by simp)) h1
          · exact ih xs qs (fun u hu => hw u (by simp [hu])) h2 q hq

theorem controlAll_nonneg (method : Option String) (draws : List (Draws ℝ))
    (procs ps : List (List α × List ℝ)) (hpos : ∀ p ∈ procs, ∀ w ∈ p.2, 0 ≤ w)
    (h : controlAll method draws procs = .ok ps) : ∀ p ∈ ps, ∀ w ∈ p.2, 0 ≤ w := by
  induction procs generalizing draws ps with
  | nil => simp [controlAll] at h; subst h; simp
  | cons p procs ih =>
    obtain ⟨x, w⟩ := p
    cases draws with
    | nil => simp [controlAll] at h
    | cons d ds =>
      unfold controlAll at h
      cases h1 : populationControl d method x w with
      | error e => rw [h1] at h; cases h
      | ok p =>
        rw [h1] at h
        simp only at h
        cases h2 : controlAll method ds procs with
        | error e => rw [h2] at h; cases h
        | ok qs =>
          rw [h2] at h
          cases h
          intro q hq
          rcases List.mem_cons.1 hq with rfl | hq
          · exact populationControl_nonneg d method _ q.1 _ q.2 (hpos (x, w) (by simp)) h1
          · exact ih ds qs (fun u hu => hpos u (by simp [hu])) h2 q hq

theorem weightControl_nonneg (step freq : ℕ) (method : Option String) (draws : List (Draws ℝ))
    (st st' : State α ℝ) (hst : NonNeg st)
    (h : weightControl step freq method draws st = .ok st') : NonNeg st' := by
  obtain ⟨hw, ht, h0⟩ := hst
  have hb : (0 : ℝ) ≤ 1 / 10 * st.totalWeight := by positivity
  unfold weightControl at h
  simp only at h
  set procs := if step > 0 then st.procs.map fun p => (p.1, p.2.map (clip (1 / 10 * st.totalWeight)))
    else st.procs with hprocs
  have hpos' : ∀ p ∈ procs, ∀ w ∈ p.2, 0 ≤ w := by
    rw [hprocs]
    split_ifs
    · intro p hp w hw'
      obtain ⟨q, hq, rfl⟩ := List.mem_map.1 hp
      obtain ⟨v, hv, rfl⟩ := List.mem_map.1 hw'
      exact clip_nonneg _ _ hb (hw q hq v hv)
    · exact hw
  have hTpos : 0 ≤ totalAbs procs := by
    unfold totalAbs
    apply List.sum_nonneg
    intro x hx
    obtain ⟨p, _, rfl⟩ := List.mem_map.1 hx
    apply List.sum_nonneg
    intro y hy
    obtain ⟨w, _, rfl⟩ := List.mem_map.1 hy
    exact abs_nonneg w
  clear_value procs
  split_ifs at h
  · cases h; exact ⟨hpos', ht, h0⟩
  · split at h
    · cases h
    · rename_i ps hps
      cases h
      refine ⟨?_, hTpos, h0⟩
      refine controlAll_nonneg method draws _ ps ?_ hps
      intro p hp w hw'
      obtain ⟨q, hq, rfl⟩ := List.mem_map.1 hp
      obtain ⟨v, hv, rfl⟩ := List.mem_map.1 hw'
      exact div_nonneg (hpos' q hq v hv) (div_nonneg hTpos h0)

theorem run_nonneg (ops : List Op) (st st' : State α ℝ) (hst : NonNeg st)
    (h : run st ops = .ok st') : NonNeg st' := by
  induction ops generalizing st with
  | nil => cases h; exact hst
  | cons o os ih =>
    unfold run at h
    cases h1 : apply st o with
    | error m => rw [h1] at h; cases h
    | ok st1 =>
      rw [h1] at h
      refine ih st1 ?_ h
      cases o with
      | update scheme dt eshift inputs =>
        unfold apply at h1
        simp only at h1
        cases h2 : updateAll scheme dt eshift st.procs inputs with
        | error m => rw [h2] at h1; cases h1
        | ok ps =>
          rw [h2] at h1
          cases h1
          exact ⟨updateAll_nonneg scheme dt eshift _ _ _ hst.weights h2, hst.total, hst.nominal⟩
      | control step freq method draws =>
        unfold apply at h1
        simp only at h1
        cases h2 : weightControl step freq method draws st with
        | error m => rw [h2] at h1; cases h1
        | ok s =>
          rw [h2] at h1
          cases h1
          exact weightControl_nonneg step freq method draws st _ hst h2

/-- **C15.** Starting from unit weights on any number of processes, after any history of
weight updates (either scheme) and weight control calls, with any random draws, all weights
are non-negative. -/
theorem weights_nonneg (w : α) (n size : ℕ) (ops : List Op) (st : State α ℝ)
    (h : run (initState w n size) ops = .ok st) :
    ∀ p ∈ st.procs, ∀ v ∈ p.2, 0 ≤ v := by
  refine (run_nonneg ops _ st ⟨?_, ?_, ?_⟩ h).weights
  · intro p hp v hv
    obtain ⟨c, _, rfl⟩ := List.mem_map.1 hp
    rw [(List.mem_replicate.1 hv).2]
    exact zero_le_one
  · exact Nat.cast_nonneg n
  · exact Nat.cast_nonneg n

/-- A history that does not raise: one local update of one walker, then weight control. -/
example : run (initState "phi" 1 1)
    [.update (some "local") 1 0 [[(0, ⟨1, 1, 0, 0, 0⟩)]], .control 0 1 none [⟨[], fun _ => 0, 0⟩]] =
    .ok (⟨[(["phi"], [1])], 1, 1, [[1]]⟩ : State String ℝ) := by
  simp [run, apply, initState, walkerCounter, updateAll, updateProc, updateWeight, updateLocal,
    weightControl, totalAbs, controlAll, populationControl, lookupMethod]

end OpenMS.Run
