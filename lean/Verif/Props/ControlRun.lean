import Verif.Props.Run

/-!
# Walker counts and totals along a run (C65), and a population that needs no control (C66)
-/

set_option linter.unusedSectionVars false

namespace OpenMS.Run

open OpenMS.PopulationControl OpenMS.Walkers OpenMS.Propagators

variable {K : Type*} [Field K] [LinearOrder K] [IsStrictOrderedRing K] {α : Type*}

/-! ## C65 -/

/-- Draws that numpy can make for a list of weights: a sorting order, and an offset below `1/N`. -/
def DrawsFor (d : Draws K) (weights : List K) : Prop :=
  IsArgsort d.order weights ∧ d.offset < 1 / weights.length

theorem mem_of_ordered {N : ℕ} {inp out : List α} (h : OrderedSelection N inp out) :
    ∀ a ∈ out, a ∈ inp := by
  obtain ⟨sel, _, _, _, h4⟩ := h
  intro a ha
  have : some a ∈ sel.map fun j => inp[j]? := h4 ▸ List.mem_map_of_mem ha
  obtain ⟨j, _, hj⟩ := List.mem_map.1 this
  exact List.mem_of_getElem? hj

/-- One process, any method: the number of walkers and of weights and the total weight stay, and no
walker appears that was not there. -/
theorem control_conserves (d : Draws K) (method : Option String) (x nx : List α) (w nw : List K)
    (hlen : x.length = w.length) (hpos : ∀ v ∈ w, 0 ≤ v) (hd : DrawsFor d w)
    (h : populationControl d method x w = .ok (nx, nw)) :
    nx.length = x.length ∧ nw.length = w.length ∧ nw.sum = w.sum ∧ ∀ a ∈ nx, a ∈ x := by
  unfold populationControl at h
  split at h
  · obtain ⟨a, b, h1, h2, h3, h4⟩ := branching_count d.order (1 / 10) 2 d.rnd x w hlen hd.1
    have hs := branching_signed_total_partial _ _ _ _ _ _ hd.1 hpos _ _ h
    rw [h1] at h
    cases h
    exact ⟨h2, h3, hs, h4⟩
  · by_cases ht : w.sum = 0
    · obtain ⟨e, he⟩ := reconfiguration_rejects d.offset x w (Or.inr ht)
      rw [he] at h; cases h
    · have ht' : 0 < w.sum := lt_of_le_of_ne (List.sum_nonneg hpos) (Ne.symm ht)
      obtain ⟨a, b, h1, h2, h3, h4, _, h6⟩ := reconfiguration_size d.offset x w hlen hpos ht' hd.2
      rw [h1] at h
      cases h
      exact ⟨by rw [h3, hlen], h4, h6, mem_of_ordered h2⟩
  · by_cases ht : w.sum = 0
    · unfold combResampling at h
      simp only [ht, if_true] at h
      split_ifs at h
    · have ht' : 0 < w.sum := lt_of_le_of_ne (List.sum_nonneg hpos) (Ne.symm ht)
      obtain ⟨a, b, h1, h2, h3, h4, _, h6⟩ := comb_size d.offset x w hlen hpos ht' hd.2
      rw [h1] at h
      cases h
      exact ⟨by rw [h3, hlen], h4, h6, mem_of_ordered h2⟩
  · cases h
    exact ⟨rfl, rfl, rfl, fun _ h => h⟩

/-- `after` holds the same number of walkers and of weights as `before`, and only walkers that
were there before. -/
def SameCount (before after : List α × List K) : Prop :=
  after.1.length = before.1.length ∧ after.2.length = before.2.length ∧ ∀ a ∈ after.1, a ∈ before.1

/-- The same on every process: no process gains or loses walkers or hands any to another. -/
def SameCounts (before after : List (List α × List K)) : Prop :=
  List.Forall₂ SameCount before after

theorem SameCounts.refl (ps : List (List α × List K)) : SameCounts ps ps :=
  List.forall₂_same.2 fun _ _ => ⟨rfl, rfl, fun _ h => h⟩

theorem SameCounts.trans {a b c : List (List α × List K)} (h : SameCounts a b)
    (h' : SameCounts b c) : SameCounts a c := by
  unfold SameCounts at *
  induction h generalizing c with
  | nil => cases h'; exact .nil
  | cons h1 _ ih =>
    cases h' with
    | cons h2 h3 =>
      exact .cons ⟨h2.1.trans h1.1, h2.2.1.trans h1.2.1, fun a ha => h1.2.2 a (h2.2.2 a ha)⟩ (ih h3)

theorem sameCounts_map (ps : List (List α × List K)) (f : List K → List K)
    (hf : ∀ l, (f l).length = l.length) : SameCounts ps (ps.map fun p => (p.1, f p.2)) := by
  unfold SameCounts
  induction ps with
  | nil => exact .nil
  | cons p ps ih => exact .cons ⟨rfl, hf _, fun _ h => h⟩ ih

theorem controlAll_conserves (method : Option String) (draws : List (Draws K))
    (procs ps : List (List α × List K)) (hlen : ∀ p ∈ procs, p.1.length = p.2.length)
    (hpos : ∀ p ∈ procs, ∀ w ∈ p.2, 0 ≤ w)
    (hd : List.Forall₂ (fun d p => DrawsFor d p.2) draws procs)
    (h : controlAll method draws procs = .ok ps) : SameCounts procs ps := by
  unfold SameCounts
  induction hd generalizing ps with
  | nil => simp [controlAll] at h; subst h; exact .nil
  | @cons d p ds procs hdp _ ih =>
    obtain ⟨x, w⟩ := p
    unfold controlAll at h
    cases h1 : populationControl d method x w with
    | error e => rw [h1] at h; cases h
    | ok q =>
      rw [h1] at h
      simp only at h
      cases h2 : controlAll method ds procs with
      | error e => rw [h2] at h; cases h
      | ok qs =>
        rw [h2] at h
        cases h
        have := control_conserves d method x q.1 w q.2 (hlen (x, w) (by simp)) (hpos (x, w) (by simp))
          hdp h1
        exact .cons ⟨this.1, this.2.1, this.2.2.2⟩
          (ih qs (fun p hp => hlen p (by simp [hp])) (fun p hp => hpos p (by simp [hp])) h2)

/-- The weights that `weight_control` hands to the control method of the processes
(`generic_walkers.py` L160-180): clipped to a tenth of the recorded total after the first step, and
divided so that they add up to the nominal total. -/
def handedOver (step : ℕ) (st : State α K) : List (List K) :=
  let clipped := if step > 0 then st.procs.map fun p => p.2.map (clip (1 / 10 * st.totalWeight))
    else st.procs.map Prod.snd
  let total := (clipped.map fun l => (l.map fun w => |w|).sum).sum
  clipped.map fun l => l.map (· / (total / st.totalWeight0))

theorem weightControl_conserves (step freq : ℕ) (method : Option String) (draws : List (Draws ℝ))
    (st st' : State α ℝ) (hst : NonNeg st) (hlen : ∀ p ∈ st.procs, p.1.length = p.2.length)
    (hd : freq ∣ step + 1 → List.Forall₂ DrawsFor draws (handedOver step st))
    (h : weightControl step freq method draws st = .ok st') : SameCounts st.procs st'.procs := by
  obtain ⟨hw, ht, h0⟩ := hst
  have hb : (0 : ℝ) ≤ 1 / 10 * st.totalWeight := by positivity
  unfold weightControl at h
  simp only at h
  set procs := if step > 0 then st.procs.map fun p => (p.1, p.2.map (clip (1 / 10 * st.totalWeight)))
    else st.procs with hprocs
  have hsame : SameCounts st.procs procs := by
    rw [hprocs]
    split_ifs
    · exact sameCounts_map st.procs (List.map (clip (1 / 10 * st.totalWeight))) fun l => by simp
    · exact .refl _
  have hlen' : ∀ p ∈ procs, p.1.length = p.2.length := by
    rw [hprocs]
    split_ifs
    · intro p hp
      obtain ⟨q, hq, rfl⟩ := List.mem_map.1 hp
      simpa using hlen q hq
    · exact hlen
  have hpos' : ∀ p ∈ procs, ∀ w ∈ p.2, 0 ≤ w := by
    rw [hprocs]
    split_ifs
    · intro p hp w hw'
      obtain ⟨q, hq, rfl⟩ := List.mem_map.1 hp
      obtain ⟨v, hv, rfl⟩ := List.mem_map.1 hw'
      exact clip_nonneg _ _ hb (hw q hq v hv)
    · exact hw
  have hTpos : 0 ≤ totalAbs procs := by
    unfold totalAbs
    apply List.sum_nonneg
    intro x hx
    obtain ⟨p, _, rfl⟩ := List.mem_map.1 hx
    apply List.sum_nonneg
    intro y hy
    obtain ⟨w, _, rfl⟩ := List.mem_map.1 hy
    exact abs_nonneg w
  have hover : handedOver step st
      = (procs.map fun p => (p.1, p.2.map (· / (totalAbs procs / st.totalWeight0)))).map Prod.snd := by
    unfold handedOver totalAbs
    rw [hprocs]
    split_ifs <;> simp [List.map_map, Function.comp_def]
  clear_value procs
  split_ifs at h with h1 h2 h3
  · cases h; exact hsame
  · split at h
    · cases h
    · rename_i ps hps
      cases h
      refine hsame.trans ?_
      refine (sameCounts_map procs (List.map (· / (totalAbs procs / st.totalWeight0)))
        fun l => by simp).trans ?_
      refine controlAll_conserves method draws _ ps ?_ ?_ ?_ hps
      · intro p hp
        obtain ⟨q, hq, rfl⟩ := List.mem_map.1 hp
        simpa using hlen' q hq
      · intro p hp w hw'
        obtain ⟨q, hq, rfl⟩ := List.mem_map.1 hp
        obtain ⟨v, hv, rfl⟩ := List.mem_map.1 hw'
        exact div_nonneg (hpos' q hq v hv) (div_nonneg hTpos h0)
      · have := hd (Nat.dvd_of_mod_eq_zero (by simpa using h2))
        rw [hover] at this
        exact List.forall₂_map_right_iff.1 this

theorem updateProc_length (scheme : Option String) (dt : ℝ) (eshift : ℂ) (ws : List ℝ)
    (xs : List (ℝ × UpdateInput)) (ws' : List ℝ)
    (h : updateProc scheme dt eshift ws xs = .ok ws') : ws'.length = ws.length := by
  induction ws generalizing xs ws' with
  | nil =>
    cases xs with
    | nil => simp [updateProc] at h; subst h; simp
    | cons x xs => simp [updateProc] at h
  | cons w ws ih =>
    cases xs with
    | nil => simp [updateProc] at h
    | cons x xs =>
      obtain ⟨e, x⟩ := x
      unfold updateProc at h
      cases h1 : updateWeight scheme dt eshift w e x with
      | error m => rw [h1] at h; cases h
      | ok p =>
        rw [h1] at h
        simp only at h
        cases h2 : updateProc scheme dt eshift ws xs with
        | error m => rw [h2] at h; cases h
        | ok qs =>
          rw [h2] at h
          cases h
          simp [ih xs qs h2]

theorem updateAll_conserves (scheme : Option String) (dt : ℝ) (eshift : ℂ)
    (ps : List (List α × List ℝ)) (xs : List (List (ℝ × UpdateInput)))
    (ps' : List (List α × List ℝ)) (h : updateAll scheme dt eshift ps xs = .ok ps') :
    SameCounts ps ps' := by
  unfold SameCounts
  induction ps generalizing xs ps' with
  | nil =>
    cases xs with
    | nil => simp [updateAll] at h; subst h; exact .nil
    | cons x xs => simp [updateAll] at h
  | cons p ps ih =>
    cases xs with
    | nil => simp [updateAll] at h
    | cons x xs =>
      unfold updateAll at h
      cases h1 : updateProc scheme dt eshift p.2 x with
      | error m => rw [h1] at h; cases h
      | ok ws =>
        rw [h1] at h
        simp only at h
        cases h2 : updateAll scheme dt eshift ps xs with
        | error m => rw [h2] at h; cases h
        | ok qs =>
          rw [h2] at h
          cases h
          exact .cons ⟨rfl, updateProc_length scheme dt eshift _ _ _ h1, fun _ h => h⟩ (ih xs qs h2)

/-- The random draws of a history are possible: whenever a control method is due, every process
has a sorting order of the weights it gets and an offset below `1/N`. -/
def Possible (st : State α ℝ) : List Op → Prop
  | [] => True
  | o :: os =>
    (match o with
      | .update .. => True
      | .control step freq _ draws =>
        freq ∣ step + 1 → List.Forall₂ DrawsFor draws (handedOver step st)) ∧
    ∀ st', apply st o = .ok st' → Possible st' os

theorem SameCounts.lengths {a b : List (List α × List K)} (h : SameCounts a b)
    (ha : ∀ p ∈ a, p.1.length = p.2.length) : ∀ p ∈ b, p.1.length = p.2.length := by
  unfold SameCounts at h
  induction h with
  | nil => simp
  | @cons p q ps qs h1 _ ih =>
    intro r hr
    rcases List.mem_cons.1 hr with rfl | hr
    · rw [h1.1, h1.2.1]; exact ha p (by simp)
    · exact ih (fun x hx => ha x (by simp [hx])) r hr

/-- **C65.** Over any history of weight updates and weight control calls, with any methods, from
any state with non-negative weights: every process keeps its number of walkers, has one weight per
walker, and every walker it holds descends from a walker it held at the start. -/
theorem run_conserves (ops : List Op) (st st' : State α ℝ) (hst : NonNeg st)
    (hlen : ∀ p ∈ st.procs, p.1.length = p.2.length) (hp : Possible st ops)
    (h : run st ops = .ok st') :
    SameCounts st.procs st'.procs := by
  induction ops generalizing st with
  | nil => cases h; exact .refl _
  | cons o os ih =>
    obtain ⟨hp1, hp2⟩ := hp
    unfold run at h
    cases h1 : apply st o with
    | error m => rw [h1] at h; cases h
    | ok st1 =>
      rw [h1] at h
      have hn : NonNeg st1 := run_nonneg [o] st st1 hst (by simp [run, h1])
      have hs : SameCounts st.procs st1.procs := by
        cases o with
        | update scheme dt eshift inputs =>
          unfold apply at h1
          simp only at h1
          cases h2 : updateAll scheme dt eshift st.procs inputs with
          | error m => rw [h2] at h1; cases h1
          | ok ps =>
            rw [h2] at h1
            cases h1
            exact updateAll_conserves scheme dt eshift _ _ _ h2
        | control step freq method draws =>
          unfold apply at h1
          simp only at h1
          cases h2 : weightControl step freq method draws st with
          | error m => rw [h2] at h1; cases h1
          | ok s =>
            rw [h2] at h1
            cases h1
            exact weightControl_conserves step freq method draws st _ hst hlen hp1 h2
      exact hs.trans (ih st1 hn (hs.lengths hlen) (hp2 st1 h1) h)

/-- **C65, total.** If the history ends with a due control call, the weights of all processes
together add up to the nominal number of walkers, which no operation changes. -/
theorem run_total (ops : List Op) (step freq : ℕ) (method : Option String) (draws : List (Draws ℝ))
    (st st' : State α ℝ) (hst : NonNeg st) (hlen : ∀ p ∈ st.procs, p.1.length = p.2.length)
    (hdue : freq ∣ step + 1) (hp : Possible st (ops ++ [.control step freq method draws]))
    (h : run st (ops ++ [.control step freq method draws]) = .ok st') :
    (st'.procs.map fun p => p.2.sum).sum = st.totalWeight0 := by
  induction ops generalizing st with
  | nil =>
    obtain ⟨hp1, _⟩ := hp
    simp only [List.nil_append, run, apply] at h
    cases h2 : weightControl step freq method draws st with
    | error m => rw [h2] at h; cases h
    | ok s =>
      rw [h2] at h
      cases h
      refine (weight_control_normalise step freq method draws st _ (Nat.mod_eq_zero_of_dvd hdue)
        hst.total hst.nominal hst.weights hlen ?_ h2).1
      have h3 := hp1 hdue
      have hover : handedOver step st = (scaledProcs step st).map Prod.snd := by
        unfold handedOver scaledProcs totalAbs
        split_ifs <;> simp [List.map_map, Function.comp_def]
      rw [hover] at h3
      exact List.forall₂_map_right_iff.1 h3
  | cons o os ih =>
    obtain ⟨hp1, hp2⟩ := hp
    rw [List.cons_append] at h
    simp only [run] at h
    cases h1 : apply st o with
    | error m => rw [h1] at h; cases h
    | ok st1 =>
      rw [h1] at h
      simp only at h
      have hrun : run st [o] = .ok st1 := by simp [run, h1]
      have hn : NonNeg st1 := run_nonneg [o] st st1 hst hrun
      have hs : SameCounts st.procs st1.procs := by
        refine run_conserves [o] st st1 hst hlen ⟨?_, fun _ _ => trivial⟩ hrun
        exact hp1
      have h0 : st1.totalWeight0 = st.totalWeight0 := by
        cases o with
        | update scheme dt eshift inputs =>
          simp only [apply] at h1
          split at h1
          · cases h1; rfl
          · cases h1
        | control step freq method draws =>
          simp only [apply] at h1
          split at h1
          · rename_i s hs'
            cases h1
            simp only [weightControl] at hs'
            split_ifs at hs' <;> first | (cases hs'; rfl) | skip
            all_goals
              split at hs'
              · cases hs'
              · cases hs'; rfl
          · cases h1
      rw [← h0]
      exact ih st1 hn (hs.lengths hlen) (hp2 st1 h1) h

/-- The hypotheses at work: one process, a reconfiguration that doubles the heavy walker; the
weights `3, 1` are halved because the total is twice the nominal one. -/
example : run ⟨[(["a", "b"], [3, 1])], 2, 2, []⟩
      [.control 0 1 (some "reconfiguration") [⟨[1, 0], fun _ => 0, 1 / 8⟩]] =
      .ok (⟨[(["a", "a"], [1, 1])], 4, 2, [[3, 1]]⟩ : State String ℝ) ∧
    Possible (⟨[(["a", "b"], [3, 1])], 2, 2, []⟩ : State String ℝ)
      [.control 0 1 (some "reconfiguration") [⟨[1, 0], fun _ => 0, 1 / 8⟩]] ∧
    NonNeg (⟨[(["a", "b"], [3, 1])], 2, 2, []⟩ : State String ℝ) := by
  refine ⟨?_, ⟨fun _ => ?_, fun _ _ => trivial⟩, ⟨by norm_num, by norm_num, by norm_num⟩⟩
  · norm_num [run, apply, weightControl, totalAbs, controlAll, populationControl, lookupMethod,
      stochasticReconfiguration, cumsumFrom]
    iterate 3 (rw [reconfLoop]; norm_num)
    rfl
  · norm_num [handedOver, DrawsFor]
    refine ⟨by decide, ?_⟩
    norm_num

/-! ## C66 -/

theorem sum_take_replicate (N j : ℕ) (h : j ≤ N) : ((List.replicate N (1 : K)).take j).sum = j := by
  rw [List.take_replicate, List.sum_replicate, min_eq_left h]; simp

theorem cumP_uniform (N j : ℕ) (h : j ≤ N) : cumP (List.replicate N (1 : K)) j = j / N := by
  unfold cumP
  rw [sum_take_replicate N j h, List.sum_replicate]; simp

/-- On equal weights every control method returns equal weights and every walker exactly once. -/
theorem control_uniform (d : Draws K) (method : Option String) (x : List α) (hx : x ≠ [])
    (hd : d.order.Perm (List.range x.length)) (h0 : 0 < d.offset) (h1 : d.offset < 1 / x.length) :
    ∃ nx, populationControl d method x (List.replicate x.length 1)
        = .ok (nx, List.replicate x.length 1) ∧ nx.Perm x := by
  obtain ⟨a, ha⟩ := List.exists_mem_of_ne_nil x hx
  have hN : 0 < x.length := List.length_pos_of_mem ha
  have hNK : (0 : K) < x.length := by exact_mod_cast hN
  have hpos : ∀ w ∈ List.replicate x.length (1 : K), 0 ≤ w := fun w hw => by
    rw [(List.mem_replicate.1 hw).2]; exact zero_le_one
  have hsum : (List.replicate x.length (1 : K)).sum = x.length := by
    rw [List.sum_replicate]; simp
  have htot : 0 < (List.replicate x.length (1 : K)).sum := by rw [hsum]; exact hNK
  have hid : ((List.range x.length).map fun i => x.getD i a) = x := by
    apply List.ext_getElem
    · simp
    · intro i h2 h3
      simp [h3]
  have hone : (List.replicate x.length (1 : K)).sum / x.length = 1 := by
    rw [hsum]; exact div_self hNK.ne'
  have hpt : ∀ i : ℕ, (i : K) / x.length < d.offset + (i : K) / x.length ∧
      d.offset + (i : K) / x.length < ((i + 1 : ℕ) : K) / x.length := fun i => by
    push_cast
    rw [add_div]
    constructor <;> linarith
  unfold populationControl
  split
  · have hlen : x.length = (List.replicate x.length (1 : K)).length := by simp
    have hd' : d.order.Perm (List.range (List.replicate x.length (1 : K)).length) := by simpa using hd
    obtain ⟨arr, harr, horg, hb⟩ := branching_output d.order (1 / 10) 2 d.rnd x
      (List.replicate x.length (1 : K)) hlen hd'
    have hget : ∀ i ∈ d.order, (List.replicate x.length (1 : K)).getD i 0 = 1 := fun i hi => by
      have := List.mem_range.1 (hd.mem_iff.1 hi)
      simp [this]
    have hs : (d.order.map fun i => (⟨|(List.replicate x.length (1 : K)).getD i 0|, 1, i⟩ : Rec K))
        = d.order.map fun i => ⟨1, 1, i⟩ := by
      apply List.map_congr_left
      intro i hi
      rw [hget i hi, abs_one]
    rw [hs] at harr
    have harr' : arr = d.order.map fun i => ⟨1, 1, i⟩ := by
      unfold pairLoop at harr
      split_ifs at harr with hlt
      · have e0 : ∀ p, p < d.order.length →
            (d.order.map fun i => (⟨1, 1, i⟩ : Rec K))[p]? = some ⟨1, 1, d.order.getD p 0⟩ := by
          intro p hp
          simp [hp]
        simp only [List.length_map] at harr hlt
        rw [e0 0 (by omega), e0 _ (by omega)] at harr
        simp only at harr
        rw [if_neg (by norm_num)] at harr
        cases harr; rfl
      · cases harr; rfl
    rw [hb, emit_eq _ _ a, harr']
    · refine ⟨d.order.map fun i => x.getD i a, ?_, by
        have := hd.map fun i => x.getD i a
        rwa [hid] at this⟩
      · have : (d.order.map fun i => (⟨1, 1, i⟩ : Rec K)).flatMap (fun r => List.replicate r.status r)
            = d.order.map fun i => ⟨1, 1, i⟩ := by
          induction d.order with
          | nil => rfl
          | cons b l ih => simpa using ih
        rw [this]
        have hl : d.order.length = x.length := by simpa using hd.length_eq
        simp [List.map_map, Function.comp_def, hl]
    · intro r hr
      rw [harr'] at hr
      obtain ⟨i, hi, rfl⟩ := List.mem_map.1 hr
      exact List.mem_range.1 (hd.mem_iff.1 hi)
  · rw [reconfiguration_eq d.offset x _ a (by simp) hpos htot (by simpa using h1)]
    refine ⟨_, by simp only [List.length_replicate]; rw [hone], ?_⟩
    rw [List.map_congr_left (g := fun i => x.getD i a), hid]
    intro i hi
    have hi := List.mem_range.1 hi
    congr 1
    unfold selR
    rw [findIdx_lt_eq_iff _ hpos htot _ (pos_nonneg _ _ _ h0.le) i (by simpa using hi),
      cumP_uniform _ _ hi.le, cumP_uniform _ _ hi]
    simp only [List.length_replicate]
    exact ⟨(hpt i).1.le, (hpt i).2⟩
  · rw [comb_eq d.offset x _ a (by simp) hpos htot (by simpa using h1)]
    refine ⟨_, by simp only [List.length_replicate]; rw [hone], ?_⟩
    rw [List.map_congr_left (g := fun i => x.getD i a), hid]
    intro i hi
    have hi := List.mem_range.1 hi
    congr 1
    unfold selC
    rw [findIdx_le_eq_iff _ hpos htot _ (by have := pos_nonneg (x.length) i (0 : K) le_rfl; simp only [List.length_replicate]; linarith) i (by simpa using hi),
      cumP_uniform _ _ hi.le, cumP_uniform _ _ hi]
    simp only [List.length_replicate]
    exact ⟨(hpt i).1, (hpt i).2.le⟩
  · exact ⟨x, rfl, .rfl⟩

/-- A population as it is set up: no process without walkers, every weight is one, and both recorded
totals are the number of walkers. -/
structure Uniform (st : State α ℝ) : Prop where
  filled : ∀ p ∈ st.procs, p.1 ≠ []
  weights : ∀ p ∈ st.procs, p.2 = List.replicate p.1.length 1
  total : st.totalWeight = ((st.procs.map fun p => p.1.length).sum : ℕ)
  nominal : st.totalWeight0 = ((st.procs.map fun p => p.1.length).sum : ℕ)

/-- Draws that numpy can make on `n` equal weights, up to the offset zero. -/
def UniformDraws (d : Draws K) (n : ℕ) : Prop :=
  d.order.Perm (List.range n) ∧ 0 < d.offset ∧ d.offset < 1 / n

theorem controlAll_uniform (method : Option String) (draws : List (Draws K))
    (procs : List (List α × List K)) (hf : ∀ p ∈ procs, p.1 ≠ [])
    (hw : ∀ p ∈ procs, p.2 = List.replicate p.1.length 1)
    (hd : List.Forall₂ (fun d p => UniformDraws d p.1.length) draws procs) :
    ∃ ps, controlAll method draws procs = .ok ps ∧
      List.Forall₂ (fun p q => q.1.Perm p.1 ∧ q.2 = p.2) procs ps := by
  induction hd with
  | nil => exact ⟨[], rfl, .nil⟩
  | @cons d p ds procs hdp _ ih =>
    obtain ⟨x, w⟩ := p
    obtain ⟨ps, h1, h2⟩ := ih (fun p hp => hf p (by simp [hp])) (fun p hp => hw p (by simp [hp]))
    have e : w = List.replicate x.length 1 := hw (x, w) (by simp)
    subst e
    obtain ⟨nx, h3, h4⟩ := control_uniform d method x (hf (x, List.replicate x.length 1) (by simp)) hdp.1 hdp.2.1 hdp.2.2
    refine ⟨(nx, List.replicate x.length 1) :: ps, ?_, .cons ⟨h4, rfl⟩ h2⟩
    unfold controlAll
    rw [h3]
    simp only
    rw [h1]

theorem totalAbs_uniform (procs : List (List α × List K))
    (hw : ∀ p ∈ procs, p.2 = List.replicate p.1.length 1) :
    totalAbs procs = ((procs.map fun p => p.1.length).sum : ℕ) := by
  unfold totalAbs
  induction procs with
  | nil => simp
  | cons p ps ih =>
    rw [List.map_cons, List.sum_cons, ih fun q hq => hw q (by simp [hq]), hw p (by simp)]
    simp

/-- The walkers of every process are the same up to their order, the weights are the same. -/
def SamePopulation (before after : List (List α × List ℝ)) : Prop :=
  List.Forall₂ (fun p q => q.1.Perm p.1 ∧ q.2 = p.2) before after

theorem SamePopulation.trans {a b c : List (List α × List ℝ)} (h : SamePopulation a b)
    (h' : SamePopulation b c) : SamePopulation a c := by
  unfold SamePopulation at *
  induction h generalizing c with
  | nil => cases h'; exact .nil
  | cons h1 _ ih =>
    cases h' with
    | cons h2 h3 => exact .cons ⟨h2.1.trans h1.1, h2.2.trans h1.2⟩ (ih h3)

theorem SamePopulation.refl (a : List (List α × List ℝ)) : SamePopulation a a :=
  List.forall₂_same.2 fun _ _ => ⟨.rfl, rfl⟩

theorem SamePopulation.lengths {a b : List (List α × List ℝ)} (h : SamePopulation a b) :
    (b.map fun p => p.1.length) = a.map fun p => p.1.length := by
  unfold SamePopulation at h
  induction h with
  | nil => rfl
  | cons h1 _ ih => simp [ih, h1.1.length_eq]

theorem SamePopulation.uniform {a b : List (List α × List ℝ)} (h : SamePopulation a b)
    (hf : ∀ p ∈ a, p.1 ≠ []) (hw : ∀ p ∈ a, p.2 = List.replicate p.1.length 1) :
    (∀ p ∈ b, p.1 ≠ []) ∧ ∀ p ∈ b, p.2 = List.replicate p.1.length 1 := by
  unfold SamePopulation at h
  induction h with
  | nil => simp
  | @cons p q ps qs h1 _ ih =>
    have := ih (fun r hr => hf r (by simp [hr])) (fun r hr => hw r (by simp [hr]))
    constructor
    · intro r hr
      rcases List.mem_cons.1 hr with rfl | hr
      · intro h0
        have h2 := h1.1
        rw [h0] at h2
        exact hf p (by simp) (List.nil_perm.1 h2)
      · exact this.1 r hr
    · intro r hr
      rcases List.mem_cons.1 hr with rfl | hr
      · rw [h1.2, h1.1.length_eq]; exact hw p (by simp)
      · exact this.2 r hr

/-- One call on a uniform population of at least ten walkers. -/
theorem weightControl_uniform (step freq : ℕ) (method : Option String) (draws : List (Draws ℝ))
    (st : State α ℝ) (hst : Uniform st) (h10 : 10 ≤ (st.procs.map fun p => p.1.length).sum)
    (hf : freq ≠ 0)
    (hd : List.Forall₂ (fun d (p : List α × List ℝ) => UniformDraws d p.1.length) draws st.procs) :
    ∃ st', weightControl step freq method draws st = .ok st' ∧ Uniform st' ∧
      SamePopulation st.procs st'.procs := by
  obtain ⟨hfill, hw, hT, hT0⟩ := hst
  have hn : (10 : ℝ) ≤ st.totalWeight := by rw [hT]; exact_mod_cast h10
  have hclip : (if step > 0 then st.procs.map fun p => (p.1, p.2.map (clip (1 / 10 * st.totalWeight)))
      else st.procs) = st.procs := by
    split_ifs
    · conv_rhs => rw [← List.map_id st.procs]
      apply List.map_congr_left
      intro p hp
      ext1
      · rfl
      · simp only [id]
        rw [hw p hp, List.map_replicate, clip_id _ _ (by rw [abs_one]; linarith)]
    · rfl
  unfold weightControl
  simp only [hclip]
  rw [if_neg hf]
  split_ifs with h1 h2
  · exact ⟨_, rfl, ⟨hfill, hw, hT, hT0⟩, .refl _⟩
  · exfalso
    rw [totalAbs_uniform _ hw, hT0] at h2
    have : ((st.procs.map fun p => p.1.length).sum : ℕ) = (0 : ℝ) := by tauto
    rw [← hT] at this
    linarith
  · have hr : totalAbs st.procs / st.totalWeight0 = 1 := by
      rw [totalAbs_uniform _ hw, hT0]
      refine div_self ?_
      rw [← hT]; linarith
    have hscale : (st.procs.map fun p => (p.1, p.2.map (· / (totalAbs st.procs / st.totalWeight0))))
        = st.procs := by
      rw [hr]
      conv_rhs => rw [← List.map_id st.procs]
      apply List.map_congr_left
      intro p _
      simp
    rw [hscale]
    obtain ⟨ps, h3, h4⟩ := controlAll_uniform method draws st.procs hfill hw hd
    rw [h3]
    have hs : SamePopulation st.procs ps := h4
    have hu := hs.uniform hfill hw
    refine ⟨_, rfl, ⟨hu.1, hu.2, ?_, ?_⟩, hs⟩
    · simp only; rw [hs.lengths, totalAbs_uniform _ hw]
    · simp only; rw [hs.lengths, hT0]

/-- **C66, partial.** A uniform population of at least ten walkers goes through any history of
weight control calls (any steps, frequencies and methods) without an exception, keeps all its
weights and totals, and every walker survives exactly once.  Missing: fewer than ten walkers, see
`uniform_population_fails`, and the offset zero for the comb. -/
theorem uniform_population_partial (ops : List (ℕ × ℕ × Option String × List (Draws ℝ)))
    (st : State α ℝ) (hst : Uniform st) (h10 : 10 ≤ (st.procs.map fun p => p.1.length).sum)
    (hf : ∀ o ∈ ops, o.2.1 ≠ 0)
    (hd : ∀ o ∈ ops, List.Forall₂ UniformDraws o.2.2.2 (st.procs.map fun p => p.1.length)) :
    ∃ st', run st (ops.map fun o => .control o.1 o.2.1 o.2.2.1 o.2.2.2) = .ok st' ∧ Uniform st' ∧
      SamePopulation st.procs st'.procs := by
  induction ops generalizing st with
  | nil => exact ⟨st, rfl, hst, .refl _⟩
  | cons o os ih =>
    obtain ⟨st1, h1, h2, h3⟩ := weightControl_uniform o.1 o.2.1 o.2.2.1 o.2.2.2 st hst h10
      (hf o (by simp)) (List.forall₂_map_right_iff.1 (hd o (by simp)))
    obtain ⟨st2, h4, h5, h6⟩ := ih st1 h2 (by rw [h3.lengths]; exact h10)
      (fun p hp => hf p (by simp [hp])) (fun p hp => by rw [h3.lengths]; exact hd p (by simp [hp]))
    refine ⟨st2, ?_, h5, h3.trans h6⟩
    rw [List.map_cons]
    unfold run apply
    simp only
    rw [h1]
    exact h4

/-- The weights of all walkers are `v` and the recorded total is `t`. -/
def AllEqual (v t : ℝ) (st : State α ℝ) : Prop :=
  (∀ p ∈ st.procs, p.2 = List.replicate p.1.length v) ∧ st.totalWeight = t ∧
    st.totalWeight0 = ((st.procs.map fun p => p.1.length).sum : ℕ)

/-- Without a method, population control on the processes does nothing. -/
theorem controlAll_none (draws : List (Draws K)) (procs : List (List α × List K))
    (h : procs.length ≤ draws.length) : controlAll none draws procs = .ok procs := by
  induction procs generalizing draws with
  | nil => cases draws <;> rfl
  | cons p ps ih =>
    cases draws with
    | nil => simp at h
    | cons d ds =>
      obtain ⟨x, w⟩ := p
      unfold controlAll
      simp only [populationControl, lookupMethod]
      rw [ih ds (by simpa using h)]

theorem totalAbs_equal (v : K) (hv : 0 ≤ v) (procs : List (List α × List K))
    (hw : ∀ p ∈ procs, p.2 = List.replicate p.1.length v) :
    totalAbs procs = ((procs.map fun p => p.1.length).sum : ℕ) * v := by
  unfold totalAbs
  induction procs with
  | nil => simp
  | cons p ps ih =>
    rw [List.map_cons, List.sum_cons, ih fun q hq => hw q (by simp [hq]), hw p (by simp)]
    simp [abs_of_nonneg hv]
    ring

theorem clip_eq_min (b v : K) (hv : 0 ≤ v) (hb : 0 ≤ b) : clip b v = min v b := by
  unfold clip
  rw [max_eq_left (by linarith)]

/-- One weight control call without a method on a state with equal weights. -/
theorem weightControl_equal (step freq : ℕ) (draws : List (Draws ℝ)) (st : State α ℝ) (v t : ℝ)
    (hst : AllEqual v t st) (hv : 0 < v) (ht : 0 < t) (hf : freq ≠ 0)
    (hn : 0 < (st.procs.map fun p => p.1.length).sum) (hd : st.procs.length ≤ draws.length) :
    ∃ st', weightControl step freq none draws st = .ok st' ∧
      (st'.procs.map fun p => p.1) = (st.procs.map fun p => p.1) ∧
      AllEqual (if freq ∣ step + 1 then 1 else if 0 < step then min v (t / 10) else v)
        (if freq ∣ step + 1 then
          ((st.procs.map fun p => p.1.length).sum : ℕ) * (if 0 < step then min v (t / 10) else v)
          else t) st' := by
  obtain ⟨hw, hT, hT0⟩ := hst
  set u := if 0 < step then min v (t / 10) else v with hu
  have hu0 : 0 < u := by
    rw [hu]; split_ifs
    · exact lt_min hv (by positivity)
    · exact hv
  have hclip : (if step > 0 then st.procs.map fun p => (p.1, p.2.map (clip (1 / 10 * st.totalWeight)))
      else st.procs) = st.procs.map fun p => (p.1, List.replicate p.1.length u) := by
    rw [hu]
    split_ifs
    · apply List.map_congr_left
      intro p hp
      rw [hw p hp, List.map_replicate, clip_eq_min _ _ hv.le (by rw [hT]; positivity), hT]
      congr 3
      ring
    · conv_lhs => rw [← List.map_id st.procs]
      apply List.map_congr_left
      intro p hp
      rw [← hw p hp]; rfl
  set procs := st.procs.map fun p => (p.1, List.replicate p.1.length u) with hprocs
  have hl : (procs.map fun p => p.1.length) = st.procs.map fun p => p.1.length := by
    rw [hprocs, List.map_map]; rfl
  have hwp : ∀ p ∈ procs, p.2 = List.replicate p.1.length u := by
    intro p hp
    obtain ⟨q, _, rfl⟩ := List.mem_map.1 hp
    rfl
  have hfst : (procs.map fun p => p.1) = st.procs.map fun p => p.1 := by
    rw [hprocs, List.map_map]; rfl
  have hnR : (0 : ℝ) < ((st.procs.map fun p => p.1.length).sum : ℕ) := by exact_mod_cast hn
  have hta : totalAbs procs = ((st.procs.map fun p => p.1.length).sum : ℕ) * u := by
    rw [totalAbs_equal u hu0.le procs hwp, hl]
  unfold weightControl
  simp only [hclip]
  rw [if_neg hf]
  by_cases hdue : freq ∣ step + 1
  · have hm : ¬ (step + 1) % freq ≠ 0 := by simpa using Nat.mod_eq_zero_of_dvd hdue
    rw [if_neg hm, if_neg (by rw [hta, hT0]; push Not; exact ⟨hnR.ne', (mul_pos hnR hu0).ne'⟩)]
    have hr : totalAbs procs / st.totalWeight0 = u := by
      rw [hta, hT0]; field_simp
    have hscale : (procs.map fun p => (p.1, p.2.map (· / (totalAbs procs / st.totalWeight0))))
        = procs.map fun p => (p.1, List.replicate p.1.length 1) := by
      rw [hr]
      apply List.map_congr_left
      intro p hp
      rw [hwp p hp, List.map_replicate, div_self hu0.ne']
    rw [hscale, controlAll_none _ _ (by rw [List.length_map, hprocs, List.length_map]; exact hd)]
    refine ⟨_, rfl, ?_, ?_, ?_, ?_⟩
    · simp only [List.map_map]; exact hfst
    · intro p hp
      rw [if_pos hdue]
      obtain ⟨q, _, rfl⟩ := List.mem_map.1 hp
      rfl
    · rw [if_pos hdue]; exact hta
    · simp only [List.map_map]
      rw [hT0]
      congr 2
      exact hl.symm
  · have hm : (step + 1) % freq ≠ 0 := fun h => hdue (Nat.dvd_of_mod_eq_zero h)
    rw [if_pos hm]
    refine ⟨_, rfl, hfst, ?_, ?_, ?_⟩
    · rw [if_neg hdue]; exact hwp
    · rw [if_neg hdue]; exact hT
    · simp only; rw [hl]; exact hT0

/-- The weight control calls of steps `a, …, a + m - 1`, without a method. -/
def calls (f : ℕ) (draws : ℕ → List (Draws ℝ)) (a m : ℕ) : List Op :=
  (List.range' a m).map fun i => .control i f none (draws i)

theorem run_append (ops ops' : List Op) (st st' : State α ℝ) (h : run st ops = .ok st') :
    run st (ops ++ ops') = run st' ops' := by
  induction ops generalizing st with
  | nil => cases h; rfl
  | cons o os ih =>
    rw [List.cons_append]
    simp only [run] at h ⊢
    cases h1 : apply st o with
    | error m => rw [h1] at h; cases h
    | ok s => rw [h1] at h; simp only at h ⊢; exact ih s h

theorem run_one (step freq : ℕ) (draws : List (Draws ℝ)) (st st' : State α ℝ)
    (h : weightControl step freq none draws st = .ok st') :
    run st [.control step freq none draws] = .ok st' := by
  simp [run, apply, h]

/-- The calls within a cycle, up to but not including the due one. -/
theorem run_cycle (f j m : ℕ) (draws : ℕ → List (Draws ℝ)) (st : State α ℝ) (t : ℝ)
    (hst : AllEqual 1 t st) (ht : 0 < t) (ht' : t ≤ 10) (hm : m < f)
    (hn : 0 < (st.procs.map fun p => p.1.length).sum)
    (hd : ∀ i, (draws i).length = st.procs.length) :
    ∃ st' v, run st (calls f draws (f * j) m) = .ok st' ∧
      (st'.procs.map fun p => p.1) = (st.procs.map fun p => p.1) ∧
      AllEqual v t st' ∧ (v = 1 ∨ v = t / 10) := by
  induction m with
  | zero => exact ⟨st, 1, rfl, rfl, hst, Or.inl rfl⟩
  | succ m ih =>
    obtain ⟨s1, v, h1, h2, h3, h4⟩ := ih (by omega)
    have hv : 0 < v := by rcases h4 with rfl | rfl <;> positivity
    have hlen : (s1.procs.map fun p => p.1.length) = st.procs.map fun p => p.1.length := by
      have := congrArg (List.map List.length) h2
      simpa [List.map_map, Function.comp_def] using this
    have hlen' : s1.procs.length = st.procs.length := by simpa using congrArg List.length h2
    obtain ⟨s2, h5, h6, h7⟩ := weightControl_equal (f * j + m) f (draws (f * j + m)) s1 v t h3 hv ht
      (by omega) (by rw [hlen]; exact hn) (by rw [hd, hlen'])
    have hnd : ¬ f ∣ f * j + m + 1 := by
      rw [Nat.add_assoc, Nat.dvd_add_right (Dvd.intro j rfl)]
      exact fun h => by have := Nat.le_of_dvd (by omega) h; omega
    rw [if_neg hnd, if_neg hnd] at h7
    refine ⟨s2, _, ?_, h6.trans h2, h7, ?_⟩
    · unfold calls
      rw [List.range'_concat, List.map_append]
      rw [run_append _ _ st s1 (by simpa [calls] using h1)]
      simpa using run_one _ _ _ _ _ h5
    · split_ifs
      · rcases h4 with rfl | rfl
        · exact Or.inr (min_eq_right (by linarith))
        · exact Or.inr (min_self _)
      · exact h4

/-- **C66, negation.** For every population of one to nine walkers as it is set up, on any number of
processes, and every control frequency of at least two, weight control alone (no propagation, no
control method) makes the recorded total weight decay: after `k` controls it is `n (n/10)^k` instead
of `n`.  (After a due call the weights themselves are one again.) -/
theorem uniform_population_fails (w : α) (n size : ℕ) (hn : 0 < n) (hn' : n < 10) (hs : 0 < size)
    (f k : ℕ) (hf : 2 ≤ f) (draws : ℕ → List (Draws ℝ)) (hdraws : ∀ i, (draws i).length = size) :
    ∃ st', run (initState w n size) ((List.range (f * k)).map fun i => .control i f none (draws i))
        = .ok st' ∧
      st'.totalWeight = n * (n / 10) ^ k ∧ (0 < k → st'.totalWeight < n) ∧
      ∀ p ∈ st'.procs, ∀ v ∈ p.2, v = 1 := by
  have hnR : (0 : ℝ) < n := by exact_mod_cast hn
  have hnR' : (n : ℝ) < 10 := by exact_mod_cast hn'
  have key : ∀ k, ∃ st', run (initState w n size) (calls f draws 0 (f * k)) = .ok st' ∧
      (st'.procs.map fun p => p.1) = ((initState w n size : State α ℝ).procs.map fun p => p.1) ∧
      AllEqual 1 (n * (n / 10) ^ k) st' := by
    have hinit : ((initState w n size : State α ℝ).procs.map fun p => p.1.length).sum = n := by
      unfold initState
      rw [List.map_map]
      have := (walker_distribution n size hs).2.1
      simpa [Function.comp_def] using this
    have hil : (initState w n size : State α ℝ).procs.length = size := by
      simp [initState, walkerCounter]
    intro k
    induction k with
    | zero =>
      refine ⟨_, rfl, rfl, ?_, by simp [initState], by rw [hinit]; rfl⟩
      intro p hp
      obtain ⟨c, _, rfl⟩ := List.mem_map.1 hp
      simp
    | succ k ih =>
      obtain ⟨s1, h1, h2, h3⟩ := ih
      have hlen : (s1.procs.map fun p => p.1.length).sum = n := by
        have := congrArg (List.map List.length) h2
        simp only [List.map_map] at this
        rw [← hinit]
        exact congrArg List.sum this
      have hlen' : s1.procs.length = size := by
        rw [← hil]; simpa using congrArg List.length h2
      set t := (n : ℝ) * (n / 10) ^ k with htdef
      have ht : 0 < t := by positivity
      have ht' : t ≤ 10 := by
        have h9 : ((n : ℝ) / 10) ^ k ≤ 1 := pow_le_one₀ (by positivity) (by linarith)
        have : t ≤ n * 1 := by rw [htdef]; gcongr
        linarith
      obtain ⟨s2, v, h4, h5, h6, h7⟩ := run_cycle f k (f - 1) draws s1 t h3 ht ht' (by omega)
        (by rw [hlen]; exact hn) (by intro i; rw [hdraws, hlen'])
      have hv : 0 < v := by rcases h7 with rfl | rfl <;> positivity
      have hlen2 : (s2.procs.map fun p => p.1.length).sum = n := by
        have := congrArg (List.map List.length) h5
        simp only [List.map_map] at this
        rw [← hlen]
        exact congrArg List.sum this
      have hlen2' : s2.procs.length = size := by
        rw [← hlen']; simpa using congrArg List.length h5
      obtain ⟨s3, h8, h9, h10⟩ := weightControl_equal (f * k + (f - 1)) f
        (draws (f * k + (f - 1))) s2 v t h6 hv ht (by omega) (by rw [hlen2]; exact hn)
        (by rw [hdraws, hlen2'])
      have hdue : f ∣ f * k + (f - 1) + 1 := ⟨k + 1, by rw [Nat.mul_succ]; omega⟩
      rw [if_pos hdue, if_pos hdue, if_pos (by omega), hlen2] at h10
      refine ⟨s3, ?_, h9.trans (h5.trans h2), ?_⟩
      · have e : calls f draws 0 (f * (k + 1))
            = calls f draws 0 (f * k) ++ (calls f draws (f * k) (f - 1) ++
              [.control (f * k + (f - 1)) f none (draws (f * k + (f - 1)))]) := by
          unfold calls
          rw [← List.map_singleton (f := fun i => Op.control i f none (draws i)), ← List.map_append,
            ← List.map_append]
          congr 1
          have e1 : f * (k + 1) = f * k + ((f - 1) + 1) := by rw [Nat.mul_succ]; omega
          rw [e1, ← List.range'_append_1, List.range'_concat]
          simp
        rw [e, run_append _ _ _ s1 h1, run_append _ _ _ s2 h4]
        exact run_one _ _ _ _ _ h8
      · have : (n : ℝ) * min v (t / 10) = n * (n / 10) ^ (k + 1) := by
          have : min v (t / 10) = t / 10 := by
            rcases h7 with rfl | rfl
            · exact min_eq_right (by linarith)
            · exact min_self _
          rw [this, htdef]; ring
        rw [this] at h10
        exact h10
  obtain ⟨st', h1, _, h2, h3, _⟩ := key k
  refine ⟨st', by simpa [calls, List.range_eq_range'] using h1, h3, ?_, ?_⟩
  · intro hk
    rw [h3]
    have : ((n : ℝ) / 10) ^ k < 1 := pow_lt_one₀ (by positivity) (by linarith) (by omega)
    calc (n : ℝ) * (n / 10) ^ k < n * 1 := by gcongr
      _ = n := mul_one _
  · intro p hp v hv
    rw [h2 p hp] at hv
    exact (List.mem_replicate.1 hv).2

/-- The population as it is set up is uniform, if no process is left without walkers. -/
theorem initState_uniform (w : α) (n size : ℕ) (hs : 0 < size) (h : size ≤ n) :
    Uniform (initState w n size) := by
  have hsum : ((initState w n size : State α ℝ).procs.map fun p => p.1.length).sum = n := by
    unfold initState
    rw [List.map_map]
    have := (walker_distribution n size hs).2.1
    simpa [Function.comp_def] using this
  refine ⟨?_, ?_, by rw [hsum]; rfl, by rw [hsum]; rfl⟩
  · intro p hp
    obtain ⟨c, hc, rfl⟩ := List.mem_map.1 hp
    obtain ⟨i, _, rfl⟩ := List.mem_map.1 hc
    have : 0 < n / size := Nat.div_pos h hs
    simp only [ne_eq, List.replicate_eq_nil_iff]
    omega
  · intro p hp
    obtain ⟨c, _, rfl⟩ := List.mem_map.1 hp
    simp

/-- The hypotheses of `uniform_population_partial` are met by twelve walkers on five processes. -/
example : Uniform (initState "phi" 12 5) ∧
    10 ≤ ((initState "phi" 12 5 : State String ℝ).procs.map fun p => p.1.length).sum ∧
    UniformDraws (⟨[1, 0, 2], fun _ => 0, 1 / 8⟩ : Draws ℝ) 3 := by
  refine ⟨initState_uniform _ _ _ (by norm_num) (by norm_num), ?_, ?_, by norm_num, by norm_num⟩
  · simp [initState, walkerCounter, List.range, List.range.loop]
  · decide

end OpenMS.Run
