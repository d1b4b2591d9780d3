import Verif.Model.Walkers
import Verif.Props.Branching
import Verif.Props.Resampling

/-!
# Walker bookkeeping (C12, C13, C14, C16)
-/

set_option linter.unusedSectionVars false

namespace OpenMS.Walkers

open OpenMS.PopulationControl

variable {K : Type*} [Field K] [LinearOrder K] [IsStrictOrderedRing K] {α : Type*}

/-! ## C12 -/

theorem sum_counter_take (q r m : ℕ) :
    (((List.range m).map fun i => q + (if i < r then 1 else 0))).sum = m * q + min m r := by
  induction m with
  | zero => simp
  | succ m ih =>
    rw [List.range_succ, List.map_append, List.sum_append, ih]
    simp only [List.map_cons, List.map_nil, List.sum_cons, List.sum_nil]
    rw [Nat.succ_mul]
    split_ifs <;> omega

theorem displs_eq (n size i : ℕ) (hi : i < size) :
    (displs n size)[i]? = some (i * (n / size) + min i (n % size)) := by
  unfold displs walkerCounter
  rw [List.getElem?_map, List.getElem?_range hi, Option.map_some]
  congr 1
  rw [← List.map_take, List.take_range, Nat.min_eq_left hi.le]
  exact sum_counter_take _ _ _

theorem counter_eq (n size i : ℕ) (hi : i < size) :
    (walkerCounter n size)[i]? = some (n / size + if i < n % size then 1 else 0) := by
  unfold walkerCounter
  rw [List.getElem?_map, List.getElem?_range hi]
  rfl

/-- **C12.** One count per process, the counts add up to the requested number and differ
by at most one. -/
theorem walker_distribution (n size : ℕ) (hsize : 0 < size) :
    (walkerCounter n size).length = size ∧
    (walkerCounter n size).sum = n ∧
    ∀ a ∈ walkerCounter n size, ∀ b ∈ walkerCounter n size, a ≤ b + 1 := by
  refine ⟨by simp [walkerCounter], ?_, ?_⟩
  · unfold walkerCounter
    rw [sum_counter_take]
    have h1 := Nat.div_add_mod n size
    have h2 := Nat.mod_lt n hsize
    rw [Nat.min_eq_right h2.le]
    exact h1
  · intro a ha b hb
    unfold walkerCounter at ha hb
    obtain ⟨i, _, rfl⟩ := List.mem_map.1 ha
    obtain ⟨j, _, rfl⟩ := List.mem_map.1 hb
    split_ifs <;> omega

/-- **C12, blocks.** Every walker `0 … n-1` lies in the block of exactly one process, where
the block of process `i` starts at its displacement and has its count as length. -/
theorem walker_blocks (n size : ℕ) (hsize : 0 < size) (x : ℕ) (hx : x < n) :
    ∃! i, i < size ∧ ∃ d c, (displs n size)[i]? = some d ∧ (walkerCounter n size)[i]? = some c ∧
      d ≤ x ∧ x < d + c := by
  set q := n / size with hq
  set r := n % size with hr
  have h1 : size * q + r = n := Nat.div_add_mod n size
  have h2 : r < size := Nat.mod_lt n hsize
  -- start of block i
  have hstart : ∀ i, i < size → (displs n size)[i]? = some (i * q + min i r) :=
    fun i hi => displs_eq n size i hi
  have hcount : ∀ i, i < size →
      (walkerCounter n size)[i]? = some (q + if i < r then 1 else 0) :=
    fun i hi => counter_eq n size i hi
  have hnext : ∀ i, i * q + min i r + (q + if i < r then 1 else 0) =
      (i + 1) * q + min (i + 1) r := by
    intro i
    rw [Nat.succ_mul]
    split_ifs <;> omega
  have hmono : ∀ i j, i ≤ j → i * q + min i r ≤ j * q + min j r := by
    intro i j hij
    have := Nat.mul_le_mul_right q hij
    omega
  -- existence: the last block that starts at or before x
  have hex : ∃ i, i < size ∧ i * q + min i r ≤ x ∧ x < (i + 1) * q + min (i + 1) r := by
    have hP : ∃ k, x < k * q + min k r := ⟨size, by rw [Nat.min_eq_right h2.le]; omega⟩
    classical
    have hk := Nat.find_spec hP
    have hmin := fun m => Nat.find_min hP (m := m)
    set k := Nat.find hP
    have hk0 : k ≠ 0 := by
      intro h0; rw [h0] at hk; simp at hk
    refine ⟨k - 1, ?_, ?_, ?_⟩
    · have : k ≤ size := Nat.find_min' hP (by rw [Nat.min_eq_right h2.le]; omega)
      omega
    · exact not_lt.1 (hmin (k - 1) (by omega))
    · have e : k - 1 + 1 = k := by omega
      rw [e]; exact hk
  obtain ⟨i, hi, hi1, hi2⟩ := hex
  refine ⟨i, ⟨hi, _, _, hstart i hi, hcount i hi, hi1, by rw [hnext]; exact hi2⟩, ?_⟩
  rintro j ⟨hj, d, c, hd, hc, hj1, hj2⟩
  rw [hstart j hj] at hd
  rw [hcount j hj] at hc
  cases hd; cases hc
  rw [hnext] at hj2
  rcases lt_trichotomy i j with h | h | h
  · have := hmono (i + 1) j h
    omega
  · exact h.symm
  · have := hmono (j + 1) i h
    omega

/-- Ten walkers on four processes. -/
example : walkerCounter 10 4 = [3, 3, 2, 2] ∧ displs 10 4 = [0, 3, 6, 8] := by decide

/-! ## C13 -/

/-- Walker counts after executing a plan `(from, to, number)`. -/
def executePlan (plan : List (ℕ × ℕ × ℕ)) (count : ℕ → ℕ) (i : ℕ) : ℤ :=
  count i + ((plan.map fun p => if p.2.1 = i then (p.2.2 : ℤ) else 0).sum)
    - ((plan.map fun p => if p.1 = i then (p.2.2 : ℤ) else 0).sum)

/-- **C13, negation.** Four walkers on one of two processes: nothing is moved. -/
theorem rebalance_fails : ∃ counts : List ℕ,
    (interNodeRebalance counts).2 = [4, 0] ∧ counts.length = 2 ∧ counts.sum / 2 = 2 :=
  ⟨[4, 0], by decide, rfl, rfl⟩

/-- The counts never change, for any population. -/
theorem rebalance_keeps_counts (counts : List ℕ) : (interNodeRebalance counts).2 = counts := rfl

theorem fillReceiver_spec (ri : ℕ) (senders : List (ℕ × ℕ)) (need : ℕ) :
    (((fillReceiver ri need senders).1.map fun p => p.2.2).sum
      = min need (senders.map Prod.snd).sum) ∧
    (∀ p ∈ (fillReceiver ri need senders).1, p.2.1 = ri) ∧
    (∀ i, (((fillReceiver ri need senders).1.map fun p => if p.1 = i then p.2.2 else 0).sum) +
      ((fillReceiver ri need senders).2.map fun s => if s.1 = i then s.2 else 0).sum
      = (senders.map fun s => if s.1 = i then s.2 else 0).sum) ∧
    ((fillReceiver ri need senders).2.map Prod.snd).sum
      = (senders.map Prod.snd).sum - min need (senders.map Prod.snd).sum := by
  induction senders generalizing need with
  | nil => simp [fillReceiver]
  | cons s rest ih =>
    obtain ⟨r, surplus⟩ := s
    unfold fillReceiver
    by_cases h0 : need = 0
    · simp [h0]
    · simp only [if_neg h0]
      by_cases h1 : surplus - min need surplus = 0
      · simp only [if_pos h1]
        obtain ⟨i1, i2, i3, i4⟩ := ih (need - min need surplus)
        refine ⟨?_, ?_, ?_, ?_⟩
        · simp only [List.map_cons, List.sum_cons, i1]
          omega
        · intro p hp
          rcases List.mem_cons.1 hp with rfl | hp
          · rfl
          · exact i2 p hp
        · intro i
          have := i3 i
          simp only [List.map_cons, List.sum_cons]
          split_ifs
          · omega
          · omega
        · simp only [List.map_cons, List.sum_cons, i4]
          omega
      · simp only [if_neg h1]
        refine ⟨?_, ?_, ?_, ?_⟩
        · simp only [List.map_cons, List.sum_cons, List.map_nil, List.sum_nil]
          omega
        · intro p hp
          simp only [List.mem_singleton] at hp
          rw [hp]
        · intro i
          simp only [List.map_cons, List.sum_cons, List.map_nil, List.sum_nil]
          split_ifs
          · omega
          · omega
        · simp only [List.map_cons, List.sum_cons]
          omega

theorem sendPlan_spec (receivers senders : List (ℕ × ℕ))
    (h : (receivers.map Prod.snd).sum ≤ (senders.map Prod.snd).sum) :
    (∀ i, ((sendPlan receivers senders).map fun p => if p.2.1 = i then p.2.2 else 0).sum
      = (receivers.map fun r => if r.1 = i then r.2 else 0).sum) ∧
    (∀ i, ((sendPlan receivers senders).map fun p => if p.1 = i then p.2.2 else 0).sum
      ≤ (senders.map fun s => if s.1 = i then s.2 else 0).sum) := by
  induction receivers generalizing senders with
  | nil => simp [sendPlan]
  | cons rc rs ih =>
    obtain ⟨ri, need⟩ := rc
    simp only [List.map_cons, List.sum_cons] at h
    obtain ⟨f1, f2, f3, f4⟩ := fillReceiver_spec ri senders need
    obtain ⟨j1, j2⟩ := ih (fillReceiver ri need senders).2 (by rw [f4]; omega)
    unfold sendPlan
    simp only
    constructor
    · intro i
      rw [List.map_append, List.sum_append, j1 i]
      simp only [List.map_cons, List.sum_cons]
      congr 1
      have : (fillReceiver ri need senders).1.map (fun p => if p.2.1 = i then p.2.2 else 0) =
          (fillReceiver ri need senders).1.map (fun p => if ri = i then p.2.2 else 0) := by
        apply List.map_congr_left
        intro p hp
        rw [f2 p hp]
      rw [this]
      by_cases hri : ri = i
      · simp only [hri, if_true] at f1 ⊢
        omega
      · simp [hri]
    · intro i
      rw [List.map_append, List.sum_append]
      have := f3 i
      have := j2 i
      omega

theorem sum_surplus (counts : List ℕ) (k m : ℕ) :
    (((counts.zipIdx k).filterMap fun p => if p.1 > m then some (p.2, p.1 - m) else none).map
      Prod.snd).sum = (counts.map fun c => c - m).sum := by
  induction counts generalizing k with
  | nil => rfl
  | cons c cs ih =>
    rw [List.zipIdx_cons, List.filterMap_cons]
    by_cases h : c > m
    · simp [h, ih]
    · simp only [h, if_false, ih, List.map_cons, List.sum_cons]
      omega

theorem sum_deficit (counts : List ℕ) (k m : ℕ) :
    (((counts.zipIdx k).filterMap fun p => if p.1 < m then some (p.2, m - p.1) else none).map
      Prod.snd).sum = (counts.map fun c => m - c).sum := by
  induction counts generalizing k with
  | nil => rfl
  | cons c cs ih =>
    rw [List.zipIdx_cons, List.filterMap_cons]
    by_cases h : c < m
    · simp [h, ih]
    · simp only [h, if_false, ih, List.map_cons, List.sum_cons]
      omega

theorem at_surplus (counts : List ℕ) (k m i : ℕ) :
    (((counts.zipIdx k).filterMap fun p => if p.1 > m then some (p.2, p.1 - m) else none).map
      fun s => if s.1 = i then s.2 else 0).sum
      = if k ≤ i then counts.getD (i - k) 0 - m else 0 := by
  induction counts generalizing k with
  | nil => simp
  | cons c cs ih =>
    rw [List.zipIdx_cons, List.filterMap_cons]
    have key : (((cs.zipIdx (k + 1)).filterMap
        fun p => if p.1 > m then some (p.2, p.1 - m) else none).map
        fun s => if s.1 = i then s.2 else 0).sum + (if k = i then c - m else 0) =
        if k ≤ i then (c :: cs).getD (i - k) 0 - m else 0 := by
      rw [ih]
      rcases lt_trichotomy k i with h | h | h
      · have e : i - k = (i - (k + 1)) + 1 := by omega
        rw [if_pos (by omega), if_neg (by omega), if_pos (by omega), e]
        simp
      · subst h
        simp
      · rw [if_neg (by omega), if_neg (by omega), if_neg (by omega)]
    by_cases h : c > m
    · simp only [h, if_true, List.map_cons, List.sum_cons]
      rw [← key, add_comm]
    · simp only [h, if_false]
      rw [← key]
      have : c - m = 0 := by omega
      simp [this]

theorem at_deficit (counts : List ℕ) (k m i : ℕ) (hi : i < k + counts.length) :
    (((counts.zipIdx k).filterMap fun p => if p.1 < m then some (p.2, m - p.1) else none).map
      fun s => if s.1 = i then s.2 else 0).sum
      = if k ≤ i then m - counts.getD (i - k) 0 else 0 := by
  induction counts generalizing k with
  | nil =>
    simp only [List.length_nil] at hi
    rw [if_neg (by omega)]; rfl
  | cons c cs ih =>
    rw [List.zipIdx_cons, List.filterMap_cons]
    have key : (((cs.zipIdx (k + 1)).filterMap
        fun p => if p.1 < m then some (p.2, m - p.1) else none).map
        fun s => if s.1 = i then s.2 else 0).sum + (if k = i then m - c else 0) =
        if k ≤ i then m - (c :: cs).getD (i - k) 0 else 0 := by
      rw [ih _ (by simp at hi; omega)]
      rcases lt_trichotomy k i with h | h | h
      · have e : i - k = (i - (k + 1)) + 1 := by omega
        rw [if_pos (by omega), if_neg (by omega), if_pos (by omega), e]
        simp
      · subst h
        simp
      · rw [if_neg (by omega), if_neg (by omega), if_neg (by omega)]
    by_cases h : c < m
    · simp only [h, if_true, List.map_cons, List.sum_cons]
      rw [← key, add_comm]
    · simp only [h, if_false]
      rw [← key]
      have : m - c = 0 := by omega
      simp [this]

theorem surplus_ge_deficit (counts : List ℕ) (m : ℕ) (h : counts.length * m ≤ counts.sum) :
    (counts.map fun c => m - c).sum ≤ (counts.map fun c => c - m).sum := by
  have : (counts.map fun c => m - c).sum + counts.sum =
      (counts.map fun c => c - m).sum + counts.length * m := by
    clear h
    induction counts with
    | nil => simp
    | cons c cs ih =>
      simp only [List.map_cons, List.sum_cons, List.length_cons]
      rw [Nat.succ_mul]
      omega
  omega

/-- **C13 (partial).** The plan itself is sound: if it is not empty-handed (the imbalance
threshold is exceeded) and were executed, every process would hold at least the ideal
number of walkers, every process below the ideal number exactly the ideal number, and no
process gives away more than its surplus.  Missing: the code never executes the plan, see
`rebalance_fails`; and a plan never splits the remainder of the division, so counts can
still differ by more than one. -/
theorem rebalance_plan_partial (counts : List ℕ) (i c : ℕ) (hc : counts[i]? = some c)
    (hplan : (interNodeRebalance counts).1 ≠ []) :
    let after := executePlan (interNodeRebalance counts).1 (fun j => counts.getD j 0) i
    let ideal := counts.sum / counts.length
    (ideal : ℤ) ≤ after ∧ (c ≤ ideal → after = ideal) ∧ after ≤ max c ideal := by
  intro after ideal
  have hi : i < counts.length := (List.getElem?_eq_some_iff.1 hc).1
  have hcD : counts.getD i 0 = c := by simp [hc]
  have hideal : counts.length * ideal ≤ counts.sum := Nat.mul_div_le _ _
  have hdef : (interNodeRebalance counts).1 = sendPlan
      (counts.zipIdx.filterMap fun p => if p.1 < ideal then some (p.2, ideal - p.1) else none)
      (counts.zipIdx.filterMap fun p => if p.1 > ideal then some (p.2, p.1 - ideal) else none) := by
    unfold interNodeRebalance at hplan ⊢
    simp only at hplan ⊢
    split_ifs at hplan ⊢ with h
    · rfl
    · exact absurd rfl hplan
  obtain ⟨p1, p2⟩ := sendPlan_spec
    (counts.zipIdx.filterMap fun p => if p.1 < ideal then some (p.2, ideal - p.1) else none)
    (counts.zipIdx.filterMap fun p => if p.1 > ideal then some (p.2, p.1 - ideal) else none)
    (by rw [sum_surplus, sum_deficit]; exact surplus_ge_deficit counts ideal hideal)
  have q1 := p1 i
  have q2 := p2 i
  rw [at_deficit counts 0 ideal i (by omega), if_pos (Nat.zero_le _), Nat.sub_zero, hcD] at q1
  rw [at_surplus counts 0 ideal i, if_pos (Nat.zero_le _), Nat.sub_zero, hcD] at q2
  have cast : ∀ (l : List (ℕ × ℕ × ℕ)) (P : ℕ × ℕ × ℕ → Prop) [DecidablePred P],
      (l.map fun p => if P p then (p.2.2 : ℤ) else 0).sum =
      (((l.map fun p => if P p then p.2.2 else 0).sum : ℕ) : ℤ) := by
    intro l P _
    induction l with
    | nil => rfl
    | cons a l ih =>
      simp only [List.map_cons, List.sum_cons, ih]
      push_cast
      split_ifs <;> simp
  have hafter : after = (c : ℤ) + ((ideal - c : ℕ) : ℤ) -
      ((((interNodeRebalance counts).1.map fun p => if p.1 = i then p.2.2 else 0).sum : ℕ) : ℤ) := by
    simp only [after, executePlan, hcD]
    rw [cast _ (fun p => p.2.1 = i), cast _ (fun p => p.1 = i), hdef, q1]
  rw [hdef] at hafter
  rw [hafter]
  refine ⟨?_, ?_, ?_⟩ <;> omega

/-- The plan for counts `9, 1, 2`: two transfers from process 0. -/
example : (interNodeRebalance [9, 1, 2]).1 = [(0, 1, 3), (0, 2, 2)] := by decide

/-! ## C14 -/

theorem clip_bound (b w : K) (hb : 0 ≤ b) : |clip b w| ≤ b := by
  unfold clip
  rw [abs_le]
  exact ⟨le_min (le_max_right _ _) (by linarith), min_le_right _ _⟩

theorem clip_id (b w : K) (h : |w| ≤ b) : clip b w = w := by
  rw [abs_le] at h
  unfold clip
  rw [max_eq_left h.1, min_eq_left h.2]

theorem clip_nonneg (b w : K) (hb : 0 ≤ b) (hw : 0 ≤ w) : 0 ≤ clip b w := by
  unfold clip
  exact le_min (le_trans hw (le_max_left _ _)) hb

/-- **C14, clipping.** At a step `> 0` at which control is not due, every weight is
clipped to at most a tenth of the recorded total weight, weights within the bound, the
walkers and the recorded totals are unchanged. -/
theorem weight_control_clip (step freq : ℕ) (method : Option String) (draws : List (Draws K))
    (st : State α K) (hstep : 0 < step) (hf : 0 < freq) (hdue : (step + 1) % freq ≠ 0)
    (hT : 0 ≤ st.totalWeight) :
    ∃ st', weightControl step freq method draws st = .ok st' ∧
      st'.totalWeight = st.totalWeight ∧ st'.totalWeight0 = st.totalWeight0 ∧
      st'.procs.map Prod.fst = st.procs.map Prod.fst ∧
      (∀ p ∈ st'.procs, ∀ w ∈ p.2, |w| ≤ st.totalWeight / 10) ∧
      ((∀ p ∈ st.procs, ∀ w ∈ p.2, |w| ≤ st.totalWeight / 10) → st' = st) := by
  have hb : (0 : K) ≤ 1 / 10 * st.totalWeight := by positivity
  have hb' : 1 / 10 * st.totalWeight = st.totalWeight / 10 := by ring
  refine ⟨{ st with procs := st.procs.map fun p => (p.1, p.2.map (clip (1 / 10 * st.totalWeight))) },
    ?_, rfl, rfl, ?_, ?_, ?_⟩
  · unfold weightControl
    simp only
    rw [if_neg hf.ne', if_pos hdue, if_pos hstep]
  · simp [Function.comp_def]
  · intro p hp w hw
    simp only at hp
    obtain ⟨q, _, rfl⟩ := List.mem_map.1 hp
    obtain ⟨v, _, rfl⟩ := List.mem_map.1 hw
    rw [← hb']
    exact clip_bound _ _ hb
  · intro h
    obtain ⟨procs, T, T0, org⟩ := st
    simp only at h hb' ⊢
    congr 1
    conv_rhs => rw [← List.map_id procs]
    apply List.map_congr_left
    intro p hp
    have : p.2.map (clip (1 / 10 * T)) = p.2 := by
      conv_rhs => rw [← List.map_id p.2]
      apply List.map_congr_left
      intro w hw
      exact clip_id _ _ (by rw [hb']; exact h p hp w hw)
    rw [this]; rfl

/-- At the first step nothing is clipped. -/
theorem weight_control_first (freq : ℕ) (method : Option String) (draws : List (Draws K))
    (st : State α K) (hf : 1 < freq) :
    weightControl 0 freq method draws st = .ok st := by
  unfold weightControl
  simp only
  rw [if_neg (by omega), if_pos (by rw [Nat.mod_eq_of_lt (by omega)]; omega), if_neg (by omega)]

/-- The total absolute weight after control, process by process. -/
theorem controlAll_sum (method : Option String) (draws : List (Draws K))
    (procs ps : List (List α × List K))
    (hpos : ∀ p ∈ procs, ∀ w ∈ p.2, 0 ≤ w)
    (hlen : ∀ p ∈ procs, p.1.length = p.2.length)
    (hd : List.Forall₂ (fun (d : Draws K) (p : List α × List K) =>
      IsArgsort d.order p.2 ∧ d.offset < 1 / p.2.length) draws procs)
    (h : controlAll method draws procs = .ok ps) :
    (ps.map fun p => p.2.sum).sum = (procs.map fun p => p.2.sum).sum := by
  induction hd generalizing ps with
  | nil => simp [controlAll] at h; rw [← h]
  | @cons d p ds ps' hdp hrest ih =>
    obtain ⟨x, w⟩ := p
    unfold controlAll at h
    have hw : ∀ v ∈ w, 0 ≤ v := fun v hv => hpos (x, w) (by simp) v hv
    have hl : x.length = w.length := hlen (x, w) (by simp)
    cases hp : populationControl d method x w with
    | error e => rw [hp] at h; cases h
    | ok p =>
      rw [hp] at h
      simp only at h
      cases hq : controlAll method ds ps' with
      | error e => rw [hq] at h; cases h
      | ok qs =>
        rw [hq] at h
        simp only [Except.ok.injEq] at h
        subst h
        have ih' := ih qs (fun q hq => hpos q (by simp [hq])) (fun q hq => hlen q (by simp [hq])) hq
        simp only [List.map_cons, List.sum_cons]
        rw [ih']
        congr 1
        unfold populationControl at hp
        split at hp
        · obtain ⟨nw, nws⟩ := p
          exact branching_signed_total_partial _ _ _ _ _ _ hdp.1 hw _ _ hp
        · by_cases ht : w.sum = 0
          · obtain ⟨e, he⟩ := reconfiguration_rejects d.offset x w (Or.inr ht)
            rw [he] at hp; cases hp
          · have ht' : 0 < w.sum := lt_of_le_of_ne (List.sum_nonneg hw) (Ne.symm ht)
            obtain ⟨a, b, h1, _, _, _, _, h6⟩ :=
              reconfiguration_size d.offset x w hl hw ht' hdp.2
            rw [h1] at hp
            cases hp
            exact h6
        · by_cases ht : w.sum = 0
          · unfold combResampling at hp
            simp only [ht, if_true] at hp
            split_ifs at hp
          · have ht' : 0 < w.sum := lt_of_le_of_ne (List.sum_nonneg hw) (Ne.symm ht)
            obtain ⟨a, b, h1, _, _, _, _, h6⟩ := comb_size d.offset x w hl hw ht' hdp.2
            rw [h1] at hp
            cases hp
            exact h6
        · cases hp; rfl

theorem sum_map_div' (l : List K) (t : K) : (l.map (· / t)).sum = l.sum / t := by
  induction l with
  | nil => simp
  | cons a l ih => simp only [List.map_cons, List.sum_cons, ih]; ring

/-- The list of processes as it enters the population control of a due step. -/
def scaledProcs (step : ℕ) (st : State α K) : List (List α × List K) :=
  let procs := if step > 0 then st.procs.map fun p => (p.1, p.2.map (clip (1 / 10 * st.totalWeight)))
    else st.procs
  procs.map fun p => (p.1, p.2.map (· / (totalAbs procs / st.totalWeight0)))

/-- **C14, normalisation.** On a step where control is due, for non-negative weights and
any method and any draws, the weights of all processes together add up to the nominal
number of walkers afterwards, the recorded total is the total of the clipped weights before rescaling, and the
weights kept for the measurements are the clipped weights before rescaling. -/
theorem weight_control_normalise (step freq : ℕ) (method : Option String) (draws : List (Draws K))
    (st st' : State α K) (hdue : (step + 1) % freq = 0)
    (hT : 0 ≤ st.totalWeight) (hT0 : 0 ≤ st.totalWeight0)
    (hpos : ∀ p ∈ st.procs, ∀ w ∈ p.2, 0 ≤ w)
    (hlen : ∀ p ∈ st.procs, p.1.length = p.2.length)
    (hd : List.Forall₂ (fun (d : Draws K) (p : List α × List K) =>
      IsArgsort d.order p.2 ∧ d.offset < 1 / p.2.length) draws (scaledProcs step st))
    (h : weightControl step freq method draws st = .ok st') :
    (st'.procs.map fun p => p.2.sum).sum = st.totalWeight0 ∧
    st'.totalWeight0 = st.totalWeight0 ∧
    (0 < step → st'.totalWeight =
      (st.procs.map fun p => (p.2.map fun w => min w (st.totalWeight / 10)).sum).sum) ∧
    (step = 0 → st'.totalWeight = (st.procs.map fun p => p.2.sum).sum) ∧
    (0 < step → st'.weightsOrg =
      st.procs.map fun p => p.2.map fun w => min w (st.totalWeight / 10)) ∧
    (step = 0 → st'.weightsOrg = st.procs.map fun p => p.2) := by
  have hb : (0 : K) ≤ 1 / 10 * st.totalWeight := by positivity
  unfold weightControl at h
  unfold scaledProcs at hd
  simp only at h hd
  set procs := if step > 0 then st.procs.map fun p => (p.1, p.2.map (clip (1 / 10 * st.totalWeight)))
    else st.procs with hprocs
  have hpos' : ∀ p ∈ procs, ∀ w ∈ p.2, 0 ≤ w := by
    rw [hprocs]
    split_ifs
    · intro p hp w hw
      obtain ⟨q, hq, rfl⟩ := List.mem_map.1 hp
      obtain ⟨v, hv, rfl⟩ := List.mem_map.1 hw
      exact clip_nonneg _ _ hb (hpos q hq v hv)
    · exact hpos
  have hlen' : ∀ p ∈ procs, p.1.length = p.2.length := by
    rw [hprocs]
    split_ifs
    · intro p hp
      obtain ⟨q, hq, rfl⟩ := List.mem_map.1 hp
      simpa using hlen q hq
    · exact hlen
  have habs : totalAbs procs = (procs.map fun p => p.2.sum).sum := by
    unfold totalAbs
    congr 1
    apply List.map_congr_left
    intro p hp
    congr 1
    conv_rhs => rw [← List.map_id p.2]
    exact List.map_congr_left fun w hw => abs_of_nonneg (hpos' p hp w hw)
  by_cases h1 : freq = 0
  · rw [if_pos h1] at h; cases h
  rw [if_neg h1, if_neg (not_not.2 hdue)] at h
  split_ifs at h with h3
  split at h
  · cases h
  · rename_i ps hps
    cases h
    push Not at h3
    have hTpos : 0 ≤ totalAbs procs := by
      rw [habs]
      apply List.sum_nonneg
      intro x hx
      obtain ⟨p, hp, rfl⟩ := List.mem_map.1 hx
      exact List.sum_nonneg (hpos' p hp)
    have hr : 0 ≤ totalAbs procs / st.totalWeight0 := div_nonneg hTpos hT0
    have hs := controlAll_sum method draws _ ps
      (by
        intro p hp w hw
        obtain ⟨q, hq, rfl⟩ := List.mem_map.1 hp
        obtain ⟨v, hv, rfl⟩ := List.mem_map.1 hw
        exact div_nonneg (hpos' q hq v hv) hr)
      (by
        intro p hp
        obtain ⟨q, hq, rfl⟩ := List.mem_map.1 hp
        simpa using hlen' q hq)
      hd hps
    refine ⟨?_, rfl, ?_, ?_, ?_, ?_⟩
    · simp only
      rw [hs, List.map_map]
      have : (procs.map ((fun p : List α × List K => p.2.sum) ∘
          fun p => (p.1, p.2.map (· / (totalAbs procs / st.totalWeight0))))).sum =
          (procs.map fun p => p.2.sum).sum / (totalAbs procs / st.totalWeight0) := by
        rw [← sum_map_div', List.map_map]
        congr 1
        apply List.map_congr_left
        intro p _
        simp only [Function.comp]
        exact sum_map_div' _ _
      rw [this, ← habs]
      have := h3.1; have := h3.2
      field_simp
    · intro hstep
      simp only
      rw [habs, hprocs, if_pos hstep, List.map_map]
      congr 1
      apply List.map_congr_left
      intro p hp
      simp only [Function.comp]
      congr 1
      apply List.map_congr_left
      intro w hw
      have hw0 := hpos p hp w hw
      unfold clip
      rw [max_eq_left (by linarith), show 1 / 10 * st.totalWeight = st.totalWeight / 10 by ring]
    · intro hstep
      simp only
      rw [habs, hprocs, if_neg (by omega)]
    · intro hstep
      simp only
      rw [hprocs, if_pos hstep, List.map_map]
      apply List.map_congr_left
      intro p hp
      simp only [Function.comp]
      apply List.map_congr_left
      intro w hw
      have hw0 := hpos p hp w hw
      unfold clip
      rw [max_eq_left (by linarith), show 1 / 10 * st.totalWeight = st.totalWeight / 10 by ring]
    · intro hstep
      simp only
      rw [hprocs, if_neg (by omega)]

/-- A concrete due step: two processes with total weight 3, scaled to the nominal 4 walkers. -/
example : weightControl 4 5 none ([⟨[], fun _ => 0, 0⟩, ⟨[], fun _ => 0, 0⟩] : List (Draws ℚ))
    (⟨[(["a", "b"], [1, 1]), (["c", "d"], [1 / 2, 1 / 2])], 40, 4, []⟩ : State String ℚ) =
    .ok ⟨[(["a", "b"], [4 / 3, 4 / 3]), (["c", "d"], [2 / 3, 2 / 3])], 3, 4,
      [[1, 1], [1 / 2, 1 / 2]]⟩ := by
  norm_num [weightControl, totalAbs, controlAll, populationControl, lookupMethod, clip]

/-! ## C16 -/

/-- Selecting entries of an array by a list of indices (specification). -/
def gather {A : Type*} (sel : List ℕ) (l : List A) : List A := sel.filterMap fun i => l[i]?

/-- **C16 (partial).** The arrays that are packed are moved together: if the control
method replaces the packed walkers by the selection `sel`, each packed array
becomes its own selection by the same `sel`.  Missing: the arrays that are not packed
(hybrid and local energies), for which the claim is false, see `unpack_stale_fails`. -/
theorem pack_unpack_partial {A B E : Type*} (f : Fields A B E) (sel : List ℕ) (n : ℕ)
    (ha : f.phiwa.length = n) (hb : ∀ l, f.phiwb = some l → l.length = n)
    (hc : ∀ l, f.boson = some l → l.length = n) (hsel : ∀ i ∈ sel, i < n) :
    ∃ packed, pack n f = some packed ∧
      (unpack f (gather sel packed)).phiwa = gather sel f.phiwa ∧
      (unpack f (gather sel packed)).phiwb = f.phiwb.map (gather sel) ∧
      (unpack f (gather sel packed)).boson = f.boson.map (gather sel) := by
  -- the packed row i
  have hrow : ∀ i, i < n → ∃ r, packOne f i = some r ∧ some r.a = f.phiwa[i]? ∧
      (∀ l, f.phiwb = some l → r.b = l[i]?) ∧ (∀ l, f.boson = some l → r.bos = l[i]?) := by
    intro i hi
    have h1 : i < f.phiwa.length := by omega
    unfold packOne
    rw [List.getElem?_eq_getElem h1]
    cases hB : f.phiwb with
    | none =>
      cases hC : f.boson with
      | none => exact ⟨_, rfl, rfl, by simp, by simp⟩
      | some bo =>
        have h2 : i < bo.length := by have := hc bo hC; omega
        refine ⟨⟨f.phiwa[i], none, some bo[i]⟩, by simp [h2], rfl, by simp, ?_⟩
        intro l hl; cases hl; simp [h2]
    | some pb =>
      have h2 : i < pb.length := by have := hb pb hB; omega
      cases hC : f.boson with
      | none =>
        refine ⟨⟨f.phiwa[i], some pb[i], none⟩, by simp [h2], rfl, ?_, by simp⟩
        intro l hl; cases hl; simp [h2]
      | some bo =>
        have h3 : i < bo.length := by have := hc bo hC; omega
        refine ⟨⟨f.phiwa[i], some pb[i], some bo[i]⟩, by simp [h2, h3], rfl, ?_, ?_⟩
        · intro l hl; cases hl; simp [h2]
        · intro l hl; cases hl; simp [h3]
  -- choose the rows
  have hex : ∃ g : ℕ → Option (Packed A B), ∀ i, g i = packOne f i := ⟨_, fun _ => rfl⟩
  have hpack : ∃ packed : List (Packed A B), pack n f = some packed ∧ packed.length = n ∧
      ∀ i, i < n → packed[i]? = packOne f i := by
    unfold pack
    clear ha hb hc hsel hex
    induction n with
    | zero => exact ⟨[], rfl, rfl, by simp⟩
    | succ n ih =>
      obtain ⟨l, h1, h2, h3⟩ := ih (fun i hi => hrow i (by omega))
      obtain ⟨r, hr, _⟩ := hrow n (by omega)
      refine ⟨l ++ [r], ?_, by simp [h2], ?_⟩
      · rw [List.range_succ, List.mapM_append, h1]
        simp [hr]
      · intro i hi
        rcases Nat.lt_succ_iff_lt_or_eq.1 hi with h | h
        · rw [List.getElem?_append_left (by omega)]; exact h3 i h
        · subst h
          rw [List.getElem?_append_right (by omega), h2, hr]; simp
  obtain ⟨packed, hp1, hp2, hp3⟩ := hpack
  refine ⟨packed, hp1, ?_, ?_, ?_⟩
  · simp only [unpack, gather]
    rw [List.map_filterMap]
    apply List.filterMap_congr
    intro i hi
    obtain ⟨r, h1, h2, _⟩ := hrow i (hsel i hi)
    rw [hp3 i (hsel i hi), h1]
    simp [h2]
  · simp only [unpack]
    cases hB : f.phiwb with
    | none => rfl
    | some pb =>
      simp only [Option.map_some, Option.some.injEq, gather]
      rw [List.filterMap_filterMap]
      apply List.filterMap_congr
      intro i hi
      obtain ⟨r, h1, _, h3, _⟩ := hrow i (hsel i hi)
      rw [hp3 i (hsel i hi), h1]
      simp [h3 pb hB]
  · simp only [unpack]
    cases hC : f.boson with
    | none => rfl
    | some bo =>
      simp only [Option.map_some, Option.some.injEq, gather]
      rw [List.filterMap_filterMap]
      apply List.filterMap_congr
      intro i hi
      obtain ⟨r, h1, _, _, h4⟩ := hrow i (hsel i hi)
      rw [hp3 i (hsel i hi), h1]
      simp [h4 bo hC]

/-- Hypotheses met by two walkers with two spin components, walker 1 copied twice. -/
example : pack 2 (⟨["a0", "a1"], some ["b0", "b1"], none, [0, 5], [0, 0]⟩ : Fields String Unit ℚ)
    = some [⟨"a0", some "b0", none⟩, ⟨"a1", some "b1", none⟩] := by
  simp [pack, packOne, List.range, List.range.loop]

/-- **C16, negation.** After a control step that keeps walker 1 twice, slot 0 holds the
orbitals of walker 1 and the hybrid energy of walker 0. -/
theorem unpack_stale_fails : ∃ (f : Fields String Unit ℚ) (sel : List ℕ)
    (packed : List (Packed String Unit)), pack 2 f = some packed ∧
    (unpack f (gather sel packed)).phiwa = gather sel f.phiwa ∧
    (unpack f (gather sel packed)).ehybrid ≠ gather sel f.ehybrid := by
  refine ⟨⟨["a0", "a1"], none, none, [0, 5], [0, 0]⟩, [1, 1], [⟨"a0", none, none⟩, ⟨"a1", none, none⟩],
    by simp [pack, packOne, List.range, List.range.loop], ?_, ?_⟩
  · simp [unpack, gather]
  · simp [unpack, gather]

/-- The same for every control step: the hybrid energies stay where they are. -/
theorem unpack_keeps_energies {A B E : Type*} (f : Fields A B E) (new : List (Packed A B)) :
    (unpack f new).ehybrid = f.ehybrid ∧ (unpack f new).eloc = f.eloc := ⟨rfl, rfl⟩

end OpenMS.Walkers
