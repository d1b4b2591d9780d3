import Verif.Model.PopulationControl
import Mathlib.Algebra.BigOperators.Intervals
import Mathlib.Tactic.Ring
import Mathlib.Tactic.Linarith
import Mathlib.Tactic.FieldSimp

/-! Closed form of the pair loop of `branching_dp0`. -/

set_option linter.unusedSectionVars false
set_option linter.unusedVariables false

namespace OpenMS.PopulationControl

variable {K : Type*} [Field K] [LinearOrder K] {α : Type*}

/-- The pairs `s, s+1, …, k` all ask for branching and `k` is a proper pair. -/
def Active (minW maxW : K) (arr : List (Rec K)) (s t k : ℕ) : Prop :=
  k < t - k ∧ ∀ j, s ≤ j → j ≤ k → ∀ a b, arr[j]? = some a → arr[t - j]? = some b →
    (a.weight < minW ∨ b.weight > maxW)

open Classical in
/-- Closed form for the record at position `i`, with `t = s + e`. -/
noncomputable def finalRec (minW maxW : K) (rnd : ℕ → K) (arr : List (Rec K)) (s t i : ℕ)
    (r : Rec K) : Rec K :=
  match arr[min i (t - i)]?, arr[t - min i (t - i)]? with
  | some a, some b =>
    if Active minW maxW arr s t (min i (t - i)) then
      if rnd (min i (t - i)) < b.weight / (a.weight + b.weight) then
        if i < t - i then { r with weight := 0, status := 0 }
        else { r with weight := 1 / 2 * (a.weight + b.weight), status := 2 }
      else
        if i < t - i then { r with weight := 1 / 2 * (a.weight + b.weight), status := 2 }
        else { r with weight := 0, status := 0 }
    else r
  | _, _ => r

theorem active_succ {minW maxW : K} {arr : List (Rec K)} {s t k : ℕ} {a b : Rec K}
    (hs : s < k) (ha : arr[s]? = some a) (hb : arr[t - s]? = some b)
    (hc : a.weight < minW ∨ b.weight > maxW) :
    Active minW maxW arr s t k ↔ Active minW maxW arr (s + 1) t k := by
  constructor
  · rintro ⟨h1, h2⟩
    exact ⟨h1, fun j hj => h2 j (by omega)⟩
  · rintro ⟨h1, h2⟩
    refine ⟨h1, fun j hj hjk a' b' ha' hb' => ?_⟩
    rcases Nat.eq_or_lt_of_le hj with h | h
    · subst h
      rw [ha] at ha'; rw [hb] at hb'
      cases ha'; cases hb'; exact hc
    · exact h2 j h hjk a' b' ha' hb'

theorem not_active {minW maxW : K} {arr : List (Rec K)} {s t k : ℕ} {a b : Rec K}
    (hs : s ≤ k) (ha : arr[s]? = some a) (hb : arr[t - s]? = some b)
    (hc : ¬ (a.weight < minW ∨ b.weight > maxW)) :
    ¬ Active minW maxW arr s t k := fun h => hc (h.2 s le_rfl hs a b ha hb)

theorem finalRec_of_not_active {minW maxW : K} {rnd : ℕ → K} {arr : List (Rec K)} {s t i : ℕ}
    (h : ¬ Active minW maxW arr s t (min i (t - i))) (r : Rec K) :
    finalRec minW maxW rnd arr s t i r = r := by
  unfold finalRec
  split
  · rw [if_neg h]
  · rfl

theorem finalRec_succ {minW maxW : K} {rnd : ℕ → K} {arr : List (Rec K)} {s t i : ℕ} {a b : Rec K}
    (hs : s < min i (t - i)) (ha : arr[s]? = some a) (hb : arr[t - s]? = some b)
    (hc : a.weight < minW ∨ b.weight > maxW) (r : Rec K) :
    finalRec minW maxW rnd arr s t i r = finalRec minW maxW rnd arr (s + 1) t i r := by
  have hiff := active_succ (minW := minW) (maxW := maxW) (k := min i (t - i)) hs ha hb hc
  by_cases h : Active minW maxW arr s t (min i (t - i))
  · have h' := hiff.1 h
    unfold finalRec
    split
    · rw [if_pos h, if_pos h']
    · rfl
  · rw [finalRec_of_not_active h, finalRec_of_not_active (fun h' => h (hiff.2 h'))]

theorem pairLoop_spec (minW maxW : K) (rnd : ℕ → K) (arr0 arr : List (Rec K)) (s e : ℕ)
    (hlen : arr.length = arr0.length)
    (he : s < e → e < arr.length)
    (hag : ∀ i, s ≤ i → i ≤ e → arr[i]? = arr0[i]?) :
    ∃ out, pairLoop minW maxW rnd arr s e = .ok out ∧ out.length = arr.length ∧
      (∀ i, i < s ∨ e < i → out[i]? = arr[i]?) ∧
      (∀ i, s ≤ i → i ≤ e →
        out[i]? = (arr0[i]?).map (finalRec minW maxW rnd arr0 s (s + e) i)) := by
  induction hn : e - s using Nat.strong_induction_on generalizing arr s e with
  | _ n ih =>
  have nochange : ∀ (_ : ∀ i, s ≤ i → i ≤ e →
      ¬ Active minW maxW arr0 s (s + e) (min i (s + e - i))),
      ∃ out, (Except.ok arr : Except Err (List (Rec K))) = .ok out ∧ out.length = arr.length ∧
      (∀ i, i < s ∨ e < i → out[i]? = arr[i]?) ∧
      (∀ i, s ≤ i → i ≤ e →
        out[i]? = (arr0[i]?).map (finalRec minW maxW rnd arr0 s (s + e) i)) := by
    intro hna
    refine ⟨arr, rfl, rfl, fun _ _ => rfl, fun i h1 h2 => ?_⟩
    rw [hag i h1 h2]
    cases h : arr0[i]? with
    | none => rfl
    | some r => simp [finalRec_of_not_active (hna i h1 h2)]
  rw [pairLoop]
  by_cases hse : s < e
  · have hel := he hse
    have hsl : s < arr.length := by omega
    have hes : s + e - s = e := by omega
    have ha : arr[s]? = some arr[s] := List.getElem?_eq_getElem hsl
    have hb : arr[e]? = some arr[e] := List.getElem?_eq_getElem hel
    have ha0 : arr0[s]? = some arr[s] := by rw [← hag s le_rfl (by omega), ha]
    have hb0 : arr0[e]? = some arr[e] := by rw [← hag e (by omega) le_rfl, hb]
    have hb0' : arr0[s + e - s]? = some arr[e] := by rw [hes, hb0]
    rw [if_pos hse, ha, hb]
    simp only
    by_cases hc : arr[s].weight < minW ∨ arr[e].weight > maxW
    · rw [if_pos hc]
      -- the step, for an arbitrary pair of replacement records
      have hact : Active minW maxW arr0 s (s + e) s := by
        refine ⟨by omega, fun j h1 h2 a b h3 h4 => ?_⟩
        have : j = s := by omega
        subst this
        rw [ha0] at h3; rw [hb0'] at h4
        cases h3; cases h4; exact hc
      have step : ∀ (ra rb : Rec K) (arr' : List (Rec K)), arr'.length = arr.length →
          arr'[s]? = some ra → arr'[e]? = some rb →
          (∀ i, i ≠ s → i ≠ e → arr'[i]? = arr[i]?) →
          finalRec minW maxW rnd arr0 s (s + e) s arr[s] = ra →
          finalRec minW maxW rnd arr0 s (s + e) e arr[e] = rb →
          ∃ out, pairLoop minW maxW rnd arr' (s + 1) (e - 1) = .ok out ∧
            out.length = arr.length ∧
            (∀ i, i < s ∨ e < i → out[i]? = arr[i]?) ∧
            (∀ i, s ≤ i → i ≤ e →
              out[i]? = (arr0[i]?).map (finalRec minW maxW rnd arr0 s (s + e) i)) := by
        intro ra rb arr' hl' h1' h2' h3' h4' h5'
        obtain ⟨out, o1, o2, o3, o4⟩ := ih (e - 1 - (s + 1)) (by omega) arr' (s + 1) (e - 1)
          (by omega) (by omega) (fun i h1 h2 => by
            rw [h3' i (by omega) (by omega), hag i (by omega) (by omega)]) rfl
        refine ⟨out, o1, by omega, fun i hi => ?_, fun i h1 h2 => ?_⟩
        · rw [o3 i (by omega), h3' i (by omega) (by omega)]
        · rcases Nat.eq_or_lt_of_le h1 with h | h
          · subst h
            rw [o3 s (by omega), h1', ha0]; simp [h4']
          · rcases Nat.eq_or_lt_of_le h2 with h' | h'
            · subst h'
              rw [o3 i (by omega), h2', hb0]; simp [h5']
            · rw [o4 i (by omega) (by omega)]
              have hsum : s + 1 + (e - 1) = s + e := by omega
              rw [hsum]
              cases hx : arr0[i]? with
              | none => rfl
              | some r =>
                simp only [Option.map_some]
                rw [finalRec_succ (by omega) ha0 hb0' hc]
      have hms : min s (s + e - s) = s := by omega
      have hme : min e (s + e - e) = s := by omega
      by_cases hr : rnd s < arr[e].weight / (arr[s].weight + arr[e].weight)
      · rw [if_pos hr]
        apply step { arr[s] with weight := 0, status := 0 }
          { arr[e] with weight := 1 / 2 * (arr[s].weight + arr[e].weight), status := 2 }
        · simp
        · rw [List.getElem?_set_self (by simpa using hsl)]
        · rw [List.getElem?_set_ne (by omega), List.getElem?_set_self hel]
        · intro i h1 h2
          rw [List.getElem?_set_ne (by omega), List.getElem?_set_ne (by omega)]
        · unfold finalRec
          rw [hms, ha0, hb0']
          simp only
          rw [if_pos hact, if_pos hr, if_pos (by omega)]
        · unfold finalRec
          rw [hme, ha0, hb0']
          simp only
          rw [if_pos hact, if_pos hr, if_neg (by omega)]
      · rw [if_neg hr]
        apply step { arr[s] with weight := 1 / 2 * (arr[s].weight + arr[e].weight), status := 2 }
          { arr[e] with weight := 0, status := 0 }
        · simp
        · rw [List.getElem?_set_ne (by omega), List.getElem?_set_self hsl]
        · rw [List.getElem?_set_self (by simpa using hel)]
        · intro i h1 h2
          rw [List.getElem?_set_ne (by omega), List.getElem?_set_ne (by omega)]
        · unfold finalRec
          rw [hms, ha0, hb0']
          simp only
          rw [if_pos hact, if_neg hr, if_pos (by omega)]
        · unfold finalRec
          rw [hme, ha0, hb0']
          simp only
          rw [if_pos hact, if_neg hr, if_neg (by omega)]
    · rw [if_neg hc]
      exact nochange fun i h1 h2 => not_active (by omega) ha0 hb0' hc
  · rw [if_neg hse]
    exact nochange fun i h1 h2 h => by have := h.1; omega

/-! ### Sums over lists as sums over positions -/

theorem sum_map_eq_range {β M : Type*} [AddCommMonoid M] (f : β → M) (l : List β) :
    (l.map f).sum = ∑ i ∈ Finset.range l.length, ((l[i]?).map f).getD 0 := by
  induction l with
  | nil => simp
  | cons a l ih =>
    rw [List.length_cons, Finset.sum_range_succ', List.map_cons, List.sum_cons, ih, add_comm]
    simp

/-- Two lists of the same length whose contributions agree on every mirrored pair
of positions have the same total. -/
theorem sum_eq_of_mirror {β M : Type*} [AddCommMonoid M] [IsCancelAdd M] [IsAddTorsionFree M]
    (f : β → M) (l l' : List β)
    (hl : l.length = l'.length)
    (h : ∀ i, i < l.length → ((l[i]?).map f).getD 0 + ((l[l.length - 1 - i]?).map f).getD 0
      = ((l'[i]?).map f).getD 0 + ((l'[l.length - 1 - i]?).map f).getD 0) :
    (l.map f).sum = (l'.map f).sum := by
  have key : ∀ m : List β, m.length = l.length → 2 • (m.map f).sum =
      ∑ i ∈ Finset.range l.length,
        (((m[i]?).map f).getD 0 + ((m[l.length - 1 - i]?).map f).getD 0) := by
    intro m hm
    rw [Finset.sum_add_distrib, Finset.sum_range_reflect (fun i => ((m[i]?).map f).getD 0),
      sum_map_eq_range, hm, two_nsmul]
  have h2 : 2 • (l.map f).sum = 2 • (l'.map f).sum := by
    rw [key l rfl, key l' hl.symm]
    exact Finset.sum_congr rfl fun i hi => h i (Finset.mem_range.1 hi)
  exact nsmul_right_injective (by norm_num) h2

/-- A contribution `f` of records is conserved if every branched pair conserves it. -/
theorem pairLoop_sum {M : Type*} [AddCommMonoid M] [IsCancelAdd M] [IsAddTorsionFree M]
    (f : Rec K → M) (minW maxW : K) (rnd : ℕ → K) (srt out : List (Rec K))
    (h1 : ∀ r ∈ srt, r.status = 1)
    (hf : ∀ a b : Rec K, a.status = 1 → b.status = 1 →
      f { a with weight := 0, status := 0 } +
        f { b with weight := 1 / 2 * (a.weight + b.weight), status := 2 } = f a + f b ∧
      f { a with weight := 1 / 2 * (a.weight + b.weight), status := 2 } +
        f { b with weight := 0, status := 0 } = f a + f b)
    (hout : pairLoop minW maxW rnd srt 0 (srt.length - 1) = .ok out) :
    (out.map f).sum = (srt.map f).sum := by
  obtain ⟨out', o1, o2, -, o4⟩ := pairLoop_spec minW maxW rnd srt srt 0 (srt.length - 1) rfl
    (by omega) (fun _ _ _ => rfl)
  rw [hout] at o1
  cases o1
  apply sum_eq_of_mirror f out srt o2
  rw [o2, Nat.zero_add] at *
  -- it suffices to look at the left half
  have half : ∀ i, i < srt.length → i ≤ srt.length - 1 - i →
      ((out[i]?).map f).getD 0 + ((out[srt.length - 1 - i]?).map f).getD 0
      = ((srt[i]?).map f).getD 0 + ((srt[srt.length - 1 - i]?).map f).getD 0 := by
    intro i hi hle
    have hi' : srt.length - 1 - i < srt.length := by omega
    rw [o4 i (by omega) (by omega), o4 (srt.length - 1 - i) (by omega) (by omega)]
    rw [List.getElem?_eq_getElem hi, List.getElem?_eq_getElem hi']
    simp only [Option.map_some, Option.getD_some]
    have m1 : min i (srt.length - 1 - i) = i := by omega
    have m2 : min (srt.length - 1 - i) (srt.length - 1 - (srt.length - 1 - i)) = i := by omega
    by_cases hact : Active minW maxW srt 0 (srt.length - 1) i
    · have hlt := hact.1
      have s1 := h1 _ (List.getElem_mem hi)
      have s2 := h1 _ (List.getElem_mem hi')
      obtain ⟨c1, c2⟩ := hf _ _ s1 s2
      unfold finalRec
      rw [m1, m2, List.getElem?_eq_getElem hi, List.getElem?_eq_getElem hi']
      simp only
      have n2 : ¬ srt.length - 1 - i < srt.length - 1 - (srt.length - 1 - i) := by omega
      simp only [if_pos hact, if_pos hlt, if_neg n2]
      split
      · exact c1
      · exact c2
    · rw [finalRec_of_not_active (by rw [m1]; exact hact),
        finalRec_of_not_active (by rw [m2]; exact hact)]
  intro i hi
  rcases le_total i (srt.length - 1 - i) with h | h
  · exact half i hi h
  · have := half (srt.length - 1 - i) (by omega) (by omega)
    have e : srt.length - 1 - (srt.length - 1 - i) = i := by omega
    rw [e] at this
    rw [add_comm, this, add_comm]

/-- The loop never changes which original walker a position refers to. -/
theorem pairLoop_orgIdx (minW maxW : K) (rnd : ℕ → K) (srt out : List (Rec K))
    (hout : pairLoop minW maxW rnd srt 0 (srt.length - 1) = .ok out) :
    out.map Rec.orgIdx = srt.map Rec.orgIdx := by
  obtain ⟨out', o1, o2, -, o4⟩ := pairLoop_spec minW maxW rnd srt srt 0 (srt.length - 1) rfl
    (by omega) (fun _ _ _ => rfl)
  rw [hout] at o1
  cases o1
  apply List.ext_getElem?
  intro i
  rw [List.getElem?_map, List.getElem?_map]
  by_cases hi : i < srt.length
  · rw [o4 i (by omega) (by omega), Option.map_map]
    congr 1
    funext r
    unfold finalRec
    simp only [Function.comp]
    split
    · split_ifs <;> rfl
    · rfl
  · rw [List.getElem?_eq_none (by omega), List.getElem?_eq_none (by omega)]

theorem pairLoop_ok (minW maxW : K) (rnd : ℕ → K) (srt : List (Rec K)) :
    ∃ out, pairLoop minW maxW rnd srt 0 (srt.length - 1) = .ok out :=
  let ⟨out, h, _⟩ := pairLoop_spec minW maxW rnd srt srt 0 (srt.length - 1) rfl
    (by omega) (fun _ _ _ => rfl)
  ⟨out, h⟩

/-! ### Emission and sorting -/

theorem mapM_option_eq {β γ : Type*} (f : β → Option γ) (l : List β) (g : β → γ)
    (h : ∀ x ∈ l, f x = some (g x)) : l.mapM f = some (l.map g) := by
  induction l with
  | nil => rfl
  | cons a l ih =>
    rw [List.mapM_cons, h a (by simp), ih fun x hx => h x (by simp [hx])]
    rfl

theorem emit_eq (walkers : List α) (arr : List (Rec K)) (d : α)
    (h : ∀ r ∈ arr, r.orgIdx < walkers.length) :
    emit walkers arr = .ok
      (((arr.flatMap fun r => List.replicate r.status r)).map fun r => walkers.getD r.orgIdx d,
       ((arr.flatMap fun r => List.replicate r.status r)).map Rec.weight) := by
  unfold emit
  rw [mapM_option_eq _ _ (fun r => (walkers.getD r.orgIdx d, r.weight))]
  · simp [List.map_map, Function.comp_def]
  · intro r hr
    obtain ⟨r', hr', hm⟩ := List.mem_flatMap.1 hr
    have := (List.mem_replicate.1 hm).2
    subst this
    have := h _ hr'
    simp [this]

theorem sum_map_emitted {M : Type*} [AddCommMonoid M] (f : Rec K → M) (arr : List (Rec K)) :
    ((arr.flatMap fun r => List.replicate r.status r).map f).sum =
      (arr.map fun r => r.status • f r).sum := by
  induction arr with
  | nil => rfl
  | cons a l ih => simp [List.map_append, List.sum_append, ih]

theorem initRecs_getElem? (weights : List K) (i : ℕ) :
    (initRecs weights)[i]? = (weights[i]?).map fun w => ⟨|w|, 1, i⟩ := by
  simp [initRecs]

/-- The sorted record list, in terms of the order of the indices. -/
theorem sorted_eq (order : List ℕ) (weights : List K)
    (h : order.Perm (List.range weights.length)) :
    order.mapM (fun i => (initRecs weights)[i]?) =
      some (order.map fun i => ⟨|weights.getD i 0|, 1, i⟩) := by
  apply mapM_option_eq
  intro i hi
  have : i < weights.length := List.mem_range.1 ((h.mem_iff).1 hi)
  rw [initRecs_getElem?]
  simp [this]

theorem sum_order (order : List ℕ) (weights : List K)
    (h : order.Perm (List.range weights.length)) :
    (order.map fun i => |weights.getD i 0|).sum = (weights.map fun w => |w|).sum := by
  rw [(h.map _).sum_eq]
  congr 1
  apply List.ext_getElem?
  intro i
  by_cases hi : i < weights.length
  · simp [hi]
  · simp [hi]

end OpenMS.PopulationControl
