import Verif.Lemmas.Branching
import Mathlib.Algebra.Order.Floor.Ring
import Mathlib.Order.Interval.Finset.Nat
import Mathlib.MeasureTheory.Integral.IntervalIntegral.Basic
import Mathlib.Tactic.NormNum
import Mathlib.Tactic.Positivity

/-! Lemmas on cumulative sums, the reconfiguration loop and counting of grid points. -/

set_option linter.unusedSectionVars false

namespace OpenMS.PopulationControl

variable {K : Type*} [Field K] [LinearOrder K] [IsStrictOrderedRing K] {α : Type*}

omit [LinearOrder K] [IsStrictOrderedRing K] in
theorem cumsumFrom_length (c : K) (ws : List K) : (cumsumFrom c ws).length = ws.length := by
  induction ws generalizing c with
  | nil => rfl
  | cons w ws ih => simp [cumsumFrom, ih]

omit [LinearOrder K] [IsStrictOrderedRing K] in
theorem cumsumFrom_getElem? (c : K) (ws : List K) (j : ℕ) (hj : j < ws.length) :
    (cumsumFrom c ws)[j]? = some (c + (ws.take (j + 1)).sum) := by
  induction ws generalizing c j with
  | nil => simp at hj
  | cons w ws ih =>
    cases j with
    | zero => simp [cumsumFrom]
    | succ j =>
      simp only [cumsumFrom, List.getElem?_cons_succ]
      rw [ih _ _ (by simpa using hj)]
      simp [add_assoc]

omit [LinearOrder K] [IsStrictOrderedRing K] in
theorem cumsumFrom_getElem (c : K) (ws : List K) (j : ℕ) (hj : j < (cumsumFrom c ws).length) :
    (cumsumFrom c ws)[j] = c + (ws.take (j + 1)).sum := by
  have h := cumsumFrom_getElem? c ws j (by rwa [cumsumFrom_length] at hj)
  rw [List.getElem?_eq_getElem hj] at h
  exact Option.some.inj h

/-- The loop of the reconfiguration picks, for every position, the first index whose
cumulative weight exceeds the position. -/
theorem reconfLoop_spec (N : ℕ) (pos : ℕ → K) (cum : List K) (phiw : List α)
    (hmono : ∀ i, pos i ≤ pos (i + 1))
    (hex : ∀ i, i < N → ∃ c ∈ cum, pos i < c)
    (hlen : cum.length = phiw.length) (d : α)
    (i j : ℕ) (acc : List α)
    (hj : ∀ j', j' < j → ∀ c, cum[j']? = some c → c ≤ pos i) :
    reconfLoop N pos cum phiw i j acc =
      .ok (acc ++ (List.range' i (N - i)).map fun i' =>
        phiw.getD (cum.findIdx fun c => decide (pos i' < c)) d) := by
  induction hn : (N - i) + (cum.length - j) using Nat.strong_induction_on
    generalizing i j acc with
  | _ n ih =>
  rw [reconfLoop]
  by_cases hi : i < N
  · rw [if_pos hi]
    obtain ⟨c, hc, hpc⟩ := hex i hi
    obtain ⟨jc, hjc, rfl⟩ := List.getElem_of_mem hc
    have hjlt : j < cum.length := by
      by_contra h
      have := hj jc (by omega) _ (List.getElem?_eq_getElem hjc)
      exact absurd hpc (not_lt.2 this)
    rw [dif_pos hjlt]
    by_cases hp : pos i < cum[j]
    · rw [if_pos hp]
      have hjp : j < phiw.length := by omega
      rw [List.getElem?_eq_getElem hjp]
      simp only
      rw [ih ((N - (i + 1)) + (cum.length - j)) (by omega) (i + 1) j _
        (fun j' h1 c h2 => le_trans (hj j' h1 c h2) (hmono i)) rfl]
      have hfind : (cum.findIdx fun c => decide (pos i < c)) = j := by
        rw [List.findIdx_eq hjlt]
        refine ⟨by simpa using hp, fun j' hj' => ?_⟩
        have := hj j' hj' _ (List.getElem?_eq_getElem (by omega))
        simpa using this
      have : N - i = (N - (i + 1)) + 1 := by omega
      rw [this, List.range'_succ, List.map_cons, hfind]
      simp [hjp]
    · rw [if_neg hp]
      apply ih ((N - i) + (cum.length - (j + 1))) (by omega) i (j + 1) acc _ rfl
      intro j' h1 c h2
      rcases Nat.lt_succ_iff_lt_or_eq.1 h1 with h | h
      · exact hj j' h c h2
      · subst h
        rw [List.getElem?_eq_getElem hjlt] at h2
        cases h2
        exact not_lt.1 hp
  · rw [if_neg hi]
    have : N - i = 0 := by omega
    simp [this]

/-! ### Counting grid points -/

variable [FloorRing K]

theorem card_Ico_grid (N : ℕ) (x y : K) (hx : -1 < x) (hxy : x ≤ y) (hy : y ≤ N) :
    (((Finset.range N).filter fun i : ℕ => x ≤ (i : K) ∧ (i : K) < y).card : ℤ) = ⌈y⌉ - ⌈x⌉ := by
  have hx0 : 0 ≤ ⌈x⌉ := by
    have : (-1 : ℤ) < ⌈x⌉ := Int.lt_ceil.2 (by push_cast; exact hx)
    omega
  have hyN : ⌈y⌉ ≤ N := Int.ceil_le.2 (by exact_mod_cast hy)
  have hle : ⌈x⌉ ≤ ⌈y⌉ := Int.ceil_le_ceil hxy
  have hset : (Finset.range N).filter (fun i : ℕ => x ≤ (i : K) ∧ (i : K) < y)
      = Finset.Ico ⌈x⌉.toNat ⌈y⌉.toNat := by
    ext i
    simp only [Finset.mem_filter, Finset.mem_range, Finset.mem_Ico]
    have e1 : x ≤ (i : K) ↔ ⌈x⌉ ≤ (i : ℤ) := by
      rw [Int.ceil_le]; simp
    have e2 : (i : K) < y ↔ (i : ℤ) < ⌈y⌉ := by
      rw [Int.lt_ceil]; simp
    rw [e1, e2]
    omega
  rw [hset, Nat.card_Ico]
  omega

theorem card_Ioc_grid (N : ℕ) (x y : K) (hx : -1 ≤ x) (hxy : x ≤ y) (hy : y < N) :
    (((Finset.range N).filter fun i : ℕ => x < (i : K) ∧ (i : K) ≤ y).card : ℤ) = ⌊y⌋ - ⌊x⌋ := by
  have hx0 : -1 ≤ ⌊x⌋ := Int.le_floor.2 (by push_cast; exact hx)
  have hyN : ⌊y⌋ < N := Int.floor_lt.2 (by exact_mod_cast hy)
  have hle : ⌊x⌋ ≤ ⌊y⌋ := Int.floor_le_floor hxy
  have hset : (Finset.range N).filter (fun i : ℕ => x < (i : K) ∧ (i : K) ≤ y)
      = Finset.Ico (⌊x⌋ + 1).toNat (⌊y⌋ + 1).toNat := by
    ext i
    simp only [Finset.mem_filter, Finset.mem_range, Finset.mem_Ico]
    have e1 : x < (i : K) ↔ ⌊x⌋ < (i : ℤ) := by
      rw [Int.floor_lt]; simp
    have e2 : (i : K) ≤ y ↔ (i : ℤ) ≤ ⌊y⌋ := by
      rw [Int.le_floor]; simp
    rw [e1, e2]
    omega
  rw [hset, Nat.card_Ico]
  omega

theorem ceil_sub_bounds (x d : K) : ⌊d⌋ ≤ ⌈x + d⌉ - ⌈x⌉ ∧ ⌈x + d⌉ - ⌈x⌉ ≤ ⌈d⌉ := by
  constructor
  · have : ⌈x + (⌊d⌋ : K)⌉ ≤ ⌈x + d⌉ := Int.ceil_le_ceil (by linarith [Int.floor_le d])
    rw [Int.ceil_add_intCast] at this
    omega
  · have := Int.ceil_add_le x d
    omega

theorem floor_sub_bounds (x d : K) : ⌊d⌋ ≤ ⌊x + d⌋ - ⌊x⌋ ∧ ⌊x + d⌋ - ⌊x⌋ ≤ ⌈d⌉ := by
  constructor
  · have := Int.le_floor_add x d
    omega
  · have : ⌊x + d⌋ ≤ ⌊x + (⌈d⌉ : K)⌋ := Int.floor_le_floor (by linarith [Int.le_ceil d])
    rw [Int.floor_add_intCast] at this
    omega

/-! ### Means over the offset -/

open intervalIntegral MeasureTheory in
theorem integral_step' (c A B : ℝ) (h0 : 0 ≤ c) (h1 : c ≤ 1) :
    IntervalIntegrable (fun x => if x < c then A else B) volume 0 1 ∧
    ∫ x in (0 : ℝ)..1, (if x < c then A else B) = c * A + (1 - c) * B := by
  have i1 : ∫ x in (0 : ℝ)..c, (if x < c then A else B) = ∫ x in (0 : ℝ)..c, A := by
    apply intervalIntegral.integral_congr_ae
    have : ∀ᵐ x ∂(volume : Measure ℝ), x ≠ c := by
      rw [ae_iff]; simp
    filter_upwards [this] with x hx hxm
    rw [Set.uIoc_of_le h0] at hxm
    rw [if_pos (lt_of_le_of_ne hxm.2 hx)]
  have i2 : ∫ x in c..1, (if x < c then A else B) = ∫ x in c..1, B := by
    apply intervalIntegral.integral_congr
    intro x hx
    rw [Set.uIcc_of_le h1] at hx
    exact if_neg (not_lt.2 hx.1)
  have hint : ∀ a b : ℝ, IntervalIntegrable (fun x => if x < c then A else B) volume a b := by
    intro a b
    apply IntervalIntegrable.congr_ae (f := fun x => (Set.Iio c).indicator (fun _ => A - B) x + B)
    · apply IntervalIntegrable.add _ intervalIntegrable_const
      constructor
      · exact (integrable_const _).indicator measurableSet_Iio
      · exact (integrable_const _).indicator measurableSet_Iio
    · apply Filter.Eventually.of_forall
      intro x
      by_cases hx : x < c
      · simp [Set.indicator, hx]
      · simp [Set.indicator, hx]
  refine ⟨hint 0 1, ?_⟩
  rw [← intervalIntegral.integral_add_adjacent_intervals (hint 0 c) (hint c 1), i1, i2]
  simp

open intervalIntegral MeasureTheory in
theorem ae_ne (c : ℝ) : ∀ᵐ x ∂(volume : Measure ℝ), x ≠ c := by
  rw [ae_iff]; simp

open intervalIntegral MeasureTheory in
/-- The mean of `⌈b - u⌉` over `u` in the unit interval is `b`. -/
theorem integral_ceil_sub (b : ℝ) :
    IntervalIntegrable (fun u => ((⌈b - u⌉ : ℤ) : ℝ)) volume 0 1 ∧
    ∫ u in (0 : ℝ)..1, ((⌈b - u⌉ : ℤ) : ℝ) = b := by
  set n : ℤ := ⌈b⌉ with hn
  have hb1 : b ≤ n := Int.le_ceil b
  have hb2 : (n : ℝ) - 1 < b := by have := Int.ceil_lt_add_one b; linarith
  obtain ⟨hi, hv⟩ := integral_step' (b - (n - 1)) n (n - 1) (by linarith) (by linarith)
  have hcong : ∀ u : ℝ, 0 < u → u ≤ 1 → u ≠ 1 →
      (if u < b - (n - 1) then (n : ℝ) else n - 1) = ((⌈b - u⌉ : ℤ) : ℝ) := by
    intro u hu0 hu1 hne
    split_ifs with h
    · have : ⌈b - u⌉ = n := by
        rw [Int.ceil_eq_iff]; constructor <;> linarith
      rw [this]
    · have : ⌈b - u⌉ = n - 1 := by
        rw [Int.ceil_eq_iff]; push_cast
        have := lt_of_le_of_ne hu1 hne
        constructor <;> linarith
      rw [this]; push_cast; ring
  have hae : ∀ᵐ u ∂(volume : Measure ℝ), u ∈ Set.uIoc (0 : ℝ) 1 →
      (if u < b - (n - 1) then (n : ℝ) else n - 1) = ((⌈b - u⌉ : ℤ) : ℝ) := by
    filter_upwards [ae_ne 1] with u hu hm
    rw [Set.uIoc_of_le zero_le_one] at hm
    exact hcong u hm.1 hm.2 hu
  constructor
  · apply hi.congr_ae
    rw [Filter.EventuallyEq, ae_restrict_iff' measurableSet_uIoc]
    exact hae
  · rw [← intervalIntegral.integral_congr_ae hae, hv]
    ring

open intervalIntegral MeasureTheory in
/-- The mean of `⌊b - u⌋` over `u` in the unit interval is `b - 1`. -/
theorem integral_floor_sub (b : ℝ) :
    IntervalIntegrable (fun u => ((⌊b - u⌋ : ℤ) : ℝ)) volume 0 1 ∧
    ∫ u in (0 : ℝ)..1, ((⌊b - u⌋ : ℤ) : ℝ) = b - 1 := by
  obtain ⟨hi, hv⟩ := integral_ceil_sub b
  have hae : ∀ᵐ u ∂(volume : Measure ℝ), u ∈ Set.uIoc (0 : ℝ) 1 →
      ((⌈b - u⌉ : ℤ) : ℝ) - 1 = ((⌊b - u⌋ : ℤ) : ℝ) := by
    have h1 : ∀ᵐ u ∂(volume : Measure ℝ), u ∉ Set.range (fun n : ℤ => b - (n : ℝ)) := by
      rw [ae_iff]
      simp only [not_not, Set.ofPred_mem_eq]
      exact (Set.countable_range _).measure_zero _
    filter_upwards [h1] with u hu _
    have hne : ((⌊b - u⌋ : ℤ) : ℝ) ≠ b - u := by
      intro h
      exact hu ⟨⌊b - u⌋, by simp only; linarith⟩
    have hlt : ((⌊b - u⌋ : ℤ) : ℝ) < b - u := lt_of_le_of_ne (Int.floor_le _) hne
    have : ⌈b - u⌉ = ⌊b - u⌋ + 1 := by
      rw [Int.ceil_eq_iff]; push_cast
      have := Int.lt_floor_add_one (b - u)
      constructor <;> linarith
    rw [this]; push_cast; ring
  constructor
  · apply (hi.sub intervalIntegrable_const (f := fun u => ((⌈b - u⌉ : ℤ) : ℝ))
      (g := fun _ => (1 : ℝ))).congr_ae
    rw [Filter.EventuallyEq, ae_restrict_iff' measurableSet_uIoc]
    exact hae
  · rw [← intervalIntegral.integral_congr_ae hae, intervalIntegral.integral_sub hi
      intervalIntegrable_const, hv]
    simp

end OpenMS.PopulationControl
