import Verif.Props.Stats
import Mathlib.RingTheory.RootsOfUnity.Complex
import Mathlib.Algebra.Order.BigOperators.Ring.Finset
import Mathlib.Tactic.IntervalCases
import Mathlib.Algebra.BigOperators.Field

/-!
# C76, C77: autocorrelation by Fourier transform and the blocking analysis
-/

namespace OpenMS.Stats

/-- The direct autocorrelation sum of a series at lag `k`. -/
noncomputable def directSum (xs : List ℝ) (k : ℕ) : ℝ :=
  ∑ i ∈ Finset.range (xs.length - k),
    (xs.getD i 0 - mean xs) * (xs.getD (i + k) 0 - mean xs)

/-- Orthogonality of the discrete exponentials. -/
theorem exp_orthogonal (N : ℕ) (hN : 0 < N) (m : ℤ) :
    (∑ j ∈ Finset.range N, Complex.exp (2 * Real.pi * Complex.I * j * m / N)) =
      if (N : ℤ) ∣ m then (N : ℂ) else 0 := by
  have hN' : (N : ℂ) ≠ 0 := by exact_mod_cast hN.ne'
  have hpr := Complex.isPrimitiveRoot_exp N hN.ne'
  set ζ := Complex.exp (2 * Real.pi * Complex.I / N) with hζ
  have hpow : ∀ j : ℕ, Complex.exp (2 * Real.pi * Complex.I * j * m / N) = (ζ ^ m) ^ j := by
    intro j
    rw [hζ, ← Complex.exp_int_mul, ← Complex.exp_nat_mul]
    congr 1
    ring
  rw [Finset.sum_congr rfl fun j _ => hpow j]
  split_ifs with h
  · rw [(hpr.zpow_eq_one_iff_dvd m).2 h]
    simp
  · have hne : ζ ^ m ≠ 1 := fun h1 => h ((hpr.zpow_eq_one_iff_dvd m).1 h1)
    have := mul_geom_sum (ζ ^ m) N
    have h1 : (ζ ^ m) ^ N = 1 := by
      rw [← zpow_natCast, ← zpow_mul, mul_comm, zpow_mul, zpow_natCast, hpr.pow_eq_one, one_zpow]
    rw [h1, sub_self] at this
    rcases mul_eq_zero.1 this with h2 | h2
    · exact absurd (sub_eq_zero.1 h2) hne
    · exact h2

/-- The inverse transform of the power spectrum is the circular autocorrelation. -/
theorem ifft_power (N : ℕ) (hN : 0 < N) (y : ℕ → ℝ) (k : ℕ) :
    ifft N (fun j => fft N (fun a => (y a : ℂ)) j * (starRingEnd ℂ) (fft N (fun a => (y a : ℂ)) j)) k =
      ∑ a ∈ Finset.range N, ∑ b ∈ Finset.range N,
        if (N : ℤ) ∣ (k : ℤ) + b - a then (y a : ℂ) * y b else 0 := by
  have hN' : (N : ℂ) ≠ 0 := by exact_mod_cast hN.ne'
  have hconj : ∀ j, (starRingEnd ℂ) (fft N (fun a => (y a : ℂ)) j) =
      ∑ b ∈ Finset.range N, (y b : ℂ) * Complex.exp (2 * Real.pi * Complex.I * b * j / N) := by
    intro j
    unfold fft
    rw [map_sum]
    apply Finset.sum_congr rfl
    intro b _
    rw [map_mul, Complex.conj_ofReal, ← Complex.exp_conj]
    congr 2
    simp only [map_neg, map_div₀, map_mul, Complex.conj_ofReal, Complex.conj_I, map_natCast,
      map_ofNat]
    ring
  unfold ifft
  rw [div_eq_iff hN']
  have hterm : ∀ j, fft N (fun a => (y a : ℂ)) j * (starRingEnd ℂ) (fft N (fun a => (y a : ℂ)) j) *
      Complex.exp (2 * Real.pi * Complex.I * j * k / N) =
      ∑ a ∈ Finset.range N, ∑ b ∈ Finset.range N, (y a : ℂ) * y b *
        Complex.exp (2 * Real.pi * Complex.I * j * ((k : ℤ) + b - a : ℤ) / N) := by
    intro j
    rw [hconj]
    unfold fft
    rw [Finset.sum_mul_sum, Finset.sum_mul]
    apply Finset.sum_congr rfl
    intro a _
    rw [Finset.sum_mul]
    apply Finset.sum_congr rfl
    intro b _
    have : Complex.exp (2 * Real.pi * Complex.I * j * ((k : ℤ) + b - a : ℤ) / N) =
        Complex.exp (-(2 * Real.pi * Complex.I * a * j / N)) *
          Complex.exp (2 * Real.pi * Complex.I * b * j / N) *
          Complex.exp (2 * Real.pi * Complex.I * j * k / N) := by
      rw [← Complex.exp_add, ← Complex.exp_add]
      congr 1
      push_cast
      ring
    rw [this]; ring
  rw [Finset.sum_congr rfl fun j _ => hterm j, Finset.sum_comm, Finset.sum_mul]
  apply Finset.sum_congr rfl
  intro a _
  rw [Finset.sum_comm, Finset.sum_mul]
  apply Finset.sum_congr rfl
  intro b _
  rw [← Finset.mul_sum, exp_orthogonal N hN]
  split_ifs <;> ring

theorem fftSize_ge (len : ℕ) : len ≤ fftSize len := Nat.le_pow_clog (by norm_num) len

theorem fftSize_pos (len : ℕ) : 0 < fftSize len := by unfold fftSize; positivity

/-- **C76**: for every series the Fourier route computes, at every lag, the direct
autocorrelation sum (zero padding prevents any wrap-around), divided by `4 n`. -/
theorem acf_direct (xs : List ℝ) (k : ℕ) (hk : k < xs.length) :
    acfRaw xs k = directSum xs k / (4 * fftSize xs.length) := by
  unfold acfRaw
  simp only
  congr 1
  set N := 2 * fftSize xs.length with hNdef
  have hN : 0 < N := by have := fftSize_pos xs.length; omega
  have hge : 2 * xs.length ≤ N := by have := fftSize_ge xs.length; omega
  set y : ℕ → ℝ := fun a => if a < xs.length then xs.getD a 0 - mean xs else 0 with hy
  have hc : centred xs = fun a => (y a : ℂ) := by
    funext a
    simp only [centred, hy]
    split_ifs <;> simp
  rw [hc, ifft_power N hN y k]
  have hinner : ∀ b ∈ Finset.range N, (∑ a ∈ Finset.range N,
      if (N : ℤ) ∣ (k : ℤ) + b - a then (y a : ℂ) * y b else 0) = (y b : ℂ) * y (b + k) := by
    intro b hb
    by_cases hbl : b < xs.length
    · rw [Finset.sum_eq_single (b + k)]
      · rw [if_pos (by rw [show (k : ℤ) + b - ((b + k : ℕ) : ℤ) = 0 by push_cast; ring]; exact dvd_zero _)]
        ring
      · intro a ha hne
        rw [Finset.mem_range] at ha
        rw [if_neg]
        rintro ⟨q, hq⟩
        have hq0 : q = 0 := by
          have h1 : (k : ℤ) + b - a < N := by omega
          have h2 : -(N : ℤ) < (k : ℤ) + b - a := by omega
          rw [hq] at h1 h2
          have hNz : (0 : ℤ) < N := by exact_mod_cast hN
          have : q < 1 := by nlinarith
          have : -1 < q := by nlinarith
          omega
        subst hq0
        apply hne
        omega
      · intro h
        exact absurd (Finset.mem_range.2 (by omega)) h
    · have : y b = 0 := by simp [hy, hbl]
      simp [this]
  rw [Finset.sum_comm, Finset.sum_congr rfl hinner]
  have hre : (∑ b ∈ Finset.range N, (y b : ℂ) * y (b + k)).re =
      ∑ b ∈ Finset.range N, y b * y (b + k) := by
    rw [Complex.re_sum]
    apply Finset.sum_congr rfl
    intro b _
    rw [← Complex.ofReal_mul, Complex.ofReal_re]
  rw [hre]
  unfold directSum
  symm
  have hsub : Finset.range (xs.length - k) ⊆ Finset.range N := by
    intro i hi
    rw [Finset.mem_range] at *
    omega
  rw [← Finset.sum_subset hsub]
  · apply Finset.sum_congr rfl
    intro i hi
    rw [Finset.mem_range] at hi
    simp only [hy]
    rw [if_pos (by omega), if_pos (by omega)]
  · intro i _ hi
    rw [Finset.mem_range] at hi
    have : y (i + k) = 0 := by
      simp only [hy]
      rw [if_neg (by omega)]
    rw [this, mul_zero]

/-- The sum of the centred series vanishes. -/
theorem sum_centred (xs : List ℝ) :
    ∑ i ∈ Finset.range xs.length, (xs.getD i 0 - mean xs) = 0 := by
  rcases Nat.eq_zero_or_pos xs.length with h | h
  · simp [h]
  · have : (xs.length : ℝ) ≠ 0 := by exact_mod_cast h.ne'
    rw [Finset.sum_sub_distrib, ← sum_getD, Finset.sum_const, Finset.card_range, mean,
      nsmul_eq_mul]
    field_simp
    ring

/-- The autocorrelation sums of all lags of any finite sequence add up to half of
`(Σ y)² + Σ y²`. -/
theorem lag_sum (y : ℕ → ℝ) (n : ℕ) :
    2 * ∑ k ∈ Finset.range n, ∑ i ∈ Finset.range (n - k), y i * y (i + k) =
      (∑ i ∈ Finset.range n, y i) ^ 2 + ∑ i ∈ Finset.range n, y i ^ 2 := by
  induction n with
  | zero => simp
  | succ n ih =>
    have hstep : ∑ k ∈ Finset.range (n + 1), ∑ i ∈ Finset.range (n + 1 - k), y i * y (i + k) =
        (∑ k ∈ Finset.range n, ∑ i ∈ Finset.range (n - k), y i * y (i + k)) +
          ∑ k ∈ Finset.range (n + 1), y (n - k) * y n := by
      rw [Finset.sum_range_succ, Finset.sum_range_succ (fun k => y (n - k) * y n)]
      have : ∀ k ∈ Finset.range n, ∑ i ∈ Finset.range (n + 1 - k), y i * y (i + k) =
          (∑ i ∈ Finset.range (n - k), y i * y (i + k)) + y (n - k) * y n := by
        intro k hk
        rw [Finset.mem_range] at hk
        rw [show n + 1 - k = (n - k) + 1 by omega, Finset.sum_range_succ,
          show n - k + k = n by omega]
      rw [Finset.sum_congr rfl this, Finset.sum_add_distrib]
      simp [add_assoc]
    have hrefl : ∑ k ∈ Finset.range (n + 1), y (n - k) * y n = (∑ i ∈ Finset.range (n + 1), y i) * y n := by
      rw [← Finset.sum_mul]
      congr 1
      have := Finset.sum_range_reflect (fun i => y i) (n + 1)
      simpa using this
    rw [hstep, mul_add, ih, hrefl, Finset.sum_range_succ, Finset.sum_range_succ (fun i => y i ^ 2)]
    ring

/-- The direct sum at lag zero is the sum of squared deviations. -/
theorem directSum_zero (xs : List ℝ) :
    directSum xs 0 = ∑ i ∈ Finset.range xs.length, (xs.getD i 0 - mean xs) ^ 2 := by
  simp [directSum, pow_two]

theorem directSum_zero_nonneg (xs : List ℝ) : 0 ≤ directSum xs 0 := by
  rw [directSum_zero]; positivity

/-- **C76**: the normalised autocorrelation function exists exactly for series that are not
constant; it starts at one, all its values lie between minus one and one, and it is the ratio
of direct sums. -/
theorem acf_normalised (xs : List ℝ) (hv : ∃ i < xs.length, xs.getD i 0 ≠ mean xs) :
    ∃ a, acf xs = some a ∧ a.length = xs.length ∧ a.getD 0 0 = 1 ∧
      ∀ k < xs.length, a.getD k 0 = directSum xs k / directSum xs 0 ∧ |a.getD k 0| ≤ 1 := by
  obtain ⟨i, hi, hiv⟩ := hv
  have hpos : 0 < directSum xs 0 := by
    rw [directSum_zero]
    apply Finset.sum_pos' (fun _ _ => sq_nonneg _)
    exact ⟨i, Finset.mem_range.2 hi, by have := sub_ne_zero.2 hiv; positivity⟩
  have hn : (0 : ℝ) < fftSize xs.length := by exact_mod_cast fftSize_pos _
  have h0 : acfRaw xs 0 ≠ 0 := by
    rw [acf_direct xs 0 (by omega)]; positivity
  have hne : xs ≠ [] := by rintro rfl; simp at hi
  have hget : ∀ k < xs.length, ((List.range xs.length).map fun k => acfRaw xs k / acfRaw xs 0).getD k 0 =
      directSum xs k / directSum xs 0 := by
    intro k hk
    rw [List.getD_eq_getElem _ _ (by simpa using hk)]
    simp only [List.getElem_map, List.getElem_range]
    rw [acf_direct xs k hk, acf_direct xs 0 (by omega)]
    field_simp
  refine ⟨_, by unfold acf; rw [if_neg (by push Not; exact ⟨hne, h0⟩)], by simp, ?_, ?_⟩
  · rw [hget 0 (by omega), div_self hpos.ne']
  · intro k hk
    refine ⟨hget k hk, ?_⟩
    rw [hget k hk, abs_div, abs_of_pos hpos, div_le_one hpos]
    -- 2 |y_i y_{i+k}| ≤ y_i² + y_{i+k}², and each sum is at most the full one
    have h1 : ∑ i ∈ Finset.range (xs.length - k), (xs.getD i 0 - mean xs) ^ 2 ≤ directSum xs 0 := by
      rw [directSum_zero]
      apply Finset.sum_le_sum_of_subset_of_nonneg
      · intro j hj; rw [Finset.mem_range] at *; omega
      · intros; positivity
    have h2 : ∑ i ∈ Finset.range (xs.length - k), (xs.getD (i + k) 0 - mean xs) ^ 2 ≤
        directSum xs 0 := by
      rw [directSum_zero]
      have hsplit := Finset.sum_range_add (fun i => (xs.getD i 0 - mean xs) ^ 2) k (xs.length - k)
      rw [show k + (xs.length - k) = xs.length by omega] at hsplit
      rw [hsplit]
      have : ∑ i ∈ Finset.range (xs.length - k), (xs.getD (i + k) 0 - mean xs) ^ 2 =
          ∑ i ∈ Finset.range (xs.length - k), (xs.getD (k + i) 0 - mean xs) ^ 2 := by
        simp only [add_comm]
      rw [this]
      have : 0 ≤ ∑ i ∈ Finset.range k, (xs.getD i 0 - mean xs) ^ 2 := by positivity
      linarith
    have h3 : |directSum xs k| ≤ ∑ i ∈ Finset.range (xs.length - k),
        ((xs.getD i 0 - mean xs) ^ 2 + (xs.getD (i + k) 0 - mean xs) ^ 2) / 2 := by
      unfold directSum
      refine (Finset.abs_sum_le_sum_abs _ _).trans (Finset.sum_le_sum fun j _ => ?_)
      rw [abs_le]
      constructor <;> nlinarith [sq_nonneg ((xs.getD j 0 - mean xs) + (xs.getD (j + k) 0 - mean xs)),
        sq_nonneg ((xs.getD j 0 - mean xs) - (xs.getD (j + k) 0 - mean xs))]
    rw [← Finset.sum_div, Finset.sum_add_distrib] at h3
    linarith

/-- **C76**: a constant series has no autocorrelation function (division of zero by zero). -/
theorem acf_constant (n : ℕ) (a : ℝ) : acf (List.replicate n a) = none := by
  unfold acf
  rw [if_pos]
  rcases Nat.eq_zero_or_pos n with rfl | hn
  · simp
  · right
    rw [acf_direct _ _ (by simpa using hn), directSum_zero, Finset.sum_eq_zero]
    · simp
    · intro i hi
      rw [List.length_replicate, Finset.mem_range] at hi
      rw [mean_replicate n hn, List.getD_eq_getElem _ _ (by simpa using hi)]
      simp

/-- **C76 differs from the documented formula**: with the documented factor `1 / (N - k)` the
series `[1, -1]` has normalised autocorrelation `-1` at lag one; the code gives `-1/2`. -/
theorem acf_documented_fails :
    ∃ xs : List ℝ, ∃ a, acf xs = some a ∧ a.getD 1 0 = -1 / 2 ∧
      (directSum xs 1 / (xs.length - 1)) / (directSum xs 0 / xs.length) = -1 := by
  have hm : mean [1, -1] = 0 := by norm_num [mean]
  obtain ⟨a, h1, -, -, h2⟩ := acf_normalised [1, -1] ⟨0, by norm_num, by rw [hm]; norm_num⟩
  refine ⟨[1, -1], a, h1, ?_, ?_⟩
  · rw [(h2 1 (by norm_num)).1]
    norm_num [directSum, hm, Finset.sum_range_succ]
  · norm_num [directSum, hm, Finset.sum_range_succ]

example : ∃ i < ([1, -1] : List ℝ).length, ([1, -1] : List ℝ).getD i 0 ≠ mean [1, -1] :=
  ⟨0, by norm_num, by norm_num [mean]⟩

/-! ### The window and the blocking analysis -/

theorem autocorrTimes_getD (a : List ℝ) (k : ℕ) (hk : k < a.length) :
    (autocorrTimes a).getD k 0 = 2 * (∑ j ∈ Finset.range (k + 1), a.getD j 0) - 1 := by
  unfold autocorrTimes
  rw [List.getD_eq_getElem _ _ (by simpa using hk)]
  simp only [List.getElem_map, List.getElem_range]
  rw [sum_getD, List.length_take, min_eq_left (by omega)]
  congr 2
  apply Finset.sum_congr rfl
  intro j hj
  rw [Finset.mem_range] at hj
  rw [List.getD_eq_getElem _ _ (by rw [List.length_take]; omega),
    List.getD_eq_getElem _ _ (by omega), List.getElem_take]

/-- **C76**: in `get_autocorr_time` the window always closes, because the integrated time of
the last lag is exactly zero for any series; so the reported time is the integrated time at the
first lag `w ≥ 1` with `c τ_w ≤ w`. -/
theorem autocorr_time_window (xs : List ℝ) (hv : ∃ i < xs.length, xs.getD i 0 ≠ mean xs) (c : ℝ)
    (hc : 0 < c) :
    ∃ τ : ℕ → ℝ, (∀ k, τ k = 2 * (∑ j ∈ Finset.range (k + 1), directSum xs j / directSum xs 0) - 1) ∧
      τ (xs.length - 1) = 0 ∧
      ∃ w, 0 < w ∧ w < xs.length ∧ c * τ w ≤ w ∧ (∀ j < w, (j : ℝ) < c * τ j) ∧
        autocorrTime xs c = some (τ w) := by
  obtain ⟨a, ha, hal, ha0, hak⟩ := acf_normalised xs hv
  obtain ⟨i, hi, hiv⟩ := hv
  have hpos : 0 < directSum xs 0 := by
    rw [directSum_zero]
    apply Finset.sum_pos' (fun _ _ => sq_nonneg _)
    exact ⟨i, Finset.mem_range.2 hi, by have := sub_ne_zero.2 hiv; positivity⟩
  have hτ : ∀ k < xs.length, (autocorrTimes a).getD k 0 =
      2 * (∑ j ∈ Finset.range (k + 1), directSum xs j / directSum xs 0) - 1 := by
    intro k hk
    rw [autocorrTimes_getD a k (by omega)]
    congr 2
    apply Finset.sum_congr rfl
    intro j hj
    rw [Finset.mem_range] at hj
    exact (hak j (by omega)).1
  have hlast : 2 * (∑ j ∈ Finset.range (xs.length - 1 + 1), directSum xs j / directSum xs 0) - 1 = 0 := by
    rw [show xs.length - 1 + 1 = xs.length by omega, ← Finset.sum_div]
    have h := lag_sum (fun i => xs.getD i 0 - mean xs) xs.length
    rw [sum_centred, ← directSum_zero] at h
    have h' : 2 * ∑ j ∈ Finset.range xs.length, directSum xs j = directSum xs 0 := by
      simpa [directSum] using h
    rw [← mul_div_assoc, h', div_self hpos.ne', sub_self]
  have hlen : (autocorrTimes a).length = xs.length := by simp [autocorrTimes, hal]
  have hopen : ¬ Closed c (autocorrTimes a) 0 := by
    unfold Closed
    rw [hτ 0 (by omega)]
    simp [div_self hpos.ne']
    exact hc
  have hclosed : Closed c (autocorrTimes a) (xs.length - 1) := by
    unfold Closed
    rw [hτ _ (by omega), hlast]
    simp
  obtain ⟨w, hw, hwl, hwc, hwo⟩ := auto_window_partial c (autocorrTimes a) hopen
    ⟨xs.length - 1, by omega, hclosed⟩
  refine ⟨_, fun k => rfl, hlast, w, ?_, by omega, ?_, ?_, ?_⟩
  · rcases Nat.eq_zero_or_pos w with rfl | h
    · exact absurd hwc hopen
    · exact h
  · have := hwc
    unfold Closed at this
    rwa [hτ w (by omega)] at this
  · intro j hj
    have := hwo j hj
    unfold Closed at this
    rw [hτ j (by omega)] at this
    push Not at this
    exact this
  · unfold autocorrTime
    rw [ha]
    simp only [Option.map_some, hw, Int.toNat_natCast]
    rw [hτ w (by omega)]

theorem sum_blocks (f : ℕ → ℝ) (nb bs : ℕ) :
    ∑ i ∈ Finset.range nb, ∑ j ∈ Finset.range bs, f (i * bs + j) =
      ∑ i ∈ Finset.range (nb * bs), f i := by
  induction nb with
  | zero => simp
  | succ nb ih => rw [Finset.sum_range_succ, ih, Nat.succ_mul, Finset.sum_range_add]

/-- **C77 (part)**: for a series that is not constant and has a positive autocorrelation time,
the blocking analysis returns: the block size is the rounded-up time and smaller than the
series, there is at least one block, the mean is the mean of the samples in whole blocks, and
the squared error is the variance of the block means divided by the number of blocks. -/
theorem block_analysis_partial (xs : List ℝ) (hv : ∃ i < xs.length, xs.getD i 0 ≠ mean xs) (τ : ℝ)
    (hτ : autocorrTime xs 5 = some τ) (hpos : 0 < τ) :
    ∃ μ e nb bs, blockAnalysis xs = some (μ, e, nb, bs) ∧ (bs : ℤ) = ⌈τ⌉ ∧ 0 < bs ∧
      bs < xs.length ∧ nb = xs.length / bs ∧ 0 < nb ∧ 0 ≤ e ∧
      μ = (∑ i ∈ Finset.range (nb * bs), xs.getD i 0) / (nb * bs : ℕ) ∧
      e ^ 2 = (∑ i ∈ Finset.range nb,
        ((∑ j ∈ Finset.range bs, xs.getD (i * bs + j) 0) / bs - μ) ^ 2) / nb / nb := by
  obtain ⟨t, -, -, w, hw0, hwl, hwc, -, hw⟩ := autocorr_time_window xs hv 5 (by norm_num)
  rw [hτ, Option.some.injEq] at hw
  have hceil : 0 < ⌈τ⌉ := Int.ceil_pos.2 hpos
  have hle : ⌈τ⌉ ≤ w := by
    rw [Int.ceil_le]
    rw [← hw] at hwc
    have : (0 : ℝ) < w := by exact_mod_cast hw0
    push_cast
    linarith
  set bs := ⌈τ⌉.toNat with hbs
  have hbsz : (bs : ℤ) = ⌈τ⌉ := by omega
  have hnb : 0 < xs.length / bs := Nat.div_pos (by omega) (by omega)
  set yb := (List.range (xs.length / bs)).map fun i => mean ((xs.drop (i * bs)).take bs) with hyb
  have hres : blockAnalysis xs =
      some (mean yb, std yb / Real.sqrt (xs.length / bs : ℕ), xs.length / bs, bs) := by
    unfold blockAnalysis
    rw [if_neg (by omega), hτ, Option.bind_some]
    simp only
    rw [if_neg (by omega), ← hbs, if_neg (by omega)]
  set nb := xs.length / bs with hnbdef
  have hmul : nb * bs ≤ xs.length := Nat.div_mul_le_self _ _
  have hblock : ∀ i < nb, mean ((xs.drop (i * bs)).take bs) =
      (∑ j ∈ Finset.range bs, xs.getD (i * bs + j) 0) / bs := by
    intro i hi
    have h1 : (i + 1) * bs ≤ nb * bs := Nat.mul_le_mul_right _ hi
    rw [Nat.succ_mul] at h1
    have hl : ((xs.drop (i * bs)).take bs).length = bs := by
      rw [List.length_take, List.length_drop]; omega
    unfold mean
    rw [sum_getD, hl]
    congr 1
    apply Finset.sum_congr rfl
    intro j hj
    rw [Finset.mem_range] at hj
    rw [List.getD_eq_getElem _ _ (by omega), List.getD_eq_getElem _ _ (by omega)]
    simp
  have hbpos : (0 : ℝ) < bs := by exact_mod_cast (by omega : 0 < bs)
  have hnpos : (0 : ℝ) < nb := by exact_mod_cast hnb
  refine ⟨_, _, _, _, hres, hbsz, by omega, by omega, rfl, hnb, ?_, ?_, ?_⟩
  · exact div_nonneg (Real.sqrt_nonneg _) (Real.sqrt_nonneg _)
  · rw [← sum_blocks (fun i => xs.getD i 0)]
    conv_lhs => rw [mean]
    rw [hyb, sum_getD]
    simp only [List.length_map, List.length_range]
    rw [Nat.cast_mul, div_eq_div_iff hnpos.ne' (by positivity), Finset.sum_mul, Finset.sum_mul]
    apply Finset.sum_congr rfl
    intro i hi
    rw [Finset.mem_range] at hi
    rw [List.getD_eq_getElem _ _ (by simpa using hi)]
    simp only [List.getElem_map, List.getElem_range]
    rw [hblock i hi]
    field_simp
  · rw [div_pow, Real.sq_sqrt hnpos.le, std_sq]
    congr 1
    set μ := mean yb with hμ
    rw [mean, sum_getD]
    simp only [List.length_map, hyb, List.length_range]
    congr 1
    apply Finset.sum_congr rfl
    intro i hi
    rw [Finset.mem_range] at hi
    rw [List.getD_eq_getElem _ _ (by simpa using hi)]
    simp only [List.getElem_map, List.getElem_range]
    rw [hblock i hi]

/-- **C77 fails for anticorrelated data**: any two different samples have autocorrelation time
zero, the block size is zero, and the analysis raises. -/
theorem block_analysis_fails (x y : ℝ) (h : x ≠ y) :
    autocorrTime [x, y] 5 = some 0 ∧ blockAnalysis [x, y] = none := by
  have hm : mean [x, y] = (x + y) / 2 := by simp [mean]
  have hv : ∃ i < ([x, y] : List ℝ).length, ([x, y] : List ℝ).getD i 0 ≠ mean [x, y] := by
    refine ⟨0, by simp, ?_⟩
    rw [hm]
    intro he
    simp at he
    exact h (by linarith)
  obtain ⟨t, -, h0, w, hw0, hwl, -, -, hw⟩ := autocorr_time_window [x, y] hv 5 (by norm_num)
  have : w = 1 := by simp at hwl; omega
  subst this
  have h0' : t 1 = 0 := by simpa using h0
  rw [h0'] at hw
  exact ⟨hw, by simp [blockAnalysis, hw]⟩

/-- **C77 fails for constant data**: the analysis raises for every constant series, because the
outlier filter removes all samples. -/
theorem analysis_constant_fails (n : ℕ) (hn : 0 < n) (a thr : ℝ) :
    analysisAutocorr (List.replicate n a) thr = none := by
  have := zscore_constant_fails n hn a thr
  simp only [removeOutliers, if_true, Except.ok.injEq] at this
  simp [analysisAutocorr, this, blockAnalysis]

/-- Seven samples that meet the hypotheses of `block_analysis_partial`, with time one. -/
example : autocorrTime [1, 0, 0, 0, 0, 0, -1] 5 = some 1 := by
  have hm : mean [1, 0, 0, 0, 0, 0, -1] = 0 := by norm_num [mean]
  obtain ⟨t, ht, -, w, hw0, hwl, hwc, hwo, hw⟩ := autocorr_time_window [1, 0, 0, 0, 0, 0, -1]
    ⟨0, by norm_num, by rw [hm]; norm_num⟩ 5 (by norm_num)
  have hd : ∀ k, 0 < k → k < 6 → directSum [1, 0, 0, 0, 0, 0, -1] k = 0 := by
    intro k h0 h6
    interval_cases k <;> norm_num [directSum, hm, Finset.sum_range_succ]
  have h0 : directSum [1, 0, 0, 0, 0, 0, -1] 0 = 2 := by
    norm_num [directSum, hm, Finset.sum_range_succ]
  have ht1 : ∀ k < 6, t k = 1 := by
    intro k hk
    rw [ht, Finset.sum_range_succ']
    rw [Finset.sum_eq_zero]
    · rw [h0]; norm_num
    · intro j hj
      rw [Finset.mem_range] at hj
      rw [hd (j + 1) (by omega) (by omega), zero_div]
  have h5 : 5 ≤ w := by
    by_contra hlt
    push Not at hlt
    rw [ht1 w (by omega)] at hwc
    have : (w : ℝ) < 5 := by exact_mod_cast hlt
    linarith
  have h6 : w < 6 := by
    by_contra hge
    have := hwo 5 (by omega)
    rw [ht1 5 (by norm_num)] at this
    norm_num at this
  rw [hw, ht1 w h6]

end OpenMS.Stats
