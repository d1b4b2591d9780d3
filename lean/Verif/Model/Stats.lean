import Mathlib.Analysis.SpecialFunctions.Complex.Log
import Mathlib.Analysis.SpecialFunctions.Pow.Real
import Mathlib.Data.List.GetD
import Mathlib.Data.List.Sort
import Mathlib.Algebra.Order.Floor.Ring
import Mathlib.Data.Nat.Log

/-!
# Statistics helpers

Model of `get_mean_std`, `autocorr_func`, `auto_window`, `get_autocorr_time`,
`remove_outliers` and `analysis_autocorr` in `/repo/openms/qmc/tools.py` L597-830.

Real numbers stand for floats.  The only NaN that matters is `0 / 0` for a constant series; it
is treated explicitly where it appears.
-/

namespace OpenMS.Stats

/-- `numpy.mean` of a list (only used for non-empty lists). -/
noncomputable def mean (xs : List ℝ) : ℝ := xs.sum / xs.length

/-- `numpy.std` (population standard deviation). -/
noncomputable def std (xs : List ℝ) : ℝ :=
  Real.sqrt (mean (xs.map fun x => (x - mean xs) ^ 2))

/-- `energies[-m:]` for `m ≥ 1`. -/
def lastSlice {α : Type*} (m : ℕ) (xs : List α) : List α := xs.drop (xs.length - m)

/-- `tools.py` L597-620: `get_mean_std`.  `none` is `ZeroDivisionError` for `N = 0`. -/
noncomputable def getMeanStd (energies : List ℂ) (N : ℕ) : Option (ℝ × ℝ) :=
  if N = 0 then none
  else
    let m := max 1 (energies.length / N)
    let last := (lastSlice m energies).map Complex.re
    some (mean last, std last)

/-- `tools.py` L689: `mask = numpy.arange(len(autocorr_times)) < c * autocorr_times`. -/
def windowMask {K : Type*} [Field K] [LinearOrder K] (c : K) (times : List K) : List Bool :=
  times.mapIdx fun k t => decide ((k : K) < c * t)

/-- `numpy.argmin` of a boolean list: the first `False`, and `0` when all are `True`. -/
def argminBool (mask : List Bool) : ℕ := if mask.all id then 0 else mask.findIdx (!·)

/-- `tools.py` L666-690: `auto_window`. -/
def autoWindow {K : Type*} [Field K] [LinearOrder K] (c : K) (times : List K) : ℤ :=
  if (windowMask c times).any id then argminBool (windowMask c times)
  else (times.length : ℤ) - 1

/-- `tools.py` L741-745: the z-score filter.  With zero standard deviation every entry equals
the mean, `0 / 0` is NaN and every comparison is false. -/
noncomputable def zscoreFilter (data : List ℝ) (threshold : ℝ) : List ℝ :=
  open Classical in
  if std data = 0 then []
  else data.filter fun x => decide (|(x - mean data) / std data| < threshold)

/-- `numpy.percentile(data, 100 p)` with linear interpolation, for non-empty data and
`0 ≤ p < 1`. -/
noncomputable def percentile (data : List ℝ) (p : ℝ) : ℝ :=
  let s := data.insertionSort (· ≤ ·)
  let pos := p * ((data.length : ℝ) - 1)
  let lo := ⌊pos⌋₊
  s.getD lo 0 + (s.getD (min (lo + 1) (data.length - 1)) 0 - s.getD lo 0) * (pos - lo)

/-- `tools.py` L747-752: the interquartile filter. -/
noncomputable def iqrFilter (data : List ℝ) (threshold : ℝ) : List ℝ :=
  open Classical in
  let q1 := percentile data (1 / 4)
  let q3 := percentile data (3 / 4)
  let iqr := q3 - q1
  data.filter fun x => decide (q1 - threshold * iqr ≤ x) && decide (x ≤ q3 + threshold * iqr)

/-- `tools.py` L721-755: `remove_outliers`. -/
noncomputable def removeOutliers (data : List ℝ) (method : String) (threshold : ℝ) :
    Except String (List ℝ) :=
  if method = "zscore" then .ok (zscoreFilter data threshold)
  else if method = "iqr" then .ok (iqrFilter data threshold)
  else .error "ValueError"

/-! ### Autocorrelation -/

/-- `numpy.fft.fft(y, n=N)` with zero padding: entry `k` (`y` is zero beyond its length). -/
noncomputable def fft (N : ℕ) (y : ℕ → ℂ) (k : ℕ) : ℂ :=
  ∑ a ∈ Finset.range N, y a * Complex.exp (-(2 * Real.pi * Complex.I * a * k / N))

/-- `numpy.fft.ifft`: entry `k`. -/
noncomputable def ifft (N : ℕ) (f : ℕ → ℂ) (k : ℕ) : ℂ :=
  (∑ j ∈ Finset.range N, f j * Complex.exp (2 * Real.pi * Complex.I * j * k / N)) / N

/-- `tools.py` L654: `n = 2 ** int(numpy.ceil(numpy.log2(len(x))))`. -/
def fftSize (len : ℕ) : ℕ := 2 ^ Nat.clog 2 len

/-- The zero-padded centred series `x - x_mean`. -/
noncomputable def centred (xs : List ℝ) (a : ℕ) : ℂ :=
  if a < xs.length then ((xs.getD a 0 - mean xs : ℝ) : ℂ) else 0

/-- `tools.py` L655-658: the autocorrelation function before normalisation. -/
noncomputable def acfRaw (xs : List ℝ) (k : ℕ) : ℝ :=
  let n := fftSize xs.length
  let f := fft (2 * n) (centred xs)
  (ifft (2 * n) (fun j => f j * (starRingEnd ℂ) (f j)) k).re / (4 * n)

/-- `tools.py` L624-664: `autocorr_func` with `normalize=True`.  `none` stands for an empty
series (`int(-inf)` raises) and for a vanishing `acf[0]` (the result is NaN). -/
noncomputable def acf (xs : List ℝ) : Option (List ℝ) :=
  open Classical in
  if xs = [] ∨ acfRaw xs 0 = 0 then none
  else some ((List.range xs.length).map fun k => acfRaw xs k / acfRaw xs 0)

/-- `tools.py` L716: `2.0 * numpy.cumsum(acf) - 1.0`. -/
noncomputable def autocorrTimes (a : List ℝ) : List ℝ :=
  (List.range a.length).map fun k => 2 * (a.take (k + 1)).sum - 1

/-- `tools.py` L692-718: `get_autocorr_time`.  Python's negative index is only reached for an
empty list. -/
noncomputable def autocorrTime (xs : List ℝ) (c : ℝ) : Option ℝ :=
  (acf xs).map fun a =>
    let t := autocorrTimes a
    t.getD (autoWindow c t).toNat 0

/-- `tools.py` L757-830: `analysis_autocorr` with the z-score filter, after the cleaned series
`ys` has been computed: mean, error, number of blocks, block size.  The autocorrelation times
of the shorter prefixes are only printed and are left out (they may only warn).  `none` stands
for an exception or NaN: fewer than two samples (`autocorr_times[0]` does not exist or
`int(-inf)` raises), a constant series, or a block size of zero (`ZeroDivisionError`) or below
(mean of an empty list). -/
noncomputable def blockAnalysis (ys : List ℝ) : Option (ℝ × ℝ × ℕ × ℕ) :=
  if ys.length < 2 then none
  else
    (autocorrTime ys 5).bind fun τ =>
      let b := ⌈τ⌉
      if b ≤ 0 then none
      else
        let bs := b.toNat
        let nb := ys.length / bs
        if nb = 0 then none
        else
          let yb := (List.range nb).map fun i => mean ((ys.drop (i * bs)).take bs)
          some (mean yb, std yb / Real.sqrt nb, nb, bs)

/-- `tools.py` L757-830: `analysis_autocorr(y, method="zscore", threshold=10)`. -/
noncomputable def analysisAutocorr (ys : List ℝ) (threshold : ℝ) : Option (ℝ × ℝ × ℕ × ℕ) :=
  blockAnalysis (zscoreFilter ys threshold)

end OpenMS.Stats
