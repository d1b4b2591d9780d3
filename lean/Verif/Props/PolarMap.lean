import Verif.Model.PolarMap
import Mathlib.Analysis.Real.Pi.Bounds

/-!
# C165: polar maps of the far field
-/

namespace OpenMS.PolarMap

open Real

/-- The square of the distance from the middle, as a number. -/
theorem rho_sq (x y : ℤ) : Real.sqrt ((x * x + y * y : ℤ) : ℝ) ^ 2 = (x : ℝ) ^ 2 + (y : ℝ) ^ 2 := by
  rw [Real.sq_sqrt (by exact_mod_cast add_nonneg (mul_self_nonneg x) (mul_self_nonneg y))]
  push_cast
  ring

theorem rho_pos (x y : ℤ) (h : x ≠ 0 ∨ y ≠ 0) : 0 < Real.sqrt ((x * x + y * y : ℤ) : ℝ) := by
  apply Real.sqrt_pos.2
  have : 0 < x * x + y * y := by
    rcases h with h | h
    · nlinarith [mul_self_pos.2 h, mul_self_nonneg y]
    · nlinarith [mul_self_pos.2 h, mul_self_nonneg x]
  exact_mod_cast this

/-- **The disk.**  A point of the map is filled exactly when its distance from the middle is at most `tr - 1`, where `tr` is half
of the size. -/
theorem disk (i j : ℤ) (tnum : ℕ) :
    circleOut i j tnum = true ↔
      (i - (tnum / 2 : ℕ)) ^ 2 + (j - (tnum / 2 : ℕ)) ^ 2 ≤ (((tnum / 2 : ℕ) : ℤ) - 1) ^ 2 := by
  unfold circleOut
  generalize (((tnum / 2 : ℕ)) : ℤ) = t
  simp only [decide_eq_true_eq, not_lt]
  have e : (i - t) * (i - t) + (j - t) * (j - t) - (t - 1) * (t - 1)
      = (i - t) ^ 2 + (j - t) ^ 2 - (t - 1) ^ 2 := by ring
  rw [e]
  generalize (i - t) ^ 2 + (j - t) ^ 2 = a
  generalize (t - 1) ^ 2 = b
  constructor
  · intro h
    by_contra h'
    have h2 : (1 : ℤ) ≤ a - b := by omega
    have h3 : (1 : ℝ) ≤ ((a - b : ℤ) : ℝ) := by exact_mod_cast h2
    linarith
  · intro h
    have h2 : a - b ≤ 0 := by omega
    have h3 : ((a - b : ℤ) : ℝ) ≤ 0 := by exact_mod_cast h2
    linarith

example : circleOut 9 5 10 = true ∧ circleOut 0 5 10 = false := by
  refine ⟨(disk _ _ _).2 (by norm_num), ?_⟩
  rw [← Bool.not_eq_true, disk]
  norm_num

/-- **The azimuth.**  For every point but the middle the angle is that of the point seen from the middle, on the whole
circle; the tolerance of the test for the lower half never decides wrongly on the points of the grid. -/
theorem azimuth (i j : ℤ) (tnum : ℕ) (h : i ≠ (tnum / 2 : ℕ) ∨ j ≠ (tnum / 2 : ℕ)) :
    let rho := Real.sqrt (((i : ℝ) - (tnum / 2 : ℕ)) ^ 2 + ((j : ℝ) - (tnum / 2 : ℕ)) ^ 2)
    rho * Real.cos (calcPhi i j tnum) = (i : ℝ) - (tnum / 2 : ℕ) ∧
      rho * Real.sin (calcPhi i j tnum) = (j : ℝ) - (tnum / 2 : ℕ) ∧
      0 ≤ calcPhi i j tnum ∧ calcPhi i j tnum ≤ 2 * π := by
  intro rho
  obtain ⟨x, hx⟩ : ∃ x : ℤ, x = i - (tnum / 2 : ℕ) := ⟨_, rfl⟩
  obtain ⟨y, hy⟩ : ∃ y : ℤ, y = j - (tnum / 2 : ℕ) := ⟨_, rfl⟩
  have hxr : (i : ℝ) - (tnum / 2 : ℕ) = x := by rw [hx]; push_cast; rfl
  have hyr : (j : ℝ) - (tnum / 2 : ℕ) = y := by rw [hy]; push_cast; rfl
  have hne : x ≠ 0 ∨ y ≠ 0 := by
    rcases h with h | h
    · left; omega
    · right; omega
  have hrho : rho = Real.sqrt ((x * x + y * y : ℤ) : ℝ) := by
    show Real.sqrt _ = _
    rw [hxr, hyr]
    congr 1
    push_cast
    ring
  have hp : 0 < rho := hrho ▸ rho_pos x y hne
  have hsq : rho ^ 2 = (x : ℝ) ^ 2 + (y : ℝ) ^ 2 := hrho ▸ rho_sq x y
  unfold calcPhi
  dsimp only
  rw [← hx, ← hy, ← hrho, hxr, hyr]
  have hle : |(x : ℝ)| ≤ rho := by
    apply abs_le_of_sq_le_sq _ hp.le
    nlinarith [sq_nonneg (y : ℝ)]
  have hb := abs_le.1 hle
  have h1 : -1 ≤ (x : ℝ) / rho := by rw [le_div_iff₀ hp]; linarith
  have h2 : (x : ℝ) / rho ≤ 1 := by rw [div_le_one hp]; exact hb.2
  have hc : rho * Real.cos (Real.arccos ((x : ℝ) / rho)) = x := by
    rw [Real.cos_arccos h1 h2]; field_simp
  have hs : rho * Real.sin (Real.arccos ((x : ℝ) / rho)) = |(y : ℝ)| := by
    have hn : 0 ≤ Real.sin (Real.arccos ((x : ℝ) / rho)) :=
      Real.sin_nonneg_of_nonneg_of_le_pi (Real.arccos_nonneg _) (Real.arccos_le_pi _)
    rw [← abs_of_nonneg (mul_nonneg hp.le hn)]
    apply (sq_eq_sq_iff_abs_eq_abs _ _).1
    have := Real.sin_sq_add_cos_sq (Real.arccos ((x : ℝ) / rho))
    have hc2 : (rho * Real.cos (Real.arccos ((x : ℝ) / rho))) ^ 2 = (x : ℝ) ^ 2 := by rw [hc]
    nlinarith
  have hl := Real.arccos_nonneg ((x : ℝ) / rho)
  have hu := Real.arccos_le_pi ((x : ℝ) / rho)
  have hpi := Real.pi_pos
  rw [hs]
  by_cases hy0 : 0 ≤ y
  · have hyy : (0 : ℝ) ≤ y := by exact_mod_cast hy0
    rw [abs_of_nonneg hyy, if_pos (by norm_num)]
    rw [abs_of_nonneg hyy] at hs
    exact ⟨hc, hs, hl, by linarith⟩
  · have hyy : (y : ℝ) ≤ -1 := by
      have : y ≤ -1 := by omega
      exact_mod_cast this
    rw [abs_of_neg (by linarith : (y : ℝ) < 0)] at hs ⊢
    rw [if_neg (by rw [abs_of_neg (by linarith)]; norm_num; linarith)]
    rw [Real.cos_two_pi_sub, Real.sin_two_pi_sub]
    exact ⟨hc, by linarith, by linarith, by linarith⟩

example : Real.cos (calcPhi 1 4 10) = -4 / Real.sqrt 17 := by
  have h := (azimuth 1 4 10 (Or.inl (by norm_num))).1
  norm_num at h
  have h17 : Real.sqrt 17 ≠ 0 := by positivity
  field_simp
  linarith

/-- **The polar angle.**  The angle is the distance from the middle as part of half of the size times a right angle; in
the disk it is less than a right angle. -/
theorem polar (i j : ℤ) (tnum : ℕ) (ht : 2 ≤ tnum) :
    calcTheta i j tnum * (tnum / 2 : ℕ)
        = Real.sqrt (((i : ℝ) - (tnum / 2 : ℕ)) ^ 2 + ((j : ℝ) - (tnum / 2 : ℕ)) ^ 2) * (π / 2) ∧
      (circleOut i j tnum = true → 0 ≤ calcTheta i j tnum ∧ calcTheta i j tnum < π / 2) := by
  have h1 : 1 ≤ tnum / 2 := by omega
  have hd := disk i j tnum
  revert hd
  have hpi := Real.pi_pos
  unfold calcTheta
  dsimp only
  generalize tnum / 2 = t at *
  intro hd
  have htp : (1 : ℝ) ≤ t := by exact_mod_cast h1
  have e : (((i - t) * (i - t) + (j - t) * (j - t) : ℤ) : ℝ) = ((i : ℝ) - t) ^ 2 + ((j : ℝ) - t) ^ 2 := by
    push_cast; ring
  rw [e]
  refine ⟨by push_cast; field_simp, fun hc => ⟨by positivity, ?_⟩⟩
  have h2 : ((i : ℝ) - t) ^ 2 + ((j : ℝ) - t) ^ 2 ≤ ((t : ℝ) - 1) ^ 2 := by exact_mod_cast hd.1 hc
  have h3 : Real.sqrt (((i : ℝ) - t) ^ 2 + ((j : ℝ) - t) ^ 2) ≤ t - 1 := by
    rw [← Real.sqrt_sq (by linarith : (0 : ℝ) ≤ t - 1)]
    exact Real.sqrt_le_sqrt h2
  push_cast
  rw [div_lt_iff₀ (by linarith)]
  nlinarith

/-- The value between four places: with the two sides equal where the place is a whole number, mixing is a mean. -/
theorem mix_bounds {p q : ℝ} {r : ℤ} {a b c d lo hi : ℝ} (ha : lo ≤ a ∧ a ≤ hi) (hb : lo ≤ b ∧ b ≤ hi)
    (hc : lo ≤ c ∧ c ≤ hi) (hd : lo ≤ d ∧ d ≤ hi) :
    lo ≤ mix p q r (⌊p⌋ + r) (⌊q⌋ + r) a b c d ∧ mix p q r (⌊p⌋ + r) (⌊q⌋ + r) a b c d ≤ hi := by
  unfold mix
  dsimp only
  push_cast
  have e1 : p + (r : ℝ) - ((⌊p⌋ : ℝ) + r) = Int.fract p := by unfold Int.fract; ring
  have e2 : q + (r : ℝ) - ((⌊q⌋ : ℝ) + r) = Int.fract q := by unfold Int.fract; ring
  rw [e1, e2]
  have s0 := Int.fract_nonneg p
  have s1 := (Int.fract_lt_one p).le
  have t0 := Int.fract_nonneg q
  have t1 := (Int.fract_lt_one q).le
  generalize Int.fract p = s at *
  generalize Int.fract q = w at *
  have A1 : lo ≤ a + s * (b - a) := by nlinarith
  have A2 : a + s * (b - a) ≤ hi := by nlinarith
  have B1 : lo ≤ c + s * (d - c) := by nlinarith
  have B2 : c + s * (d - c) ≤ hi := by nlinarith
  generalize a + s * (b - a) = A at *
  generalize c + s * (d - c) = B at *
  constructor <;> nlinarith

/-- Floor and ceiling of a number with absolute value below a whole number. -/
theorem round_bounds {p : ℝ} {r : ℕ} (h : |p| < r) : -(r : ℤ) ≤ ⌊p⌋ ∧ ⌊p⌋ ≤ r ∧ -(r : ℤ) ≤ ⌈p⌉ ∧ ⌈p⌉ ≤ r := by
  obtain ⟨h1, h2⟩ := abs_lt.1 h
  refine ⟨Int.le_floor.2 (by push_cast; linarith), ?_, ?_, Int.ceil_le.2 (by push_cast; linarith)⟩
  · exact (Int.floor_le_ceil p).trans (Int.ceil_le.2 (by push_cast; linarith))
  · exact (Int.le_floor.2 (by push_cast; linarith : ((-(r : ℤ) : ℤ) : ℝ) ≤ p)).trans (Int.floor_le_ceil p)

theorem read_some {rcnum : ℕ} {u : ℤ → ℤ → ℝ} {a b : ℤ} (h : 0 ≤ a ∧ a < rcnum ∧ 0 ≤ b ∧ b < rcnum) :
    read rcnum u a b = some (u a b) := if_pos h

/-- With an odd number of rows the four places are in the array. -/
theorem interpolAt_odd {p q : ℝ} {r : ℕ} {u : ℤ → ℤ → ℝ} (hp : |p| < r) (hq : |q| < r) :
    interpolAt p q (2 * r + 1) u = some (mix p q r (⌊p⌋ + r) (⌊q⌋ + r) (u (⌊p⌋ + r) (⌊q⌋ + r)) (u (⌈p⌉ + r) (⌊q⌋ + r))
      (u (⌊p⌋ + r) (⌈q⌉ + r)) (u (⌈p⌉ + r) (⌈q⌉ + r))) := by
  have e : (2 * r + 1) / 2 = r := by omega
  obtain ⟨a1, a2, a3, a4⟩ := round_bounds hp
  obtain ⟨b1, b2, b3, b4⟩ := round_bounds hq
  unfold interpolAt
  rw [e]
  dsimp only
  rw [read_some (by push_cast; omega), read_some (by push_cast; omega), read_some (by push_cast; omega),
    read_some (by push_cast; omega)]
  rfl

/-- The place in the far field of a point of the disk. -/
theorem place_lt {i j : ℤ} {tnum r : ℕ} (ht : 2 ≤ tnum) (hr : 0 < r) (hc : circleOut i j tnum = true) (a : ℝ) :
    |r * Real.sin (calcTheta i j tnum) * Real.cos a| < r ∧ |r * Real.sin (calcTheta i j tnum) * Real.sin a| < r := by
  obtain ⟨h0, h1⟩ := (polar i j tnum ht).2 hc
  have hrp : (0 : ℝ) < r := by exact_mod_cast hr
  have hs0 : 0 ≤ Real.sin (calcTheta i j tnum) := Real.sin_nonneg_of_nonneg_of_le_pi h0 (by linarith [Real.pi_pos])
  have hs1 : Real.sin (calcTheta i j tnum) < 1 := by
    rw [← Real.sin_pi_div_two]
    exact Real.sin_lt_sin_of_lt_of_le_pi_div_two (by linarith [Real.pi_pos]) le_rfl h1
  have key : ∀ c : ℝ, |c| ≤ 1 → |r * Real.sin (calcTheta i j tnum) * c| < r := by
    intro c hc
    rw [abs_mul, abs_of_nonneg (by positivity)]
    have : (r : ℝ) * Real.sin (calcTheta i j tnum) < r := by nlinarith
    nlinarith [abs_nonneg c, mul_nonneg hrp.le hs0]
  exact ⟨key _ (Real.abs_cos_le_one a), key _ (Real.abs_sin_le_one a)⟩

/-- **In the array, and between the data.**  A far field with an odd number of rows: every point of the map is found
without a read outside of the array, points outside of the disk are zero, and the others are between the bounds of the
data.  Missing: an even number of rows (`outside_fails`). -/
theorem within_partial (u : ℤ → ℤ → ℝ) (r tnum i j : ℕ) (hr : 0 < r) (ht : 2 ≤ tnum) :
    ∃ v, intoPolar u (2 * r + 1) tnum i j = some v ∧ (circleOut i j tnum = false → v = 0) ∧
      ∀ lo hi : ℝ, (∀ a b : ℤ, 0 ≤ a → a ≤ 2 * r → 0 ≤ b → b ≤ 2 * r → lo ≤ u a b ∧ u a b ≤ hi) →
        circleOut i j tnum = true → lo ≤ v ∧ v ≤ hi := by
  have e : (2 * r + 1) / 2 = r := by omega
  unfold intoPolar
  dsimp only
  by_cases hc : circleOut i j tnum = false
  · exact ⟨0, by rw [if_pos hc], fun _ => rfl, fun lo hi _ h => by rw [hc] at h; simp at h⟩
  · have hc' : circleOut i j tnum = true := by simpa using hc
    rw [if_neg hc]
    by_cases hth : |calcTheta i j tnum| < 2 / 100
    · rw [if_pos hth, e, read_some (by push_cast; omega)]
      exact ⟨_, rfl, fun h => absurd h hc, fun lo hi h _ => h _ _ (by omega) (by omega) (by omega) (by omega)⟩
    · rw [if_neg hth]
      unfold interpol
      dsimp only
      rw [e]
      obtain ⟨hp, hq⟩ := place_lt ht hr hc' (calcPhi i j tnum)
      push_cast
      rw [interpolAt_odd hp hq]
      obtain ⟨a1, a2, a3, a4⟩ := round_bounds hp
      obtain ⟨b1, b2, b3, b4⟩ := round_bounds hq
      refine ⟨_, rfl, fun h => absurd h hc, fun lo hi h _ => ?_⟩
      exact mix_bounds (h _ _ (by omega) (by omega) (by omega) (by omega)) (h _ _ (by omega) (by omega) (by omega) (by omega))
        (h _ _ (by omega) (by omega) (by omega) (by omega)) (h _ _ (by omega) (by omega) (by omega) (by omega))

/-- The mean of data that are linear in each index. -/
theorem mix_bilinear (p q : ℝ) (r : ℤ) (a b c d : ℝ) (g : ℤ → ℤ → ℝ)
    (hg : ∀ x y : ℤ, g x y = a + b * (x - r) + c * (y - r) + d * ((x - r) * (y - r))) :
    mix p q r (⌊p⌋ + r) (⌊q⌋ + r) (g (⌊p⌋ + r) (⌊q⌋ + r)) (g (⌈p⌉ + r) (⌊q⌋ + r)) (g (⌊p⌋ + r) (⌈q⌉ + r))
      (g (⌈p⌉ + r) (⌈q⌉ + r)) = a + b * p + c * q + d * (p * q) := by
  unfold mix
  simp only [hg]
  have key : ∀ x : ℝ, (x - ⌊x⌋) * ((⌈x⌉ : ℝ) - ⌊x⌋) = x - ⌊x⌋ := by
    intro x
    by_cases hx : (⌊x⌋ : ℝ) = x
    · rw [hx]; simp
    · have h1 : (⌊x⌋ : ℝ) < x := lt_of_le_of_ne (Int.floor_le x) hx
      have h2 : ⌈x⌉ = ⌊x⌋ + 1 := by
        rw [Int.ceil_eq_iff]
        push_cast
        exact ⟨by linarith, by linarith [Int.lt_floor_add_one x]⟩
      rw [h2]
      push_cast
      ring
  have hp := key p
  have hq := key q
  push_cast
  generalize ((⌊p⌋ : ℤ) : ℝ) = fp at *
  generalize ((⌊q⌋ : ℤ) : ℝ) = fq at *
  generalize ((⌈p⌉ : ℤ) : ℝ) = cp at *
  generalize ((⌈q⌉ : ℤ) : ℝ) = cq at *
  linear_combination (b + d * fq + d * (q - fq) * (cq - fq)) * hp + (c + d * fp + d * (p - fp)) * hq

/-- **The direction.**  Where the data are linear in each index and the polar angle is at least `0.02`, the map has at each point
the value of the data in the direction of the point: at `r sin θ` times the unit vector from the middle. -/
theorem direction_partial (r tnum i j : ℕ) (a b c d : ℝ) (hr : 0 < r) (ht : 2 ≤ tnum)
    (hc : ((i : ℤ) - (tnum / 2 : ℕ)) ^ 2 + ((j : ℤ) - (tnum / 2 : ℕ)) ^ 2 ≤ (((tnum / 2 : ℕ) : ℤ) - 1) ^ 2)
    (rho theta : ℝ) (hrho : rho = Real.sqrt (((i : ℝ) - (tnum / 2 : ℕ)) ^ 2 + ((j : ℝ) - (tnum / 2 : ℕ)) ^ 2))
    (htheta : theta = rho / (tnum / 2 : ℕ) * (π / 2)) (hth : 2 / 100 ≤ theta) :
    intoPolar (fun x y => a + b * (x - r) + c * (y - r) + d * ((x - r) * (y - r))) (2 * r + 1) tnum i j
      = some (a + b * (r * Real.sin theta * (((i : ℝ) - (tnum / 2 : ℕ)) / rho))
          + c * (r * Real.sin theta * (((j : ℝ) - (tnum / 2 : ℕ)) / rho))
          + d * ((r * Real.sin theta * (((i : ℝ) - (tnum / 2 : ℕ)) / rho))
            * (r * Real.sin theta * (((j : ℝ) - (tnum / 2 : ℕ)) / rho)))) := by
  have e : (2 * r + 1) / 2 = r := by omega
  have h1 : 1 ≤ tnum / 2 := by omega
  have htp : (0 : ℝ) < (tnum / 2 : ℕ) := by exact_mod_cast h1
  have hc' : circleOut i j tnum = true := (disk i j tnum).2 hc
  have hT : calcTheta i j tnum = theta := by
    have := (polar i j tnum ht).1
    push_cast at this
    rw [htheta, hrho]
    push_cast
    push_cast at htp
    field_simp at this ⊢
    linarith
  have hrp : 0 < rho := by
    by_contra h
    have h2 : rho = 0 := le_antisymm (not_lt.1 h) (hrho ▸ Real.sqrt_nonneg _)
    rw [htheta, h2] at hth
    norm_num at hth
  have hne : (i : ℤ) ≠ (tnum / 2 : ℕ) ∨ (j : ℤ) ≠ (tnum / 2 : ℕ) := by
    by_contra h
    push Not at h
    have hi : (i : ℝ) = (tnum / 2 : ℕ) := by exact_mod_cast h.1
    have hj : (j : ℝ) = (tnum / 2 : ℕ) := by exact_mod_cast h.2
    rw [hrho, hi, hj] at hrp
    simp at hrp
  obtain ⟨z1, z2, -, -⟩ := azimuth i j tnum hne
  have hrho' : Real.sqrt ((((i : ℤ) : ℝ) - (tnum / 2 : ℕ)) ^ 2 + (((j : ℤ) : ℝ) - (tnum / 2 : ℕ)) ^ 2) = rho := by
    rw [hrho]; rfl
  rw [hrho'] at z1 z2
  have w1 : Real.cos (calcPhi i j tnum) = ((i : ℝ) - (tnum / 2 : ℕ)) / rho := by
    rw [eq_div_iff hrp.ne']
    have : ((i : ℤ) : ℝ) = i := by norm_cast
    rw [this] at z1
    linarith
  have w2 : Real.sin (calcPhi i j tnum) = ((j : ℝ) - (tnum / 2 : ℕ)) / rho := by
    rw [eq_div_iff hrp.ne']
    have : ((j : ℤ) : ℝ) = j := by norm_cast
    rw [this] at z2
    linarith
  unfold intoPolar
  dsimp only
  rw [if_neg (by rw [hc']; simp), if_neg (by rw [hT, not_lt]; exact hth.trans (le_abs_self _))]
  unfold interpol
  dsimp only
  rw [e]
  obtain ⟨hp, hq⟩ := place_lt ht hr hc' (calcPhi i j tnum)
  push_cast at hp hq ⊢
  rw [interpolAt_odd hp hq]
  refine congrArg some ((mix_bilinear _ _ r a b c d
    (fun x y => a + b * (x - r) + c * (y - r) + d * ((x - r) * (y - r))) (fun x y => by push_cast; rfl)).trans ?_)
  rw [hT, w1, w2]

/-- **The center spreads.**  On maps with at least 158 rows the four points next to the middle have the value of the middle, so a
far field with a slope is not shown in their directions. -/
theorem center_fails (r tnum : ℕ) (a b : ℝ) (hr : 0 < r) (ht : 158 ≤ tnum) (hb : b ≠ 0) :
    intoPolar (fun x _ => a + b * (x - r)) (2 * r + 1) tnum (tnum / 2 + 1) (tnum / 2) = some a ∧
      a ≠ a + b * (r * Real.sin (π / 2 / (tnum / 2 : ℕ))) := by
  have e : (2 * r + 1) / 2 = r := by omega
  have h1 : 79 ≤ tnum / 2 := by omega
  have htp : (79 : ℝ) ≤ (tnum / 2 : ℕ) := by exact_mod_cast h1
  have hpi := Real.pi_lt_d2
  have hpi0 := Real.pi_pos
  have hc' : circleOut ((tnum / 2 + 1 : ℕ) : ℤ) ((tnum / 2 : ℕ) : ℤ) tnum = true := by
    rw [disk]
    generalize tnum / 2 = t at *
    push_cast
    have : (79 : ℤ) ≤ t := by exact_mod_cast h1
    nlinarith
  constructor
  · unfold intoPolar
    dsimp only
    rw [if_neg (by rw [hc']; simp), if_pos, e, read_some (by push_cast; omega)]
    · simp
    · have hp := (polar ((tnum / 2 + 1 : ℕ) : ℤ) ((tnum / 2 : ℕ) : ℤ) tnum (by omega)).1
      generalize calcTheta ((tnum / 2 + 1 : ℕ) : ℤ) ((tnum / 2 : ℕ) : ℤ) tnum = T at *
      generalize tnum / 2 = t at *
      push_cast at hp
      have e2 : ((t : ℝ) + 1 - t) ^ 2 + ((t : ℝ) - t) ^ 2 = 1 := by ring
      rw [e2, Real.sqrt_one] at hp
      rw [abs_lt]
      constructor <;> nlinarith
  · intro h
    have hs : 0 < Real.sin (π / 2 / (tnum / 2 : ℕ)) := by
      apply Real.sin_pos_of_pos_of_lt_pi (by positivity)
      rw [div_div, div_lt_iff₀ (by positivity)]
      nlinarith
    have hrp : (0 : ℝ) < r := by exact_mod_cast hr
    have : b * (r * Real.sin (π / 2 / (tnum / 2 : ℕ))) ≠ 0 := mul_ne_zero hb (by positivity)
    apply this
    linarith

/-- **Below that size only the middle.**  On maps with less than 158 rows the value of the middle is taken at the middle only. -/
theorem center_partial (tnum : ℕ) (i j : ℤ) (ht : 2 ≤ tnum) (ht' : tnum < 158) :
    |calcTheta i j tnum| < 2 / 100 ↔ i = (tnum / 2 : ℕ) ∧ j = (tnum / 2 : ℕ) := by
  have hp := (polar i j tnum ht).1
  have hpi := Real.pi_gt_d4
  have h1 : 1 ≤ tnum / 2 := by omega
  have h2 : tnum / 2 ≤ 78 := by omega
  generalize calcTheta i j tnum = T at *
  generalize tnum / 2 = t at *
  have t1 : (1 : ℝ) ≤ t := by exact_mod_cast h1
  have t2 : (t : ℝ) ≤ 78 := by exact_mod_cast h2
  constructor
  · intro h
    obtain ⟨-, hT⟩ := abs_lt.1 h
    by_contra hne
    have hz : 1 ≤ (i - t) ^ 2 + (j - t) ^ 2 := by
      have : i - t ≠ 0 ∨ j - t ≠ 0 := by
        by_contra h'
        push Not at h'
        exact hne ⟨by omega, by omega⟩
      have h3 : 0 < (i - t) ^ 2 + (j - t) ^ 2 := by
        rcases this with h | h
        · have := sq_nonneg (j - t); positivity
        · have := sq_nonneg (i - t); positivity
      omega
    have hz' : (1 : ℝ) ≤ ((i : ℝ) - t) ^ 2 + ((j : ℝ) - t) ^ 2 := by exact_mod_cast hz
    have hs : 1 ≤ Real.sqrt (((i : ℝ) - t) ^ 2 + ((j : ℝ) - t) ^ 2) := by
      rw [← Real.sqrt_one]; exact Real.sqrt_le_sqrt hz'
    nlinarith
  · rintro ⟨rfl, rfl⟩
    push_cast at hp
    simp at hp
    have : T = 0 := by
      rcases hp with h | h
      · exact h
      · exfalso; omega
    rw [this]
    norm_num

/-- **A read outside of the array.**  A far field with an even number `2 r` of rows: a large enough map has a point in the disk
whose value is taken from column `2 r`, which does not exist. -/
theorem outside_fails (u : ℤ → ℤ → ℝ) (r : ℕ) (hr : 0 < r) :
    ∃ T : ℕ, ∀ tnum, T ≤ tnum → intoPolar u (2 * r) tnum (2 * (tnum / 2) - 1) (tnum / 2) = none := by
  have hrp : (0 : ℝ) < r := by exact_mod_cast hr
  refine ⟨200 * r + 200, fun tnum ht => ?_⟩
  have h1 : 100 * r + 100 ≤ tnum / 2 := by omega
  have hone : 1 ≤ tnum / 2 := by omega
  have htp : (100 : ℝ) * r + 100 ≤ (tnum / 2 : ℕ) := by exact_mod_cast h1
  have hpi := Real.pi_lt_d2
  have hpi0 := Real.pi_pos
  obtain ⟨i, hi⟩ : ∃ i : ℕ, i = 2 * (tnum / 2) - 1 := ⟨_, rfl⟩
  rw [← hi]
  have hiz : (i : ℤ) - (tnum / 2 : ℕ) = ((tnum / 2 : ℕ) : ℤ) - 1 := by rw [hi]; push_cast; omega
  have hir : (i : ℝ) - (tnum / 2 : ℕ) = ((tnum / 2 : ℕ) : ℝ) - 1 := by exact_mod_cast hiz
  have hc' : circleOut i ((tnum / 2 : ℕ) : ℤ) tnum = true := by
    rw [disk, hiz]
    simp
  have hp := (polar i ((tnum / 2 : ℕ) : ℤ) tnum (by omega)).1
  have hne : (i : ℤ) ≠ (tnum / 2 : ℕ) ∨ ((tnum / 2 : ℕ) : ℤ) ≠ (tnum / 2 : ℕ) := by left; omega
  obtain ⟨z1, z2, -, -⟩ := azimuth i ((tnum / 2 : ℕ) : ℤ) tnum hne
  have hrho : Real.sqrt ((((i : ℤ) : ℝ) - (tnum / 2 : ℕ)) ^ 2 + ((((tnum / 2 : ℕ) : ℤ) : ℝ) - (tnum / 2 : ℕ)) ^ 2)
      = ((tnum / 2 : ℕ) : ℝ) - 1 := by
    have e1 : ((i : ℤ) : ℝ) - (tnum / 2 : ℕ) = ((tnum / 2 : ℕ) : ℝ) - 1 := by rw [← hir, Int.cast_natCast]
    rw [e1]
    have e2 : (((tnum / 2 : ℕ) : ℤ) : ℝ) - (tnum / 2 : ℕ) = 0 := by norm_cast; simp
    rw [e2, zero_pow two_ne_zero, add_zero, Real.sqrt_sq (by linarith)]
  rw [hrho] at hp z1 z2
  have e1 : ((i : ℤ) : ℝ) - (tnum / 2 : ℕ) = ((tnum / 2 : ℕ) : ℝ) - 1 := by rw [← hir, Int.cast_natCast]
  rw [e1] at z1
  have e2 : (((tnum / 2 : ℕ) : ℤ) : ℝ) - (tnum / 2 : ℕ) = 0 := by norm_cast; simp
  rw [e2] at z2
  have hpos : (0 : ℝ) < ((tnum / 2 : ℕ) : ℝ) - 1 := by linarith
  have c1 : Real.cos (calcPhi i ((tnum / 2 : ℕ) : ℤ) tnum) = 1 := by
    have := mul_left_cancel₀ hpos.ne' (z1.trans (mul_one _).symm)
    exact this
  have c2 : Real.sin (calcPhi i ((tnum / 2 : ℕ) : ℤ) tnum) = 0 := by
    rcases mul_eq_zero.1 z2 with h | h
    · linarith
    · exact h
  have hT : calcTheta i ((tnum / 2 : ℕ) : ℤ) tnum = π / 2 - π / 2 / (tnum / 2 : ℕ) := by
    have h0 : ((tnum / 2 : ℕ) : ℝ) ≠ 0 := by linarith
    field_simp
    linarith
  have e : (2 * r) / 2 = r := by omega
  unfold intoPolar
  dsimp only
  rw [if_neg (by rw [hc']; simp), hT]
  have hsmall : π / 2 / ((tnum / 2 : ℕ) : ℝ) ≤ 1 / (50 * r + 50) := by
    rw [div_div, div_le_div_iff₀ (by positivity) (by positivity)]
    nlinarith
  have hsm2 : 1 / (50 * (r : ℝ) + 50) ≤ 1 / 50 := by
    apply one_div_le_one_div_of_le (by norm_num); linarith
  have hd0 : 0 < π / 2 / ((tnum / 2 : ℕ) : ℝ) := by positivity
  have hpig := Real.pi_gt_d4
  rw [if_neg (by rw [not_lt, abs_of_nonneg (by linarith)]; linarith)]
  unfold interpol
  dsimp only
  rw [e, c1, c2, mul_one, mul_zero, Real.sin_pi_div_two_sub]
  have hcos := Real.one_sub_sq_div_two_le_cos (x := π / 2 / ((tnum / 2 : ℕ) : ℝ))
  have hcos1 : Real.cos (π / 2 / ((tnum / 2 : ℕ) : ℝ)) < 1 := by
    rw [← Real.cos_zero]
    exact Real.cos_lt_cos_of_nonneg_of_le_pi le_rfl (by linarith) hd0
  have hlow : (r : ℝ) - 1 < r * Real.cos (π / 2 / ((tnum / 2 : ℕ) : ℝ)) := by
    have h3 : (r : ℝ) * (1 / (50 * r + 50)) ≤ 1 := by
      rw [mul_one_div, div_le_one (by positivity)]; linarith
    have h4 : (r : ℝ) * (π / 2 / ((tnum / 2 : ℕ) : ℝ)) ≤ 1 := by nlinarith
    have h5 : (r : ℝ) * (π / 2 / ((tnum / 2 : ℕ) : ℝ)) ^ 2 < 1 := by nlinarith
    nlinarith
  have hup : (r : ℝ) * Real.cos (π / 2 / ((tnum / 2 : ℕ) : ℝ)) ≤ r := by nlinarith
  have hceil : ⌈((r : ℤ) : ℝ) * Real.cos (π / 2 / ((tnum / 2 : ℕ) : ℝ))⌉ = r := by
    rw [Int.ceil_eq_iff]
    push_cast
    push_cast at hlow hup
    exact ⟨hlow, hup⟩
  unfold interpolAt
  dsimp only
  rw [e, hceil]
  have hnone : ∀ y, read (2 * r) u ((r : ℤ) + r) y = none := by
    intro y
    unfold read
    rw [if_neg]
    push_cast
    omega
  rw [hnone]
  cases read (2 * r) u (⌊((r : ℤ) : ℝ) * Real.cos (π / 2 / ((tnum / 2 : ℕ) : ℝ))⌋ + r) (⌊(0 : ℝ)⌋ + r) <;> rfl

/-! ### Files -/

theorem mem_order (n : ℕ) (p : ℕ × ℕ) : p ∈ order n ↔ p.1 < n ∧ p.2 < n := by
  obtain ⟨i, j⟩ := p
  simp [order]
  tauto

theorem order_nodup (n : ℕ) : (order n).Nodup := by
  unfold order
  rw [List.nodup_flatMap]
  refine ⟨fun j _ => (List.nodup_range).map fun a b h => (Prod.mk.inj h).1, ?_⟩
  refine (List.nodup_reverse.2 List.nodup_range).imp ?_
  intro a b hab x hx hy
  obtain ⟨i, -, rfl⟩ := List.mem_map.1 hx
  obtain ⟨i', -, h⟩ := List.mem_map.1 hy
  exact hab (Prod.mk.inj h).2.symm

theorem write_length (n : ℕ) (f : ℕ × ℕ → ℝ) : (write n f).length = n * n := by
  simp [write, order]

/-- Assignments of a list of places without repetition. -/
theorem fold_spec (g : ℝ → ℝ → ℝ) (f : ℕ × ℕ → ℝ) (l : List (ℕ × ℕ)) (hl : l.Nodup) (u : ℕ × ℕ → ℝ) (p : ℕ × ℕ) :
    ((l.zip (l.map f)).foldl (fun u a => Function.update u a.1 (g (u a.1) a.2)) u) p
      = if p ∈ l then g (u p) (f p) else u p := by
  induction l generalizing u with
  | nil => simp
  | cons a l ih =>
    rw [List.nodup_cons] at hl
    rw [List.map_cons, List.zip_cons_cons, List.foldl_cons, ih hl.2]
    by_cases hpa : p = a
    · subst hpa
      rw [if_neg hl.1, if_pos (by simp)]
      simp
    · simp only [Function.update_of_ne hpa, List.mem_cons, hpa, false_or]

/-- **Round trip.**  Reading a written file gives every value back at its place, and the file has one number for each place. -/
theorem round_trip (n : ℕ) (f u : ℕ × ℕ → ℝ) (i j : ℕ) (hi : i < n) (hj : j < n) :
    readMap n (write n f) u (i, j) = f (i, j) ∧ (write n f).length = n * n := by
  refine ⟨?_, write_length n f⟩
  unfold readMap write
  rw [fold_spec (fun _ b => b) f _ (order_nodup n), if_pos ((mem_order n _).2 ⟨hi, hj⟩)]

/-- The first line of a file is the last row of the map. -/
theorem first_line (n : ℕ) (f : ℕ × ℕ → ℝ) (i : ℕ) (hi : i < n + 1) : (write (n + 1) f)[i]? = some (f (i, n)) := by
  unfold write order
  rw [List.range_succ, List.reverse_append, List.reverse_singleton, List.singleton_append, List.flatMap_cons,
    List.map_append, List.getElem?_append_left (by simpa using hi), List.map_map, List.getElem?_map,
    List.getElem?_append]
  by_cases h : i < n
  · simp [h]
  · have : i = n := by omega
    subst this
    simp

/-- **The sum.**  The file with the sum has at each place the sum of the maps over the frequencies. -/
theorem sum_spec (n : ℕ) (maps : List (ℕ × ℕ → ℝ)) :
    addFarfield n (maps.map (write n)) = write n fun p => (maps.map fun f => f p).sum := by
  have key : ∀ u p, p ∈ order n → ((maps.map (write n)).foldl (addMap n) u) p = u p + (maps.map fun f => f p).sum := by
    induction maps with
    | nil => intro u p _; simp
    | cons f fs ih =>
      intro u p hp
      rw [List.map_cons, List.foldl_cons, ih _ p hp]
      unfold addMap write
      rw [fold_spec (fun a b => a + b) f _ (order_nodup n), if_pos hp]
      simp only [List.map_cons, List.sum_cons]
      ring
  unfold addFarfield write
  apply List.map_congr_left
  intro p hp
  have := key (fun _ => 0) p hp
  unfold write at this
  rw [this, zero_add]

example : addFarfield 2 [write 2 fun p => p.1, write 2 fun p => 10 * p.2] = [10, 11, 0, 1] := by
  have := sum_spec 2 [fun p => (p.1 : ℝ), fun p => 10 * (p.2 : ℝ)]
  simp only [List.map_cons, List.map_nil] at this
  rw [this]
  norm_num [write, order, List.range_succ]

end OpenMS.PolarMap
