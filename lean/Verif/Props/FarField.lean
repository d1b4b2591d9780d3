import Verif.Model.FarField

/-!
# C161: far field of the Maxwell solver

A plane wave that leaves the surface in the direction of a point of the pattern appears there with the intensity
`4 cos² θ |E|² / η²`, and a wave with the same transverse wave vector that comes in does not appear.  The parts of the
intensity and of the power add up.  The component `Ey` is right, `Ex` only for refractive index one.  The radius of the light
cone is rounded down, so the angles are wrong unless the radius is an integer.
-/

namespace OpenMS.FarField

/-! ### Maps of the fields -/

/-- **C161** (part): when the widths are even and the right layer along `x` has the width of the lower layer along
`y`, the nodes shown in the map are those which are ten cells away from the layers. -/
theorem node_partial (G : Grid) (NROW : ℤ) (h1 : Even (NROW - G.isize)) (h2 : Even (G.pmlil + G.pmlir))
    (h3 : Even (NROW - G.jsize)) (h4 : Even (G.pmljl + G.pmljr)) (h5 : 0 ≤ G.pmlil + G.pmlir)
    (h6 : 0 ≤ G.pmljl + G.pmljr) (h7 : G.isize - 2 ≤ NROW) (h8 : G.jsize - 2 ≤ NROW) (hw : G.pmlir = G.pmljl) (p q : ℤ) :
    (∃ i j, node G NROW i j = some (p, q)) ↔
      (G.pmlil + 10 ≤ p ∧ p < G.isize - 2 - G.pmlir - 10) ∧ (G.pmljl + 10 ≤ q ∧ q < G.jsize - 2 - G.pmljr - 10) := by
  obtain ⟨a, ha⟩ := h1
  obtain ⟨b, hb⟩ := h2
  obtain ⟨c, hc⟩ := h3
  obtain ⟨e, he⟩ := h4
  have d1 : deltac G NROW = a + 1 + (b + 10) := by
    unfold deltac
    rw [Int.tdiv_eq_ediv_of_nonneg (by omega), Int.tdiv_eq_ediv_of_nonneg (by omega)]
    omega
  have d2 : deltar G NROW = c + 1 + (e + 10) := by
    unfold deltar
    rw [Int.tdiv_eq_ediv_of_nonneg (by omega), Int.tdiv_eq_ediv_of_nonneg (by omega)]
    omega
  unfold node
  rw [d1, d2]
  constructor
  · rintro ⟨i, j, h⟩
    split_ifs at h with hh
    rw [Option.some.injEq, Prod.mk.injEq] at h
    omega
  · intro h
    refine ⟨p - (G.pmlil + 10) + (a + 1 + (b + 10)), q - (G.pmlir + 10) + (c + 1 + (e + 10)), ?_⟩
    rw [if_pos (by omega)]
    congr 2 <;> omega

/-- **C161** (refuted): whenever these two layers have different widths and some nodes are away from the layers,
a node away from the layers is missing in the maps. -/
theorem node_fails (G : Grid) (NROW : ℤ) (h3 : Even (NROW - G.jsize)) (h4 : Even (G.pmljl + G.pmljr))
    (h6 : 0 ≤ G.pmljl + G.pmljr) (h8 : G.jsize - 2 ≤ NROW) (hw : G.pmlir ≠ G.pmljl)
    (hy : G.pmljl + 10 < G.jsize - 2 - G.pmljr - 10) :
    ∃ q, (G.pmljl + 10 ≤ q ∧ q < G.jsize - 2 - G.pmljr - 10) ∧ ∀ i j p, node G NROW i j ≠ some (p, q) := by
  obtain ⟨c, hc⟩ := h3
  obtain ⟨e, he⟩ := h4
  have d2 : deltar G NROW = c + 1 + (e + 10) := by
    unfold deltar
    rw [Int.tdiv_eq_ediv_of_nonneg (by omega), Int.tdiv_eq_ediv_of_nonneg (by omega)]
    omega
  rcases lt_or_gt_of_ne hw with h | h
  · refine ⟨G.jsize - 2 - G.pmljr - 10 - 1, by omega, fun i j p hn => ?_⟩
    unfold node at hn
    rw [d2] at hn
    split_ifs at hn with hh
    rw [Option.some.injEq, Prod.mk.injEq] at hn
    omega
  · refine ⟨G.pmljl + 10, by omega, fun i j p hn => ?_⟩
    unfold node at hn
    rw [d2] at hn
    split_ifs at hn with hh
    rw [Option.some.injEq, Prod.mk.injEq] at hn
    omega

/-- **C161** (refuted): in every grid whose maps show a node, the map of the imaginary part of `Hy` has zeros where the
other maps show the first column. -/
theorem hy_fails (G : Grid) (NROW i j : ℤ) (x : ℤ × ℤ) (h : node G NROW i j = some x) :
    ∃ y, node G NROW (deltac G NROW) j = some y ∧ nodeHy G NROW (deltac G NROW) j = none := by
  unfold node at h
  split_ifs at h with hh
  unfold node nodeHy
  rw [if_pos (by omega), if_neg (by omega)]
  exact ⟨_, rfl, rfl⟩

/-- An example of the assumptions of `node_partial` and `node_fails`. -/
example : node ⟨102, 102, 10, 10, 10, 10⟩ 128 34 34 = some (20, 20) ∧ node ⟨102, 102, 10, 10, 20, 10⟩ 128 39 39 = some (25, 20) := by
  constructor <;> decide

/-! ### The window around the middle -/

/-- **C161** (part): if the window is not larger than the matrix, the entry `(a, b)` of the window is the entry with the
same distance from the middle. -/
theorem shrink_partial {α : Type*} (NROW row_s : ℤ) (v : ℤ → ℤ → α) (h : row_s / 2 ≤ NROW / 2) (a b : ℤ)
    (ha : 0 ≤ a ∧ a ≤ 2 * (row_s / 2)) (hb : 0 ≤ b ∧ b ≤ 2 * (row_s / 2)) :
    shrink NROW row_s v a b = some (v (NROW / 2 + (a - row_s / 2)) (NROW / 2 + (b - row_s / 2))) := by
  unfold shrink
  dsimp only
  rw [if_pos (by omega), if_pos (by omega)]
  congr 2 <;> ring

/-- **C161**: the window fits when the resolution is at least `10 Nfree OMEGA`. -/
theorem window_fits (NROW lattice_x : ℤ) (nfree omega : ℝ) (hN : 0 ≤ NROW) (hl : 0 < lattice_x) (hn : 0 ≤ nfree)
    (h : 10 * nfree * omega ≤ lattice_x) : rowS nfree (radius NROW lattice_x omega) / 2 ≤ NROW / 2 := by
  have hl' : (0 : ℝ) < lattice_x := by exact_mod_cast hl
  have hN' : (0 : ℝ) ≤ NROW := by exact_mod_cast hN
  have h1 : ((radius NROW lattice_x omega : ℤ) : ℝ) ≤ NROW * omega / lattice_x := Int.floor_le _
  have h2 : 10 * nfree * ((radius NROW lattice_x omega : ℤ) : ℝ) ≤ NROW := by
    calc 10 * nfree * ((radius NROW lattice_x omega : ℤ) : ℝ) ≤ 10 * nfree * (NROW * omega / lattice_x) :=
          mul_le_mul_of_nonneg_left h1 (by positivity)
      _ = NROW * (10 * nfree * omega / lattice_x) := by ring
      _ ≤ NROW * 1 := mul_le_mul_of_nonneg_left ((div_le_one hl').2 h) hN'
      _ = NROW := mul_one _
  have h3 : rowS nfree (radius NROW lattice_x omega) ≤ NROW := by
    unfold rowS
    exact_mod_cast (Int.floor_le _).trans h2
  omega

/-- **C161** (refuted): a window larger than the matrix reads outside of the matrix, for every matrix. -/
theorem shrink_fails {α : Type*} (NROW row_s : ℤ) (v : ℤ → ℤ → α) (h : NROW / 2 < row_s / 2) : shrink NROW row_s v 0 0 = none := by
  unfold shrink
  dsimp only
  by_cases hh : (NROW / 2 - row_s / 2 ≤ 0 + NROW / 2 - row_s / 2 ∧ 0 + NROW / 2 - row_s / 2 ≤ NROW / 2 + row_s / 2) ∧
      (NROW / 2 - row_s / 2 ≤ 0 + NROW / 2 - row_s / 2 ∧ 0 + NROW / 2 - row_s / 2 ≤ NROW / 2 + row_s / 2)
  · rw [if_pos hh, if_neg (by omega)]
  · rw [if_neg hh]

/-- **C161** (refuted): when `row_s` is odd its last column is never written, although the normalization of
`FT_data_writing` reads the columns up to `row_s`. -/
theorem last_column_fails {α : Type*} (NROW row_s : ℤ) (v : ℤ → ℤ → α) (h : Odd row_s) (b : ℤ) : shrink NROW row_s v row_s b = none := by
  obtain ⟨m, hm⟩ := h
  unfold shrink
  dsimp only
  rw [if_neg (by omega)]

/-! ### Directions -/

section

variable (nfree k : ℝ) (h i j : ℤ)

/-- The sine of the angle from the axis. -/
noncomputable def Direction.sint (d : Direction) : ℝ := Real.sqrt (1 - d.cost ^ 2)

/-- **C161**: every point inside the light cone has a direction of the upper half space, and its transverse wave vector
is the distance of the point from the middle. -/
theorem direction_spec (hn : 0 < nfree) (hk : 0 < k) (hin : Inside nfree k h i j) :
    let d := direction nfree k h i j
    d.cosp ^ 2 + d.sinp ^ 2 = 1 ∧ 0 < d.cost ∧ d.cost ≤ 1 ∧
      nfree * k * (d.sint * d.cosp) = i - h ∧ nfree * k * (d.sint * d.sinp) = j - h := by
  unfold direction Direction.sint
  by_cases h0 : i = h ∧ j = h
  · rw [if_pos h0]
    obtain ⟨rfl, rfl⟩ := h0
    have h2 : Real.sqrt 2 ^ 2 = 2 := Real.sq_sqrt (by norm_num)
    refine ⟨?_, one_pos, le_rfl, ?_, ?_⟩
    · rw [div_pow, h2]
      norm_num
    · norm_num
    · norm_num
  · rw [if_neg h0, if_pos hin]
    obtain ⟨x, hx⟩ : ∃ x : ℝ, x = i - h := ⟨_, rfl⟩
    obtain ⟨y, hy⟩ : ∃ y : ℝ, y = j - h := ⟨_, rfl⟩
    unfold Inside at hin
    rw [← hx, ← hy] at hin ⊢
    dsimp only
    have hpos : 0 < x * x + y * y := by
      rcases not_and_or.1 h0 with h1 | h1
      · have : x ≠ 0 := by
          rw [hx, sub_ne_zero]
          exact_mod_cast h1
        have := mul_self_pos.2 this
        nlinarith [mul_self_nonneg y]
      · have : y ≠ 0 := by
          rw [hy, sub_ne_zero]
          exact_mod_cast h1
        have := mul_self_pos.2 this
        nlinarith [mul_self_nonneg x]
    obtain ⟨r, hr⟩ : ∃ r, r = Real.sqrt (x * x + y * y) := ⟨_, rfl⟩
    have hrp : 0 < r := by rw [hr]; exact Real.sqrt_pos.2 hpos
    have hr2 : r ^ 2 = x * x + y * y := by rw [hr]; exact Real.sq_sqrt hpos.le
    rw [← hr, ← hr2]
    rw [← hr2] at hin
    have hnk : 0 < nfree * k := mul_pos hn hk
    have hlt : r ^ 2 / (nfree * nfree * k * k) < 1 := by
      rw [div_lt_one (by positivity)]
      exact hin
    have hs : Real.sqrt (1 - Real.sqrt (1 - r ^ 2 / (nfree * nfree * k * k)) ^ 2) = r / (nfree * k) := by
      rw [Real.sq_sqrt (by linarith), sub_sub_cancel,
        show r ^ 2 / (nfree * nfree * k * k) = (r / (nfree * k)) ^ 2 by field_simp, Real.sqrt_sq (by positivity)]
    refine ⟨?_, Real.sqrt_pos.2 (by linarith), ?_, ?_, ?_⟩
    · rw [div_pow, div_pow, ← add_div, div_eq_one_iff_eq (by positivity), hr2]
      ring
    · have : 0 ≤ r ^ 2 / (nfree * nfree * k * k) := by positivity
      exact Real.sqrt_le_one.2 (by linarith)
    · rw [hs]
      field_simp
    · rw [hs]
      field_simp

/-- **C161** (refuted): for every resolution for which the radius of the light cone is not an integer, the point next to
the middle gets the wrong angle: with `K = NROW * OMEGA / lattice_x` the cosine is not the root of
`1 - 1 / (Nfree * K)²`. -/
theorem angle_fails (NROW lattice_x : ℤ) (omega : ℝ) (hn : 0 < nfree)
    (hf : ∀ z : ℤ, (z : ℝ) ≠ NROW * omega / lattice_x) (h1 : 1 < nfree * radius NROW lattice_x omega) :
    (direction nfree (radius NROW lattice_x omega) h (h + 1) h).cost ≠
      Real.sqrt (1 - 1 / (nfree * (NROW * omega / lattice_x)) ^ 2) := by
  obtain ⟨K, hK⟩ : ∃ K : ℝ, K = NROW * omega / lattice_x := ⟨_, rfl⟩
  obtain ⟨c, hc⟩ : ∃ c : ℝ, c = (radius NROW lattice_x omega : ℤ) := ⟨_, rfl⟩
  have hle : c ≤ K := by
    rw [hc, hK]
    exact Int.floor_le _
  have hne : c ≠ K := by
    rw [hc, hK]
    exact hf _
  have hlt : c < K := lt_of_le_of_ne hle hne
  rw [← hK]
  rw [← hc] at h1 ⊢
  have hcp : 0 < c := by
    by_contra hcc
    nlinarith
  have hin : Inside nfree c h (h + 1) h := by
    unfold Inside
    push_cast
    nlinarith
  unfold direction
  rw [if_neg (by omega), if_pos hin]
  dsimp only
  push_cast
  rw [show ((h : ℝ) + 1 - h) * (h + 1 - h) + (h - h) * (h - h) = 1 by ring, show nfree * nfree * c * c = (nfree * c) ^ 2 by ring]
  have hlt2 : 1 / (nfree * K) ^ 2 < 1 / (nfree * c) ^ 2 := by
    apply one_div_lt_one_div_of_lt (by positivity)
    have : nfree * c < nfree * K := mul_lt_mul_of_pos_left hlt hn
    have h0 : 0 < nfree * c := by positivity
    nlinarith
  have hc1 : 1 / (nfree * c) ^ 2 < 1 := by
    rw [div_lt_one (by positivity)]
    nlinarith
  intro he
  rw [Real.sqrt_inj (by linarith) (by linarith)] at he
  linarith

end

/-! ### Plane waves -/

/-- The vector product. -/
def cross (a b : ℝ × ℝ × ℝ) : ℝ × ℝ × ℝ :=
  (a.2.1 * b.2.2 - a.2.2 * b.2.1, a.2.2 * b.1 - a.1 * b.2.2, a.1 * b.2.1 - a.2.1 * b.1)

/-- The scalar product. -/
def dot (a b : ℝ × ℝ × ℝ) : ℝ := a.1 * b.1 + a.2.1 * b.2.1 + a.2.2 * b.2.2

/-- The unit vector with the transverse part of the direction and the given component along the axis. -/
noncomputable def ray (d : Direction) (z : ℝ) : ℝ × ℝ × ℝ := (d.sint * d.cosp, d.sint * d.sinp, z)

/-- The currents of a plane wave with the electric field `E` and the direction `r`. -/
noncomputable def wave (eta : ℝ) (r E : ℝ × ℝ × ℝ) : Currents :=
  currents E.1 E.2.1 ((cross r E).1 / eta) ((cross r E).2.1 / eta)

section

variable {d : Direction} {eta : ℝ} {E : ℝ × ℝ × ℝ}

theorem sint_sq (h0 : 0 < d.cost) (h1 : d.cost ≤ 1) : d.sint ^ 2 = 1 - d.cost ^ 2 := by
  unfold Direction.sint
  exact Real.sq_sqrt (by nlinarith)

/-- For a transverse field the component along the axis is given by the others. -/
theorem outgoing_parts (hp : d.cosp ^ 2 + d.sinp ^ 2 = 1) (h0 : 0 < d.cost) (h1 : d.cost ≤ 1)
    (hE : dot (ray d d.cost) E = 0) :
    let v := wave eta (ray d d.cost) E
    (nt d v + lp d v / eta = -2 / eta * (E.1 * d.cosp + E.2.1 * d.sinp)) ∧
      (np d v - lt d v / eta = -2 * d.cost / eta * (E.2.1 * d.cosp - E.1 * d.sinp)) := by
  have hs := sint_sq h0 h1
  simp only [dot, ray] at hE
  simp only [nt, lp, np, lt, wave, currents, cross, ray]
  generalize d.cosp = c at *
  generalize d.sinp = s at *
  generalize d.cost = t at *
  generalize d.sint = w at *
  constructor
  · linear_combination (w / eta * (c ^ 2 + s ^ 2)) * hE - (1 / eta) * (E.1 * c + E.2.1 * s) * (c ^ 2 + s ^ 2) * hs
      - (1 - t ^ 2) * (1 / eta) * (E.1 * c + E.2.1 * s) * hp
  · linear_combination (0 : ℝ) * hE

/-- The same transverse wave vector and the opposite component along the axis. -/
theorem incoming_parts (hp : d.cosp ^ 2 + d.sinp ^ 2 = 1) (h0 : 0 < d.cost) (h1 : d.cost ≤ 1)
    (hE : dot (ray d (-d.cost)) E = 0) :
    let v := wave eta (ray d (-d.cost)) E
    nt d v + lp d v / eta = 0 ∧ np d v - lt d v / eta = 0 := by
  have hs := sint_sq h0 h1
  simp only [dot, ray] at hE
  simp only [nt, lp, np, lt, wave, currents, cross, ray]
  generalize d.cosp = c at *
  generalize d.sinp = s at *
  generalize d.cost = t at *
  generalize d.sint = w at *
  constructor
  · linear_combination -(w / eta * (c ^ 2 + s ^ 2)) * hE + w ^ 2 * (1 / eta) * (E.1 * c + E.2.1 * s) * hp
      + (1 / eta) * (E.1 * c + E.2.1 * s) * hs
  · linear_combination (0 : ℝ) * hE

theorem outgoing_square (hp : d.cosp ^ 2 + d.sinp ^ 2 = 1) (h0 : 0 < d.cost) (h1 : d.cost ≤ 1)
    (hE : dot (ray d d.cost) E = 0) :
    let v := wave eta (ray d d.cost) E
    (nt d v + lp d v / eta) * (nt d v + lp d v / eta) + (np d v - lt d v / eta) * (np d v - lt d v / eta) =
      4 * d.cost ^ 2 / eta ^ 2 * dot E E := by
  intro v
  obtain ⟨e1, e2⟩ := outgoing_parts (eta := eta) hp h0 h1 hE
  rw [e1, e2]
  have hs := sint_sq h0 h1
  simp only [dot, ray] at hE ⊢
  generalize d.cosp = c at *
  generalize d.sinp = s at *
  generalize d.cost = t at *
  generalize d.sint = w at *
  by_cases h : eta = 0
  · subst h
    norm_num
  · field_simp
    linear_combination 4 * (w * c * E.1 + w * s * E.2.1 - t * E.2.2) * hE - 4 * (E.1 * c + E.2.1 * s) ^ 2 * hs +
      4 * t ^ 2 * (E.1 ^ 2 + E.2.1 ^ 2) * hp

end

section

variable (nfree k : ℝ) (h i j : ℤ) (D : Data)

/-- **C161**: a plane wave leaving the surface in the direction of a point inside the light cone gives there the
intensity `4 cos² θ |E|² / η²`. -/
theorem outgoing (hn : 0 < nfree) (hk : 0 < k) (hin : Inside nfree k h i j) (A B : ℝ × ℝ × ℝ) (eta : ℝ)
    (hA : dot (ray (direction nfree k h i j) (direction nfree k h i j).cost) A = 0)
    (hB : dot (ray (direction nfree k h i j) (direction nfree k h i j).cost) B = 0)
    (hre : D.re i j = wave eta (ray (direction nfree k h i j) (direction nfree k h i j).cost) A)
    (him : D.im i j = wave eta (ray (direction nfree k h i j) (direction nfree k h i j).cost) B) :
    radint nfree k eta h D i j = 4 * (direction nfree k h i j).cost ^ 2 / eta ^ 2 * (dot A A + dot B B) := by
  obtain ⟨hp, h0, h1, -, -⟩ := direction_spec nfree k h i j hn hk hin
  have eA := outgoing_square (eta := eta) hp h0 h1 hA
  have eB := outgoing_square (eta := eta) hp h0 h1 hB
  unfold radint
  dsimp only
  rw [if_pos hin, hre, him]
  linear_combination eA + eB

/-- **C161**: a plane wave that comes in with the same transverse wave vector gives no intensity. -/
theorem incoming (hn : 0 < nfree) (hk : 0 < k) (hin : Inside nfree k h i j) (A B : ℝ × ℝ × ℝ) (eta : ℝ)
    (hA : dot (ray (direction nfree k h i j) (-(direction nfree k h i j).cost)) A = 0)
    (hB : dot (ray (direction nfree k h i j) (-(direction nfree k h i j).cost)) B = 0)
    (hre : D.re i j = wave eta (ray (direction nfree k h i j) (-(direction nfree k h i j).cost)) A)
    (him : D.im i j = wave eta (ray (direction nfree k h i j) (-(direction nfree k h i j).cost)) B) :
    radint nfree k eta h D i j = 0 := by
  obtain ⟨hp, h0, h1, -, -⟩ := direction_spec nfree k h i j hn hk hin
  obtain ⟨eA, eA'⟩ := incoming_parts (eta := eta) hp h0 h1 hA
  obtain ⟨eB, eB'⟩ := incoming_parts (eta := eta) hp h0 h1 hB
  unfold radint
  dsimp only
  rw [if_pos hin, hre, him, eA, eA', eB, eB']
  norm_num

/-- **C161**: the component `ey` of a plane wave that leaves is its field `Ey` times `-2 cos θ / η`. -/
theorem ey_outgoing (hn : 0 < nfree) (hk : 0 < k) (hin : Inside nfree k h i j) (E : ℝ × ℝ × ℝ) (eta : ℝ)
    (hE : dot (ray (direction nfree k h i j) (direction nfree k h i j).cost) E = 0) :
    ey eta (direction nfree k h i j) (wave eta (ray (direction nfree k h i j) (direction nfree k h i j).cost) E) =
      -2 * (direction nfree k h i j).cost / eta * E.2.1 := by
  obtain ⟨hp, h0, h1, -, -⟩ := direction_spec nfree k h i j hn hk hin
  obtain ⟨e1, e2⟩ := outgoing_parts (eta := eta) hp h0 h1 hE
  unfold ey
  rw [e1, e2]
  linear_combination -2 * (direction nfree k h i j).cost / eta * E.2.1 * hp

/-- **C161**: what `ex` is for a plane wave that leaves. -/
theorem ex_excess (hn : 0 < nfree) (hk : 0 < k) (hin : Inside nfree k h i j) (E : ℝ × ℝ × ℝ) (eta : ℝ)
    (hE : dot (ray (direction nfree k h i j) (direction nfree k h i j).cost) E = 0) :
    ex eta (direction nfree k h i j) (wave eta (ray (direction nfree k h i j) (direction nfree k h i j).cost) E) =
      -2 * (direction nfree k h i j).cost / eta * E.1 + (1 / eta - 1 / 377) * (direction nfree k h i j).cost *
        (direction nfree k h i j).cosp * (E.1 * (direction nfree k h i j).cosp + E.2.1 * (direction nfree k h i j).sinp) := by
  obtain ⟨hp, h0, h1, -, -⟩ := direction_spec nfree k h i j hn hk hin
  obtain ⟨e1, e2⟩ := outgoing_parts (eta := eta) hp h0 h1 hE
  unfold ex
  have e3 : nt (direction nfree k h i j) (wave eta (ray (direction nfree k h i j) (direction nfree k h i j).cost) E) +
      lp (direction nfree k h i j) (wave eta (ray (direction nfree k h i j) (direction nfree k h i j).cost) E) / 377 =
      -2 / eta * (E.1 * (direction nfree k h i j).cosp + E.2.1 * (direction nfree k h i j).sinp) +
        (1 / eta - 1 / 377) * (E.1 * (direction nfree k h i j).cosp + E.2.1 * (direction nfree k h i j).sinp) := by
    have e4 : lp (direction nfree k h i j) (wave eta (ray (direction nfree k h i j) (direction nfree k h i j).cost) E) =
        -(E.1 * (direction nfree k h i j).cosp + E.2.1 * (direction nfree k h i j).sinp) := by
      simp only [lp, wave, currents]
      ring
    rw [← e1, e4]
    ring
  rw [e3, e2]
  linear_combination -2 * (direction nfree k h i j).cost / eta * E.1 * hp

/-- **C161** (part): in vacuum `ex` is right. -/
theorem ex_partial (hk : 0 < k) (hin : Inside 1 k h i j) (E : ℝ × ℝ × ℝ)
    (hE : dot (ray (direction 1 k h i j) (direction 1 k h i j).cost) E = 0) :
    ex (etaOf 1) (direction 1 k h i j) (wave (etaOf 1) (ray (direction 1 k h i j) (direction 1 k h i j).cost) E) =
      -2 * (direction 1 k h i j).cost / etaOf 1 * E.1 := by
  rw [ex_excess 1 k h i j one_pos hk hin E (etaOf 1) hE, etaOf, div_one]
  ring

/-- **C161** (refuted): in every other medium, for every point inside the light cone that is not on the axis `i = h`, and
also in the middle, a plane wave that leaves gets the wrong `ex`. -/
theorem ex_fails (hn : 0 < nfree) (hn1 : nfree ≠ 1) (hk : 0 < k) (hin : Inside nfree k h i j) (hi : i ≠ h ∨ j = h) :
    ∃ E : ℝ × ℝ × ℝ, dot (ray (direction nfree k h i j) (direction nfree k h i j).cost) E = 0 ∧
      ex (etaOf nfree) (direction nfree k h i j)
          (wave (etaOf nfree) (ray (direction nfree k h i j) (direction nfree k h i j).cost) E) ≠
        -2 * (direction nfree k h i j).cost / etaOf nfree * E.1 := by
  obtain ⟨hp, h0, h1, h2, -⟩ := direction_spec nfree k h i j hn hk hin
  have hc : (direction nfree k h i j).cosp ≠ 0 := by
    by_cases hm : i = h
    · have hj : j = h := hi.resolve_left (by simpa using hm)
      unfold direction
      rw [if_pos ⟨hm, hj⟩]
      positivity
    · intro hc
      rw [hc, mul_zero, mul_zero] at h2
      apply hm
      have : (i : ℝ) = h := by linarith
      exact_mod_cast this
  have hsq := sint_sq h0 h1
  refine ⟨((direction nfree k h i j).cost * (direction nfree k h i j).cosp,
    (direction nfree k h i j).cost * (direction nfree k h i j).sinp, -(direction nfree k h i j).sint), ?_, ?_⟩
  · simp only [dot, ray]
    linear_combination (direction nfree k h i j).cost * (direction nfree k h i j).sint * hp
  · rw [ex_excess nfree k h i j hn hk hin _ (etaOf nfree) (by
      simp only [dot, ray]
      linear_combination (direction nfree k h i j).cost * (direction nfree k h i j).sint * hp)]
    dsimp only
    generalize (direction nfree k h i j).cosp = c at *
    generalize (direction nfree k h i j).sinp = s at *
    generalize (direction nfree k h i j).cost = t at *
    intro he
    have h3 : (1 / etaOf nfree - 1 / 377) * t * c * t = 0 := by
      linear_combination he - (1 / etaOf nfree - 1 / 377) * t * c * t * hp
    have h4 : 1 / etaOf nfree - 1 / 377 ≠ 0 := by
      unfold etaOf
      intro h5
      apply hn1
      field_simp at h5
      linarith
    exact (mul_ne_zero (mul_ne_zero (mul_ne_zero h4 h0.ne') hc) h0.ne') h3

/-! ### Powers -/

/-- **C161**: the two polarizations add up to the intensity. -/
theorem intensity_sum (eta : ℝ) : radint nfree k eta h D i j = etheta nfree k eta h D i j + ephi nfree k eta h D i j := by
  unfold radint etheta ephi
  dsimp only
  split_ifs
  · ring
  · ring

/-- **C161**: the power is the sum of the powers of the two polarizations and none of them is negative. -/
theorem power_sum (eta : ℝ) (row_s : ℕ) (hn : 0 < nfree) (hk : 0 < k) :
    power nfree k row_s h (radint nfree k eta h D) =
        power nfree k row_s h (etheta nfree k eta h D) + power nfree k row_s h (ephi nfree k eta h D) ∧
      0 ≤ power nfree k row_s h (etheta nfree k eta h D) ∧ 0 ≤ power nfree k row_s h (ephi nfree k eta h D) := by
  refine ⟨?_, ?_, ?_⟩
  · unfold power
    rw [← List.sum_map_add]
    congr 1
    refine List.map_congr_left fun j _ => ?_
    rw [← List.sum_map_add]
    congr 1
    refine List.map_congr_left fun i _ => ?_
    split_ifs
    · rw [intensity_sum, add_div]
    · rw [add_zero]
  all_goals
    unfold power
    refine List.sum_nonneg fun x hx => ?_
    obtain ⟨j, -, rfl⟩ := List.mem_map.1 hx
    refine List.sum_nonneg fun y hy => ?_
    obtain ⟨i, -, rfl⟩ := List.mem_map.1 hy
    split_ifs with hin
    · obtain ⟨-, h0, -⟩ := direction_spec nfree k h i j hn hk hin
      refine div_nonneg ?_ h0.le
      first
        | unfold etheta
        | unfold ephi
      dsimp only
      rw [if_pos hin]
      exact add_nonneg (mul_self_nonneg _) (mul_self_nonneg _)
    · exact le_rfl

/-- **C161**: the power is the sum over all points of the disc of the intensity divided by the cosine of the angle, if the disc lies
in the map. -/
theorem power_spec (u : ℤ → ℤ → ℝ) (row_s : ℕ) (hn : 0 < nfree) (hk : 0 < k) (h1 : nfree * k ≤ h) (h2 : 2 * h ≤ row_s)
    (A : Finset (ℤ × ℤ)) (hA : ∀ p, p ∈ A ↔ ((p.1 - h : ℤ) : ℝ) ^ 2 + ((p.2 - h : ℤ) : ℝ) ^ 2 < (nfree * k) ^ 2) :
    power nfree k row_s h u =
      ∑ p ∈ A, u p.1 p.2 / Real.sqrt (1 - (((p.1 - h : ℤ) : ℝ) ^ 2 + ((p.2 - h : ℤ) : ℝ) ^ 2) / (nfree * k) ^ 2) := by
  classical
  have hnk : 0 < nfree * k := mul_pos hn hk
  have e : ∀ (n : ℕ) (g : ℕ → ℝ), ((List.range n).map g).sum = ∑ i ∈ Finset.range n, g i := by
    intro n g
    induction n with
    | zero => simp
    | succ n ih => rw [List.range_succ, List.map_append, List.sum_append, ih, Finset.sum_range_succ]; simp
  have hb : ∀ p ∈ A, (0 ≤ p.1 ∧ p.1 < row_s + 1) ∧ 0 ≤ p.2 ∧ p.2 < row_s + 1 := by
    intro p hp
    have h3 := (hA p).1 hp
    have a1 : |((p.1 - h : ℤ) : ℝ)| < nfree * k := abs_lt_of_sq_lt_sq (by nlinarith [sq_nonneg ((p.2 - h : ℤ) : ℝ)]) hnk.le
    have a2 : |((p.2 - h : ℤ) : ℝ)| < nfree * k := abs_lt_of_sq_lt_sq (by nlinarith [sq_nonneg ((p.1 - h : ℤ) : ℝ)]) hnk.le
    have b1 : |p.1 - h| < h := by exact_mod_cast lt_of_lt_of_le a1 h1
    have b2 : |p.2 - h| < h := by exact_mod_cast lt_of_lt_of_le a2 h1
    rw [abs_lt] at b1 b2
    omega
  unfold power
  rw [List.map_reverse, List.sum_reverse, e]
  simp only [e]
  rw [← Finset.sum_product' (f := fun (j i : ℕ) => if Inside nfree k h i j then u i j / (direction nfree k h i j).cost else 0),
    ← Finset.sum_filter]
  refine Finset.sum_nbij' (fun q => ((q.2 : ℤ), (q.1 : ℤ))) (fun p => (p.2.toNat, p.1.toNat)) ?_ ?_ ?_ ?_ ?_
  · intro q hq
    obtain ⟨-, hq⟩ := Finset.mem_filter.1 hq
    unfold Inside at hq
    rw [hA]
    push_cast at hq ⊢
    linarith
  · intro p hp
    have hp' := hb p hp
    have h3 := (hA p).1 hp
    rw [Finset.mem_filter, Finset.mem_product, Finset.mem_range, Finset.mem_range]
    dsimp only
    rw [Int.toNat_of_nonneg hp'.1.1, Int.toNat_of_nonneg hp'.2.1]
    refine ⟨⟨by omega, by omega⟩, ?_⟩
    unfold Inside
    push_cast at h3
    linarith
  · intro q _
    simp
  · intro p hp
    have hp' := hb p hp
    dsimp only
    rw [Int.toNat_of_nonneg hp'.1.1, Int.toNat_of_nonneg hp'.2.1]
  · intro q hq
    obtain ⟨-, hq⟩ := Finset.mem_filter.1 hq
    dsimp only
    congr 1
    unfold direction
    by_cases h0 : (q.2 : ℤ) = h ∧ (q.1 : ℤ) = h
    · rw [if_pos h0, h0.1, h0.2]
      simp
    · rw [if_neg h0, if_pos hq]
      dsimp only
      push_cast
      congr 2
      ring

/-- **C161** (part): in vacuum the intensities of the horizontal components are those of the polarizations, the first times
the square of the cosine. -/
theorem horizontal_partial (hk : 0 < k) :
    eintx 1 k (etaOf 1) h D i j + einty 1 k (etaOf 1) h D i j =
      etheta 1 k (etaOf 1) h D i j * (direction 1 k h i j).cost ^ 2 + ephi 1 k (etaOf 1) h D i j := by
  unfold eintx einty etheta ephi
  dsimp only
  by_cases hin : Inside 1 k h i j
  · rw [if_pos hin, if_pos hin, if_pos hin, if_pos hin]
    obtain ⟨hp, -⟩ := direction_spec 1 k h i j one_pos hk hin
    unfold ex ey
    rw [show etaOf 1 = 377 by norm_num [etaOf]]
    have key : ∀ a b c s t : ℝ, c ^ 2 + s ^ 2 = 1 →
        (-b * s + a * t * c) * (-b * s + a * t * c) + (b * c + a * t * s) * (b * c + a * t * s) = a * a * t ^ 2 + b * b :=
      fun a b c s t hcs => by linear_combination (b ^ 2 + a ^ 2 * t ^ 2) * hcs
    have k1 := key (nt (direction 1 k h i j) (D.re i j) + lp (direction 1 k h i j) (D.re i j) / 377)
      (np (direction 1 k h i j) (D.re i j) - lt (direction 1 k h i j) (D.re i j) / 377) _ _ (direction 1 k h i j).cost hp
    have k2 := key (nt (direction 1 k h i j) (D.im i j) + lp (direction 1 k h i j) (D.im i j) / 377)
      (np (direction 1 k h i j) (D.im i j) - lt (direction 1 k h i j) (D.im i j) / 377) _ _ (direction 1 k h i j).cost hp
    linear_combination k1 + k2
  · rw [if_neg hin, if_neg hin, if_neg hin, if_neg hin]
    ring

end

/-- A point inside the light cone of radius five. -/
example : Inside 1 5 10 13 10 ∧ ¬Inside 1 5 10 15 10 := by
  unfold Inside
  norm_num

/-- A wave that leaves along the axis satisfies the assumptions of `outgoing`. -/
example : dot (ray (direction 1 5 10 10 10) (direction 1 5 10 10 10).cost) (1, 0, 0) = 0 ∧
    wave 377 (ray (direction 1 5 10 10 10) (direction 1 5 10 10 10).cost) (1, 0, 0) = ⟨-1 / 377, 0, 0, -1⟩ := by
  constructor
  · norm_num [direction, ray, dot, Direction.sint]
  · norm_num [direction, ray, wave, currents, cross, Direction.sint]

end OpenMS.FarField
