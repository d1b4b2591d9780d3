import Verif.Model.Aggregates
import Mathlib.Tactic

/-!
# C148: selected states and spectra of an aggregate
-/

namespace OpenMS.Aggregates

open OpenMS.Lattice

section
variable {N : ℕ}

/-- C148: the number that decides about a ground state is at most one for a normalised state, and one exactly for a
state without a change of sign. -/
theorem node_test (phi : Fin N → Fin N → ℝ) (u : Fin N) (hn : ∑ j, phi j u ^ 2 = 1) :
    |signOverlap phi u u| ≤ 1 ∧ (|signOverlap phi u u| = 1 ↔ ∀ i j, 0 ≤ phi i u * phi j u) := by
  have hle : ∀ j, abs (phi j u * abs (phi j u)) = phi j u ^ 2 := fun j => by rw [abs_mul, abs_abs, ← pow_two, sq_abs]
  have h1 : signOverlap phi u u ≤ 1 := by
    rw [← hn]
    exact Finset.sum_le_sum fun j _ => (hle j) ▸ le_abs_self _
  have h2 : -1 ≤ signOverlap phi u u := by
    rw [← hn, ← Finset.sum_neg_distrib]
    exact Finset.sum_le_sum fun j _ => (hle j) ▸ neg_abs_le _
  refine ⟨abs_le.2 ⟨h2, h1⟩, ?_, ?_⟩
  · intro h
    rcases (abs_eq (by norm_num : (0 : ℝ) ≤ 1)).1 h with h | h
    · have hz : ∑ j, (phi j u ^ 2 - phi j u * |phi j u|) = 0 := by
        rw [Finset.sum_sub_distrib, hn]; unfold signOverlap at h; rw [h]; ring
      have hall := (Finset.sum_eq_zero_iff_of_nonneg fun j _ => by
        have := (hle j) ▸ le_abs_self (phi j u * |phi j u|); linarith).1 hz
      have hp : ∀ j, 0 ≤ phi j u := by
        intro j
        have h3 := hall j (Finset.mem_univ j)
        by_contra hc
        push Not at hc
        rw [abs_of_neg hc] at h3
        nlinarith
      exact fun i j => mul_nonneg (hp i) (hp j)
    · have hz : ∑ j, (phi j u ^ 2 + phi j u * |phi j u|) = 0 := by
        rw [Finset.sum_add_distrib, hn]; unfold signOverlap at h; rw [h]; ring
      have hall := (Finset.sum_eq_zero_iff_of_nonneg fun j _ => by
        have := (hle j) ▸ neg_abs_le (phi j u * |phi j u|); linarith).1 hz
      have hp : ∀ j, phi j u ≤ 0 := by
        intro j
        have h3 := hall j (Finset.mem_univ j)
        by_contra hc
        push Not at hc
        rw [abs_of_pos hc] at h3
        nlinarith
      exact fun i j => mul_nonneg_of_nonpos_of_nonpos (hp i) (hp j)
  · intro h
    have hs : (∀ j, 0 ≤ phi j u) ∨ ∀ j, phi j u ≤ 0 := by
      by_contra hc
      push Not at hc
      obtain ⟨⟨i, hi⟩, j, hj⟩ := hc
      have := h i j
      nlinarith
    rcases hs with hs | hs
    · have : signOverlap phi u u = 1 := by
        rw [← hn]
        exact Finset.sum_congr rfl fun j _ => by rw [abs_of_nonneg (hs j)]; ring
      rw [this, abs_one]
    · have : signOverlap phi u u = -1 := by
        rw [← hn, ← Finset.sum_neg_distrib]
        exact Finset.sum_congr rfl fun j _ => by rw [abs_of_nonpos (hs j)]; ring
      rw [this, abs_neg, abs_one]

/-- The ground states are the sorted states that pass the test. -/
theorem localGs_eq (phi : Fin N → Fin N → ℝ) (dip : Fin N → ℝ) (c0 : ℝ) (order : List (Fin N)) :
    localGs phi dip c0 order = (order.filter fun u => decide (c0 ≤ |signOverlap phi u u|),
      ((order.filter fun u => decide (c0 ≤ |signOverlap phi u u|)).map fun u => dip u ^ 2).sum) := by
  unfold localGs
  induction order using List.reverseRecOn with
  | nil => rfl
  | append_singleton l u ih =>
    rw [List.foldl_append, ih]
    simp only [List.foldl_cons, List.foldl_nil, gsTurn, List.filter_append]
    by_cases h : c0 ≤ |signOverlap phi u u|
    · simp [h]
    · simp [h]

/-- What the loops for the excited states keep true. -/
def Ok (dip : Fin N → ℝ) (gs : List (Fin N)) (g0 : ℝ) (st : List (Fin N) × ℝ) : Prop :=
  st.1.Nodup ∧ (∀ v ∈ st.1, v ∉ gs) ∧ st.2 = g0 + (st.1.map fun v => dip v ^ 2).sum

theorem exTurn_ok (phi : Fin N → Fin N → ℝ) (dip : Fin N → ℝ) (cutoff c1 : ℝ) (gs : List (Fin N)) (g0 : ℝ) (u : Fin N)
    (st : List (Fin N) × ℝ) (v : Fin N) (h : Ok dip gs g0 st) : Ok dip gs g0 (exTurn phi dip cutoff c1 gs u st v) := by
  unfold exTurn
  by_cases h1 : v = u
  · rw [if_pos h1]; exact h
  rw [if_neg h1]
  by_cases h2 : v ∈ st.1 ∨ v ∈ gs
  · rw [if_pos h2]; exact h
  rw [if_neg h2]
  by_cases h3 : |dip v| < cutoff
  · rw [if_pos h3]; exact h
  rw [if_neg h3]
  by_cases h4 : c1 ≤ |signOverlap phi u v|
  · rw [if_pos h4]
    push Not at h2
    refine ⟨?_, ?_, ?_⟩
    · rw [List.nodup_append]
      refine ⟨h.1, by simp, ?_⟩
      intro a ha b hb hab
      simp only [List.mem_singleton] at hb
      exact h2.1 (hb ▸ hab ▸ ha)
    · intro a ha
      rcases List.mem_append.1 ha with ha | ha
      · exact h.2.1 a ha
      · simp only [List.mem_singleton] at ha
        exact ha ▸ h2.2
    · simp only [List.map_append, List.sum_append, List.map_cons, List.map_nil, List.sum_cons, List.sum_nil]
      rw [h.2.2]; ring
  · rw [if_neg h4]; exact h

theorem localEx_ok (phi : Fin N → Fin N → ℝ) (dip : Fin N → ℝ) (cutoff c1 : ℝ) (gs : List (Fin N) × ℝ) :
    Ok dip gs.1 gs.2 (localEx phi dip cutoff c1 gs) := by
  unfold localEx
  have inner : ∀ (u : Fin N) (l : List (Fin N)) (st : List (Fin N) × ℝ), Ok dip gs.1 gs.2 st →
      Ok dip gs.1 gs.2 (l.foldl (exTurn phi dip cutoff c1 gs.1 u) st) := by
    intro u l
    induction l with
    | nil => exact fun st h => h
    | cons v l ih => exact fun st h => ih _ (exTurn_ok phi dip cutoff c1 gs.1 gs.2 u st v h)
  have outer : ∀ (l : List (Fin N)) (st : List (Fin N) × ℝ), Ok dip gs.1 gs.2 st →
      Ok dip gs.1 gs.2 (l.foldl (fun st u => (List.finRange N).foldl (exTurn phi dip cutoff c1 gs.1 u) st) st) := by
    intro l
    induction l with
    | nil => exact fun st h => h
    | cons u l ih => exact fun st h => ih _ (inner u _ st h)
  exact outer gs.1 _ ⟨List.nodup_nil, by simp, by simp⟩

/-- C148: no state is selected twice, the two lists have no common state, and the selected dipole strength is the sum over them, so the
printed fraction is between zero and one. -/
theorem selection (phi : Fin N → Fin N → ℝ) (dip : Fin N → ℝ) (c0 c1 maxdip : ℝ) (order : List (Fin N)) (ho : order.Nodup) :
    let r := spdf phi dip c0 c1 maxdip order
    (r.1 ++ r.2.1).Nodup ∧ r.2.2 = ((r.1 ++ r.2.1).map fun u => dip u ^ 2).sum ∧
      0 ≤ r.2.2 ∧ r.2.2 ≤ ∑ u, dip u ^ 2 := by
  intro r
  have hgs : r.1 = order.filter fun u => decide (c0 ≤ |signOverlap phi u u|) := by
    change (localGs phi dip c0 order).1 = _
    rw [localGs_eq]
  have hg0 : (localGs phi dip c0 order).2 = (r.1.map fun u => dip u ^ 2).sum := by
    rw [hgs, localGs_eq]
  obtain ⟨h1, h2, h3⟩ := localEx_ok phi dip (0.1 * maxdip) c1 (localGs phi dip c0 order)
  have hnd : (r.1 ++ r.2.1).Nodup := by
    rw [List.nodup_append]
    refine ⟨hgs ▸ ho.filter _, h1, ?_⟩
    intro a ha b hb hab
    exact h2 b hb (hab ▸ ha)
  have hs : r.2.2 = ((r.1 ++ r.2.1).map fun u => dip u ^ 2).sum := by
    rw [List.map_append, List.sum_append, ← hg0]
    exact h3
  have hf : ((r.1 ++ r.2.1).map fun u => dip u ^ 2).sum = ∑ u ∈ (r.1 ++ r.2.1).toFinset, dip u ^ 2 :=
    (List.sum_toFinset _ hnd).symm
  refine ⟨hnd, hs, ?_, ?_⟩
  · rw [hs, hf]
    exact Finset.sum_nonneg fun u _ => sq_nonneg _
  · rw [hs, hf]
    exact Finset.sum_le_sum_of_subset_of_nonneg (Finset.subset_univ _) fun u _ _ => sq_nonneg _

/-- C148: the selection does not depend on the signs of the eigenvectors. -/
theorem selection_sign (phi : Fin N → Fin N → ℝ) (dip : Fin N → ℝ) (c0 c1 maxdip : ℝ) (order : List (Fin N)) (s : Fin N → ℝ)
    (hs : ∀ u, |s u| = 1) :
    spdf (fun j u => s u * phi j u) (fun u => s u * dip u) c0 c1 maxdip order = spdf phi dip c0 c1 maxdip order := by
  have ho : ∀ u v, |signOverlap (fun j u => s u * phi j u) u v| = |signOverlap phi u v| := by
    intro u v
    have : signOverlap (fun j u => s u * phi j u) u v = s u * signOverlap phi u v := by
      unfold signOverlap
      rw [Finset.mul_sum]
      exact Finset.sum_congr rfl fun j _ => by rw [abs_mul, hs]; ring
    rw [this, abs_mul, hs, one_mul]
  have hd : ∀ u, (s u * dip u) ^ 2 = dip u ^ 2 := by
    intro u
    rw [mul_pow, ← sq_abs (s u), hs, one_pow, one_mul]
  have hd' : ∀ u, |s u * dip u| = |dip u| := fun u => by rw [abs_mul, hs, one_mul]
  unfold spdf localGs localEx gsTurn exTurn
  simp only [ho, hd, hd']

/-- C148: with as many states of interest as sites the linear spectrum is the sum over all states. -/
theorem linearAbs_partial (Nexc : ℕ) (h : N ≤ Nexc) (evals dip : Fin N → ℝ) (gamma e : ℝ) :
    linearAbs Nexc evals dip gamma e = ∑ j, dip j * dip j * gamma / ((e - evals j) ^ 2 + gamma ^ 2) := by
  unfold linearAbs linearSpec
  rw [min_eq_right h, List.take_of_length_le (by simp), ← List.ofFn_eq_map, List.sum_ofFn]

/-- C148 fails: the states of interest are the lowest ones.  Two equal sites with positive hopping and one state of
interest: the lowest state is antisymmetric, without dipole, and the spectrum is zero everywhere; the sum over all states is not. -/
theorem linearAbs_dark_fails (eps t : ℝ) (ht : 0 < t) (gamma e : ℝ) (hg : 0 < gamma) :
    ∃ (phi : Fin 2 → Fin 2 → ℝ) (evals : Fin 2 → ℝ), evals 0 < evals 1 ∧
      (∀ i u : Fin 2, ∑ j : Fin 2, dmaH 2 t (fun _ => eps) i j * phi j u = evals u * phi i u) ∧
      (∀ u v, ∑ j, phi j u * phi j v = if u = v then 1 else 0) ∧
      linearAbs 1 evals (dipole phi) gamma e = 0 ∧
      0 < ∑ j, dipole phi j * dipole phi j * gamma / ((e - evals j) ^ 2 + gamma ^ 2) := by
  have h2 : √2 * √2 = 2 := Real.mul_self_sqrt (by norm_num)
  have hp : 0 < √2 := Real.sqrt_pos.2 (by norm_num)
  refine ⟨fun j u => !![√2 / 2, √2 / 2; -(√2 / 2), √2 / 2] j u, ![eps - t, eps + t], ?_, ?_, ?_, ?_, ?_⟩
  · simp; linarith
  · intro i u
    simp only [Fin.sum_univ_two]
    fin_cases i <;> fin_cases u <;> simp [dmaH, setT, List.range_succ] <;> ring
  · intro u v
    simp only [Fin.sum_univ_two]
    fin_cases u <;> fin_cases v <;> simp <;> nlinarith
  · simp [linearAbs, linearSpec, List.finRange_succ, dipole, Fin.sum_univ_two]
  · simp only [Fin.sum_univ_two, dipole]
    simp
    positivity

end

/-! ### Two-dimensional spectra -/

/-- C148: for an oscillator, whose step from one to two quanta has the same energy and twice the strength, the
two-dimensional spectrum is zero. -/
theorem tdes_harmonic {S : Type*} (state : List S) (evals dip1 : S → ℝ) (eng2 dip2 : ℕ → ℕ → ℝ) (gamma Ed Ex : ℝ)
    (h : ∀ jv ∈ state.zipIdx, eng2 jv.2 0 = evals jv.1 ∧ dip2 jv.2 0 ^ 2 = 2 * dip1 jv.1 ^ 2) :
    tdes state evals dip1 1 eng2 dip2 gamma Ed Ex = 0 := by
  unfold tdes
  apply List.sum_eq_zero
  intro x hx
  obtain ⟨jv, hj, rfl⟩ := List.mem_map.1 hx
  obtain ⟨h1, h2⟩ := h jv hj
  simp only [List.range_one, List.map_cons, List.map_nil, List.sum_cons, List.sum_nil, line, h1]
  have : dip2 jv.2 0 * dip2 jv.2 0 = 2 * (dip1 jv.1 * dip1 jv.1) := by nlinarith
  rw [this]
  ring

/-- C148: without states of two excitons no point of the spectrum is negative. -/
theorem tdes_nonneg {S : Type*} (state : List S) (evals dip1 : S → ℝ) (eng2 dip2 : ℕ → ℕ → ℝ) (gamma Ed Ex : ℝ) (hg : 0 ≤ gamma) :
    0 ≤ tdes state evals dip1 0 eng2 dip2 gamma Ed Ex := by
  unfold tdes
  apply List.sum_nonneg
  intro x hx
  obtain ⟨jv, -, rfl⟩ := List.mem_map.1 hx
  have := mul_self_nonneg (dip1 jv.1)
  simp only [List.range_zero, List.map_nil, List.sum_nil]
  norm_num
  positivity

/-- C148 fails: two molecules that do not interact.  The step to the state with both excited has the energy and dipole of the
other molecule.  The spectrum is not the sum of the spectra of the two molecules: it has negative cross terms
everywhere. -/
theorem tdes_additive_fails (e1 e2 d1 d2 : ℝ) (h1 : d1 ≠ 0) (h2 : d2 ≠ 0) (gamma Ed Ex : ℝ) (hg : 0 < gamma) :
    let both := tdes [0, 1] ![e1, e2] ![d1, d2] 1 (fun v _ => if v = 0 then e2 else e1) (fun v _ => if v = 0 then d2 else d1)
      gamma Ed Ex
    let one := tdes [0] (fun _ : Fin 1 => e1) (fun _ => d1) 0 (fun _ _ => 0) (fun _ _ => 0) gamma Ed Ex
    let two := tdes [0] (fun _ : Fin 1 => e2) (fun _ => d2) 0 (fun _ _ => 0) (fun _ _ => 0) gamma Ed Ex
    both = one + two - (line d2 (Ed - e2) gamma * line d1 (Ex - e1) gamma + line d1 (Ed - e1) gamma * line d2 (Ex - e2) gamma) ∧
      both < one + two := by
  intro both one two
  have h : both = one + two - (line d2 (Ed - e2) gamma * line d1 (Ex - e1) gamma +
      line d1 (Ed - e1) gamma * line d2 (Ex - e2) gamma) := by
    simp only [both, one, two, tdes, line]
    simp [List.zipIdx]
    ring
  refine ⟨h, ?_⟩
  have hl : ∀ d x, d ≠ 0 → 0 < line d x gamma := by
    intro d x hd
    unfold line
    have := mul_self_pos.2 hd
    positivity
  rw [h]
  have a1 := mul_pos (hl d2 (Ed - e2) h2) (hl d1 (Ex - e1) h1)
  have a2 := mul_pos (hl d1 (Ed - e1) h1) (hl d2 (Ex - e2) h2)
  linarith

/-- One molecule at resonance: twice the square of the line. -/
example : tdes [0] (fun _ : Fin 1 => 1) (fun _ => 3) 0 (fun _ _ => 0) (fun _ _ => 0) 1 1 1 = (162 : ℝ) := by
  norm_num [tdes, List.zipIdx]

end OpenMS.Aggregates
