import Verif.Model.BosonInit
import Mathlib.Data.List.GetD
import Mathlib.Tactic

/-!
# Properties of the initial bosonic trial states
-/

namespace OpenMS.BosonInit

/-- `Σ |c|²`. -/
noncomputable def sq (l : List ℂ) : ℝ := (l.map fun c => ‖c‖ ^ 2).sum

theorem sq_nonneg (l : List ℂ) : 0 ≤ sq l :=
  List.sum_nonneg fun x hx => by
    obtain ⟨c, _, rfl⟩ := List.mem_map.1 hx
    positivity

theorem sq_pos (l : List ℂ) (h : ∃ c ∈ l, c ≠ 0) : 0 < sq l := by
  induction l with
  | nil => simp at h
  | cons a l ih =>
    have e : sq (a :: l) = ‖a‖ ^ 2 + sq l := by simp [sq]
    rw [e]
    obtain ⟨c, hc, h0⟩ := h
    rcases List.mem_cons.1 hc with rfl | hc
    · have := sq_nonneg l
      have : 0 < ‖c‖ ^ 2 := by positivity
      linarith
    · have := ih ⟨c, hc, h0⟩
      positivity

theorem sq_append (l m : List ℂ) : sq (l ++ m) = sq l + sq m := by simp [sq]

theorem sq_flatten (L : List (List ℂ)) : sq L.flatten = (L.map sq).sum := by
  induction L with
  | nil => simp [sq]
  | cons a L ih => simp [sq_append, ih]

theorem sq_div (l : List ℂ) (r : ℝ) : sq (l.map (· / (r : ℂ))) = sq l / r ^ 2 := by
  induction l with
  | nil => simp [sq]
  | cons a l ih =>
    have e : ∀ b (m : List ℂ), sq (b :: m) = ‖b‖ ^ 2 + sq m := fun b m => by simp [sq]
    rw [List.map_cons, e, e, ih, norm_div, Complex.norm_real, div_pow, add_div]
    simp

theorem norm_sq (l : List ℂ) : norm l ^ 2 = sq l := Real.sq_sqrt (sq_nonneg l)

theorem sq_normalised (l : List ℂ) (h : 0 < sq l) : sq (l.map (· / (norm l : ℂ))) = 1 := by
  rw [sq_div, norm_sq]
  exact div_self h.ne'

theorem mode_flatten : ∀ (L : List (List ℂ)) (j : ℕ), j < L.length →
    mode (L.map List.length) j L.flatten = L.getD j [] := by
  intro L
  induction L with
  | nil => intro j h; simp at h
  | cons a L ih =>
    intro j h
    cases j with
    | zero => simp [mode]
    | succ j =>
      have := ih j (by simpa using h)
      simp only [mode] at this ⊢
      simp only [List.map_cons, List.take_succ_cons, List.sum_cons, List.flatten_cons,
        List.getD_cons_succ]
      rw [List.drop_append, List.drop_of_length_le (by omega), List.nil_append,
        Nat.add_sub_cancel_left]
      exact this

theorem mode_map (states : List ℕ) (j : ℕ) (l : List ℂ) (f : ℂ → ℂ) :
    mode states j (l.map f) = (mode states j l).map f := by
  simp [mode, List.map_drop, List.map_take]

/-- The share of one mode in a normalised array. -/
theorem mode_share (L : List (List ℂ)) (j : ℕ) (hj : j < L.length) :
    sq (mode (L.map List.length) j (L.flatten.map (· / (norm L.flatten : ℂ)))) =
      sq (L.getD j []) / (L.map sq).sum := by
  rw [mode_map, mode_flatten L j hj, sq_div, norm_sq, sq_flatten]

theorem sum_getD (L : List (List ℂ)) :
    (L.map sq).sum = ∑ i : Fin L.length, sq (L.getD i []) := by
  rw [← List.sum_ofFn]
  congr 1
  exact List.ext_getElem (by simp) fun i h1 h2 => by simp

/-- If another mode has an amplitude that is not zero, a mode has norm below one. -/
theorem mode_lt (L : List (List ℂ)) (j k : ℕ) (hj : j < L.length) (hk : k < L.length) (hjk : j ≠ k)
    (h : ∃ c ∈ L.getD k [], c ≠ 0) :
    sq (mode (L.map List.length) j (L.flatten.map (· / (norm L.flatten : ℂ)))) < 1 := by
  rw [mode_share L j hj]
  have hs : sq (L.getD j []) + sq (L.getD k []) ≤ (L.map sq).sum := by
    have := sum_getD L
    rw [this]
    have h2 := Finset.sum_le_sum_of_subset_of_nonneg
      (f := fun i : Fin L.length => sq (L.getD i []))
      (Finset.subset_univ {⟨j, hj⟩, ⟨k, hk⟩}) fun i _ _ => sq_nonneg _
    rwa [Finset.sum_pair (by simpa using hjk)] at h2
  have hp := sq_pos _ h
  have := sq_nonneg (L.getD j [])
  rw [div_lt_one (by linarith)]
  linarith

theorem coef_zero_ne (a : ℂ) : coef a 0 ≠ 0 := by simp [coef]

theorem block_length (a : ℂ) (N : ℕ) : (block a N).length = N := by simp [block]

theorem block_nonzero (a : ℂ) (N : ℕ) (h : 0 < N) : ∃ c ∈ block a N, c ≠ 0 :=
  ⟨coef a 0, List.mem_map.2 ⟨0, List.mem_range.2 h, rfl⟩, coef_zero_ne a⟩

theorem lengths (z : List ℂ) (s : List ℕ) (h : z.length = s.length) :
    (List.zipWith block z s).map List.length = s := by
  induction z generalizing s with
  | nil => cases s with
    | nil => rfl
    | cons _ _ => simp at h
  | cons a z ih => cases s with
    | nil => simp at h
    | cons N s =>
      simp only [List.zipWith_cons_cons, List.map_cons, block_length]
      rw [ih s (by simpa using h)]

theorem blocks_getD (z : List ℂ) (s : List ℕ) (h : z.length = s.length) (j : ℕ) (hj : j < s.length) :
    (List.zipWith block z s).getD j [] = block (z.getD j 0) (s.getD j 0) := by
  have hz : j < z.length := by omega
  rw [List.getD_eq_getElem _ _ (by simp; omega), List.getElem_zipWith,
    List.getD_eq_getElem _ _ hz, List.getD_eq_getElem _ _ hj]

theorem initZ_eq {z : List ℂ} {s : List ℕ} {l : List ℂ} (h : initZ z s = .ok l) :
    l = (List.zipWith block z s).flatten.map
      (· / (norm (List.zipWith block z s).flatten : ℂ)) := by
  unfold initZ at h
  split_ifs at h
  injection h with h
  exact h.symm

/-- **C104.** The state is built exactly if every mode has a number of states and none has more
than 21 (`21!` does not fit in 64 bits). -/
theorem initZ_ok_iff (z : List ℂ) (s : List ℕ) :
    (∃ l, initZ z s = .ok l) ↔ z.length ≤ s.length ∧ ∀ N ∈ s.take z.length, N ≤ 21 := by
  have key : ∀ N : ℕ, 2 ^ 64 ≤ (N - 1).factorial ↔ 22 ≤ N := by
    intro N
    constructor
    · intro h
      by_contra hN
      have h1 : (N - 1).factorial ≤ (20).factorial := Nat.factorial_le (by omega)
      have h2 : (20).factorial < 2 ^ 64 := by decide
      omega
    · intro h
      have h1 : (21).factorial ≤ (N - 1).factorial := Nat.factorial_le (by omega)
      have h2 : 2 ^ 64 ≤ (21).factorial := by decide
      omega
  unfold initZ
  split_ifs with h1 h2
  · simp only [exists_false, false_iff]
    rintro ⟨-, h⟩
    obtain ⟨N, hN, hf⟩ := h1
    have := (key N).1 hf
    have := h N hN
    omega
  · simp only [exists_false, false_iff]
    rintro ⟨h, -⟩
    omega
  · refine ⟨fun _ => ⟨by omega, fun N hN => ?_⟩, fun _ => ⟨_, rfl⟩⟩
    by_contra hc
    exact h1 ⟨N, hN, (key N).2 (by omega)⟩

/-- **C104.** In every mode the amplitudes are those of a coherent state: the annihilation operator
multiplies by `z`, up to the cutoff. -/
theorem initZ_coherent {z : List ℂ} {s : List ℕ} {l : List ℂ} (h : initZ z s = .ok l)
    (hl : z.length = s.length) (j n : ℕ) (hj : j < s.length) (hn : n + 1 < s.getD j 0) :
    (Real.sqrt (n + 1) : ℂ) * (mode s j l).getD (n + 1) 0 = z.getD j 0 * (mode s j l).getD n 0 := by
  have e := initZ_eq h
  have hm : mode s j l = (block (z.getD j 0) (s.getD j 0)).map
      (· / (norm (List.zipWith block z s).flatten : ℂ)) := by
    have h' := mode_flatten (List.zipWith block z s) j (by simp; omega)
    rw [lengths z s hl] at h'
    rw [e, mode_map, ← blocks_getD z s hl j hj, h']
  rw [hm]
  generalize (norm (List.zipWith block z s).flatten : ℂ) = r
  generalize z.getD j 0 = a
  have g : ∀ m < s.getD j 0, ((block a (s.getD j 0)).map (· / r)).getD m 0 = coef a m / r := by
    intro m hm
    rw [List.getD_eq_getElem _ _ (by simpa [block_length] using hm)]
    simp [block]
  rw [g _ hn, g _ (by omega)]
  unfold coef
  have hs : Real.sqrt ((n + 1).factorial : ℝ) = Real.sqrt (n + 1) * Real.sqrt (n.factorial : ℝ) := by
    rw [← Real.sqrt_mul (by positivity), Nat.factorial_succ]
    push_cast
    rfl
  have h1 : (Real.sqrt ((n : ℝ) + 1) : ℂ) ≠ 0 := by
    rw [Ne, Complex.ofReal_eq_zero]
    exact (Real.sqrt_pos.2 (by positivity)).ne'
  have h2 : (Real.sqrt (n.factorial : ℝ) : ℂ) ≠ 0 := by
    rw [Ne, Complex.ofReal_eq_zero]
    exact (Real.sqrt_pos.2 (by exact_mod_cast n.factorial_pos)).ne'
  rw [hs]
  push_cast
  field_simp
  ring

/-- **C104.** The whole array has norm one. -/
theorem initZ_norm {z : List ℂ} {s : List ℕ} {l : List ℂ} (h : initZ z s = .ok l)
    (hl : z.length = s.length) (hp : ∃ N ∈ s, 0 < N) : (l.map fun c => ‖c‖ ^ 2).sum = 1 := by
  rw [initZ_eq h]
  refine sq_normalised _ (sq_pos _ ?_)
  obtain ⟨N, hN, h0⟩ := hp
  obtain ⟨j, hj, rfl⟩ := List.getElem_of_mem hN
  have hz : j < z.length := by omega
  obtain ⟨c, hc, hc0⟩ := block_nonzero z[j] s[j] h0
  refine ⟨c, List.mem_flatten.2 ⟨block z[j] s[j], ?_, hc⟩, hc0⟩
  rw [List.mem_iff_getElem]
  exact ⟨j, by simp; omega, by simp⟩

/-- **C104, proved part.** A single mode is normalised. -/
theorem initZ_normalised_partial {a : ℂ} {N : ℕ} {l : List ℂ} (h : initZ [a] [N] = .ok l)
    (hN : 0 < N) : ((mode [N] 0 l).map fun c => ‖c‖ ^ 2).sum = 1 := by
  have := initZ_norm h rfl ⟨N, by simp, hN⟩
  have e : mode [N] 0 l = l := by
    rw [initZ_eq h]
    simp [mode, block_length]
  rwa [e]

/-- The weight of a mode: its share of `Σ_n |z|^(2n) e^(-|z|²) / n!`. -/
theorem initZ_share {z : List ℂ} {s : List ℕ} {l : List ℂ} (h : initZ z s = .ok l)
    (hl : z.length = s.length) (j : ℕ) (hj : j < s.length) :
    ((mode s j l).map fun c => ‖c‖ ^ 2).sum =
      (∑ n ∈ Finset.range (s.getD j 0), Real.exp (-‖z.getD j 0‖ ^ 2) * ‖z.getD j 0‖ ^ (2 * n) /
        n.factorial) /
      ∑ k ∈ Finset.range s.length, ∑ n ∈ Finset.range (s.getD k 0),
        Real.exp (-‖z.getD k 0‖ ^ 2) * ‖z.getD k 0‖ ^ (2 * n) / n.factorial := by
  have hb : ∀ (a : ℂ) (N : ℕ), sq (block a N) =
      ∑ n ∈ Finset.range N, Real.exp (-‖a‖ ^ 2) * ‖a‖ ^ (2 * n) / n.factorial := by
    intro a N
    rw [sq, block, List.map_map, ← List.sum_toFinset _ List.nodup_range, List.toFinset_range]
    refine Finset.sum_congr rfl fun n _ => ?_
    simp only [Function.comp_apply, coef, norm_div, norm_mul, Complex.norm_real, norm_pow,
      Real.norm_eq_abs, Real.abs_exp, abs_of_nonneg (Real.sqrt_nonneg _), div_pow, mul_pow]
    rw [Real.sq_sqrt (by positivity), ← Real.exp_nat_mul, ← pow_mul]
    congr 2
    · congr 1; push_cast; ring
    · rw [mul_comm]
  have hsh := mode_share (List.zipWith block z s) j (by simp; omega)
  rw [lengths z s hl, ← initZ_eq h, blocks_getD z s hl j hj, hb] at hsh
  refine hsh.trans ?_
  congr 1
  have hlen : (List.zipWith block z s).length = s.length := by simp; omega
  rw [sum_getD, ← Fin.sum_univ_eq_sum_range (fun k => ∑ n ∈ Finset.range (s.getD k 0),
    Real.exp (-‖z.getD k 0‖ ^ 2) * ‖z.getD k 0‖ ^ (2 * n) / n.factorial)]
  refine Fintype.sum_equiv (finCongr hlen) _ _ fun k => ?_
  rw [blocks_getD z s hl k (by omega), hb]
  rfl

/-- **C104, disagreement.** With two modes that have at least one state each, no mode is normalised,
whatever the displacements: the array is normalised as a whole, its entries are not the factors of a
product state. -/
theorem initZ_normalised_fails {z : List ℂ} {s : List ℕ} {l : List ℂ} (h : initZ z s = .ok l)
    (hl : z.length = s.length) (j k : ℕ) (hj : j < s.length) (hk : k < s.length) (hjk : j ≠ k)
    (hN : 0 < s.getD k 0) : ((mode s j l).map fun c => ‖c‖ ^ 2).sum < 1 := by
  have := mode_lt (List.zipWith block z s) j k (by simp; omega) (by simp; omega) hjk (by
    rw [blocks_getD z s hl k hk]
    exact block_nonzero _ _ hN)
  rwa [lengths z s hl, ← initZ_eq h] at this

/-- The blocks of `make_trial` before normalisation. -/
noncomputable def expBlocks (s : List ℕ) : List (List ℂ) :=
  s.map fun N => (List.range N).map fun (n : ℕ) => ((Real.exp (-(n : ℝ)) : ℝ) : ℂ)

theorem expBlocks_length (s : List ℕ) : (expBlocks s).map List.length = s := by
  rw [expBlocks, List.map_map]
  conv_rhs => rw [← List.map_id s]
  exact List.map_congr_left fun N _ => by simp

/-- **C104.** The state of `make_trial` has norm one and every amplitude of a mode is `1/e` times the
previous one. -/
theorem makeTrial_spec (s : List ℕ) :
    ((∃ N ∈ s, 0 < N) → ((makeTrial s).map fun c => ‖c‖ ^ 2).sum = 1) ∧
    (makeTrial s).length = s.sum ∧
    ∀ j n, j < s.length → n + 1 < s.getD j 0 →
      (mode s j (makeTrial s)).getD (n + 1) 0 =
        (Real.exp (-1) : ℂ) * (mode s j (makeTrial s)).getD n 0 := by
  refine ⟨fun hp => ?_, ?_, fun j n hj hn => ?_⟩
  · refine sq_normalised _ (sq_pos _ ?_)
    obtain ⟨N, hN, h0⟩ := hp
    exact ⟨_, List.mem_flatten.2 ⟨_, List.mem_map.2 ⟨N, hN, rfl⟩,
      List.mem_map.2 ⟨0, List.mem_range.2 h0, rfl⟩⟩, by simp⟩
  · have := expBlocks_length s
    rw [makeTrial, List.length_map, List.length_flatten]
    exact congrArg List.sum this
  · have h' := mode_flatten (expBlocks s) j (by simpa [expBlocks] using hj)
    rw [expBlocks_length] at h'
    have hm : mode s j (makeTrial s) = ((expBlocks s).getD j []).map
        (· / (norm (expBlocks s).flatten : ℂ)) := by
      rw [← h', ← mode_map]; rfl
    rw [hm]
    generalize (norm (expBlocks s).flatten : ℂ) = r
    have g : ∀ m < s.getD j 0, (((expBlocks s).getD j []).map (· / r)).getD m 0 =
        (Real.exp (-(m : ℝ)) : ℂ) / r := by
      intro m hm
      rw [List.getD_eq_getElem _ _ hj] at hm
      have e : (expBlocks s).getD j [] =
          (List.range s[j]).map fun (n : ℕ) => ((Real.exp (-(n : ℝ)) : ℝ) : ℂ) := by
        rw [List.getD_eq_getElem _ _ (by simpa [expBlocks] using hj)]
        simp [expBlocks]
      rw [e, List.getD_eq_getElem _ _ (by simpa using hm)]
      simp
    rw [g _ hn, g _ (by omega)]
    push_cast
    rw [neg_add, Complex.exp_add]
    ring

/-- **C104, disagreement** for the state of `make_trial`. -/
theorem makeTrial_normalised_fails (s : List ℕ) (j k : ℕ) (hj : j < s.length) (hk : k < s.length)
    (hjk : j ≠ k) (hN : 0 < s.getD k 0) :
    ((mode s j (makeTrial s)).map fun c => ‖c‖ ^ 2).sum < 1 := by
  have := mode_lt (expBlocks s) j k (by simpa [expBlocks] using hj) (by simpa [expBlocks] using hk)
    hjk (by
      rw [List.getD_eq_getElem _ _ hk] at hN
      rw [List.getD_eq_getElem _ _ (by simpa [expBlocks] using hk)]
      simp only [expBlocks, List.getElem_map]
      exact ⟨_, List.mem_map.2 ⟨0, List.mem_range.2 hN, rfl⟩, by simp⟩)
  rwa [expBlocks_length] at this

/-- Two modes with three states each. -/
example : ∃ l, initZ [1, Complex.I] [3, 3] = .ok l ∧
    ((mode [3, 3] 0 l).map fun c => ‖c‖ ^ 2).sum < 1 := by
  obtain ⟨l, hl⟩ := (initZ_ok_iff [1, Complex.I] [3, 3]).2 ⟨by simp, by simp⟩
  exact ⟨l, hl, initZ_normalised_fails hl rfl 0 1 (by simp) (by simp) (by simp) (by simp)⟩

end OpenMS.BosonInit
