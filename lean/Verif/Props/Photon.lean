import Verif.Model.Photon
import Mathlib.Analysis.SpecialFunctions.Trigonometric.DerivHyp
import Mathlib.Tactic.Linarith
import Mathlib.Tactic.FieldSimp
import Mathlib.Tactic.Ring
import Mathlib.Tactic.Positivity
import Mathlib.Tactic.FinCases
import Mathlib.Tactic.NormNum
import Mathlib.Algebra.BigOperators.Fin
import Mathlib.Algebra.BigOperators.Field

/-!
# Properties of the photon Hamiltonian, photon energy and mode vectors (C34, C37, C38, C80)
-/

namespace OpenMS.Photon

/-! ### C38 -/

/-- First row of mode `k`. -/
def offset (modes : List Mode) (k : ℕ) : ℕ := ((modes.take k).map Mode.mdim).sum

theorem bosonicHam_append (l : List Mode) (m : Mode) :
    bosonicHam (l ++ [m]) =
      (fun i j => if (bosonicHam l).2 ≤ i ∧ i < (bosonicHam l).2 + m.mdim ∧ (bosonicHam l).2 ≤ j ∧
          j < (bosonicHam l).2 + m.mdim then
        modeBlock m.omega m.za m.F (i - (bosonicHam l).2) (j - (bosonicHam l).2)
        else (bosonicHam l).1 i j, (bosonicHam l).2 + m.mdim) := by
  unfold bosonicHam
  rw [List.foldl_append]
  rfl

theorem bosonicHam_size (l : List Mode) : (bosonicHam l).2 = (l.map Mode.mdim).sum := by
  induction l using List.reverseRecOn with
  | nil => rfl
  | append_singleton l m ih => rw [bosonicHam_append]; simp [ih]

theorem offset_add_lt (l : List Mode) (k : ℕ) (hk : k < l.length) (a : ℕ) (ha : a < l[k].mdim) :
    offset l k + a < (l.map Mode.mdim).sum := by
  have h1 : l = l.take k ++ l[k] :: l.drop (k + 1) := by
    rw [List.getElem_cons_drop, List.take_append_drop]
  have h2 : (l.map Mode.mdim).sum =
      ((l.take k).map Mode.mdim).sum + (l[k].mdim + ((l.drop (k + 1)).map Mode.mdim).sum) := by
    conv_lhs => rw [h1, List.map_append, List.sum_append, List.map_cons, List.sum_cons]
  rw [h2, offset]; omega

theorem offset_append (l : List Mode) (m : Mode) (k : ℕ) (hk : k ≤ l.length) :
    offset (l ++ [m]) k = offset l k := by
  unfold offset
  rw [List.take_append_of_le_length hk]

theorem offset_length (l : List Mode) : offset l l.length = (l.map Mode.mdim).sum := by
  simp [offset]

theorem modeBlock_symm (o z F : ℝ) (a b : ℕ) : modeBlock o z F a b = modeBlock o z F b a := by
  unfold modeBlock
  by_cases h : a = b
  · subst h; rfl
  · rw [if_neg h, if_neg (Ne.symm h), add_comm (if b = a + 1 then _ else _)]

theorem ham_outside (l : List Mode) (i j : ℕ) (h : (l.map Mode.mdim).sum ≤ i ∨ (l.map Mode.mdim).sum ≤ j) :
    (bosonicHam l).1 i j = 0 := by
  induction l using List.reverseRecOn with
  | nil => rfl
  | append_singleton l m ih =>
    rw [bosonicHam_append]
    simp only [bosonicHam_size]
    simp only [List.map_append, List.sum_append, List.map_cons, List.map_nil, List.sum_cons,
      List.sum_nil, add_zero] at h
    rw [if_neg (by omega)]
    exact ih (by omega)

theorem ham_entry (l : List Mode) (k k' : ℕ) (hk : k < l.length) (hk' : k' < l.length) (a b : ℕ)
    (ha : a < l[k].mdim) (hb : b < l[k'].mdim) :
    (bosonicHam l).1 (offset l k + a) (offset l k' + b) =
      if k = k' then modeBlock l[k].omega l[k].za l[k].F a b else 0 := by
  induction l using List.reverseRecOn with
  | nil => simp at hk
  | append_singleton l m ih =>
    rw [bosonicHam_append]
    simp only [bosonicHam_size]
    have hlen : (l ++ [m]).length = l.length + 1 := by simp
    rcases Nat.lt_or_ge k l.length with h1 | h1 <;> rcases Nat.lt_or_ge k' l.length with h2 | h2
    · rw [List.getElem_append_left h1] at ha
      rw [List.getElem_append_left h2] at hb
      have ha' := offset_add_lt l k h1 a ha
      rw [offset_append _ _ _ h1.le, offset_append _ _ _ h2.le, if_neg (by omega),
        ih h1 h2 ha hb, List.getElem_append_left h1]
    · have hk'' : k' = l.length := by omega
      subst hk''
      rw [List.getElem_append_left h1] at ha
      have ha' := offset_add_lt l k h1 a ha
      rw [offset_append _ _ _ h1.le, offset_append _ _ _ h2, if_neg (by omega), if_neg (by omega)]
      clear ih
      rw [offset_length]
      exact ham_outside l _ _ (Or.inr (by omega))
    · have hk'' : k = l.length := by omega
      subst hk''
      rw [List.getElem_append_left h2] at hb
      have hb' := offset_add_lt l k' h2 b hb
      rw [offset_append _ _ _ h2.le, offset_append _ _ _ h1, if_neg (by omega), if_neg (by omega)]
      clear ih
      rw [offset_length]
      exact ham_outside l _ _ (Or.inl (by omega))
    · have e1 : k = l.length := by omega
      have e2 : k' = l.length := by omega
      subst e1; subst e2
      have hm : (l ++ [m])[l.length] = m := by simp
      rw [hm] at ha hb
      rw [offset_append _ _ _ le_rfl, offset_length, if_pos (by omega), if_pos rfl]
      simp

theorem exists_offset (l : List Mode) (i : ℕ) (hi : i < (l.map Mode.mdim).sum) :
    ∃ k, ∃ hk : k < l.length, ∃ a, a < (l[k]'hk).mdim ∧ i = offset l k + a := by
  induction l using List.reverseRecOn with
  | nil => simp at hi
  | append_singleton l m ih =>
    simp only [List.map_append, List.sum_append, List.map_cons, List.map_nil, List.sum_cons,
        List.sum_nil, add_zero] at hi
    rcases Nat.lt_or_ge i (l.map Mode.mdim).sum with h | h
    · obtain ⟨k, hk, a, ha, e⟩ := ih h
      refine ⟨k, by simp; omega, a, ?_, ?_⟩
      · rw [List.getElem_append_left hk]; exact ha
      · rw [offset_append _ _ _ hk.le]; exact e
    · refine ⟨l.length, by simp, i - (l.map Mode.mdim).sum, ?_, ?_⟩
      · simp; omega
      · rw [offset_append _ _ _ le_rfl, offset_length]; omega

/-- C38.  Size, block structure, diagonal, neighbour coupling and symmetry of the photon
Hamiltonian, for every list of modes. -/
theorem ham_structure (l : List Mode) :
    (bosonicHam l).2 = (l.map Mode.mdim).sum ∧
    (∀ i j, (bosonicHam l).1 i j = (bosonicHam l).1 j i) ∧
    (∀ i, i < (l.map Mode.mdim).sum →
      ∃ k, ∃ hk : k < l.length, ∃ a, a < (l[k]'hk).mdim ∧ i = offset l k + a) ∧
    (∀ k k' (hk : k < l.length) (hk' : k' < l.length) (a b : ℕ), a < l[k].mdim → b < l[k'].mdim →
      (k ≠ k' → (bosonicHam l).1 (offset l k + a) (offset l k' + b) = 0) ∧
      (k = k' →
        (a = b → (bosonicHam l).1 (offset l k + a) (offset l k' + b) =
          l[k].omega * (a * Real.cosh (2 * l[k].F) + Real.sinh l[k].F ^ 2)) ∧
        (b = a + 1 → (bosonicHam l).1 (offset l k + a) (offset l k' + b) =
          Real.sqrt b * l[k].za) ∧
        (a + 1 < b → (bosonicHam l).1 (offset l k + a) (offset l k' + b) = 0))) := by
  have hsym : ∀ i j, (bosonicHam l).1 i j = (bosonicHam l).1 j i := by
    intro i j
    by_cases h : (l.map Mode.mdim).sum ≤ i ∨ (l.map Mode.mdim).sum ≤ j
    · rw [ham_outside l i j h, ham_outside l j i h.symm]
    · push Not at h
      obtain ⟨k, hk, a, ha, e⟩ := exists_offset l i h.1
      obtain ⟨k', hk', b, hb, e'⟩ := exists_offset l j h.2
      rw [e, e', ham_entry l k k' hk hk' a b ha hb, ham_entry l k' k hk' hk b a hb ha]
      by_cases hkk : k = k'
      · subst hkk; rw [if_pos rfl, if_pos rfl, modeBlock_symm]
      · rw [if_neg hkk, if_neg (Ne.symm hkk)]
  refine ⟨bosonicHam_size l, hsym, exists_offset l, ?_⟩
  intro k k' hk hk' a b ha hb
  rw [ham_entry l k k' hk hk' a b ha hb]
  refine ⟨fun h => if_neg h, ?_⟩
  intro h
  rw [if_pos h]
  refine ⟨?_, ?_, ?_⟩
  · intro hab; subst hab; simp [modeBlock]; ring
  · intro hab; subst hab; unfold modeBlock
    rw [if_neg (by omega), if_pos rfl, if_neg (by omega)]; push_cast; ring
  · intro hab; unfold modeBlock
    rw [if_neg (by omega), if_neg (by omega), if_neg (by omega)]; ring

/-- Two modes with two and three states: the last coupling is `√2 · za` of the second mode, and
the modes do not mix. -/
example : (bosonicHam [⟨2, 1, 5, 0⟩, ⟨3, 1, 7, 0⟩]).1 3 4 = Real.sqrt 2 * 7 ∧
    (bosonicHam [⟨2, 1, 5, 0⟩, ⟨3, 1, 7, 0⟩]).1 1 2 = 0 := by
  have h := ham_structure [⟨2, 1, 5, 0⟩, ⟨3, 1, 7, 0⟩]
  have h1 := ((h.2.2.2 1 1 (by simp) (by simp) 1 2 (by simp) (by simp)).2 rfl).2.1 rfl
  have h2 := (h.2.2.2 0 1 (by simp) (by simp) 1 0 (by simp) (by simp)).1 (by simp)
  simp [offset] at h1 h2
  exact ⟨by simpa using h1, h2⟩

/-! ### C34 -/

/-- Expectation value of the squeezed number operator `B†B`, `B = b cosh r - b† sinh r`, in the
state with amplitudes `v n`, `n < mdim` (and none above): the squared length of `B v`, with
`(b v) n = √(n+1) v (n+1)` and `(b† v) n = √n v (n-1)`. -/
noncomputable def squeezedNumber (r : ℝ) (mdim : ℕ) (v : ℕ → ℝ) : ℝ :=
  let w : ℕ → ℝ := fun n => if n < mdim then v n else 0
  ∑ n ∈ Finset.range (mdim + 1),
    (Real.cosh r * (Real.sqrt (n + 1) * w (n + 1)) -
      Real.sinh r * (if n = 0 then 0 else Real.sqrt n * w (n - 1))) ^ 2

theorem sum_shift_down (f : ℕ → ℝ) (m : ℕ) (hf0 : f 0 = 0) (hf : f m = 0) (hf' : f (m + 1) = 0) :
    ∑ n ∈ Finset.range (m + 1), f (n + 1) = ∑ n ∈ Finset.range m, f n := by
  have := Finset.sum_range_succ' f (m + 1)
  rw [Finset.sum_range_succ, Finset.sum_range_succ, hf0, hf, hf'] at this
  linarith

/-- Exact relation between the code's energy and the squeezed number operator. -/
theorem energy_identity (omega r : ℝ) (mdim : ℕ) (v : ℕ → ℝ) :
    modeEnergy omega r mdim v = omega * (squeezedNumber r mdim v +
      Real.sinh (2 * r) * ∑ n ∈ Finset.range (mdim - 2),
        Real.sqrt ((n + 1) * (n + 2)) * (v n * v (n + 2))) := by
  unfold modeEnergy squeezedNumber
  congr 1
  set w : ℕ → ℝ := fun n => if n < mdim then v n else 0 with hw
  have hexp : ∀ n : ℕ, (Real.cosh r * (Real.sqrt (n + 1) * w (n + 1)) -
      Real.sinh r * (if n = 0 then 0 else Real.sqrt n * w (n - 1))) ^ 2 =
      Real.cosh r ^ 2 * (((n + 1 : ℕ) : ℝ) * w (n + 1) ^ 2) +
      Real.sinh r ^ 2 * (if n = 0 then 0 else (n : ℝ) * w (n - 1) ^ 2) -
      2 * Real.cosh r * Real.sinh r *
        (if n = 0 then 0 else Real.sqrt (n * (n + 1)) * (w (n - 1) * w (n + 1))) := by
    intro n
    have h1 : Real.sqrt ((n : ℝ) + 1) ^ 2 = n + 1 := Real.sq_sqrt (by positivity)
    have h2 : Real.sqrt (n : ℝ) ^ 2 = n := Real.sq_sqrt (by positivity)
    have h3 : Real.sqrt ((n : ℝ) * (n + 1)) = Real.sqrt n * Real.sqrt (n + 1) :=
      Real.sqrt_mul (by positivity) _
    by_cases h : n = 0
    · subst h; simp
      ring
    · rw [if_neg h, if_neg h, if_neg h, h3, sub_sq, mul_pow, mul_pow, mul_pow, mul_pow, h1, h2]
      push_cast
      ring
  simp only [hexp]
  rw [Finset.sum_sub_distrib, Finset.sum_add_distrib, ← Finset.mul_sum, ← Finset.mul_sum,
    ← Finset.mul_sum]
  have s1 : ∑ n ∈ Finset.range (mdim + 1), ((n + 1 : ℕ) : ℝ) * w (n + 1) ^ 2 =
      ∑ n ∈ Finset.range mdim, (n : ℝ) * w n ^ 2 :=
    sum_shift_down (fun n => (n : ℝ) * w n ^ 2) mdim (by simp) (by simp [hw]) (by simp [hw])
  have s2 : ∑ n ∈ Finset.range (mdim + 1), (if n = 0 then 0 else (n : ℝ) * w (n - 1) ^ 2) =
      ∑ n ∈ Finset.range mdim, ((n : ℝ) + 1) * w n ^ 2 := by
    rw [Finset.sum_range_succ']
    simp
  have s3 : ∑ n ∈ Finset.range (mdim + 1),
      (if n = 0 then 0 else Real.sqrt ((n : ℝ) * (n + 1)) * (w (n - 1) * w (n + 1))) =
      ∑ n ∈ Finset.range (mdim - 2), Real.sqrt (((n : ℝ) + 1) * (n + 2)) * (v n * v (n + 2)) := by
    rw [Finset.sum_range_succ']
    simp only [Nat.add_eq_zero_iff, one_ne_zero, and_false, if_false, Nat.add_sub_cancel, if_true,
      add_zero]
    rw [← Finset.sum_subset (Finset.range_mono (Nat.sub_le mdim 2))]
    · apply Finset.sum_congr rfl
      intro n hn
      rw [Finset.mem_range] at hn
      have a1 : w n = v n := by simp only [hw]; rw [if_pos (by omega)]
      have a2 : w (n + 1 + 1) = v (n + 2) := by simp only [hw]; rw [if_pos (by omega)]
      rw [a1, a2]
      push_cast
      congr 2
      ring
    · intro n _ hn
      rw [Finset.mem_range] at hn
      have a2 : w (n + 1 + 1) = 0 := by simp only [hw]; rw [if_neg (by omega)]
      rw [a2]; ring
  have s0 : ∀ g : ℕ → ℝ, ∑ n ∈ Finset.range mdim, g n * w n ^ 2 =
      ∑ n ∈ Finset.range mdim, g n * v n ^ 2 := by
    intro g
    apply Finset.sum_congr rfl
    intro n hn
    rw [Finset.mem_range] at hn
    simp only [hw]; rw [if_pos hn]
  rw [s1, s2, s3, s0, s0, Real.sinh_two_mul, Finset.mul_sum, Finset.mul_sum]
  have : ∀ A B C D : ℝ, A = B + C → A = B + C - 2 * Real.cosh r * Real.sinh r * D +
      2 * Real.sinh r * Real.cosh r * D := by intro A B C D h; rw [h]; ring
  apply this
  rw [← Finset.sum_add_distrib]
  apply Finset.sum_congr rfl
  intro n _
  have hc := Real.cosh_sq r
  rw [Real.cosh_two_mul, hc]
  ring

/-- C34, positivity. -/
theorem energy_nonneg (omega r : ℝ) (ho : 0 ≤ omega) (mdim : ℕ) (v : ℕ → ℝ) :
    0 ≤ modeEnergy omega r mdim v := by
  unfold modeEnergy
  refine mul_nonneg ho (Finset.sum_nonneg fun n _ => mul_nonneg (mul_self_nonneg _) ?_)
  have h := Real.one_le_cosh (2 * r)
  have hn : (0 : ℝ) ≤ n := Nat.cast_nonneg n
  nlinarith

/-- C34, gradient: exact derivative in the squeezing parameter at fixed amplitudes. -/
theorem energy_gradient (omega r : ℝ) (mdim : ℕ) (v : ℕ → ℝ) :
    HasDerivAt (fun F => modeEnergy omega F mdim v) (modeEnergyGrad omega r mdim v) r := by
  unfold modeEnergy modeEnergyGrad
  refine HasDerivAt.const_mul omega ?_
  refine HasDerivAt.fun_sum fun n _ => ?_
  have h1 : HasDerivAt (fun F : ℝ => 2 * F) 2 r := by
    simpa using (hasDerivAt_id r).const_mul (2 : ℝ)
  have h2 := h1.cosh
  refine ((((h2.const_mul ((n : ℝ) + 1 / 2)).sub_const (1 / 2)).const_mul (v n * v n))).congr_deriv ?_
  ring

/-- C34, part: the energy is that of the squeezed number operator when the state has no
coherence between `n` and `n + 2`.  Missing: the states the code obtains with a residual coupling
and at least three photon states do have it, see `squeezed_energy_fails`. -/
theorem squeezed_energy_partial (omega r : ℝ) (mdim : ℕ) (v : ℕ → ℝ)
    (h : ∀ n, n + 2 < mdim → v n * v (n + 2) = 0) :
    modeEnergy omega r mdim v = omega * squeezedNumber r mdim v := by
  rw [energy_identity, Finset.sum_eq_zero, mul_zero, add_zero]
  intro n hn
  rw [Finset.mem_range] at hn
  rw [h n (by omega), mul_zero]

/-- A squeezed state with the one-photon amplitude occupied as well. -/
example : ∃ v : ℕ → ℝ, v 0 ≠ 0 ∧ v 1 ≠ 0 ∧ ∀ n, n + 2 < 2 → v n * v (n + 2) = 0 :=
  ⟨fun _ => 1, by norm_num, by norm_num, by omega⟩

/-- C34 fails: there is a unit ground state of the code's own Hamiltonian for one mode with three
photon states whose reported energy is not the one of the squeezed number operator. -/
theorem squeezed_energy_fails :
    ∃ (m : Mode) (v : ℕ → ℝ) (e : ℝ), m.mdim = 3 ∧ m.omega = 1 ∧
      (∑ n ∈ Finset.range 3, v n ^ 2 = 1) ∧
      (∀ a < 3, ∑ b ∈ Finset.range 3, (bosonicHam [m]).1 a b * v b = e * v a) ∧
      (∀ w : ℕ → ℝ, e * ∑ a ∈ Finset.range 3, w a ^ 2 ≤
        ∑ a ∈ Finset.range 3, ∑ b ∈ Finset.range 3, w a * (bosonicHam [m]).1 a b * w b) ∧
      modeEnergy m.omega m.F 3 v ≠ m.omega * squeezedNumber m.F 3 v := by
  have hH : ∀ (m : Mode), m.mdim = 3 → ∀ a < 3, ∀ b < 3,
      (bosonicHam [m]).1 a b = modeBlock m.omega m.za m.F a b := by
    intro m hm a ha b hb
    have h := ham_entry [m] 0 0 (by simp) (by simp) a b (by simpa [hm] using ha)
      (by simpa [hm] using hb)
    simpa [offset] using h
  set W : ℝ := Real.cosh (2 * 1) with hW
  have hWpos : 0 < W := Real.cosh_pos _
  set q : ℝ := Real.sqrt 2 with hq
  have hq2 : q * q = 2 := Real.mul_self_sqrt (by norm_num)
  have hqpos : 0 < q := Real.sqrt_pos.mpr (by norm_num)
  let m : Mode := ⟨3, 1, (2 + q) * W, 1⟩
  let v : ℕ → ℝ := fun n => if n = 1 then -q / 2 else 1 / 2
  set s := Real.sinh 1 * Real.sinh 1 with hs
  have hB : ∀ a < 3, ∀ b < 3, (bosonicHam [m]).1 a b = modeBlock 1 ((2 + q) * W) 1 a b :=
    fun a ha b hb => hH m rfl a ha b hb
  have b00 := hB 0 (by omega) 0 (by omega)
  have b01 := hB 0 (by omega) 1 (by omega)
  have b02 := hB 0 (by omega) 2 (by omega)
  have b10 := hB 1 (by omega) 0 (by omega)
  have b11 := hB 1 (by omega) 1 (by omega)
  have b12 := hB 1 (by omega) 2 (by omega)
  have b20 := hB 2 (by omega) 0 (by omega)
  have b21 := hB 2 (by omega) 1 (by omega)
  have b22 := hB 2 (by omega) 2 (by omega)
  have h2 : Real.sqrt ((1 : ℝ) + 1) = q := by rw [hq]; norm_num
  simp [modeBlock, h2] at b00 b01 b02 b10 b11 b12 b20 b21 b22
  have hc2 : Real.cosh 2 = W := by rw [hW]; norm_num
  simp only [hc2] at b00 b01 b02 b10 b11 b12 b20 b21 b22
  refine ⟨m, v, s - q * ((2 + q) * W), rfl, rfl, ?_, ?_, ?_, ?_⟩
  · simp [Finset.sum_range_succ, v]
    nlinarith
  · intro a ha
    simp only [Finset.sum_range_succ, Finset.sum_range_zero, zero_add]
    have : a = 0 ∨ a = 1 ∨ a = 2 := by omega
    rcases this with rfl | rfl | rfl
    · rw [b00, b01, b02]; simp [v]; ring
    · rw [b10, b11, b12]; simp [v]; linear_combination (-(W * (1 + q) / 2) * 1) * hq2
    · rw [b20, b21, b22]; simp [v]; linear_combination (-(W * (1 + q) / 2)) * hq2
  · intro w
    simp only [Finset.sum_range_succ, Finset.sum_range_zero, zero_add]
    rw [b00, b01, b02, b10, b11, b12, b20, b21, b22]
    have hp : 0 ≤ (2 + q) * W * (q * (w 0 + w 1 * (q / 2)) ^ 2 + 2 * (w 2 + w 1 * (q / 2)) ^ 2) := by
      positivity
    rw [← sub_nonneg]
    refine hp.trans_eq ?_
    linear_combination (W * w 0 * w 1 * (2 + q) - W * w 2 ^ 2 +
      W * w 1 ^ 2 * (q + (q ^ 2 + 2) / 4)) * hq2
  · rw [energy_identity]
    have h3 : Finset.range (3 - 2) = {0} := by decide
    have hsh : 0 < Real.sinh (2 * 1) := Real.sinh_pos_iff.mpr (by norm_num)
    rw [h3, Finset.sum_singleton]
    simp only [m, v]
    norm_num

/-! ### C80 -/

theorem populations_spec (l : List Mode) (c : ℕ → ℝ) :
    (populations l c).2 = (l.map Mode.mdim).sum ∧ (populations l c).1.length = l.length ∧
    (populations l c).1.sum = ∑ n ∈ Finset.range (l.map Mode.mdim).sum, c n ^ 2 := by
  induction l using List.reverseRecOn with
  | nil => simp [populations]
  | append_singleton l m ih =>
    obtain ⟨h1, h2, h3⟩ := ih
    have e : populations (l ++ [m]) c =
        ((populations l c).1 ++ [∑ n ∈ Finset.range m.mdim,
          c ((populations l c).2 + n) * c ((populations l c).2 + n)],
          (populations l c).2 + m.mdim) := by
      unfold populations; rw [List.foldl_append]; rfl
    rw [e]
    refine ⟨by simp [h1], by simp [h2], ?_⟩
    simp only [List.sum_append, h3, h1, List.sum_cons, List.sum_nil, add_zero, List.map_append,
      List.map_cons, List.map_nil]
    rw [Finset.sum_range_add]
    congr 1
    apply Finset.sum_congr rfl
    intro n _
    ring

/-- C34, several modes: the total photon energy is the sum over modes, each with its own
frequency, squeezing and slice of the amplitudes. -/
theorem photon_energy_modes (l : List Mode) (c : ℕ → ℝ) :
    (photonEnergy l c).1 = ∑ k : Fin l.length, l[k].omega * ∑ n ∈ Finset.range l[k].mdim,
      c (offset l k + n) ^ 2 * ((n + 1 / 2) * Real.cosh (2 * l[k].F) - 1 / 2) := by
  have h : (photonEnergy l c).2 = (l.map Mode.mdim).sum ∧
      (photonEnergy l c).1 = ∑ k ∈ Finset.range l.length, if hk : k < l.length then
        l[k].omega * ∑ n ∈ Finset.range l[k].mdim,
          c (offset l k + n) ^ 2 * ((n + 1 / 2) * Real.cosh (2 * l[k].F) - 1 / 2) else 0 := by
    induction l using List.reverseRecOn with
    | nil => simp [photonEnergy]
    | append_singleton l m ih =>
      obtain ⟨h1, h2⟩ := ih
      have e : photonEnergy (l ++ [m]) c =
          ((photonEnergy l c).1 + modeEnergy m.omega m.F m.mdim
            (fun n => c ((photonEnergy l c).2 + n)), (photonEnergy l c).2 + m.mdim) := by
        unfold photonEnergy; rw [List.foldl_append]; rfl
      rw [e]
      refine ⟨by simp [h1], ?_⟩
      rw [show Finset.range (l ++ [m]).length = Finset.range (l.length + 1) by simp,
        Finset.sum_range_succ]
      simp only [h2, h1]
      congr 1
      · refine Finset.sum_congr rfl fun k hk => ?_
        have hk := Finset.mem_range.1 hk
        rw [dif_pos hk, dif_pos (by simp; omega)]
        simp only [List.getElem_append_left hk, offset_append l m k hk.le]
      · rw [dif_pos (by simp)]
        simp only [List.getElem_concat_length, modeEnergy, offset_append l m l.length le_rfl,
          offset_length, pow_two]
  rw [h.2, Finset.sum_range]
  exact Finset.sum_congr rfl fun k _ => by rw [dif_pos k.2]; rfl

/-- C80, part: with one mode the photon populations are normalised. -/
theorem populations_partial (m : Mode) (c : ℕ → ℝ)
    (hc : ∑ n ∈ Finset.range m.mdim, c n ^ 2 = 1) : (populations [m] c).1 = [1] := by
  obtain ⟨_, h2, h3⟩ := populations_spec [m] c
  obtain ⟨x, hx⟩ := List.length_eq_one_iff.mp h2
  rw [hx] at h3 ⊢
  simp only [List.sum_cons, List.sum_nil, add_zero, List.map_cons, List.map_nil] at h3
  rw [h3, hc]

example : (populations [⟨2, 1, 0, 0⟩] (fun n => if n = 0 then 3 / 5 else 4 / 5)).1 = [1] :=
  populations_partial _ _ (by norm_num [Finset.sum_range_succ])

/-- C80 fails: with two or more modes, no normalised eigenvector of the whole photon Hamiltonian
gives normalised populations of all modes, because the populations of all modes together sum
to one. -/
theorem populations_fails (l : List Mode) (hl : 2 ≤ l.length) (c : ℕ → ℝ)
    (hc : ∑ n ∈ Finset.range (l.map Mode.mdim).sum, c n ^ 2 = 1) :
    ¬ ∀ p ∈ (populations l c).1, p = 1 := by
  intro h
  obtain ⟨_, h2, h3⟩ := populations_spec l c
  rw [List.eq_replicate_of_mem h, h2, List.sum_replicate, nsmul_eq_mul, mul_one, hc] at h3
  have : l.length = 1 := by exact_mod_cast h3
  omega

/-! ### C37 -/

/-- Euclidean length. -/
noncomputable def length3 (v : Fin 3 → ℝ) : ℝ := Real.sqrt (v 0 ^ 2 + v 1 ^ 2 + v 2 ^ 2)

theorem length3_eq (v : Fin 3 → ℝ) : Real.sqrt (∑ i, v i * v i) = length3 v := by
  unfold length3; congr 1; rw [Fin.sum_univ_three]; ring

theorem length3_div (v : Fin 3 → ℝ) (h : 0 < length3 v) :
    length3 (fun i => v i / length3 v) = 1 := by
  have h0 : 0 < v 0 ^ 2 + v 1 ^ 2 + v 2 ^ 2 := Real.sqrt_pos.mp h
  have hs : length3 v ^ 2 = v 0 ^ 2 + v 1 ^ 2 + v 2 ^ 2 := Real.sq_sqrt h0.le
  rw [show length3 (fun i => v i / length3 v) =
    Real.sqrt ((v 0 / length3 v) ^ 2 + (v 1 / length3 v) ^ 2 + (v 2 / length3 v) ^ 2) from rfl]
  rw [div_pow, div_pow, div_pow, ← add_div, ← add_div, hs, div_self h0.ne', Real.sqrt_one]

/-- C37, part: a list argument, or vectors of length one, are left unchanged and the couplings of
a second object built from the caller's data are those of the first; explicit couplings are always
taken as given.  Missing: arrays with other vectors, see `mode_vectors_fails`. -/
theorem mode_vectors_partial (isArray : Bool) (vec : List (Fin 3 → ℝ)) (gfac : Option (List ℝ))
    (h : isArray = false ∨ ∀ v ∈ vec, length3 v = 1) :
    (buildModes isArray vec gfac).1 = vec ∧
    buildModes isArray (buildModes isArray vec gfac).1 gfac = buildModes isArray vec gfac ∧
    (∀ g, (buildModes isArray vec (some g)).2.2 = g) ∧
    (buildModes isArray vec none).2.2 = vec.map length3 := by
  have h1 : (buildModes isArray vec gfac).1 = vec := by
    rcases h with h | h
    · simp [buildModes, h]
    · have : normalise vec = vec := by
        unfold normalise
        conv_rhs => rw [← List.map_id vec]
        apply List.map_congr_left
        intro v hv
        simp only [length3_eq, h v hv]
        simp
      simp [buildModes, this]
  refine ⟨h1, by rw [h1], fun g => rfl, ?_⟩
  simp [buildModes, length3_eq]

/-- C37, stored vectors: whatever the argument, every stored vector times the length of the given
one is the given one, and it has length one unless the given one is shorter than the cut-off, when
it is kept. -/
theorem mode_vectors_stored (isArray : Bool) (vec : List (Fin 3 → ℝ)) (gfac : Option (List ℝ)) :
    (buildModes isArray vec gfac).2.1.length = vec.length ∧
    ∀ (k : ℕ) (v w : Fin 3 → ℝ), vec[k]? = some v → (buildModes isArray vec gfac).2.1[k]? = some w →
      (1e-15 < length3 v → length3 w = 1 ∧ ∀ i, length3 v * w i = v i) ∧
      (length3 v ≤ 1e-15 → w = v) := by
  refine ⟨by simp [buildModes, normalise], ?_⟩
  intro k v w hv hw
  simp only [buildModes, normalise, List.getElem?_map, hv, Option.map_some, Option.some.injEq,
    length3_eq] at hw
  subst hw
  constructor
  · intro h
    have h0 : 0 < length3 v := lt_trans (by norm_num) h
    rw [if_pos h]
    exact ⟨length3_div v h0, fun i => mul_div_cancel₀ _ h0.ne'⟩
  · intro h
    rw [if_neg (not_lt.2 h)]

example : length3 ![3 / 5, 4 / 5, 0] = 1 := by
  show Real.sqrt ((3 / 5 : ℝ) ^ 2 + (4 / 5) ^ 2 + 0 ^ 2) = 1
  norm_num

/-- C37 fails for every array of vectors longer than the cut-off: after the first object is built,
the caller's vectors all have length one, and a second object built from the same array gets all
couplings equal to one, whatever the couplings of the first object were. -/
theorem mode_vectors_fails (vec : List (Fin 3 → ℝ)) (h : ∀ v ∈ vec, 1e-15 < length3 v) :
    (∀ v ∈ (buildModes true vec none).1, length3 v = 1) ∧
    (buildModes true vec none).2.2 = vec.map length3 ∧
    (buildModes true (buildModes true vec none).1 none).2.2 = List.replicate vec.length 1 ∧
    ((∃ v ∈ vec, length3 v ≠ 1) → (buildModes true vec none).1 ≠ vec ∧
      (buildModes true (buildModes true vec none).1 none).2.2 ≠ (buildModes true vec none).2.2) := by
  have hn : ∀ v ∈ normalise vec, length3 v = 1 := by
    intro w hw
    unfold normalise at hw
    rw [List.mem_map] at hw
    obtain ⟨v, hv, e⟩ := hw
    simp only [length3_eq] at e
    rw [if_pos (h v hv)] at e
    rw [← e]
    exact length3_div v (lt_trans (by norm_num) (h v hv))
  have hlen : (normalise vec).length = vec.length := by simp [normalise]
  have h3 : (buildModes true (buildModes true vec none).1 none).2.2 =
      List.replicate vec.length 1 := by
    simp only [buildModes, if_true, Option.getD_none, length3_eq]
    apply List.eq_replicate_iff.mpr
    refine ⟨by simp [hlen], ?_⟩
    intro b hb
    rw [List.mem_map] at hb
    obtain ⟨v, hv, e⟩ := hb
    rw [← e, hn v hv]
  have h2 : (buildModes true vec none).2.2 = vec.map length3 := by
    simp [buildModes, length3_eq]
  refine ⟨by simpa [buildModes] using hn, h2, h3, ?_⟩
  rintro ⟨v, hv, hne⟩
  constructor
  · intro e
    apply hne
    apply hn
    have : normalise vec = vec := by simpa [buildModes] using e
    rw [this]; exact hv
  · rw [h2, h3]
    intro e
    have : length3 v ∈ List.replicate vec.length (1 : ℝ) := by
      rw [e]; exact List.mem_map_of_mem hv
    exact hne (List.eq_of_mem_replicate this)

/-- A coupling of strength two along z. -/
example : length3 ![0, 0, 2] = 2 := by
  show Real.sqrt ((0 : ℝ) ^ 2 + 0 ^ 2 + 2 ^ 2) = 2
  rw [show (0 : ℝ) ^ 2 + 0 ^ 2 + 2 ^ 2 = 2 ^ 2 by norm_num, Real.sqrt_sq (by norm_num)]

end OpenMS.Photon
