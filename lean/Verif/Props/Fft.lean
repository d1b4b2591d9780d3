import Verif.Model.Fft

/-!
# C160: Fourier transform of the far field

`FFT1D` computes the discrete Fourier transform of the first `2 ^ m` elements, for every `m`, with the sign and
scale of the direction, and its loops end; both directions are inverse to each other.  `FFT2D` is the transform in
two dimensions when both sizes are powers of two, and the shift puts frequency zero in the middle.  For other
sizes `FFT2D` leaves the last columns untransformed.
-/

namespace OpenMS.Fft

open Finset

/-! ### Bit reversal -/

/-- The number with the `n` lowest binary digits of `i` in opposite order. -/
def rev : ℕ → ℕ → ℕ
  | 0, _ => 0
  | n + 1, i => rev n (i / 2) + i % 2 * 2 ^ n

theorem rev_lt (n i : ℕ) : rev n i < 2 ^ n := by
  induction n generalizing i with
  | zero => simp [rev]
  | succ n ih =>
    have := ih (i / 2)
    have h2 : i % 2 < 2 := Nat.mod_lt _ (by norm_num)
    rw [rev, pow_succ]
    nlinarith

theorem rev_high (n a p : ℕ) (ha : a < 2 ^ n) (hp : p < 2) : rev (n + 1) (a + p * 2 ^ n) = 2 * rev n a + p := by
  induction n generalizing a with
  | zero =>
    have : a = 0 := by simpa using ha
    subst this
    simp [rev, Nat.mod_eq_of_lt hp]
  | succ n ih =>
    have h1 : (a + p * 2 ^ (n + 1)) / 2 = a / 2 + p * 2 ^ n := by
      rw [pow_succ, ← mul_assoc]
      omega
    have h2 : (a + p * 2 ^ (n + 1)) % 2 = a % 2 := by
      rw [pow_succ, ← mul_assoc]
      omega
    have h3 : a / 2 < 2 ^ n := by
      rw [pow_succ] at ha
      omega
    rw [rev, h1, h2, ih (a / 2) h3]
    conv_rhs => rw [rev]
    rw [pow_succ]
    ring

theorem rev_rev (n i : ℕ) (hi : i < 2 ^ n) : rev n (rev n i) = i := by
  induction n generalizing i with
  | zero =>
    have : i = 0 := by simpa using hi
    subst this
    rfl
  | succ n ih =>
    have h : i / 2 < 2 ^ n := by
      rw [pow_succ] at hi
      omega
    conv_lhs => rw [show rev (n + 1) i = rev n (i / 2) + i % 2 * 2 ^ n from rfl]
    rw [rev_high n _ _ (rev_lt n _) (Nat.mod_lt _ (by norm_num)), ih _ h]
    omega

theorem carry_rev (n i : ℕ) (hi : i + 1 < 2 ^ (n + 1)) :
    carry (2 ^ n) (rev (n + 1) i) = some (rev (n + 1) (i + 1)) := by
  induction n generalizing i with
  | zero =>
    have : i = 0 := by
      simp at hi
      omega
    subst this
    rw [carry]
    simp [rev]
  | succ n ih =>
    have hpos : (2 : ℕ) ^ (n + 1) ≠ 0 := by positivity
    rw [carry, if_neg hpos]
    rcases Nat.mod_two_eq_zero_or_one i with h | h
    · have h1 : rev (n + 1 + 1) i = rev (n + 1) (i / 2) := by
        rw [rev, h]
        ring
      have h2 : rev (n + 1 + 1) (i + 1) = rev (n + 1) (i / 2) + 2 ^ (n + 1) := by
        rw [rev, show (i + 1) / 2 = i / 2 by omega, show (i + 1) % 2 = 1 by omega]
        ring
      have := rev_lt (n + 1) (i / 2)
      rw [h1, h2, if_neg (by omega)]
    · have h1 : rev (n + 1 + 1) i = rev (n + 1) (i / 2) + 2 ^ (n + 1) := by
        rw [rev, h]
        ring
      have h2 : rev (n + 1 + 1) (i + 1) = rev (n + 1) (i / 2 + 1) := by
        rw [rev, show (i + 1) / 2 = i / 2 + 1 by omega, show (i + 1) % 2 = 0 by omega]
        ring
      rw [h1, h2, if_pos (by omega), show 2 ^ (n + 1) / 2 = 2 ^ n by rw [pow_succ]; omega, Nat.add_sub_cancel]
      refine ih _ ?_
      rw [pow_succ] at hi
      omega

/-- The order of the elements after the first `n` passes. -/
def order (m n p : ℕ) : ℕ := if p < 2 ^ m ∧ (p < n ∨ rev m p < n) then rev m p else p

theorem swap_eq (i j : ℕ) (s : Arrays) :
    swap i j s = (fun p => s.1 (Equiv.swap i j p), fun p => s.2 (Equiv.swap i j p)) := by
  have key : ∀ f : ℕ → ℝ, Function.update (Function.update f i (f j)) j (f i) = fun p => f (Equiv.swap i j p) := by
    intro f
    funext p
    rw [Equiv.swap_apply_def]
    by_cases hj : p = j
    · subst hj
      rw [Function.update_self]
      by_cases hi : p = i
      · rw [if_pos hi]
        rw [hi]
      · rw [if_neg hi, if_pos rfl]
    · rw [Function.update_of_ne hj, if_neg hj]
      by_cases hi : p = i
      · subst hi
        rw [Function.update_self, if_pos rfl]
      · rw [Function.update_of_ne hi, if_neg hi]
  unfold swap
  dsimp only
  rw [key, key]

theorem order_succ (m n p : ℕ) (hn : n < 2 ^ m) :
    order m (n + 1) p = if n < rev m n then order m n (Equiv.swap n (rev m n) p) else order m n p := by
  have hr := rev_lt m n
  have hrr := rev_rev m n hn
  have inv : ∀ q, q < 2 ^ m → (rev m q = n ↔ q = rev m n) := fun q hq => by
    constructor
    · intro h
      rw [← h, rev_rev m q hq]
    · rintro rfl
      exact hrr
  by_cases h : n < rev m n
  · rw [if_pos h, Equiv.swap_apply_def]
    by_cases h1 : p = n
    · subst h1
      rw [if_pos rfl, order, order, if_pos ⟨hn, Or.inl (by omega)⟩, if_neg (by rw [hrr]; omega)]
    · rw [if_neg h1]
      by_cases h2 : p = rev m n
      · rw [if_pos h2, h2, order, order, if_pos ⟨hr, Or.inr (by rw [hrr]; omega)⟩, hrr, if_neg (by omega)]
      · rw [if_neg h2, order, order]
        by_cases hp : p < 2 ^ m
        · have := inv p hp
          refine if_congr ?_ rfl rfl
          constructor
          · rintro ⟨a, b⟩
            refine ⟨a, ?_⟩
            rcases b with b | b
            · left; omega
            · right
              have : rev m p ≠ n := fun e => h2 (this.1 e)
              omega
          · rintro ⟨a, b⟩
            exact ⟨a, by omega⟩
        · rw [if_neg (by tauto), if_neg (by tauto)]
  · rw [if_neg h, order, order]
    by_cases hp : p < 2 ^ m
    · by_cases h1 : p = n
      · subst h1
        rw [if_pos ⟨hp, Or.inl (by omega)⟩]
        by_cases h2 : rev m p < p
        · rw [if_pos ⟨hp, Or.inr h2⟩]
        · rw [if_neg (by omega)]
          omega
      · have := inv p hp
        by_cases h2 : rev m p = n
        · have h3 := this.1 h2
          rw [if_pos ⟨hp, Or.inr (by omega)⟩, if_pos ⟨hp, Or.inl (by omega)⟩]
        · refine if_congr ?_ rfl rfl
          constructor
          · rintro ⟨a, b⟩
            exact ⟨a, by omega⟩
          · rintro ⟨a, b⟩
            exact ⟨a, by omega⟩
    · rw [if_neg (by tauto), if_neg (by tauto)]

theorem reverse_loop (m : ℕ) (s : Arrays) (n : ℕ) (hn : n < 2 ^ m) :
    (List.range n).foldl (reverseStep (2 ^ m / 2)) (some (s, 0)) =
      some ((fun p => s.1 (order m n p), fun p => s.2 (order m n p)), rev m n) := by
  induction n with
  | zero =>
    have h0 : rev m 0 = 0 := by
      clear hn
      induction m with
      | zero => rfl
      | succ m ih => simp [rev, ih]
    have : ∀ p, order m 0 p = p := fun p => by simp [order]
    simp [this, h0]
  | succ n ih =>
    rw [List.range_succ, List.foldl_append, ih (by omega), List.foldl_cons, List.foldl_nil]
    obtain ⟨k, rfl⟩ : ∃ k, m = k + 1 := by
      cases m with
      | zero => simp at hn
      | succ k => exact ⟨k, rfl⟩
    unfold reverseStep
    rw [Option.bind_some, show 2 ^ (k + 1) / 2 = 2 ^ k by rw [pow_succ]; omega, carry_rev k n hn, Option.map_some]
    dsimp only
    congr 2
    have ho := fun p => order_succ (k + 1) n p (by omega)
    by_cases h : n < rev (k + 1) n
    · rw [if_pos h, swap_eq]
      refine Prod.ext (funext fun p => ?_) (funext fun p => ?_) <;> dsimp only <;> rw [ho, if_pos h]
    · rw [if_neg h]
      refine Prod.ext (funext fun p => ?_) (funext fun p => ?_) <;> dsimp only <;> rw [ho, if_neg h]

theorem order_last (m p : ℕ) : order m (2 ^ m - 1) p = if p < 2 ^ m then rev m p else p := by
  unfold order
  by_cases hp : p < 2 ^ m
  · rw [if_pos hp]
    by_cases h : p < 2 ^ m - 1 ∨ rev m p < 2 ^ m - 1
    · rw [if_pos ⟨hp, h⟩]
    · rw [if_neg (by tauto)]
      have := rev_lt m p
      omega
  · rw [if_neg (by tauto), if_neg hp]

theorem bitReversal_eq (m : ℕ) (s : Arrays) : bitReversal (2 ^ m) s =
    some (fun p => s.1 (if p < 2 ^ m then rev m p else p), fun p => s.2 (if p < 2 ^ m then rev m p else p)) := by
  have : 0 < 2 ^ m := by positivity
  unfold bitReversal
  rw [reverse_loop m s _ (by omega), Option.map_some]
  simp only [order_last]

/-! ### Complex form of the loops -/

/-- The complex numbers of two arrays. -/
def toC (s : Arrays) (p : ℕ) : ℂ := ⟨s.1 p, s.2 p⟩

/-- A butterfly of complex numbers. -/
noncomputable def cbutterfly (l1 : ℕ) (u : ℂ) (z : ℕ → ℂ) (i : ℕ) : ℕ → ℂ := fun p =>
  if p = i then z i + u * z (i + l1) else if p = i + l1 then z i - u * z (i + l1) else z p

theorem toC_butterfly (l1 : ℕ) (hl : 0 < l1) (u1 u2 : ℝ) (s : Arrays) (i : ℕ) :
    toC (butterfly l1 u1 u2 s i) = cbutterfly l1 ⟨u1, u2⟩ (toC s) i := by
  funext p
  unfold cbutterfly toC butterfly
  dsimp only
  by_cases h1 : p = i
  · subst h1
    rw [if_pos rfl, Function.update_self, Function.update_self, Function.update_of_ne (by omega),
      Function.update_of_ne (by omega)]
    apply Complex.ext <;> simp
  · rw [if_neg h1, Function.update_of_ne h1, Function.update_of_ne h1]
    by_cases h2 : p = i + l1
    · subst h2
      rw [if_pos rfl, Function.update_self, Function.update_self]
      apply Complex.ext <;> simp
    · rw [if_neg h2, Function.update_of_ne h2, Function.update_of_ne h2]

theorem toC_foldl (l1 : ℕ) (hl : 0 < l1) (u1 u2 : ℝ) (l : List ℕ) (s : Arrays) :
    toC (l.foldl (butterfly l1 u1 u2) s) = l.foldl (cbutterfly l1 ⟨u1, u2⟩) (toC s) := by
  induction l generalizing s with
  | nil => rfl
  | cons a l ih => rw [List.foldl_cons, List.foldl_cons, ih, toC_butterfly l1 hl]

theorem strides_eq (j l2 B : ℕ) (hj : j < l2) : strides j (l2 * B) l2 = (List.range B).map fun b => j + b * l2 := by
  unfold strides
  congr 2
  have hl : 0 < l2 := by omega
  rcases Nat.eq_zero_or_pos B with rfl | hB
  · rw [mul_zero, Nat.zero_sub, zero_add]
    exact Nat.div_eq_of_lt (by omega)
  · have : l2 ≤ l2 * B := Nat.le_mul_of_pos_right _ hB
    rw [show l2 * B - j + (l2 - 1) = (l2 - 1 - j) + l2 * B by omega, Nat.add_mul_div_left _ _ hl,
      Nat.div_eq_of_lt (by omega), zero_add]

/-- The loop over `i` acts in every block at the places `j` and `j + l1`. -/
theorem inner_loop (l1 j : ℕ) (hj : j < l1) (u : ℂ) (z : ℕ → ℂ) (n : ℕ) :
    ((List.range n).map fun b => j + b * (2 * l1)).foldl (cbutterfly l1 u) z = fun p =>
      if p / (2 * l1) < n then
        (if p % (2 * l1) = j then z p + u * z (p + l1) else if p % (2 * l1) = j + l1 then z (p - l1) - u * z p else z p)
      else z p := by
  induction n with
  | zero => simp
  | succ n ih =>
    rw [List.range_succ, List.map_append, List.foldl_append, ih]
    simp only [List.map_cons, List.map_nil, List.foldl_cons, List.foldl_nil]
    have hl : 0 < 2 * l1 := by omega
    have d0 : (j + n * (2 * l1)) / (2 * l1) = n := by
      rw [Nat.add_mul_div_right _ _ hl, Nat.div_eq_of_lt (by omega), zero_add]
    have d1 : (j + n * (2 * l1) + l1) / (2 * l1) = n := by
      rw [show j + n * (2 * l1) + l1 = (j + l1) + n * (2 * l1) by ring, Nat.add_mul_div_right _ _ hl,
        Nat.div_eq_of_lt (by omega), zero_add]
    have m0 : (j + n * (2 * l1)) % (2 * l1) = j := by
      rw [Nat.add_mul_mod_self_right, Nat.mod_eq_of_lt (by omega)]
    have m1 : (j + n * (2 * l1) + l1) % (2 * l1) = j + l1 := by
      rw [show j + n * (2 * l1) + l1 = (j + l1) + n * (2 * l1) by ring, Nat.add_mul_mod_self_right,
        Nat.mod_eq_of_lt (by omega)]
    funext p
    unfold cbutterfly
    dsimp only
    by_cases h0 : p = j + n * (2 * l1)
    · subst h0
      rw [if_pos rfl, d0, d1, if_neg (lt_irrefl n), if_neg (lt_irrefl n), if_pos (Nat.lt_succ_self n), if_pos m0]
    · rw [if_neg h0]
      by_cases h1 : p = j + n * (2 * l1) + l1
      · subst h1
        rw [if_pos rfl, d0, d1, if_neg (lt_irrefl n), if_neg (lt_irrefl n), if_pos (Nat.lt_succ_self n), m1,
          if_neg (by omega), if_pos rfl, Nat.add_sub_cancel]
      · rw [if_neg h1]
        by_cases hq : p / (2 * l1) < n
        · rw [if_pos hq, if_pos (show p / (2 * l1) < n + 1 by omega)]
        · rw [if_neg hq]
          by_cases hq' : p / (2 * l1) < n + 1
          · have he : p / (2 * l1) = n := by omega
            have hp := Nat.div_add_mod p (2 * l1)
            rw [he] at hp
            have e0 : p % (2 * l1) ≠ j := fun e => h0 (by rw [e] at hp; rw [← hp]; ring)
            have e1 : p % (2 * l1) ≠ j + l1 := fun e => h1 (by rw [e] at hp; rw [← hp]; ring)
            rw [if_pos hq', if_neg e0, if_neg e1]
          · rw [if_neg hq']

theorem mod_add_half {p l1 : ℕ} (h : p % (2 * l1) < l1) : (p + l1) % (2 * l1) = p % (2 * l1) + l1 := by
  rw [Nat.add_mod, Nat.mod_eq_of_lt (show l1 < 2 * l1 by omega), Nat.mod_eq_of_lt (by omega)]

theorem mod_sub_half {p l1 : ℕ} (h : l1 ≤ p % (2 * l1)) (hl : 0 < l1) : (p - l1) % (2 * l1) = p % (2 * l1) - l1 := by
  have h1 := Nat.mod_lt p (show 0 < 2 * l1 by omega)
  have h2 := Nat.mod_le p (2 * l1)
  have h3 : (p - l1) % (2 * l1) < l1 := by
    by_contra hc
    push Not at hc
    have h4 := Nat.div_add_mod p (2 * l1)
    have h5 : p - l1 = (p % (2 * l1) - l1) + 2 * l1 * (p / (2 * l1)) := by omega
    rw [h5, Nat.add_mul_mod_self_left, Nat.mod_eq_of_lt (by omega)] at hc
    omega
  have := mod_add_half h3
  rw [Nat.sub_add_cancel (by omega)] at this
  omega

theorem div_add_half {p l1 : ℕ} (h : p % (2 * l1) < l1) : (p + l1) / (2 * l1) = p / (2 * l1) := by
  have h4 := Nat.div_add_mod p (2 * l1)
  rw [show p + l1 = (p % (2 * l1) + l1) + 2 * l1 * (p / (2 * l1)) by omega, Nat.add_mul_div_left _ _ (by omega),
    Nat.div_eq_of_lt (by omega), zero_add]

/-- The state of the loop over `j` after `n` passes. -/
noncomputable def half (l1 : ℕ) (c : ℂ) (z : ℕ → ℂ) (n p : ℕ) : ℂ :=
  if p % (2 * l1) < n then z p + c ^ (p % (2 * l1)) * z (p + l1)
  else if l1 ≤ p % (2 * l1) ∧ p % (2 * l1) - l1 < n then z (p - l1) - c ^ (p % (2 * l1) - l1) * z p
  else z p

theorem outer_loop (l1 B : ℕ) (hl : 0 < l1) (c1 c2 : ℝ) (s : Arrays) (n : ℕ) (hn : n ≤ l1) :
    let r := (List.range n).foldl (column (2 * l1 * B) l1 (2 * l1) c1 c2) (s, 1, 0)
    (toC r.1 = fun p => if p / (2 * l1) < B then half l1 ⟨c1, c2⟩ (toC s) n p else toC s p) ∧
      (⟨r.2.1, r.2.2⟩ : ℂ) = (⟨c1, c2⟩ : ℂ) ^ n := by
  induction n with
  | zero =>
    simp only [List.range_zero, List.foldl_nil, pow_zero]
    refine ⟨?_, rfl⟩
    funext p
    unfold half
    have e0 : ¬p % (2 * l1) < 0 := by omega
    have e1 : ¬(l1 ≤ p % (2 * l1) ∧ p % (2 * l1) - l1 < 0) := by omega
    rw [if_neg e0, if_neg e1, ite_self]
  | succ n ih =>
    obtain ⟨h1, h2⟩ := ih (by omega)
    intro r
    have hr : r = column (2 * l1 * B) l1 (2 * l1) c1 c2
        ((List.range n).foldl (column (2 * l1 * B) l1 (2 * l1) c1 c2) (s, 1, 0)) n := by
      simp only [r]
      rw [List.range_succ, List.foldl_append, List.foldl_cons, List.foldl_nil]
    obtain ⟨R, hR⟩ : ∃ R, R = (List.range n).foldl (column (2 * l1 * B) l1 (2 * l1) c1 c2) (s, 1, 0) := ⟨_, rfl⟩
    rw [← hR] at h1 h2 hr
    rw [hr]
    unfold column
    dsimp only
    constructor
    · rw [toC_foldl l1 hl, strides_eq n (2 * l1) B (by omega), inner_loop l1 n (by omega), h1, h2]
      obtain ⟨Z, hZ⟩ : ∃ Z, Z = toC s := ⟨_, rfl⟩
      rw [← hZ]
      funext p
      by_cases hB : p / (2 * l1) < B
      · rw [if_pos hB, if_pos hB]
        dsimp only
        have hm := Nat.mod_lt p (show 0 < 2 * l1 by omega)
        by_cases e0 : p % (2 * l1) = n
        · have hlt : p % (2 * l1) < l1 := by omega
          rw [if_pos e0, if_pos hB, div_add_half hlt, if_pos hB]
          unfold half
          rw [mod_add_half hlt, if_neg (by omega), if_neg (by omega), if_neg (by omega), if_neg (by omega),
            if_pos (by omega), e0]
        · rw [if_neg e0]
          by_cases e1 : p % (2 * l1) = n + l1
          · have hge : l1 ≤ p % (2 * l1) := by omega
            have hpl : l1 ≤ p := hge.trans (Nat.mod_le _ _)
            have hms := mod_sub_half hge hl
            have hd : (p - l1) / (2 * l1) = p / (2 * l1) := by
              have := div_add_half (p := p - l1) (l1 := l1) (by omega)
              rw [Nat.sub_add_cancel hpl] at this
              exact this.symm
            rw [if_pos e1, if_pos hB, hd, if_pos hB]
            unfold half
            rw [hms, if_neg (by omega), if_neg (by omega), if_neg (by omega), if_neg (by omega), if_neg (by omega),
              if_pos (by omega), e1, Nat.add_sub_cancel]
          · rw [if_neg e1, if_pos hB]
            unfold half
            by_cases f0 : p % (2 * l1) < n
            · rw [if_pos f0, if_pos (by omega)]
            · rw [if_neg f0, if_neg (show ¬p % (2 * l1) < n + 1 by omega)]
              refine if_congr ?_ rfl rfl
              omega
      · rw [if_neg hB, if_neg hB]
        dsimp only
        rw [if_neg hB]
    · rw [pow_succ, ← h2]
      apply Complex.ext <;> simp

/-- One pass of the loop over `l`. -/
theorem stage_a (dir : ℤ) (l1 B : ℕ) (hl : 0 < l1) (s : Stage) (hs : s.l2 = l1) (p : ℕ) :
    toC (stage dir (2 * l1 * B) s).a p = if p / (2 * l1) < B then
      (if p % (2 * l1) < l1 then toC s.a p + (⟨s.c1, s.c2⟩ : ℂ) ^ (p % (2 * l1)) * toC s.a (p + l1)
        else toC s.a (p - l1) - (⟨s.c1, s.c2⟩ : ℂ) ^ (p % (2 * l1) - l1) * toC s.a p)
      else toC s.a p := by
  have h := congrFun (outer_loop l1 B hl s.c1 s.c2 s.a l1 le_rfl).1 p
  unfold stage
  dsimp only
  rw [hs, h]
  refine if_congr Iff.rfl ?_ rfl
  unfold half
  have hm := Nat.mod_lt p (show 0 < 2 * l1 by omega)
  by_cases h0 : p % (2 * l1) < l1
  · rw [if_pos h0, if_pos h0]
  · rw [if_neg h0, if_neg h0, if_pos (by omega)]

/-! ### Roots of unity -/

/-- The sign of the exponent: `-1` for the forward transform. -/
noncomputable def sgn (dir : ℤ) : ℂ := if dir = 1 then -1 else 1

/-- The factor of the butterflies of stage `l`. -/
noncomputable def root (dir : ℤ) (l : ℕ) : ℂ := Complex.exp (sgn dir * (Real.pi * Complex.I) / 2 ^ l)

theorem root_sq (dir : ℤ) (l : ℕ) : root dir (l + 1) ^ 2 = root dir l := by
  unfold root
  rw [← Complex.exp_nat_mul]
  congr 1
  rw [pow_succ]
  field_simp
  push_cast
  ring

theorem root_pow (dir : ℤ) (l : ℕ) : root dir l ^ 2 ^ l = -1 := by
  induction l with
  | zero =>
    unfold root sgn
    split_ifs
    · rw [pow_zero, pow_zero, div_one, pow_one, neg_one_mul, Complex.exp_neg, Complex.exp_pi_mul_I]
      norm_num
    · rw [pow_zero, pow_zero, div_one, pow_one, one_mul, Complex.exp_pi_mul_I]
  | succ l ih =>
    rw [pow_succ', pow_mul, root_sq, ih]

/-- The factors of the loop are the roots of unity. -/
theorem stage_c (dir : ℤ) (l : ℕ) (nn : ℕ) (a : Arrays) :
    let s := (stage dir nn)^[l] ⟨a, 1, -1, 0⟩
    s.l2 = 2 ^ l ∧ s.c1 = Real.cos (Real.pi / 2 ^ l) ∧
      s.c2 = (if dir = 1 then -Real.sin (Real.pi / 2 ^ l) else Real.sin (Real.pi / 2 ^ l)) := by
  induction l with
  | zero => simp
  | succ l ih =>
    obtain ⟨h1, h2, h3⟩ := ih
    rw [Function.iterate_succ_apply']
    obtain ⟨S, hS⟩ : ∃ S, S = (stage dir nn)^[l] ⟨a, 1, -1, 0⟩ := ⟨_, rfl⟩
    rw [← hS] at h1 h2 h3 ⊢
    have hp := Real.pi_pos
    have hle : Real.pi / 2 ^ l ≤ Real.pi := div_le_self hp.le (one_le_pow₀ (by norm_num))
    have h0 : 0 ≤ Real.pi / 2 ^ l := by positivity
    have e : Real.pi / 2 ^ (l + 1) = Real.pi / 2 ^ l / 2 := by
      rw [pow_succ]
      field_simp
    refine ⟨?_, ?_, ?_⟩
    · show 2 * S.l2 = _
      rw [h1, pow_succ']
    · show Real.sqrt ((1 + S.c1) / 2) = _
      rw [h2, e, Real.cos_half (by linarith) hle]
    · show (if dir = 1 then -Real.sqrt ((1 - S.c1) / 2) else Real.sqrt ((1 - S.c1) / 2)) = _
      rw [h2, e, Real.sin_half_eq_sqrt h0 (by linarith)]

theorem stage_root (dir : ℤ) (l : ℕ) (nn : ℕ) (a : Arrays) :
    let s := (stage dir nn)^[l] ⟨a, 1, -1, 0⟩
    (⟨s.c1, s.c2⟩ : ℂ) = root dir l := by
  obtain ⟨-, h2, h3⟩ := stage_c dir l nn a
  intro s
  rw [show s.c1 = _ from h2, show s.c2 = _ from h3]
  unfold root sgn
  by_cases h : dir = 1
  · rw [if_pos h, if_pos h, show (-1 : ℂ) * (Real.pi * Complex.I) / 2 ^ l = ((-(Real.pi / 2 ^ l) : ℝ) : ℂ) * Complex.I by
      push_cast; ring, Complex.exp_mul_I, ← Complex.ofReal_cos, ← Complex.ofReal_sin, Real.cos_neg, Real.sin_neg]
    apply Complex.ext <;>
      simp only [Complex.add_re, Complex.mul_re, Complex.ofReal_re, Complex.ofReal_im, Complex.I_re, Complex.I_im,
        Complex.add_im, Complex.mul_im] <;> ring
  · rw [if_neg h, if_neg h, show (1 : ℂ) * (Real.pi * Complex.I) / 2 ^ l = ((Real.pi / 2 ^ l : ℝ) : ℂ) * Complex.I by
      push_cast; ring, Complex.exp_mul_I, ← Complex.ofReal_cos, ← Complex.ofReal_sin]
    apply Complex.ext <;>
      simp only [Complex.add_re, Complex.mul_re, Complex.ofReal_re, Complex.ofReal_im, Complex.I_re, Complex.I_im,
        Complex.add_im, Complex.mul_im] <;> ring

/-! ### The transform -/

theorem sum_even_odd (f : ℕ → ℂ) (n : ℕ) : ∑ t ∈ range (2 * n), f t = ∑ t ∈ range n, (f (2 * t) + f (2 * t + 1)) := by
  induction n with
  | zero => simp
  | succ n ih =>
    rw [show 2 * (n + 1) = 2 * n + 1 + 1 by ring, sum_range_succ, sum_range_succ, ih, sum_range_succ]
    ring

/-- The transform of the elements with the index `rev (m - l) b` modulo `2 ^ (m - l)`. -/
noncomputable def part (dir : ℤ) (k l : ℕ) (z : ℕ → ℂ) (b r : ℕ) : ℂ :=
  ∑ t ∈ range (2 ^ l), z (rev k b + 2 ^ k * t) * (root dir l ^ 2) ^ (r * t)

theorem part_succ (dir : ℤ) (k l : ℕ) (z : ℕ → ℂ) (b r : ℕ) :
    part dir k (l + 1) z b r = part dir (k + 1) l z (2 * b) r + root dir l ^ r * part dir (k + 1) l z (2 * b + 1) r := by
  unfold part
  rw [pow_succ' 2 l, sum_even_odd, sum_add_distrib, mul_sum]
  have r0 : rev (k + 1) (2 * b) = rev k b := by
    rw [rev, show 2 * b / 2 = b by omega, show 2 * b % 2 = 0 by omega]
    ring
  have r1 : rev (k + 1) (2 * b + 1) = rev k b + 2 ^ k := by
    rw [rev, show (2 * b + 1) / 2 = b by omega, show (2 * b + 1) % 2 = 1 by omega]
    ring
  rw [r0, r1, root_sq]
  congr 1
  · refine sum_congr rfl fun t _ => ?_
    rw [show rev k b + 2 ^ k * (2 * t) = rev k b + 2 ^ (k + 1) * t by rw [pow_succ]; ring, ← pow_mul,
      show r * (2 * t) = 2 * (r * t) by ring]
  · refine sum_congr rfl fun t _ => ?_
    rw [show rev k b + 2 ^ k * (2 * t + 1) = rev k b + 2 ^ k + 2 ^ (k + 1) * t by rw [pow_succ]; ring, ← pow_mul,
      show r * (2 * t + 1) = r + 2 * (r * t) by ring, pow_add]
    ring

theorem part_period (dir : ℤ) (k l : ℕ) (z : ℕ → ℂ) (b r : ℕ) : part dir k l z b (r + 2 ^ l) = part dir k l z b r := by
  unfold part
  refine sum_congr rfl fun t _ => ?_
  have h : (root dir l ^ 2) ^ 2 ^ l = 1 := by
    rw [← pow_mul, mul_comm, pow_mul, root_pow]
    norm_num
  rw [add_mul, pow_add, pow_mul _ (2 ^ l) t, h, one_pow, mul_one]

theorem stages (dir : ℤ) (m : ℕ) (z : ℕ → ℂ) (a : Arrays) (ha : ∀ p, toC a p = z (if p < 2 ^ m then rev m p else p))
    (l : ℕ) (hl : l ≤ m) (p : ℕ) :
    toC ((stage dir (2 ^ m))^[l] ⟨a, 1, -1, 0⟩).a p =
      if p < 2 ^ m then part dir (m - l) l z (p / 2 ^ l) (p % 2 ^ l) else z p := by
  induction l generalizing p with
  | zero =>
    rw [Function.iterate_zero_apply]
    show toC a p = _
    rw [ha]
    split_ifs
    · simp [part]
    · rfl
  | succ l ih =>
    have hstep := ih (by omega)
    obtain ⟨k, hk⟩ : ∃ k, m - l = k + 1 := ⟨m - l - 1, by omega⟩
    have hk' : m - (l + 1) = k := by omega
    have hm : 2 ^ m = 2 * 2 ^ l * 2 ^ k := by
      rw [show m = l + 1 + k by omega, pow_add, pow_succ]
      ring
    have hpos : 0 < 2 ^ l := by positivity
    rw [Function.iterate_succ_apply']
    obtain ⟨S, hS⟩ : ∃ S, S = (stage dir (2 ^ m))^[l] ⟨a, 1, -1, 0⟩ := ⟨_, rfl⟩
    have hroot := stage_root dir l (2 ^ m) a
    have hl2 := (stage_c dir l (2 ^ m) a).1
    rw [← hS] at hstep hroot hl2 ⊢
    have hiff : p / (2 * 2 ^ l) < 2 ^ k ↔ p < 2 ^ m := by
      rw [Nat.div_lt_iff_lt_mul (by omega), hm, mul_comm]
    have key := stage_a dir (2 ^ l) (2 ^ k) hpos S hl2 p
    rw [← hm] at key
    rw [key]
    by_cases hp : p < 2 ^ m
    · rw [if_pos (hiff.2 hp), if_pos hp, hk', hroot, hstep, hstep, hstep, hk]
      have hb := hiff.2 hp
      rw [pow_succ' 2 l, part_succ]
      obtain ⟨b, hbd⟩ : ∃ b, b = p / (2 * 2 ^ l) := ⟨_, rfl⟩
      obtain ⟨r, hrd⟩ : ∃ r, r = p % (2 * 2 ^ l) := ⟨_, rfl⟩
      have hrlt : r < 2 * 2 ^ l := by rw [hrd]; exact Nat.mod_lt _ (by omega)
      have hpe : p = r + 2 ^ l * (2 * b) := by
        have := Nat.div_add_mod p (2 * 2 ^ l)
        rw [← hbd, ← hrd] at this
        rw [← this]
        ring
      rw [← hbd, ← hrd]
      have hbb : b + 1 ≤ 2 ^ k := by rw [hbd]; exact hb
      have hmm : 2 ^ l * (2 * b) + 2 * 2 ^ l ≤ 2 ^ m := by
        rw [hm]
        calc 2 ^ l * (2 * b) + 2 * 2 ^ l = 2 * 2 ^ l * (b + 1) := by ring
          _ ≤ _ := Nat.mul_le_mul_left _ hbb
      by_cases hr : r < 2 ^ l
      · have e1 : p / 2 ^ l = 2 * b := by
          rw [hpe, Nat.add_mul_div_left _ _ hpos, Nat.div_eq_of_lt hr, zero_add]
        have e2 : p % 2 ^ l = r := by rw [hpe, Nat.add_mul_mod_self_left, Nat.mod_eq_of_lt hr]
        have e3 : (p + 2 ^ l) / 2 ^ l = 2 * b + 1 := by rw [Nat.add_div_right _ hpos, e1]
        have e4 : (p + 2 ^ l) % 2 ^ l = r := by rw [Nat.add_mod_right, e2]
        rw [if_pos hr, if_pos hp, if_pos (by omega), e1, e2, e3, e4]
      · obtain ⟨r', rfl⟩ : ∃ r', r = r' + 2 ^ l := ⟨r - 2 ^ l, by omega⟩
        have hr' : r' < 2 ^ l := by omega
        have e0 : p - 2 ^ l = r' + 2 ^ l * (2 * b) := by omega
        have e1 : (p - 2 ^ l) / 2 ^ l = 2 * b := by
          rw [e0, Nat.add_mul_div_left _ _ hpos, Nat.div_eq_of_lt hr', zero_add]
        have e2 : (p - 2 ^ l) % 2 ^ l = r' := by rw [e0, Nat.add_mul_mod_self_left, Nat.mod_eq_of_lt hr']
        have e5 : p = r' + 2 ^ l * (2 * b + 1) := by rw [hpe]; ring
        have e3 : p / 2 ^ l = 2 * b + 1 := by
          rw [e5, Nat.add_mul_div_left _ _ hpos, Nat.div_eq_of_lt hr', zero_add]
        have e4 : p % 2 ^ l = r' := by rw [e5, Nat.add_mul_mod_self_left, Nat.mod_eq_of_lt hr']
        rw [if_neg hr, if_pos (by omega), if_pos hp, e1, e2, e3, e4, part_period, part_period, Nat.add_sub_cancel,
          pow_add, root_pow]
        ring
    · rw [if_neg (by rw [hiff]; exact hp), hstep, if_neg hp, if_neg hp]

/-- The discrete Fourier transform of `n` numbers: with negative exponents and divided by `n` in the forward
direction (`dir = 1`), with positive exponents otherwise. -/
noncomputable def dft (dir : ℤ) (n : ℕ) (z : ℕ → ℂ) (p : ℕ) : ℂ :=
  if dir = 1 then (∑ t ∈ range n, z t * Complex.exp (-(2 * Real.pi * Complex.I * p * t / n))) / n
  else ∑ t ∈ range n, z t * Complex.exp (2 * Real.pi * Complex.I * p * t / n)

/-- **C160**: for every number `2 ^ m` of points and all data, `FFT1D` ends, its first `2 ^ m` elements are the
discrete Fourier transform of these elements, and it does not change the others. -/
theorem fft1d_dft (dir : ℤ) (m : ℕ) (s : Arrays) :
    ∃ r, fft1d dir m s = some r ∧
      (∀ p, p < 2 ^ m → (⟨r.1 p, r.2 p⟩ : ℂ) = dft dir (2 ^ m) (fun t => ⟨s.1 t, s.2 t⟩) p) ∧
      ∀ p, 2 ^ m ≤ p → r.1 p = s.1 p ∧ r.2 p = s.2 p := by
  unfold fft1d
  rw [bitReversal_eq, Option.map_some]
  refine ⟨_, rfl, ?_⟩
  dsimp only
  have h := stages dir m (toC s) (fun p => s.1 (if p < 2 ^ m then rev m p else p),
    fun p => s.2 (if p < 2 ^ m then rev m p else p)) (fun p => rfl) m le_rfl
  obtain ⟨R, hR⟩ : ∃ R, R = ((stage dir (2 ^ m))^[m] ⟨(fun p => s.1 (if p < 2 ^ m then rev m p else p),
    fun p => s.2 (if p < 2 ^ m then rev m p else p)), 1, -1, 0⟩).a := ⟨_, rfl⟩
  rw [← hR] at h ⊢
  have h1 : ∀ p, p < 2 ^ m → toC R p = ∑ t ∈ range (2 ^ m), toC s t *
      Complex.exp (sgn dir * (2 * Real.pi * Complex.I * p * t / (2 ^ m : ℕ))) := fun p hp => by
    rw [h p, if_pos hp]
    unfold part
    refine sum_congr rfl fun t _ => ?_
    rw [Nat.sub_self, rev, pow_zero, one_mul, zero_add, Nat.mod_eq_of_lt hp]
    congr 1
    unfold root
    rw [← Complex.exp_nat_mul, ← Complex.exp_nat_mul]
    congr 1
    push_cast
    ring
  have h2 : ∀ p, 2 ^ m ≤ p → toC R p = toC s p := fun p hp => by rw [h p, if_neg (not_lt.2 hp)]
  have hpos : (2 : ℝ) ^ m ≠ 0 := by positivity
  by_cases hd : dir = 1
  · rw [if_pos hd]
    constructor
    · intro p hp
      unfold dft
      rw [if_pos hd]
      dsimp only
      rw [if_pos hp, if_pos hp]
      have := h1 p hp
      unfold toC sgn at this
      rw [if_pos hd] at this
      simp only [neg_one_mul] at this
      rw [← this]
      have hcast : ((2 ^ m : ℕ) : ℂ) = ((2 ^ m : ℝ) : ℂ) := by push_cast; rfl
      rw [hcast]
      apply Complex.ext
      · rw [Complex.div_ofReal_re]
        push_cast
        rfl
      · rw [Complex.div_ofReal_im]
        push_cast
        rfl
    · intro p hp
      dsimp only
      rw [if_neg (not_lt.2 hp), if_neg (not_lt.2 hp)]
      have := h2 p hp
      exact ⟨congrArg Complex.re this, congrArg Complex.im this⟩
  · rw [if_neg hd]
    constructor
    · intro p hp
      unfold dft
      rw [if_neg hd]
      have := h1 p hp
      unfold toC sgn at this
      rw [if_neg hd] at this
      simp only [one_mul] at this
      exact this
    · intro p hp
      have := h2 p hp
      exact ⟨congrArg Complex.re this, congrArg Complex.im this⟩

/-- The inverse transform undoes the transform. -/
theorem geometric (n : ℕ) (hn : 0 < n) (p q : ℕ) (hp : p < n) (hq : q < n) :
    ∑ t ∈ range n, Complex.exp (-(2 * Real.pi * Complex.I * t * q / n)) * Complex.exp (2 * Real.pi * Complex.I * p * t / n)
      = if p = q then (n : ℂ) else 0 := by
  have hn' : (n : ℂ) ≠ 0 := by exact_mod_cast hn.ne'
  obtain ⟨w, hw⟩ : ∃ w, w = Complex.exp (2 * Real.pi * Complex.I * ((p : ℂ) - q) / n) := ⟨_, rfl⟩
  have e : ∀ t : ℕ, Complex.exp (-(2 * Real.pi * Complex.I * t * q / n)) *
      Complex.exp (2 * Real.pi * Complex.I * p * t / n) = w ^ t := fun t => by
    rw [hw, ← Complex.exp_add, ← Complex.exp_nat_mul]
    congr 1
    ring
  simp only [e]
  by_cases h : p = q
  · subst h
    rw [if_pos rfl, hw, sub_self, mul_zero, zero_div, Complex.exp_zero]
    simp
  · rw [if_neg h]
    have hw1 : w ≠ 1 := by
      rw [hw]
      intro h1
      rw [Complex.exp_eq_one_iff] at h1
      obtain ⟨k, hk⟩ := h1
      have hpi : (2 * Real.pi * Complex.I : ℂ) ≠ 0 := Complex.two_pi_I_ne_zero
      have h2 : ((p : ℂ) - q) = k * n := by
        have h3 : 2 * Real.pi * Complex.I * ((p : ℂ) - q) = 2 * Real.pi * Complex.I * (k * n) := by
          rw [div_eq_iff hn'] at hk
          rw [hk]
          ring
        exact mul_left_cancel₀ hpi h3
      have h4 : (p : ℤ) - q = k * n := by exact_mod_cast h2
      have h5 : k = 0 := by
        by_contra hk0
        have h6 : (n : ℤ) ≤ |k * n| := by
          rw [abs_mul, Nat.abs_cast]
          have : 1 ≤ |k| := Int.one_le_abs hk0
          nlinarith
        rw [← h4] at h6
        have : |(p : ℤ) - q| < n := by
          rw [abs_lt]
          omega
        omega
      rw [h5, zero_mul] at h4
      omega
    have hwn : w ^ n = 1 := by
      rw [hw, ← Complex.exp_nat_mul, Complex.exp_eq_one_iff]
      refine ⟨(p : ℤ) - q, ?_⟩
      rw [mul_div_cancel₀ _ hn']
      push_cast
      ring
    have := mul_neg_geom_sum w n
    rw [hwn, sub_self] at this
    exact (mul_eq_zero.1 this).resolve_left (sub_ne_zero.2 (Ne.symm hw1))

/-- The transform with positive exponents undoes the forward transform. -/
theorem dft_inverse (dir : ℤ) (hd : dir ≠ 1) (n : ℕ) (z : ℕ → ℂ) (p : ℕ) (hp : p < n) :
    dft dir n (dft 1 n z) p = z p := by
  have hn : 0 < n := by omega
  have hn' : (n : ℂ) ≠ 0 := by exact_mod_cast hn.ne'
  unfold dft
  rw [if_neg hd]
  simp only [if_true]
  have e : ∀ t ∈ range n, (∑ q ∈ range n, z q * Complex.exp (-(2 * Real.pi * Complex.I * t * q / n))) / n *
      Complex.exp (2 * Real.pi * Complex.I * p * t / n) = ∑ q ∈ range n, z q / n *
        (Complex.exp (-(2 * Real.pi * Complex.I * t * q / n)) * Complex.exp (2 * Real.pi * Complex.I * p * t / n)) :=
    fun t _ => by
      rw [sum_div, sum_mul]
      refine sum_congr rfl fun q _ => ?_
      ring
  rw [sum_congr rfl e, sum_comm]
  have e2 : ∀ q ∈ range n, ∑ t ∈ range n, z q / n *
        (Complex.exp (-(2 * Real.pi * Complex.I * t * q / n)) * Complex.exp (2 * Real.pi * Complex.I * p * t / n)) =
      if p = q then z q else 0 := fun q hq => by
    rw [← mul_sum, geometric n hn p q hp (mem_range.1 hq)]
    split_ifs
    · field_simp
    · ring
  rw [sum_congr rfl e2, sum_ite_eq, if_pos (mem_range.2 hp)]

theorem dft_congr (dir : ℤ) (n : ℕ) (z w : ℕ → ℂ) (h : ∀ t, t < n → z t = w t) (p : ℕ) : dft dir n z p = dft dir n w p := by
  unfold dft
  split_ifs
  · congr 1
    exact sum_congr rfl fun t ht => by rw [h t (mem_range.1 ht)]
  · exact sum_congr rfl fun t ht => by rw [h t (mem_range.1 ht)]

/-- **C160**: the transform in the other direction restores the arrays. -/
theorem round_trip (m : ℕ) (s r : Arrays) (hr : fft1d 1 m s = some r) : fft1d (-1) m r = some s := by
  obtain ⟨r', h1, h2, h3⟩ := fft1d_dft 1 m s
  rw [hr] at h1
  obtain rfl : r = r' := Option.some.inj h1
  obtain ⟨q, g1, g2, g3⟩ := fft1d_dft (-1) m r
  rw [g1]
  congr 1
  have key : ∀ p, (⟨q.1 p, q.2 p⟩ : ℂ) = ⟨s.1 p, s.2 p⟩ := fun p => by
    by_cases hp : p < 2 ^ m
    · rw [g2 p hp, dft_congr _ _ _ _ (fun t ht => h2 t ht), dft_inverse (-1) (by norm_num) _ _ p hp]
    · push Not at hp
      rw [(g3 p hp).1, (g3 p hp).2, (h3 p hp).1, (h3 p hp).2]
  refine Prod.ext (funext fun p => congrArg Complex.re (key p)) (funext fun p => congrArg Complex.im (key p))

/-! ### Two dimensions -/

/-- **C160**: `pow_finder` gives the integer part of the logarithm for every positive number and does not end
for zero. -/
theorem powFinder_log (n : ℕ) : powFinder n = if n = 0 then none else some (Nat.log 2 n) := by
  induction n using Nat.strong_induction_on with
  | _ n ih =>
    unfold powFinder
    by_cases h0 : n = 0
    · rw [if_pos h0, if_pos h0]
    · rw [if_neg h0, if_neg h0]
      by_cases h1 : n = 1
      · rw [if_pos h1, h1, Nat.log_one_right]
      · rw [if_neg h1, ih (n / 2) (by omega), if_neg (by omega), Option.map_some, Nat.log_div_base]
        have := Nat.log_pos (b := 2) (by norm_num) (show 2 ≤ n by omega)
        congr 1
        omega

/-- An entry of a matrix as a complex number. -/
def cplx (c : ℝ × ℝ) : ℂ := ⟨c.1, c.2⟩

theorem rows (dir : ℤ) (m : ℕ) (nx : ℕ) (c : Image) (n : ℕ) :
    ∃ r, (List.range n).foldl (rowStep dir m nx) (some c) = some r ∧
      (∀ i j, i < nx → j < n → i < 2 ^ m → cplx (r i j) = dft dir (2 ^ m) (fun t => cplx (c t j)) i) ∧
      ∀ i j, nx ≤ i ∨ n ≤ j ∨ 2 ^ m ≤ i → r i j = c i j := by
  induction n with
  | zero =>
    refine ⟨c, rfl, fun i j _ h => absurd h (Nat.not_lt_zero _), fun i j _ => rfl⟩
  | succ n ih =>
    obtain ⟨r, h1, h2, h3⟩ := ih
    obtain ⟨q, g1, g2, g3⟩ := fft1d_dft dir m (fun i => (r i n).1, fun i => (r i n).2)
    rw [List.range_succ, List.foldl_append, h1, List.foldl_cons, List.foldl_nil]
    unfold rowStep
    rw [Option.bind_some, g1, Option.map_some]
    refine ⟨_, rfl, fun i j hi hj hm => ?_, fun i j h => ?_⟩
    · by_cases hjn : j = n
      · subst hjn
        rw [if_pos ⟨rfl, hi⟩]
        refine (g2 i hm).trans (dft_congr _ _ _ _ (fun t _ => ?_) i)
        exact congrArg cplx (h3 t j (Or.inr (Or.inl le_rfl)))
      · rw [if_neg (by tauto), h2 i j hi (by omega) hm]
    · by_cases hc : j = n ∧ i < nx
      · rw [if_pos hc]
        obtain ⟨rfl, hi⟩ := hc
        have hm : 2 ^ m ≤ i := by omega
        rw [(g3 i hm).1, (g3 i hm).2]
        exact h3 i j (Or.inr (Or.inl le_rfl))
      · rw [if_neg hc]
        by_cases hi : nx ≤ i
        · exact h3 i j (Or.inl hi)
        · by_cases hj : n ≤ j
          · exact h3 i j (Or.inr (Or.inl hj))
          · exact h3 i j (by omega)

theorem columns (dir : ℤ) (m : ℕ) (ny : ℕ) (c : Image) (n : ℕ) :
    ∃ r, (List.range n).foldl (colStep dir m ny) (some c) = some r ∧
      (∀ i j, j < ny → i < n → j < 2 ^ m → cplx (r i j) = dft dir (2 ^ m) (fun t => cplx (c i t)) j) ∧
      ∀ i j, ny ≤ j ∨ n ≤ i ∨ 2 ^ m ≤ j → r i j = c i j := by
  induction n with
  | zero =>
    refine ⟨c, rfl, fun i j _ h => absurd h (Nat.not_lt_zero _), fun i j _ => rfl⟩
  | succ n ih =>
    obtain ⟨r, h1, h2, h3⟩ := ih
    obtain ⟨q, g1, g2, g3⟩ := fft1d_dft dir m (fun j => (r n j).1, fun j => (r n j).2)
    rw [List.range_succ, List.foldl_append, h1, List.foldl_cons, List.foldl_nil]
    unfold colStep
    rw [Option.bind_some, g1, Option.map_some]
    refine ⟨_, rfl, fun i j hj hi hm => ?_, fun i j h => ?_⟩
    · by_cases hin : i = n
      · subst hin
        rw [if_pos ⟨rfl, hj⟩]
        refine (g2 j hm).trans (dft_congr _ _ _ _ (fun t _ => ?_) j)
        exact congrArg cplx (h3 i t (Or.inr (Or.inl le_rfl)))
      · rw [if_neg (by tauto), h2 i j hj (by omega) hm]
    · by_cases hc : i = n ∧ j < ny
      · rw [if_pos hc]
        obtain ⟨rfl, hj⟩ := hc
        have hm : 2 ^ m ≤ j := by omega
        rw [(g3 j hm).1, (g3 j hm).2]
        exact h3 i j (Or.inr (Or.inl le_rfl))
      · rw [if_neg hc]
        by_cases hj : ny ≤ j
        · exact h3 i j (Or.inl hj)
        · by_cases hi : n ≤ i
          · exact h3 i j (Or.inr (Or.inl hi))
          · exact h3 i j (by omega)

/-- **C160** (part): if both sizes are powers of two, `FFT2D` computes the two-dimensional discrete Fourier
transform of every matrix. -/
theorem fft2d_dft_partial (dir : ℤ) (a b : ℕ) (c : Image) :
    ∃ r, fft2d dir (2 ^ a) (2 ^ b) c = some r ∧
      ∀ i j, i < 2 ^ a → j < 2 ^ b → (⟨(r i j).1, (r i j).2⟩ : ℂ) =
        dft dir (2 ^ b) (fun u => dft dir (2 ^ a) (fun t => ⟨(c t u).1, (c t u).2⟩) i) j := by
  unfold fft2d
  rw [powFinder_log, powFinder_log, if_neg (by positivity), if_neg (by positivity), Option.bind_some, Option.bind_some,
    Nat.log_pow (by norm_num), Nat.log_pow (by norm_num)]
  obtain ⟨r, h1, h2, -⟩ := rows dir a (2 ^ a) c (2 ^ b)
  rw [h1]
  obtain ⟨q, g1, g2, -⟩ := columns dir b (2 ^ b) r (2 ^ a)
  refine ⟨q, g1, fun i j hi hj => ?_⟩
  refine (g2 i j hj hi hj).trans (dft_congr _ _ _ _ (fun u hu => ?_) j)
  exact h2 i u hi hu hi

/-- **C160** (refuted): for every number of columns that is not a power of two, and every number of rows, the
forward transform of a point source at the origin vanishes in the last column, whereas the discrete Fourier transform
of the `nx` by `ny` points is `1 / (nx * ny)` there. -/
theorem size_fails (nx ny : ℕ) (hx : nx ≠ 0) (hp : ∀ a, nx ≠ 2 ^ a) (hy : ny ≠ 0) :
    let c : Image := fun i j => if i = 0 ∧ j = 0 then (1, 0) else (0, 0)
    ∃ r, fft2d 1 nx ny c = some r ∧ r (nx - 1) 0 = (0, 0) ∧
      dft 1 ny (fun u => dft 1 nx (fun t => ⟨(c t u).1, (c t u).2⟩) (nx - 1)) 0 = 1 / (nx * ny) := by
  intro c
  have h3 : 2 ≤ nx := by
    have := hp 0
    rw [pow_zero] at this
    omega
  have hlog : 2 ^ Nat.log 2 nx ≤ nx - 1 := by
    have h4 := Nat.pow_log_le_self 2 hx
    have h5 := hp (Nat.log 2 nx)
    omega
  unfold fft2d
  rw [powFinder_log, powFinder_log, if_neg hx, if_neg hy, Option.bind_some, Option.bind_some]
  obtain ⟨r, h1, -, h2⟩ := rows 1 (Nat.log 2 nx) nx c ny
  rw [h1]
  obtain ⟨q, g1, g2, -⟩ := columns 1 (Nat.log 2 ny) ny r nx
  refine ⟨q, g1, ?_, ?_⟩
  · have h5 := g2 (nx - 1) 0 (by omega) (by omega) (by positivity)
    have h6 : ∀ t, r (nx - 1) t = (0, 0) := fun t => by
      rw [h2 (nx - 1) t (Or.inr (Or.inr hlog))]
      simp only [c]
      rw [if_neg (by omega)]
    rw [dft_congr _ _ _ (fun _ => 0) (fun t _ => by rw [h6 t]; rfl)] at h5
    unfold dft at h5
    simp only [zero_mul, sum_const_zero, zero_div, ite_self] at h5
    exact Prod.ext (congrArg Complex.re h5) (congrArg Complex.im h5)
  · have e1 : ∀ u, dft 1 nx (fun t => (⟨(c t u).1, (c t u).2⟩ : ℂ)) (nx - 1) = if u = 0 then 1 / (nx : ℂ) else 0 := fun u => by
      unfold dft
      rw [if_pos rfl, sum_eq_single 0]
      · simp only [c]
        by_cases hu : u = 0
        · rw [if_pos ⟨trivial, hu⟩, if_pos hu]
          simp only [Nat.cast_zero, mul_zero, zero_div, neg_zero, Complex.exp_zero, mul_one]
          rfl
        · rw [if_neg (by tauto), if_neg hu]
          have : (⟨0, 0⟩ : ℂ) = 0 := rfl
          rw [this, zero_mul, zero_div]
      · intro t _ ht
        simp only [c]
        rw [if_neg (by tauto)]
        have : (⟨0, 0⟩ : ℂ) = 0 := rfl
        rw [this, zero_mul]
      · intro h
        exact absurd (mem_range.2 (by omega)) h
    rw [dft_congr _ _ _ _ (fun t _ => e1 t)]
    unfold dft
    rw [if_pos rfl, sum_eq_single 0]
    · simp only [if_true, Nat.cast_zero, mul_zero, zero_div, neg_zero, Complex.exp_zero, mul_one]
      rw [div_div]
    · intro t _ ht
      dsimp only
      rw [if_neg ht, zero_mul]
    · intro h
      exact absurd (mem_range.2 (by omega)) h

/-! ### Shift -/

/-- **C160**: the shift moves every entry by half the size, cyclically: entry `(i, j)` of the result is the entry
`(i - col / 2, j - row / 2)` modulo the sizes. -/
theorem shift_eq {α : Type*} (row col : ℕ) (v : ℕ → ℕ → α) (i j : ℕ) (hc : 2 ≤ col) (hr : 2 ≤ row)
    (hi : i ≤ col) (hj : j ≤ row) :
    shift row col v i j = some (v ((i + (col - col / 2)) % col) ((j + (row - row / 2)) % row)) := by
  have key : ∀ n k : ℕ, 2 ≤ n → k ≤ n → (0 ≤ (k : ℤ) - (n / 2 : ℕ) → (k + (n - n / 2)) % n = k - n / 2) ∧
      ((k : ℤ) - (n / 2 : ℕ) < 0 → (k + (n - n / 2)) % n = k + (n - n / 2)) := fun n k hn hk => by
    constructor
    · intro h
      rw [show k + (n - n / 2) = (k - n / 2) + n by omega, Nat.add_mod_right, Nat.mod_eq_of_lt (by omega)]
    · intro h
      exact Nat.mod_eq_of_lt (by omega)
  obtain ⟨a1, a2⟩ := key col i hc hi
  obtain ⟨b1, b2⟩ := key row j hr hj
  unfold shift
  dsimp only
  by_cases hm : 0 ≤ (i : ℤ) - (col / 2 : ℕ)
  · by_cases hn : 0 ≤ (j : ℤ) - (row / 2 : ℕ)
    · rw [if_pos ⟨hm, hn⟩, if_pos (by omega), a1 hm, b1 hn]
      congr 2 <;> omega
    · rw [if_neg (by tauto), if_pos ⟨hm, by omega⟩, if_pos (by omega), a1 hm, b2 (by omega)]
      congr 2 <;> omega
  · by_cases hn : 0 ≤ (j : ℤ) - (row / 2 : ℕ)
    · rw [if_neg (by tauto), if_neg (by tauto), if_pos ⟨by omega, hn⟩, if_pos (by omega), a2 (by omega), b1 hn]
      congr 2 <;> omega
    · rw [if_neg (by tauto), if_neg (by tauto), if_neg (by tauto), if_pos (by omega), a2 (by omega), b2 (by omega)]
      congr 2 <;> omega

/-- The forward transform at a frequency that may be negative. -/
noncomputable def spectrum (n : ℕ) (z : ℕ → ℂ) (f : ℤ) : ℂ :=
  (∑ t ∈ range n, z t * Complex.exp (-(2 * Real.pi * Complex.I * f * t / n))) / n

theorem dft_spectrum (n : ℕ) (hn : 2 ≤ n) (z : ℕ → ℂ) (i : ℕ) :
    dft 1 n z ((i + (n - n / 2)) % n) = spectrum n z ((i : ℤ) - (n / 2 : ℕ)) := by
  have hn' : (n : ℂ) ≠ 0 := by exact_mod_cast (show n ≠ 0 by omega)
  obtain ⟨q, hq⟩ : ∃ q : ℕ, q = (i + (n - n / 2)) / n := ⟨_, rfl⟩
  obtain ⟨r, hr⟩ : ∃ r : ℕ, r = (i + (n - n / 2)) % n := ⟨_, rfl⟩
  have h0 := Nat.div_add_mod (i + (n - n / 2)) n
  rw [← hq, ← hr] at h0
  have h1 : (i : ℤ) - (n / 2 : ℕ) = r + n * ((q : ℤ) - 1) := by
    have h2 : (n : ℤ) * q + r = i + (n - (n / 2 : ℕ)) := by
      have : ((n * q + r : ℕ) : ℤ) = ((i + (n - n / 2) : ℕ) : ℤ) := by rw [h0]
      rw [Nat.cast_add, Nat.cast_mul, Nat.cast_add, Nat.cast_sub (Nat.div_le_self _ _)] at this
      exact this
    linear_combination -h2
  rw [← hr, h1]
  unfold dft spectrum
  rw [if_pos rfl]
  congr 1
  refine sum_congr rfl fun t _ => ?_
  congr 1
  rw [Complex.exp_eq_exp_iff_exists_int]
  refine ⟨((q : ℤ) - 1) * t, ?_⟩
  push_cast
  field_simp
  ring

/-- **C160** (part): for sizes that are powers of two, transform and shift give the spectrum ordered by frequency: the
entry `(i, j)` has the frequencies `i - nx / 2` and `j - ny / 2`, also in the additional column `i = nx` and row
`j = ny`. -/
theorem ordered_partial (a b : ℕ) (ha : 1 ≤ a) (hb : 1 ≤ b) (c : Image) :
    ∃ r, fft2d 1 (2 ^ a) (2 ^ b) c = some r ∧
      ∀ i j, i ≤ 2 ^ a → j ≤ 2 ^ b → ∃ v, shift (2 ^ b) (2 ^ a) r i j = some v ∧
        (⟨v.1, v.2⟩ : ℂ) = spectrum (2 ^ b) (fun u => spectrum (2 ^ a) (fun t => ⟨(c t u).1, (c t u).2⟩)
          ((i : ℤ) - (2 ^ a / 2 : ℕ))) ((j : ℤ) - (2 ^ b / 2 : ℕ)) := by
  obtain ⟨r, h1, h2⟩ := fft2d_dft_partial 1 a b c
  have ha2 : 2 ≤ 2 ^ a := by
    calc 2 = 2 ^ 1 := by norm_num
      _ ≤ _ := Nat.pow_le_pow_right (by norm_num) ha
  have hb2 : 2 ≤ 2 ^ b := by
    calc 2 = 2 ^ 1 := by norm_num
      _ ≤ _ := Nat.pow_le_pow_right (by norm_num) hb
  refine ⟨r, h1, fun i j hi hj => ⟨_, shift_eq _ _ _ _ _ ha2 hb2 hi hj, ?_⟩⟩
  rw [h2 _ _ (Nat.mod_lt _ (by positivity)) (Nat.mod_lt _ (by positivity)), dft_spectrum _ hb2]
  congr 1
  funext u
  exact dft_spectrum _ ha2 _ _

/-- **C160**: a constant matrix has only the frequency zero: with two by two points equal to one, the middle entry
is one and its neighbour vanishes. -/
example : spectrum 2 (fun _ => spectrum 2 (fun _ => 1) 0) 0 = 1 ∧ spectrum 2 (fun _ => spectrum 2 (fun _ => 1) (-1)) 0 = 0 := by
  constructor
  · norm_num [spectrum, sum_range_succ]
  · have : Complex.exp (-(-(2 * Real.pi * Complex.I) / 2)) = -1 := by
      rw [← Complex.exp_pi_mul_I]
      congr 1
      ring
    norm_num [spectrum, sum_range_succ, this]

/-- A number of columns that satisfies the assumptions of `size_fails`. -/
example : (3 : ℕ) ≠ 0 ∧ (∀ a : ℕ, 3 ≠ 2 ^ a) := by
  refine ⟨by norm_num, fun a => ?_⟩
  match a with
  | 0 => norm_num
  | 1 => norm_num
  | a + 2 =>
    rw [pow_add]
    omega

end OpenMS.Fft
