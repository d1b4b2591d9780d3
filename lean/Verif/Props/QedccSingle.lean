/-
C120: the photon-electron residuals for one mode in openms/mqed/qedcc_equations.py compared with
derivatives of the singles and doubles residuals.
-/
import Verif.Lemmas.QedccCheckSingle1
import Verif.Lemmas.QedccCheckSingle21
import Verif.Lemmas.QedccCheckSingle22
import Verif.Props.QedccU22

namespace OpenMS.Qedcc

open Einsum TrivSqZeroExt

section

variable {R O V X : Type*} [CommRing R] [Algebra ℚ R] [Fintype O] [Fintype V] [Fintype X]

/-- Terms with `S2` that `single_qedccsd_U2n` leaves out for `nfock1 = 2`. -/
def lack (t : Inputs R O V X) (m : X) (a b : V) (i j : O) : R :=
  2 * t.S2 m m * (
    ∑ c, (t.g m (.inr b) (.inr c) * t.U21 m a c i j - t.g m (.inr a) (.inr c) * t.U21 m b c i j)
    + ∑ k, (t.g m (.inl k) (.inl i) * t.U21 m a b j k - t.g m (.inl k) (.inl j) * t.U21 m a b i k)
    + ∑ k, ∑ c, t.g m (.inl k) (.inr c) * (
      t.T1 a k * t.U21 m b c i j - t.T1 b k * t.U21 m a c i j
      + t.T1 c i * t.U21 m a b j k - t.T1 c j * t.U21 m a b i k
      + t.T2 a b j k * t.U11 m c i - t.T2 a b i k * t.U11 m c j
      + t.T2 b c i j * t.U11 m a k - t.T2 a c i j * t.U11 m b k))

theorem lack_eq (t : Inputs R O V X) (m : X) (a b : V) (i j : O) :
    evalTerms t.ten lackU22 (env i j a b m m) = -lack t m a b i j := by
  have h2 : algebraMap ℚ R 2 = 2 := map_ofNat _ 2
  unfold lackU22 lack
  simp [qedcc_eval, env, kind, h2]
  simp only [Finset.sum_comm (s := (Finset.univ : Finset V)) (t := (Finset.univ : Finset O))]
  simp only [mul_add, mul_sub, Finset.sum_add_distrib, Finset.sum_sub_distrib, Finset.mul_sum,
    mul_left_comm, mul_assoc]
  abel

end

variable {R O V X : Type*} [CommRing R] [Algebra ℚ R] [Fintype O] [Fintype V] [Fintype X]
  [DecidableEq X] {n1 n2 : Nat} {u2 : Bool} {t : Inputs R O V X}

/-- `U1n[0]` is the derivative of the singles residual, plus `ω U11`. -/
theorem one_U11_derivative (hX : Fintype.card X = 1) (h1 : 0 < n1) (h2 : 0 < n2)
    (hs : t.Symmetric) (ht : t.Truncated n1 n2 u2) (hg : t.G = fun _ => 0) (m : X) (a : V) (i : O) :
    Ref.oneU11 n1 n2 u2 t m a i
      = snd (Ref.resT1 n1 n2 u2 (t.shift m) a i) + t.w m * t.U11 m a i := by
  obtain ⟨cs, hc⟩ := check_single_U11 n1 n2 u2 h1 h2
  refine (one_first_of_check hX hs ht hg hc i i a a m).trans (congrArg _ ?_)
  simp [qedcc_eval, env, kind]

/-- `U1n[1]` is the second derivative of the singles residual, plus `2 ω U12`. -/
theorem one_U12_derivative (hX : Fintype.card X = 1) (h1 : 0 < n1) (h2 : 1 < n2)
    (hs : t.Symmetric) (ht : t.Truncated n1 n2 u2) (hg : t.G = fun _ => 0) (m : X) (a : V) (i : O) :
    Ref.oneU12 n1 n2 u2 t m a i
      = snd (snd (Ref.resT1 n1 n2 u2 ((t.shift m).shift m) a i))
        + 2 * t.w m * t.U12 m m a i := by
  obtain ⟨cs, hc⟩ := check_single_U12 n1 n2 u2 h1 h2
  refine (one_second_of_check hX hs ht hg hc i i a a m).trans (congrArg _ ?_)
  simp [qedcc_eval, env, kind]
  rw [map_ofNat]
  ring

theorem check_single_U21 (h1 : 0 < n1) (h2 : 0 < n2) : ∃ cs,
    checkOne (sym n1 n2 true true) 5 2 cs (singleU2 n1 n2 true) (read sU21 (letters% "Iabij"))
      (derived rule 2 (refT2 n1 n2 true
        ++ [add T2 [⟨⟨-1, 0⟩, quarticL.out, quarticL.ops⟩]]) (read T2 (letters% "abij")))
      [(ein% "1" "I,Iabij->Iabij" [w, U21old]).term] = true := by
  rw [sym_min n1 n2, singleU2_min n1 n2, refT2_min n1 n2]
  rcases (by omega : n1 = 1 ∨ n1 = 2 ∨ 3 ≤ n1) with h | h | h <;>
    rcases (by omega : n2 = 1 ∨ 2 ≤ n2) with h' | h'
  · subst h h'; exact check_single_U21_11
  · subst h; rw [min_eq_right h']; exact check_single_U21_12
  · subst h h'; exact check_single_U21_21
  · subst h; rw [min_eq_right h']; exact check_single_U21_22
  · subst h'
    rw [min_eq_right h, min_eq_right (by omega : 2 ≤ n1)]
    exact check_single_U21_31
  · rw [min_eq_right h, min_eq_right (by omega : 2 ≤ n1), min_eq_right h']
    exact check_single_U21_32

/-- `U2n[0]` is the derivative of the doubles residual without its term of degree four, plus
`ω U21`. -/
theorem one_U21_error (hX : Fintype.card X = 1) (h1 : 0 < n1) (h2 : 0 < n2) (hs : t.Symmetric)
    (ht : t.Truncated n1 n2 true) (hg : t.G = fun _ => 0) (m : X) (a b : V) (i j : O) :
    Ref.oneU21 n1 n2 true t m a b i j
      = snd (Ref.resT2 n1 n2 true (t.shift m) a b i j - quartic (t.shift m) a b i j)
        + t.w m * t.U21 m a b i j := by
  obtain ⟨cs, hc⟩ := check_single_U21 h1 h2
  refine (one_first_of_check hX hs ht hg hc i j a b m).trans ?_
  refine (congrArg (fun x => snd x + _) (resT2_quartic n1 n2 true _ a b i j)).trans ?_
  refine congrArg _ ?_
  simp [qedcc_eval, env, kind]

theorem check_single_U22 (h1 : 0 < n1) (hn : n1 ≠ 2) (h2 : 1 < n2) : ∃ cs,
    checkOne (sym n1 n2 true true) 5 2 cs (singleU2 n1 n2 true) (read sU22 (letters% "Iabij"))
      (derived2 rule 2 2 (refT2 n1 n2 true
        ++ [add T2 [⟨⟨-1, 0⟩, quarticL.out, quarticL.ops⟩]]) (read T2 (letters% "abij")))
      [(ein% "2" "I,IIabij->Iabij" [w, U22old]).term] = true := by
  rw [sym_min n1 n2, singleU2_min n1 n2, refT2_min n1 n2, min_eq_right (show 2 ≤ n2 from h2)]
  rcases (by omega : n1 = 1 ∨ 3 ≤ n1) with h | h
  · subst h; exact check_single_U22_12
  · rw [min_eq_right h, min_eq_right (by omega : 2 ≤ n1)]
    exact check_single_U22_32

/-- `U2n[1]` is the second derivative of the doubles residual without its term of degree four, plus
`2 ω U22`, if `nfock1` is not `2`. -/
theorem one_U22_error (hX : Fintype.card X = 1) (h1 : 0 < n1) (hn : n1 ≠ 2) (h2 : 1 < n2)
    (hs : t.Symmetric) (ht : t.Truncated n1 n2 true) (hg : t.G = fun _ => 0) (m : X) (a b : V)
    (i j : O) :
    Ref.oneU22 n1 n2 true t m a b i j
      = snd (snd (Ref.resT2 n1 n2 true ((t.shift m).shift m) a b i j
          - quartic ((t.shift m).shift m) a b i j))
        + 2 * t.w m * t.U22 m m a b i j := by
  obtain ⟨cs, hc⟩ := check_single_U22 h1 hn h2
  refine (one_second_of_check hX hs ht hg hc i j a b m).trans ?_
  refine (congrArg (fun x => snd (snd x) + _) (resT2_quartic n1 n2 true _ a b i j)).trans ?_
  refine congrArg _ ?_
  simp [qedcc_eval, env, kind]
  rw [map_ofNat]
  ring

/-- For `nfock1 = 2` the terms `lack` are missing as well. -/
theorem one_U22_error_two (hX : Fintype.card X = 1) (h2 : 1 < n2)
    (hs : t.Symmetric) (ht : t.Truncated 2 n2 true) (hg : t.G = fun _ => 0) (m : X) (a b : V)
    (i j : O) :
    Ref.oneU22 2 n2 true t m a b i j + lack t m a b i j
      = snd (snd (Ref.resT2 2 n2 true ((t.shift m).shift m) a b i j
          - quartic ((t.shift m).shift m) a b i j))
        + 2 * t.w m * t.U22 m m a b i j := by
  have : ∃ cs, checkOne (sym 2 n2 true true) 5 2 cs (singleU2 2 n2 true)
      (read sU22 (letters% "Iabij"))
      (derived2 rule 2 2 (refT2 2 n2 true
        ++ [add T2 [⟨⟨-1, 0⟩, quarticL.out, quarticL.ops⟩]]) (read T2 (letters% "abij")))
      ((ein% "2" "I,IIabij->Iabij" [w, U22old]).term :: lackU22) = true := by
    rw [sym_min 2 n2, singleU2_min 2 n2, refT2_min 2 n2, min_eq_right (show 2 ≤ n2 from h2)]
    exact check_single_U22_22
  obtain ⟨cs, hc⟩ := this
  have h : Ref.oneU22 2 n2 true t m a b i j = _ :=
    (one_second_of_check hX hs ht hg hc i j a b m).trans
      (congrArg (fun x => snd (snd x) + _) (resT2_quartic 2 n2 true _ a b i j))
  have hw : (ein% "2" "I,IIabij->Iabij" [w, U22old]).term.eval t.ten (env i j a b m m)
      = 2 * t.w m * t.U22 m m a b i j := by
    simp [qedcc_eval, env, kind]
    rw [map_ofNat]
    ring
  rw [h, evalTerms_cons, lack_eq, hw]
  ring

theorem exOne_truncated_all (n : Nat) (h : 1 < n) : exOne.Truncated n 2 true :=
  ⟨fun h' => absurd h' (by omega), fun h => absurd h (by decide), fun h => by simp at h,
    fun h => by simp at h⟩

set_option maxRecDepth 100000 in
/-- `U2n[0]` is not the derivative of the doubles residual. -/
theorem one_U21_derivative_fails :
    Ref.oneU21 2 2 true exOne 0 0 1 0 1
      ≠ snd (Ref.resT2 2 2 true (exOne.shift 0) 0 1 0 1) + exOne.w 0 * exOne.U21 0 0 1 0 1 := by
  rw [one_U21_error rfl (by decide) (by decide) exOne_symmetric exOne_truncated exOne_G, snd_sub]
  have h : snd (quartic (exOne.shift 0) 0 1 0 1) = -8 := by decide +kernel
  rw [h]
  intro h
  linarith

set_option maxRecDepth 100000 in
/-- `U2n[1]` is not the second derivative of the doubles residual, and for `nfock1 = 2` it is not
what larger `nfock1` give although there are no amplitudes beyond `S2`. -/
theorem one_U22_derivative_fails :
    Ref.oneU22 3 2 true exOne 0 0 1 0 1
        ≠ snd (snd (Ref.resT2 3 2 true ((exOne.shift 0).shift 0) 0 1 0 1))
          + 2 * exOne.w 0 * exOne.U22 0 0 0 1 0 1
      ∧ Ref.oneU22 2 2 true exOne 0 0 1 0 1
        ≠ snd (snd (Ref.resT2 2 2 true ((exOne.shift 0).shift 0) 0 1 0 1))
          + 2 * exOne.w 0 * exOne.U22 0 0 0 1 0 1
      ∧ Ref.oneU22 2 2 true exOne 0 0 1 0 1 ≠ Ref.oneU22 3 2 true exOne 0 0 1 0 1 := by
  have h1 := one_U22_error (n1 := 3) (n2 := 2) rfl (by decide) (by decide) (by decide)
    exOne_symmetric (exOne_truncated_all 3 (by decide)) exOne_G 0 0 1 0 1
  have h2 := one_U22_error_two (n2 := 2) rfl (by decide) exOne_symmetric exOne_truncated exOne_G
    0 0 1 0 1
  rw [snd_sub, snd_sub] at h1 h2
  have h : snd (snd (quartic ((exOne.shift 0).shift 0) 0 1 0 1)) = -12 := by decide +kernel
  have hl : lack exOne 0 0 1 0 1 = -760 := by decide +kernel
  have h3 : Ref.resT2 3 2 true ((exOne.shift 0).shift 0) 0 1 0 1
      = Ref.resT2 2 2 true ((exOne.shift 0).shift 0) 0 1 0 1 := by
    unfold Ref.resT2
    rw [refT2_min 3 2, refT2_min 2 2]
    rfl
  rw [h, h3] at h1
  rw [h, hl] at h2
  rw [h3]
  refine ⟨?_, ?_, ?_⟩ <;> intro h <;> linarith

set_option maxRecDepth 100000 in
example : Ref.oneU11 2 2 true exOne 0 0 1 = -441 ∧ Ref.oneU12 2 2 true exOne 0 0 1 = -1204 := by
  constructor <;> decide +kernel

end OpenMS.Qedcc
