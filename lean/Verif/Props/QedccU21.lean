/-
C117: the first-order photon-electron doubles residual is the derivative of the doubles
residual; the optimised version is so only for one mode or without second-order amplitudes.
-/
import Verif.Lemmas.QedccCheckU21
import Verif.Lemmas.QedccCheckU21Opt
import Verif.Lemmas.QedccCheckU21Mode
import Verif.Lemmas.QedccExample
import Verif.Lemmas.QedccEval

namespace OpenMS.Qedcc

open Einsum TrivSqZeroExt

variable {R O V X : Type*} [CommRing R] [Algebra ℚ R] [Fintype O] [Fintype V] [Fintype X]

/-- The array `gtov + Wmvo` of openms/mqed/myqedcc_equations_opt.py L2820-2826, in terms of the
inputs. -/
def wmvo (t : Inputs R O V X) (n : X) (a : V) (i : O) : R :=
  ∑ c, t.g n (.inr a) (.inr c) * t.T1 c i - ∑ k, t.g n (.inl k) (.inl i) * t.T1 a k
    + ∑ c, ∑ k, t.g n (.inl k) (.inr c) * t.T2 a c i k
    - ∑ c, ∑ k, t.g n (.inl k) (.inr c) * (t.T1 c i * t.T1 a k)

/-- Product with the second-order amplitudes in which the mode of `W` is `m` instead of the mode
summed over. -/
def modeErr (t : Inputs R O V X) (m : X) (a b : V) (i j : O) : R :=
  ∑ n, (wmvo t m a i - wmvo t n a i) * t.U12 m n b j

theorem wmvo_run (t : Inputs R O V X) (m : X) (a : V) (i : O) :
    wmvoP.run t.ten 900 [.x m, .v a, .o i] = wmvo t m a i := by
  have h := result_set wmvoT wmvoP.lines t [.x m, .v a, .o i]
  refine (h.trans ?_)
  unfold wmvoP wmvo
  simp [qedcc_eval, Einsum.set, wmvoT]
  ring

theorem modeErr_eq (t : Inputs R O V X) (m : X) (a b : V) (i j : O) :
    evalTerms t.ten modeErrTerms (env i j a b m m)
      = modeErr t m a b i j - modeErr t m b a i j - modeErr t m a b j i + modeErr t m b a j i := by
  have h := expand_sound [wmvoP, modeErrP] t.ten (read modeErrT (letters% "Iabij")) (env i j a b m m)
    (us := modeErrTerms) rfl
  rw [← h]
  refine (evalTerms_read _ _ _ _).trans ?_
  have h1 := wmvo_run t
  have h2 : wmvoP.run t.ten 10 = t.ten 10 := rfl
  simp only [run]
  generalize wmvoP.run t.ten = ten at h1 h2 ⊢
  have h3 : modeErrP.run ten modeErrT.root = evalAt ten modeErrP.terms := by
    funext ds
    exact if_pos rfl
  rw [h3]
  unfold modeErrP
  simp [Def.terms, evalAt, Einsum.set, modeErrT, wmvoT, qedcc_eval, h1, h2, env, kind]
  simp only [modeErr, sub_mul, Finset.sum_sub_distrib]
  ring

variable [DecidableEq X] {n1 n2 : Nat} {t : Inputs R O V X}

/-- `U2n[0]` of openms/mqed/qedcc_equations.py, several modes, is the derivative of the doubles
residual of the displaced amplitudes, plus `ω U21`. -/
theorem ref_U21_derivative (h1 : 0 < n1) (h2 : 0 < n2) (hs : t.Symmetric)
    (ht : t.Truncated n1 n2 true) (hg : t.G = fun _ => 0) (m : X) (a b : V) (i j : O) :
    Ref.resU21 n1 n2 true t m a b i j
      = snd (Ref.resT2 n1 n2 true (t.shift m) a b i j) + t.w m * t.U21 m a b i j := by
  obtain ⟨cs, hc⟩ := check_ref_U21 n1 n2 h1 h2
  refine (first_of_check hs ht hg hc i j a b m m).trans (congrArg _ ?_)
  simp [qedcc_eval, env, kind]

/-- `U2n[0]` of openms/mqed/myqedcc_equations_opt.py without second-order amplitudes. -/
theorem opt_U21_derivative_one (h1 : 0 < n1) (hs : t.Symmetric)
    (ht : t.Truncated n1 1 true) (hg : t.G = fun _ => 0) (m : X) (a b : V) (i j : O) :
    Opt.resU21 n1 1 true t m a b i j
      = snd (Ref.resT2 n1 1 true (t.shift m) a b i j) + t.w m * t.U21 m a b i j := by
  obtain ⟨cs, hc⟩ := check_opt_U21 n1 h1
  refine (first_of_check hs ht hg hc i j a b m m).trans (congrArg _ ?_)
  simp [qedcc_eval, env, kind]

/-- With second-order amplitudes `U2n[0]` of openms/mqed/myqedcc_equations_opt.py differs from the
derivative by `modeErr`, antisymmetrised. -/
theorem opt_U21_error (h1 : 0 < n1) (h2 : 1 < n2) (hs : t.Symmetric)
    (ht : t.Truncated n1 n2 true) (hg : t.G = fun _ => 0) (m : X) (a b : V) (i j : O) :
    Opt.resU21 n1 n2 true t m a b i j
      = snd (Ref.resT2 n1 n2 true (t.shift m) a b i j) + t.w m * t.U21 m a b i j
        + (modeErr t m a b i j - modeErr t m b a i j - modeErr t m a b j i
          + modeErr t m b a j i) := by
  obtain ⟨cs, hc⟩ := check_opt_U21_two n1 n2 h1 h2
  refine (first_of_check hs ht hg hc i j a b m m).trans ?_
  rw [evalTerms_cons, modeErr_eq, ← add_assoc]
  refine congrArg (· + _) (congrArg _ ?_)
  simp [qedcc_eval, env, kind]

/-- The residual is the derivative if there is one mode or `nfock2 = 1`. -/
theorem opt_U21_derivative_partial (h1 : 0 < n1) (h2 : 0 < n2) (hs : t.Symmetric)
    (ht : t.Truncated n1 n2 true) (hg : t.G = fun _ => 0) (h : Subsingleton X ∨ n2 = 1) (m : X)
    (a b : V) (i j : O) :
    Opt.resU21 n1 n2 true t m a b i j
      = snd (Ref.resT2 n1 n2 true (t.shift m) a b i j) + t.w m * t.U21 m a b i j := by
  rcases (by omega : n2 = 1 ∨ 1 < n2) with h' | h'
  · subst h'
    exact opt_U21_derivative_one h1 hs ht hg m a b i j
  · rcases h with h | h
    · have h0 : ∀ a b i j, modeErr t m a b i j = 0 := fun a b i j => by
        unfold modeErr
        refine Finset.sum_eq_zero fun n _ => ?_
        rw [Subsingleton.elim n m]
        ring
      rw [opt_U21_error h1 h' hs ht hg]
      simp only [h0]
      ring
    · omega

set_option maxRecDepth 100000 in
/-- With two modes and `nfock2 = 2` the optimised residual is not the derivative. -/
theorem opt_U21_derivative_fails :
    Opt.resU21 2 2 true exInputs 0 0 1 0 1
      ≠ snd (Ref.resT2 2 2 true (exInputs.shift 0) 0 1 0 1)
        + exInputs.w 0 * exInputs.U21 0 0 1 0 1 := by
  rw [opt_U21_error (by decide) (by decide) exInputs_symmetric exInputs_truncated exInputs_G]
  intro h
  have h0 : modeErr exInputs 0 0 1 0 1 - modeErr exInputs 0 1 0 0 1 - modeErr exInputs 0 0 1 1 0
      + modeErr exInputs 0 1 0 1 0 = 2 := by decide +kernel
  rw [h0] at h
  linarith

set_option maxRecDepth 100000 in
example : Ref.resU21 2 2 true exInputs 0 0 1 0 1 = -699
    ∧ Ref.resU21 2 2 true exInputs 0 0 1 0 1
      = snd (Ref.resT2 2 2 true (exInputs.shift 0) 0 1 0 1)
        + exInputs.w 0 * exInputs.U21 0 0 1 0 1 :=
  ⟨by decide +kernel, ref_U21_derivative (by decide) (by decide) exInputs_symmetric
    exInputs_truncated exInputs_G 0 0 1 0 1⟩

example : Opt.resU21 2 2 true exOne 0 0 1 0 1
    = snd (Ref.resT2 2 2 true (exOne.shift 0) 0 1 0 1) + exOne.w 0 * exOne.U21 0 0 1 0 1 :=
  opt_U21_derivative_partial (by decide) (by decide) exOne_symmetric exOne_truncated exOne_G
    (.inl inferInstance) 0 0 1 0 1

end OpenMS.Qedcc
