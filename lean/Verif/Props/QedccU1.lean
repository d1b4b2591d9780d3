/-
C116: the first-order photon-electron singles residual is the derivative of the singles
residual.
-/
import Verif.Lemmas.QedccCheckU1
import Verif.Lemmas.QedccExample
import Verif.Lemmas.QedccEval

namespace OpenMS.Qedcc

open Einsum TrivSqZeroExt

variable {R O V X : Type*} [CommRing R] [Algebra ℚ R] [Fintype O] [Fintype V] [Fintype X]
  [DecidableEq X] {n1 n2 : Nat} {u2 : Bool} {t : Inputs R O V X}

/-- `U1n[0]` of openms/mqed/qedcc_equations.py, several modes, is the derivative of the singles
residual of the displaced amplitudes, plus `ω U11`. -/
theorem ref_U11_derivative (h1 : 0 < n1) (h2 : 0 < n2) (hs : t.Symmetric)
    (ht : t.Truncated n1 n2 u2) (hg : t.G = fun _ => 0) (m : X) (a : V) (i : O) :
    Ref.resU11 n1 n2 u2 t m a i
      = snd (Ref.resT1 n1 n2 u2 (t.shift m) a i) + t.w m * t.U11 m a i := by
  obtain ⟨cs, hc⟩ := check_ref_U11 n1 n2 u2 h1 h2
  refine (first_of_check hs ht hg hc i i a a m m).trans (congrArg _ ?_)
  simp [qedcc_eval, env, kind]

/-- The same for openms/mqed/myqedcc_equations_opt.py. -/
theorem opt_U11_derivative (h1 : 0 < n1) (h2 : 0 < n2) (hs : t.Symmetric)
    (ht : t.Truncated n1 n2 u2) (hg : t.G = fun _ => 0) (m : X) (a : V) (i : O) :
    Opt.resU11 n1 n2 u2 t m a i
      = snd (Ref.resT1 n1 n2 u2 (t.shift m) a i) + t.w m * t.U11 m a i := by
  obtain ⟨cs, hc⟩ := check_opt_U11 n1 n2 u2 h1 h2
  refine (first_of_check hs ht hg hc i i a a m m).trans (congrArg _ ?_)
  simp [qedcc_eval, env, kind]

/-- Hence both files agree. -/
theorem opt_U11_eq_ref (h1 : 0 < n1) (h2 : 0 < n2) (hs : t.Symmetric)
    (ht : t.Truncated n1 n2 u2) (hg : t.G = fun _ => 0) (m : X) (a : V) (i : O) :
    Opt.resU11 n1 n2 u2 t m a i = Ref.resU11 n1 n2 u2 t m a i := by
  rw [opt_U11_derivative h1 h2 hs ht hg, ref_U11_derivative h1 h2 hs ht hg]

set_option maxRecDepth 100000 in
example : Ref.resU11 2 2 true exInputs 1 0 1 = -567
    ∧ Opt.resU11 2 2 true exInputs 1 0 1 = -567 :=
  have h : Ref.resU11 2 2 true exInputs 1 0 1 = -567 := by decide +kernel
  ⟨h, (opt_U11_eq_ref (by decide) (by decide) exInputs_symmetric exInputs_truncated exInputs_G
    1 0 1).trans h⟩

end OpenMS.Qedcc
