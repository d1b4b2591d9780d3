/-
C118: the second-order photon-electron singles residual compared with the second derivative of
the singles residual.
-/
import Verif.Lemmas.QedccCheckU12
import Verif.Lemmas.QedccCheckU12Opt
import Verif.Lemmas.QedccExample
import Verif.Lemmas.QedccEval

namespace OpenMS.Qedcc

open Einsum TrivSqZeroExt

variable {R O V X : Type*} [CommRing R] [Algebra ℚ R] [Fintype O] [Fintype V] [Fintype X]

/-- `∑ I(kl,cd) A(c,k) B(a,d,i,l)`. -/
def ringTerm (t : Inputs R O V X) (A : V → O → R) (B : V → V → O → O → R) (a : V) (i : O) : R :=
  ∑ c, ∑ k, ∑ d, ∑ l, t.I (.inl k) (.inl l) (.inr c) (.inr d) * (A c k * B a d i l)

/-- `-½ ∑ I(kl,cd) A(c,i) B(a,d,k,l)`. -/
def ladderOcc (t : Inputs R O V X) (A : V → O → R) (B : V → V → O → O → R) (a : V) (i : O) : R :=
  algebraMap ℚ R (-1 / 2)
    * ∑ c, ∑ d, ∑ k, ∑ l, t.I (.inl k) (.inl l) (.inr c) (.inr d) * (A c i * B a d k l)

/-- `-½ ∑ I(kl,cd) A(a,k) B(c,d,i,l)`. -/
def ladderVir (t : Inputs R O V X) (A : V → O → R) (B : V → V → O → O → R) (a : V) (i : O) : R :=
  algebraMap ℚ R (-1 / 2)
    * ∑ k, ∑ c, ∑ d, ∑ l, t.I (.inl k) (.inl l) (.inr c) (.inr d) * (A a k * B c d i l)

/-- Terms with doubles that `U1n[1]` counts once too often. -/
def surplus (t : Inputs R O V X) (m n : X) (a : V) (i : O) : R :=
  ladderOcc t t.T1 (t.U22 m n) a i + ringTerm t t.T1 (t.U22 m n) a i
    + (ladderVir t (t.U11 m) (t.U21 n) a i + ladderOcc t (t.U11 m) (t.U21 n) a i
      + ringTerm t (t.U11 m) (t.U21 n) a i)
    + (ladderVir t (t.U11 n) (t.U21 m) a i + ladderOcc t (t.U11 n) (t.U21 m) a i
      + ringTerm t (t.U11 n) (t.U21 m) a i)

/-- `-½ ∑ I(kl,cd) T2(a,c,i,k) U12(m,n,d,l)`, a further term of the optimised residual. -/
def optSurplus (t : Inputs R O V X) (m n : X) (a : V) (i : O) : R :=
  algebraMap ℚ R (-1 / 2)
    * ∑ c, ∑ k, ∑ d, ∑ l,
      t.I (.inl k) (.inl l) (.inr c) (.inr d) * (t.T2 a c i k * t.U12 m n d l)

theorem surplus_eq (t : Inputs R O V X) (m n : X) (a : V) (i : O) :
    evalTerms t.ten surplusU12 (env i i a a m n) = surplus t m n a i := by
  unfold surplusU12 surplus ladderOcc ladderVir ringTerm
  simp [qedcc_eval, env, kind]
  ring

theorem optSurplus_eq (t : Inputs R O V X) (m n : X) (a : V) (i : O) :
    evalTerms t.ten surplusOptU12 (env i i a a m n) = optSurplus t m n a i + surplus t m n a i := by
  unfold surplusOptU12 optSurplus
  rw [evalTerms_cons, surplus_eq]
  simp [qedcc_eval, env, kind]

theorem freq_eq (t : Inputs R O V X) (m n : X) (a : V) (i : O) :
    evalTerms t.ten freqU12 (env i i a a m n) = (t.w m + t.w n) * t.U12 m n a i := by
  unfold freqU12
  simp [qedcc_eval, env, kind]
  ring

theorem twice_eq (ten : Tens R O V X) (ts : List Term) (e : Env O V X) :
    evalTerms ten (ts.map twice) e = 2 * evalTerms ten ts e := by
  induction ts with
  | nil => simp [evalTerms]
  | cons u ts ih =>
    rw [List.map_cons, evalTerms_cons, evalTerms_cons, ih, mul_add]
    congr 1
    simp only [twice, Term.eval, Coef.val]
    push_cast
    rw [mul_div_assoc, map_mul, mul_assoc]
    congr 1
    exact map_ofNat _ 2

variable [DecidableEq X] {n1 n2 : Nat} {u2 : Bool} {t : Inputs R O V X}

/-- `U1n[1]` of openms/mqed/qedcc_equations.py, several modes, is the second derivative of the
singles residual plus `(ω_m + ω_n) U12` and `surplus`. -/
theorem ref_U12_error (h1 : 0 < n1) (h2 : 1 < n2) (hs : t.Symmetric) (ht : t.Truncated n1 n2 u2)
    (hg : t.G = fun _ => 0) (m n : X) (a : V) (i : O) :
    Ref.resU12 n1 n2 u2 t m n a i
      = snd (snd (Ref.resT1 n1 n2 u2 ((t.shift n).shift m) a i))
        + (t.w m + t.w n) * t.U12 m n a i + surplus t m n a i := by
  obtain ⟨cs, hc⟩ := check_ref_U12 n1 n2 u2 h1 h2
  refine (second_of_check hs ht hg hc i i a a m n).trans ?_
  rw [evalTerms_append, freq_eq, surplus_eq, ← add_assoc]
  rfl

/-- Without doubles with photons (`U2n` not used) it is the second derivative. -/
theorem ref_U12_derivative_partial (h1 : 0 < n1) (h2 : 1 < n2) (hs : t.Symmetric)
    (ht : t.Truncated n1 n2 false) (hg : t.G = fun _ => 0) (m n : X) (a : V) (i : O) :
    Ref.resU12 n1 n2 false t m n a i
      = snd (snd (Ref.resT1 n1 n2 false ((t.shift n).shift m) a i))
        + (t.w m + t.w n) * t.U12 m n a i := by
  have h0 : surplus t m n a i = 0 := by
    simp [surplus, ladderOcc, ladderVir, ringTerm, ht.U21 rfl, ht.U22 (.inr rfl)]
  rw [ref_U12_error h1 h2 hs ht hg, h0, add_zero]

omit [DecidableEq X] in
theorem resT1_double (n1 n2 : Nat) (u2 : Bool) (t : Inputs R O V X) (a : V) (i : O) :
    result (refT1 n1 n2 u2 ++ [add T1 [cpy ⟨1, 0⟩ T1]]) t T1 [.v a, .o i]
      = 2 * Ref.resT1 n1 n2 u2 t a i := by
  unfold Ref.resT1 result
  rw [run_append]
  generalize run (refT1 n1 n2 u2) t.ten = ten
  have h3 : run [add T1 [cpy ⟨1, 0⟩ T1]] ten T1.root = evalAt ten (add T1 [cpy ⟨1, 0⟩ T1]).terms :=
    run_single _ _
  rw [h3]
  simp [Def.terms, evalAt, Einsum.add, cpy, axes, Kind.num, T1, qedcc_eval]
  ring

/-- The two elements `(m, n)` and `(n, m)` of `U1n[1]` of openms/mqed/myqedcc_equations_opt.py add
up to twice the second derivative, `(ω_m + ω_n) U12`, `surplus` and `optSurplus`. -/
theorem opt_U12_error (h1 : 0 < n1) (h2 : 1 < n2) (hs : t.Symmetric) (ht : t.Truncated n1 n2 u2)
    (hg : t.G = fun _ => 0) (m n : X) (a : V) (i : O) :
    Opt.resU12 n1 n2 u2 t m n a i + Opt.resU12 n1 n2 u2 t n m a i
      = 2 * (snd (snd (Ref.resT1 n1 n2 u2 ((t.shift n).shift m) a i))
        + (t.w m + t.w n) * t.U12 m n a i + surplus t m n a i + optSurplus t m n a i) := by
  obtain ⟨cs, hc⟩ := check_opt_U12 n1 n2 u2 h1 h2
  have h := checkTo_sound2 (fst_shift t n) (fst_shift (t.shift n) m) (shift_moves (t.shift n) m)
    (shift_moves t n) (ten_respects hs ht fun _ => hg) hc (env i i a a m n) rfl rfl
  rw [evalTerms_append, read_result, read_result, read_result, twice_eq, evalTerms_append, freq_eq,
    optSurplus_eq] at h
  have h' := resT1_double n1 n2 u2 ((t.shift n).shift m) a i
  refine h.trans ?_
  refine (congrArg (fun x => snd (snd x) + _) h').trans ?_
  rw [two_mul, snd_add, snd_add]
  ring

/-- With one mode and without doubles with photons, the optimised residual exceeds the second
derivative by `optSurplus`. -/
theorem opt_U12_one (h1 : 0 < n1) (h2 : 1 < n2) (hs : t.Symmetric) (ht : t.Truncated n1 n2 false)
    (hg : t.G = fun _ => 0) (m : X) (a : V) (i : O) :
    Opt.resU12 n1 n2 false t m m a i
      = snd (snd (Ref.resT1 n1 n2 false ((t.shift m).shift m) a i))
        + (t.w m + t.w m) * t.U12 m m a i + optSurplus t m m a i := by
  have h0 : surplus t m m a i = 0 := by
    simp [surplus, ladderOcc, ladderVir, ringTerm, ht.U21 rfl, ht.U22 (.inr rfl)]
  have h := opt_U12_error h1 h2 hs ht hg m m a i
  rw [← two_mul, h0, add_zero] at h
  have h2 := congrArg (fun x => algebraMap ℚ R (1 / 2) * x) h
  have h3 : algebraMap ℚ R (1 / 2) * 2 = 1 := by
    rw [← map_ofNat (algebraMap ℚ R) 2, ← map_mul]
    norm_num
  simpa only [← mul_assoc, h3, one_mul] using h2

/-- The example without doubles with photons. -/
def exNoU2 : Inputs ℚ (Fin 2) (Fin 2) (Fin 2) :=
  { exInputs with U21 := fun _ _ _ _ _ => 0, U22 := fun _ _ _ _ _ _ => 0 }

theorem exNoU2_symmetric : exNoU2.Symmetric := by
  constructor <;> intros <;> simp only [exNoU2, exInputs] <;> ring

theorem exNoU2_truncated : exNoU2.Truncated 2 2 false :=
  ⟨fun h => absurd h (by decide), fun h => absurd h (by decide), fun _ => rfl, fun _ => rfl⟩

example : Ref.resU12 2 2 false exNoU2 0 1 0 1
    = snd (snd (Ref.resT1 2 2 false ((exNoU2.shift 1).shift 0) 0 1))
      + (exNoU2.w 0 + exNoU2.w 1) * exNoU2.U12 0 1 0 1 :=
  ref_U12_derivative_partial (by decide) (by decide) exNoU2_symmetric exNoU2_truncated rfl 0 1 0 1

set_option maxRecDepth 100000 in
/-- With doubles with photons, `U1n[1]` is not the second derivative. -/
theorem ref_U12_derivative_fails :
    Ref.resU12 2 2 true exInputs 0 1 0 1
      ≠ snd (snd (Ref.resT1 2 2 true ((exInputs.shift 1).shift 0) 0 1))
        + (exInputs.w 0 + exInputs.w 1) * exInputs.U12 0 1 0 1 := by
  rw [ref_U12_error (by decide) (by decide) exInputs_symmetric exInputs_truncated exInputs_G]
  have h : surplus exInputs 0 1 0 1 = -14 := by decide +kernel
  rw [h]
  intro h
  linarith

set_option maxRecDepth 100000 in
/-- The optimised `U1n[1]` is not the second derivative even without doubles with photons. -/
theorem opt_U12_derivative_fails :
    Opt.resU12 2 2 false exNoU2 1 1 0 1
      ≠ snd (snd (Ref.resT1 2 2 false ((exNoU2.shift 1).shift 1) 0 1))
        + (exNoU2.w 1 + exNoU2.w 1) * exNoU2.U12 1 1 0 1 := by
  rw [opt_U12_one (by decide) (by decide) exNoU2_symmetric exNoU2_truncated rfl]
  have h : optSurplus exNoU2 1 1 0 1 = -1 := by decide +kernel
  rw [h]
  intro h
  linarith

set_option maxRecDepth 100000 in
/-- The optimised `U1n[1]` is not symmetric in the modes although the amplitudes are. -/
theorem opt_U12_symmetry_fails :
    Opt.resU12 2 2 true exInputs 0 1 0 1 ≠ Opt.resU12 2 2 true exInputs 1 0 0 1 := by
  decide +kernel

end OpenMS.Qedcc
