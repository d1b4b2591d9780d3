/-
C119: the second-order photon-electron doubles residual with one mode compared with the second
derivative of the doubles residual.
-/
import Verif.Lemmas.QedccCheckU22
import Verif.Lemmas.QedccCheckU22Opt
import Verif.Lemmas.QedccExample
import Verif.Lemmas.QedccEval

namespace OpenMS.Qedcc

open Einsum TrivSqZeroExt

section

variable {R O V X : Type*} [CommRing R] [Algebra ℚ R] [Fintype O] [Fintype V] [Fintype X]

/-- The term of degree four of the doubles residual, `∑ I(kl,cd) T1(c,i) T1(d,j) T1(a,k) T1(b,l)`. -/
def quartic (t : Inputs R O V X) (a b : V) (i j : O) : R :=
  ∑ c, ∑ d, ∑ k, ∑ l, t.I (.inl k) (.inl l) (.inr c) (.inr d)
    * (t.T1 c i * (t.T1 d j * (t.T1 a k * t.T1 b l)))

theorem resT2_quartic (n1 n2 : Nat) (u2 : Bool) (t : Inputs R O V X) (a b : V) (i j : O) :
    result (refT2 n1 n2 u2 ++ [add T2 [⟨⟨-1, 0⟩, quarticL.out, quarticL.ops⟩]]) t T2
        [.v a, .v b, .o i, .o j]
      = Ref.resT2 n1 n2 u2 t a b i j - quartic t a b i j := by
  unfold Ref.resT2 result
  rw [run_append]
  have hI : run (refT2 n1 n2 u2) t.ten 1 = t.ten 1 := run_frame (by cases u2 <;> rfl) _
  have hT : run (refT2 n1 n2 u2) t.ten 5 = t.ten 5 := run_frame (by cases u2 <;> rfl) _
  generalize run (refT2 n1 n2 u2) t.ten = ten at hI hT ⊢
  have h3 : run [add T2 [⟨⟨-1, 0⟩, quarticL.out, quarticL.ops⟩]] ten T2.root
      = evalAt ten (add T2 [⟨⟨-1, 0⟩, quarticL.out, quarticL.ops⟩]).terms := run_single _ _
  rw [h3]
  simp [Def.terms, evalAt, Einsum.add, cpy, axes, Kind.num, T2, quarticL, qedcc_eval, hI, hT]
  unfold quartic
  ring

end

theorem snd_snd_prod {R : Type*} [CommRing R] {p q r : DualNumber (DualNumber R)}
    (hp : fst (fst p) = 0) (hq : fst (fst q) = 0) (hr : fst (fst r) = 0)
    (x s : DualNumber (DualNumber R)) : snd (snd (x * (p * (q * (r * s))))) = 0 := by
  simp [hp, hq, hr]

theorem snd_sum' {R ι : Type*} [CommRing R] (s : Finset ι) (f : ι → DualNumber R) :
    snd (∑ i ∈ s, f i) = ∑ i ∈ s, snd (f i) :=
  map_sum (sndHom R R) f s

variable {R O V X : Type*} [CommRing R] [Algebra ℚ R] [Fintype O] [Fintype V] [Fintype X]
  [DecidableEq X] {n1 n2 : Nat} {t : Inputs R O V X}

/-- With one mode `U2n[1]` of openms/mqed/myqedcc_equations_opt.py is the second derivative of the
doubles residual without its term of degree four, plus `2 ω U22`. -/
theorem opt_U22_error (hX : Fintype.card X = 1) (h1 : 0 < n1) (h2 : 1 < n2) (hs : t.Symmetric)
    (ht : t.Truncated n1 n2 true) (hg : t.G = fun _ => 0) (m : X) (a b : V) (i j : O) :
    Opt.resU22 n1 n2 true t m a b i j
      = snd (snd (Ref.resT2 n1 n2 true ((t.shift m).shift m) a b i j
          - quartic ((t.shift m).shift m) a b i j))
        + 2 * t.w m * t.U22 m m a b i j := by
  obtain ⟨cs, hc⟩ := check_opt_U22 n1 n2 h1 h2
  refine (one_second_of_check hX hs ht hg hc i j a b m).trans ?_
  refine (congrArg (fun x => snd (snd x) + _) (resT2_quartic n1 n2 true _ a b i j)).trans ?_
  refine congrArg _ ?_
  simp [qedcc_eval, env, kind]
  rw [map_ofNat]
  ring

/-- The same for the general function of openms/mqed/qedcc_equations.py (which calls
`single_qedccsd_U2n` instead if there is one mode). -/
theorem ref_U22_error (hX : Fintype.card X = 1) (h1 : 0 < n1) (h2 : 1 < n2) (hs : t.Symmetric)
    (ht : t.Truncated n1 n2 true) (hg : t.G = fun _ => 0) (m : X) (a b : V) (i j : O) :
    Ref.resU22 n1 n2 true t m a b i j
      = snd (snd (Ref.resT2 n1 n2 true ((t.shift m).shift m) a b i j
          - quartic ((t.shift m).shift m) a b i j))
        + 2 * t.w m * t.U22 m m a b i j := by
  obtain ⟨cs, hc⟩ := check_ref_U22 n1 n2 h1 h2
  refine (one_second_of_check hX hs ht hg hc i j a b m).trans ?_
  refine (congrArg (fun x => snd (snd x) + _) (resT2_quartic n1 n2 true _ a b i j)).trans ?_
  refine congrArg _ ?_
  simp [qedcc_eval, env, kind]
  rw [map_ofNat]
  ring

/-- The residual is the second derivative if there are no singles, with or without photons. -/
theorem opt_U22_derivative_partial (hX : Fintype.card X = 1) (h1 : 0 < n1) (h2 : 1 < n2)
    (hs : t.Symmetric) (ht : t.Truncated n1 n2 true) (hg : t.G = fun _ => 0)
    (hT : t.T1 = fun _ _ => 0) (m : X) (a b : V) (i j : O) :
    Opt.resU22 n1 n2 true t m a b i j
      = snd (snd (Ref.resT2 n1 n2 true ((t.shift m).shift m) a b i j))
        + 2 * t.w m * t.U22 m m a b i j := by
  rw [opt_U22_error hX h1 h2 hs ht hg, snd_sub, snd_sub]
  have h : snd (snd (quartic ((t.shift m).shift m) a b i j)) = 0 := by
    unfold quartic
    rw [snd_sum', snd_sum']
    refine Finset.sum_eq_zero fun c _ => ?_
    rw [snd_sum', snd_sum']
    refine Finset.sum_eq_zero fun d _ => ?_
    rw [snd_sum', snd_sum']
    refine Finset.sum_eq_zero fun k _ => ?_
    rw [snd_sum', snd_sum']
    refine Finset.sum_eq_zero fun l _ => ?_
    have hf : ∀ a i, fst (fst (((t.shift m).shift m).T1 a i)) = 0 := fun a i => by
      simp [Inputs.shift, hT]
    exact snd_snd_prod (hf _ _) (hf _ _) (hf _ _) _ _
  rw [h, sub_zero]

set_option maxRecDepth 100000 in
/-- In general `U2n[1]` is not the second derivative of the doubles residual, in either file. -/
theorem U22_derivative_fails :
    Opt.resU22 2 2 true exOne 0 0 1 0 1
        ≠ snd (snd (Ref.resT2 2 2 true ((exOne.shift 0).shift 0) 0 1 0 1))
          + 2 * exOne.w 0 * exOne.U22 0 0 0 1 0 1
      ∧ Ref.resU22 2 2 true exOne 0 0 1 0 1
        ≠ snd (snd (Ref.resT2 2 2 true ((exOne.shift 0).shift 0) 0 1 0 1))
          + 2 * exOne.w 0 * exOne.U22 0 0 0 1 0 1 := by
  rw [opt_U22_error rfl (by decide) (by decide) exOne_symmetric exOne_truncated exOne_G,
    ref_U22_error rfl (by decide) (by decide) exOne_symmetric exOne_truncated exOne_G, snd_sub,
    snd_sub]
  have h : snd (snd (quartic ((exOne.shift 0).shift 0) 0 1 0 1)) = -12 := by decide +kernel
  rw [h]
  constructor <;> intro h <;> linarith

/-- The example with one mode and without singles. -/
def exNoT1 : Inputs ℚ (Fin 2) (Fin 2) (Fin 1) := { exOne with T1 := fun _ _ => 0 }

theorem exNoT1_symmetric : exNoT1.Symmetric := by
  constructor <;> intros <;> simp only [exNoT1, exOne, exInputs] <;> ring

theorem exNoT1_truncated : exNoT1.Truncated 2 2 true :=
  ⟨fun h => absurd h (by decide), fun h => absurd h (by decide), fun h => by simp at h,
    fun h => by simp at h⟩

set_option maxRecDepth 100000 in
example : Opt.resU22 2 2 true exNoT1 0 0 1 0 1
    = snd (snd (Ref.resT2 2 2 true ((exNoT1.shift 0).shift 0) 0 1 0 1))
      + 2 * exNoT1.w 0 * exNoT1.U22 0 0 0 1 0 1 :=
  opt_U22_derivative_partial rfl (by decide) (by decide) exNoT1_symmetric exNoT1_truncated rfl rfl
    0 0 1 0 1

end OpenMS.Qedcc
