/-
C114: the singles and doubles residuals of openms/mqed/myqedcc_equations_opt.py agree with
those of openms/mqed/qedcc_equations.py.
-/
import Verif.Lemmas.QedccCheckT
import Verif.Lemmas.QedccExample

namespace OpenMS.Qedcc

open Einsum

variable {R O V X : Type*} [CommRing R] [Algebra ℚ R] [Fintype O] [Fintype V] [Fintype X]

theorem optT_two {n1 n2 : Nat} (h1 : 0 < n1) (h2 : 0 < n2) (u2 : Bool) :
    optT n1 n2 u2 = optT 2 2 u2 := by
  unfold optT
  simp only [h1, h2, Nat.zero_lt_two]

theorem refT2_two (n1 n2 : Nat) (u2 : Bool) : refT2 n1 n2 u2 = refT2 2 2 u2 := rfl

theorem refT1_two (n1 n2 : Nat) (u2 : Bool) : refT1 n1 n2 u2 = refT1 2 2 u2 := rfl

/-- The optimised singles residual is the reference one plus `∑_I G_I U11_I`, which the
reference leaves out. -/
theorem opt_T1_eq {n1 n2 : Nat} (h1 : 0 < n1) (h2 : 0 < n2) {u2 : Bool} {t : Inputs R O V X}
    (hs : t.Symmetric) (ht : t.Truncated n1 n2 u2) (a : V) (i : O) :
    Opt.resT1 n1 n2 u2 t a i = Ref.resT1 n1 n2 u2 t a i + ∑ m, t.G m * t.U11 m a i := by
  obtain ⟨cs, hc⟩ := check_T1 u2
  have h := eq_add_of_check hs ht.two (fun h => by simp at h) hc
    (bind (letters% "ai") [.v a, .o i])
  unfold Opt.resT1 Ref.resT1
  rw [optT_two h1 h2, refT1_two n1 n2]
  refine h.trans (congrArg _ ?_)
  have hG : run (refT1 2 2 u2) t.ten 13 = t.ten 13 := run_frame (by cases u2 <;> rfl) _
  have hU : run (refT1 2 2 u2) t.ten 9 = t.ten 9 := run_frame (by cases u2 <;> rfl) _
  simp [evalTerms, Term.eval, Line.term, dummies, uniq, Coef.val, sumVars, prodFacs, sumOver, kind,
    Tensor.at, G, U11old, hG, hU, Einsum.bind, Inputs.ten, at1, mode, vir, occ]

/-- The optimised doubles residual is the reference one. -/
theorem opt_T2_eq {n1 n2 : Nat} (h1 : 0 < n1) (h2 : 0 < n2) {u2 : Bool} {t : Inputs R O V X}
    (hs : t.Symmetric) (ht : t.Truncated n1 n2 u2) (a b : V) (i j : O) :
    Opt.resT2 n1 n2 u2 t a b i j = Ref.resT2 n1 n2 u2 t a b i j := by
  obtain ⟨cs, hc⟩ := check_T2 u2
  have h := eq_of_check hs ht.two (fun h => by simp at h) hc
    (bind (letters% "abij") [.v a, .v b, .o i, .o j])
  unfold Opt.resT2 Ref.resT2
  rw [optT_two h1 h2, refT2_two n1 n2]
  exact h

/-- The doubles residual is antisymmetric in the virtual orbitals. -/
theorem T2_antisymm_left {n1 n2 : Nat} {u2 : Bool} {t : Inputs R O V X} (hs : t.Symmetric)
    (ht : t.Truncated n1 n2 u2) (a b : V) (i j : O) :
    Ref.resT2 n1 n2 u2 t b a i j = -Ref.resT2 n1 n2 u2 t a b i j := by
  obtain ⟨cs, hc⟩ := check_T2_left u2
  exact neg_of_check (y := T2) (ks := letters% "abij") hs ht.two (fun h => by simp at h) hc
    (bind (letters% "abij") [.v a, .v b, .o i, .o j])

/-- The doubles residual is antisymmetric in the occupied orbitals. -/
theorem T2_antisymm_right {n1 n2 : Nat} {u2 : Bool} {t : Inputs R O V X} (hs : t.Symmetric)
    (ht : t.Truncated n1 n2 u2) (a b : V) (i j : O) :
    Ref.resT2 n1 n2 u2 t a b j i = -Ref.resT2 n1 n2 u2 t a b i j := by
  obtain ⟨cs, hc⟩ := check_T2_right u2
  exact neg_of_check (y := T2) (ks := letters% "abij") hs ht.two (fun h => by simp at h) hc
    (bind (letters% "abij") [.v a, .v b, .o i, .o j])

set_option maxRecDepth 100000 in
example : Opt.resT1 2 2 true exInputs 0 1 = Ref.resT1 2 2 true exInputs 0 1
    ∧ Ref.resT1 2 2 true exInputs 0 1 = -144 := by
  refine ⟨?_, by decide +kernel⟩
  rw [opt_T1_eq (by decide) (by decide) exInputs_symmetric exInputs_truncated]
  simp [exInputs_G]

set_option maxRecDepth 100000 in
example : Opt.resT2 2 2 true exInputs 0 1 0 1 = -336
    ∧ Ref.resT2 2 2 true exInputs 1 0 0 1 = 336 := by
  have h : Ref.resT2 2 2 true exInputs 0 1 0 1 = -336 := by decide +kernel
  rw [opt_T2_eq (by decide) (by decide) exInputs_symmetric exInputs_truncated,
    T2_antisymm_left exInputs_symmetric exInputs_truncated 0 1 0 1, h]
  norm_num

end OpenMS.Qedcc
