/-
First-order photon-electron doubles residual of openms/mqed/myqedcc_equations_opt.py with
second-order amplitudes, compared with the derivative of the doubles residual.
-/
import Verif.Lemmas.QedccErr
import Verif.Lemmas.EinsumStage

namespace OpenMS.Qedcc

open Einsum

set_option maxRecDepth 100000

theorem check_opt_U21_two_12t : ∃ cs, checkTo (sym 1 2 true true) 5 cs
    (imdsBuild 1 2 true ++ optU2 1 2 true) (read U21 (letters% "Iabij"))
    (derived rule 2 (refT2 1 2 true) (read T2 (letters% "abij"))) ((ein% "1" "I,Iabij->Iabij" [w, U21old]).term :: modeErrTerms) = true := by
  einsum_check

theorem check_opt_U21_two_22t : ∃ cs, checkTo (sym 2 2 true true) 5 cs
    (imdsBuild 2 2 true ++ optU2 2 2 true) (read U21 (letters% "Iabij"))
    (derived rule 2 (refT2 2 2 true) (read T2 (letters% "abij"))) ((ein% "1" "I,Iabij->Iabij" [w, U21old]).term :: modeErrTerms) = true := by
  einsum_check

theorem check_opt_U21_two (n1 n2 : Nat) (h1 : 0 < n1) (h2 : 1 < n2) : ∃ cs, checkTo (sym n1 n2 true true) 5 cs
    (imdsBuild n1 n2 true ++ optU2 n1 n2 true) (read U21 (letters% "Iabij"))
    (derived rule 2 (refT2 n1 n2 true) (read T2 (letters% "abij"))) ((ein% "1" "I,Iabij->Iabij" [w, U21old]).term :: modeErrTerms) = true := by
  rw [sym_min n1 n2, imdsBuild_min n1 n2, optU2_min n1 n2, refT2_min n1 n2]
  rcases (by omega : min n1 2 = 1 ∨ min n1 2 = 2) with h | h
  · have h' : min n2 2 = 2 := by omega
    rw [h, h']; exact check_opt_U21_two_12t
  · have h' : min n2 2 = 2 := by omega
    rw [h, h']; exact check_opt_U21_two_22t

end OpenMS.Qedcc
