/-
First-order photon-electron doubles residual of openms/mqed/myqedcc_equations_opt.py compared
with the derivative of the doubles residual.
-/
import Verif.Lemmas.QedccProof
import Verif.Lemmas.EinsumStage

namespace OpenMS.Qedcc

open Einsum

set_option maxRecDepth 100000

theorem check_opt_U21_11t : ∃ cs, checkTo (sym 1 1 true true) 5 cs
    (imdsBuild 1 1 true ++ optU2 1 1 true) (read U21 (letters% "Iabij"))
    (derived rule 2 (refT2 1 1 true) (read T2 (letters% "abij"))) [(ein% "1" "I,Iabij->Iabij" [w, U21old]).term] = true := by
  einsum_check

theorem check_opt_U21_21t : ∃ cs, checkTo (sym 2 1 true true) 5 cs
    (imdsBuild 2 1 true ++ optU2 2 1 true) (read U21 (letters% "Iabij"))
    (derived rule 2 (refT2 2 1 true) (read T2 (letters% "abij"))) [(ein% "1" "I,Iabij->Iabij" [w, U21old]).term] = true := by
  einsum_check

theorem check_opt_U21 (n1 : Nat) (h1 : 0 < n1) : ∃ cs, checkTo (sym n1 1 true true) 5 cs
    (imdsBuild n1 1 true ++ optU2 n1 1 true) (read U21 (letters% "Iabij"))
    (derived rule 2 (refT2 n1 1 true) (read T2 (letters% "abij"))) [(ein% "1" "I,Iabij->Iabij" [w, U21old]).term] = true := by
  rw [sym_min n1 1, imdsBuild_min n1 1, optU2_min n1 1, refT2_min n1 1]
  rcases (by omega : min n1 2 = 1 ∨ min n1 2 = 2) with h | h
  · have h' : min 1 2 = 1 := rfl
    rw [h, h']; exact check_opt_U21_11t
  · have h' : min 1 2 = 1 := rfl
    rw [h, h']; exact check_opt_U21_21t

end OpenMS.Qedcc
