/-
First-order photon-electron doubles residual of openms/mqed/qedcc_equations.py compared with the
derivative of the doubles residual.
-/
import Verif.Lemmas.QedccProof
import Verif.Lemmas.EinsumStage

namespace OpenMS.Qedcc

open Einsum

set_option maxRecDepth 100000

theorem check_ref_U21_11t : ∃ cs, checkTo (sym 1 1 true true) 5 cs
    (refU2 1 1 true) (read U21 (letters% "Iabij"))
    (derived rule 2 (refT2 1 1 true) (read T2 (letters% "abij"))) [(ein% "1" "I,Iabij->Iabij" [w, U21old]).term] = true := by
  einsum_check

theorem check_ref_U21_12t : ∃ cs, checkTo (sym 1 2 true true) 5 cs
    (refU2 1 2 true) (read U21 (letters% "Iabij"))
    (derived rule 2 (refT2 1 2 true) (read T2 (letters% "abij"))) [(ein% "1" "I,Iabij->Iabij" [w, U21old]).term] = true := by
  einsum_check

theorem check_ref_U21_21t : ∃ cs, checkTo (sym 2 1 true true) 5 cs
    (refU2 2 1 true) (read U21 (letters% "Iabij"))
    (derived rule 2 (refT2 2 1 true) (read T2 (letters% "abij"))) [(ein% "1" "I,Iabij->Iabij" [w, U21old]).term] = true := by
  einsum_check

theorem check_ref_U21_22t : ∃ cs, checkTo (sym 2 2 true true) 5 cs
    (refU2 2 2 true) (read U21 (letters% "Iabij"))
    (derived rule 2 (refT2 2 2 true) (read T2 (letters% "abij"))) [(ein% "1" "I,Iabij->Iabij" [w, U21old]).term] = true := by
  einsum_check

theorem check_ref_U21 (n1 n2 : Nat) (h1 : 0 < n1) (h2 : 0 < n2) : ∃ cs, checkTo (sym n1 n2 true true) 5 cs
    (refU2 n1 n2 true) (read U21 (letters% "Iabij"))
    (derived rule 2 (refT2 n1 n2 true) (read T2 (letters% "abij"))) [(ein% "1" "I,Iabij->Iabij" [w, U21old]).term] = true := by
  rw [sym_min n1 n2, refU2_min n1 n2, refT2_min n1 n2]
  rcases (by omega : min n1 2 = 1 ∨ min n1 2 = 2) with h | h
  · rcases (by omega : min n2 2 = 1 ∨ min n2 2 = 2) with h' | h'
    · rw [h, h']; exact check_ref_U21_11t
    · rw [h, h']; exact check_ref_U21_12t
  · rcases (by omega : min n2 2 = 1 ∨ min n2 2 = 2) with h' | h'
    · rw [h, h']; exact check_ref_U21_21t
    · rw [h, h']; exact check_ref_U21_22t

end OpenMS.Qedcc
