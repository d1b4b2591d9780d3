/-
Photon-electron singles residuals of the single-mode function compared with derivatives of the
singles residual.
-/
import Verif.Lemmas.QedccErr
import Verif.Lemmas.EinsumStage

namespace OpenMS.Qedcc

open Einsum

set_option maxRecDepth 100000

theorem check_single_U11_11f : ∃ cs, checkOne (sym 1 1 false true) 3 2 cs
    (singleU1 1 1 false) (read sU11 (letters% "Iai"))
    (derived rule 2 (refT1 1 1 false) (read T1 (letters% "ai"))) [(ein% "1" "I,Iai->Iai" [w, U11old]).term] = true := by
  einsum_check

theorem check_single_U11_11t : ∃ cs, checkOne (sym 1 1 true true) 3 2 cs
    (singleU1 1 1 true) (read sU11 (letters% "Iai"))
    (derived rule 2 (refT1 1 1 true) (read T1 (letters% "ai"))) [(ein% "1" "I,Iai->Iai" [w, U11old]).term] = true := by
  einsum_check

theorem check_single_U11_12f : ∃ cs, checkOne (sym 1 2 false true) 3 2 cs
    (singleU1 1 2 false) (read sU11 (letters% "Iai"))
    (derived rule 2 (refT1 1 2 false) (read T1 (letters% "ai"))) [(ein% "1" "I,Iai->Iai" [w, U11old]).term] = true := by
  einsum_check

theorem check_single_U11_12t : ∃ cs, checkOne (sym 1 2 true true) 3 2 cs
    (singleU1 1 2 true) (read sU11 (letters% "Iai"))
    (derived rule 2 (refT1 1 2 true) (read T1 (letters% "ai"))) [(ein% "1" "I,Iai->Iai" [w, U11old]).term] = true := by
  einsum_check

theorem check_single_U11_21f : ∃ cs, checkOne (sym 2 1 false true) 3 2 cs
    (singleU1 2 1 false) (read sU11 (letters% "Iai"))
    (derived rule 2 (refT1 2 1 false) (read T1 (letters% "ai"))) [(ein% "1" "I,Iai->Iai" [w, U11old]).term] = true := by
  einsum_check

theorem check_single_U11_21t : ∃ cs, checkOne (sym 2 1 true true) 3 2 cs
    (singleU1 2 1 true) (read sU11 (letters% "Iai"))
    (derived rule 2 (refT1 2 1 true) (read T1 (letters% "ai"))) [(ein% "1" "I,Iai->Iai" [w, U11old]).term] = true := by
  einsum_check

theorem check_single_U11_22f : ∃ cs, checkOne (sym 2 2 false true) 3 2 cs
    (singleU1 2 2 false) (read sU11 (letters% "Iai"))
    (derived rule 2 (refT1 2 2 false) (read T1 (letters% "ai"))) [(ein% "1" "I,Iai->Iai" [w, U11old]).term] = true := by
  einsum_check

theorem check_single_U11_22t : ∃ cs, checkOne (sym 2 2 true true) 3 2 cs
    (singleU1 2 2 true) (read sU11 (letters% "Iai"))
    (derived rule 2 (refT1 2 2 true) (read T1 (letters% "ai"))) [(ein% "1" "I,Iai->Iai" [w, U11old]).term] = true := by
  einsum_check

theorem check_single_U11 (n1 n2 : Nat) (u2 : Bool) (h1 : 0 < n1) (h2 : 0 < n2) : ∃ cs, checkOne (sym n1 n2 u2 true) 3 2 cs
    (singleU1 n1 n2 u2) (read sU11 (letters% "Iai"))
    (derived rule 2 (refT1 n1 n2 u2) (read T1 (letters% "ai"))) [(ein% "1" "I,Iai->Iai" [w, U11old]).term] = true := by
  rw [sym_min n1 n2, singleU1_min n1 n2, refT1_min n1 n2]
  rcases (by omega : min n1 2 = 1 ∨ min n1 2 = 2) with h | h
  · rcases (by omega : min n2 2 = 1 ∨ min n2 2 = 2) with h' | h'
    · rw [h, h']; cases u2; exacts [check_single_U11_11f, check_single_U11_11t]
    · rw [h, h']; cases u2; exacts [check_single_U11_12f, check_single_U11_12t]
  · rcases (by omega : min n2 2 = 1 ∨ min n2 2 = 2) with h' | h'
    · rw [h, h']; cases u2; exacts [check_single_U11_21f, check_single_U11_21t]
    · rw [h, h']; cases u2; exacts [check_single_U11_22f, check_single_U11_22t]

theorem check_single_U12_12f : ∃ cs, checkOne (sym 1 2 false true) 3 2 cs
    (singleU1 1 2 false) (read sU12 (letters% "Iai"))
    (derived2 rule 2 2 (refT1 1 2 false) (read T1 (letters% "ai"))) [(ein% "2" "I,IIai->Iai" [w, U12old]).term] = true := by
  einsum_check

theorem check_single_U12_12t : ∃ cs, checkOne (sym 1 2 true true) 3 2 cs
    (singleU1 1 2 true) (read sU12 (letters% "Iai"))
    (derived2 rule 2 2 (refT1 1 2 true) (read T1 (letters% "ai"))) [(ein% "2" "I,IIai->Iai" [w, U12old]).term] = true := by
  einsum_check

theorem check_single_U12_22f : ∃ cs, checkOne (sym 2 2 false true) 3 2 cs
    (singleU1 2 2 false) (read sU12 (letters% "Iai"))
    (derived2 rule 2 2 (refT1 2 2 false) (read T1 (letters% "ai"))) [(ein% "2" "I,IIai->Iai" [w, U12old]).term] = true := by
  einsum_check

theorem check_single_U12_22t : ∃ cs, checkOne (sym 2 2 true true) 3 2 cs
    (singleU1 2 2 true) (read sU12 (letters% "Iai"))
    (derived2 rule 2 2 (refT1 2 2 true) (read T1 (letters% "ai"))) [(ein% "2" "I,IIai->Iai" [w, U12old]).term] = true := by
  einsum_check

theorem check_single_U12 (n1 n2 : Nat) (u2 : Bool) (h1 : 0 < n1) (h2 : 1 < n2) : ∃ cs, checkOne (sym n1 n2 u2 true) 3 2 cs
    (singleU1 n1 n2 u2) (read sU12 (letters% "Iai"))
    (derived2 rule 2 2 (refT1 n1 n2 u2) (read T1 (letters% "ai"))) [(ein% "2" "I,IIai->Iai" [w, U12old]).term] = true := by
  rw [sym_min n1 n2, singleU1_min n1 n2, refT1_min n1 n2]
  rcases (by omega : min n1 2 = 1 ∨ min n1 2 = 2) with h | h
  · have h' : min n2 2 = 2 := by omega
    rw [h, h']; cases u2; exacts [check_single_U12_12f, check_single_U12_12t]
  · have h' : min n2 2 = 2 := by omega
    rw [h, h']; cases u2; exacts [check_single_U12_22f, check_single_U12_22t]

end OpenMS.Qedcc
