/-
First-order photon-electron singles residuals compared with derivatives of the singles residual.
-/
import Verif.Lemmas.QedccProof
import Verif.Lemmas.EinsumStage

namespace OpenMS.Qedcc

open Einsum

set_option maxRecDepth 100000

theorem check_ref_U11_11f : ∃ cs, checkTo (sym 1 1 false true) 3 cs
    (refU1 1 1 false) (read U11 (letters% "Iai"))
    (derived rule 2 (refT1 1 1 false) (read T1 (letters% "ai"))) [(ein% "1" "I,Iai->Iai" [w, U11old]).term] = true := by
  einsum_check

theorem check_ref_U11_11t : ∃ cs, checkTo (sym 1 1 true true) 3 cs
    (refU1 1 1 true) (read U11 (letters% "Iai"))
    (derived rule 2 (refT1 1 1 true) (read T1 (letters% "ai"))) [(ein% "1" "I,Iai->Iai" [w, U11old]).term] = true := by
  einsum_check

theorem check_ref_U11_12f : ∃ cs, checkTo (sym 1 2 false true) 3 cs
    (refU1 1 2 false) (read U11 (letters% "Iai"))
    (derived rule 2 (refT1 1 2 false) (read T1 (letters% "ai"))) [(ein% "1" "I,Iai->Iai" [w, U11old]).term] = true := by
  einsum_check

theorem check_ref_U11_12t : ∃ cs, checkTo (sym 1 2 true true) 3 cs
    (refU1 1 2 true) (read U11 (letters% "Iai"))
    (derived rule 2 (refT1 1 2 true) (read T1 (letters% "ai"))) [(ein% "1" "I,Iai->Iai" [w, U11old]).term] = true := by
  einsum_check

theorem check_ref_U11_21f : ∃ cs, checkTo (sym 2 1 false true) 3 cs
    (refU1 2 1 false) (read U11 (letters% "Iai"))
    (derived rule 2 (refT1 2 1 false) (read T1 (letters% "ai"))) [(ein% "1" "I,Iai->Iai" [w, U11old]).term] = true := by
  einsum_check

theorem check_ref_U11_21t : ∃ cs, checkTo (sym 2 1 true true) 3 cs
    (refU1 2 1 true) (read U11 (letters% "Iai"))
    (derived rule 2 (refT1 2 1 true) (read T1 (letters% "ai"))) [(ein% "1" "I,Iai->Iai" [w, U11old]).term] = true := by
  einsum_check

theorem check_ref_U11_22f : ∃ cs, checkTo (sym 2 2 false true) 3 cs
    (refU1 2 2 false) (read U11 (letters% "Iai"))
    (derived rule 2 (refT1 2 2 false) (read T1 (letters% "ai"))) [(ein% "1" "I,Iai->Iai" [w, U11old]).term] = true := by
  einsum_check

theorem check_ref_U11_22t : ∃ cs, checkTo (sym 2 2 true true) 3 cs
    (refU1 2 2 true) (read U11 (letters% "Iai"))
    (derived rule 2 (refT1 2 2 true) (read T1 (letters% "ai"))) [(ein% "1" "I,Iai->Iai" [w, U11old]).term] = true := by
  einsum_check

theorem check_ref_U11 (n1 n2 : Nat) (u2 : Bool) (h1 : 0 < n1) (h2 : 0 < n2) : ∃ cs, checkTo (sym n1 n2 u2 true) 3 cs
    (refU1 n1 n2 u2) (read U11 (letters% "Iai"))
    (derived rule 2 (refT1 n1 n2 u2) (read T1 (letters% "ai"))) [(ein% "1" "I,Iai->Iai" [w, U11old]).term] = true := by
  rw [sym_min n1 n2, refU1_min n1 n2, refT1_min n1 n2]
  rcases (by omega : min n1 2 = 1 ∨ min n1 2 = 2) with h | h
  · rcases (by omega : min n2 2 = 1 ∨ min n2 2 = 2) with h' | h'
    · rw [h, h']; cases u2; exacts [check_ref_U11_11f, check_ref_U11_11t]
    · rw [h, h']; cases u2; exacts [check_ref_U11_12f, check_ref_U11_12t]
  · rcases (by omega : min n2 2 = 1 ∨ min n2 2 = 2) with h' | h'
    · rw [h, h']; cases u2; exacts [check_ref_U11_21f, check_ref_U11_21t]
    · rw [h, h']; cases u2; exacts [check_ref_U11_22f, check_ref_U11_22t]

theorem check_opt_U11_11f : ∃ cs, checkTo (sym 1 1 false true) 3 cs
    (imdsBuild 1 1 false ++ optU1 1 1 false) (read U11 (letters% "Iai"))
    (derived rule 2 (refT1 1 1 false) (read T1 (letters% "ai"))) [(ein% "1" "I,Iai->Iai" [w, U11old]).term] = true := by
  einsum_check

theorem check_opt_U11_11t : ∃ cs, checkTo (sym 1 1 true true) 3 cs
    (imdsBuild 1 1 true ++ optU1 1 1 true) (read U11 (letters% "Iai"))
    (derived rule 2 (refT1 1 1 true) (read T1 (letters% "ai"))) [(ein% "1" "I,Iai->Iai" [w, U11old]).term] = true := by
  einsum_check

theorem check_opt_U11_12f : ∃ cs, checkTo (sym 1 2 false true) 3 cs
    (imdsBuild 1 2 false ++ optU1 1 2 false) (read U11 (letters% "Iai"))
    (derived rule 2 (refT1 1 2 false) (read T1 (letters% "ai"))) [(ein% "1" "I,Iai->Iai" [w, U11old]).term] = true := by
  einsum_check

theorem check_opt_U11_12t : ∃ cs, checkTo (sym 1 2 true true) 3 cs
    (imdsBuild 1 2 true ++ optU1 1 2 true) (read U11 (letters% "Iai"))
    (derived rule 2 (refT1 1 2 true) (read T1 (letters% "ai"))) [(ein% "1" "I,Iai->Iai" [w, U11old]).term] = true := by
  einsum_check

theorem check_opt_U11_21f : ∃ cs, checkTo (sym 2 1 false true) 3 cs
    (imdsBuild 2 1 false ++ optU1 2 1 false) (read U11 (letters% "Iai"))
    (derived rule 2 (refT1 2 1 false) (read T1 (letters% "ai"))) [(ein% "1" "I,Iai->Iai" [w, U11old]).term] = true := by
  einsum_check

theorem check_opt_U11_21t : ∃ cs, checkTo (sym 2 1 true true) 3 cs
    (imdsBuild 2 1 true ++ optU1 2 1 true) (read U11 (letters% "Iai"))
    (derived rule 2 (refT1 2 1 true) (read T1 (letters% "ai"))) [(ein% "1" "I,Iai->Iai" [w, U11old]).term] = true := by
  einsum_check

theorem check_opt_U11_22f : ∃ cs, checkTo (sym 2 2 false true) 3 cs
    (imdsBuild 2 2 false ++ optU1 2 2 false) (read U11 (letters% "Iai"))
    (derived rule 2 (refT1 2 2 false) (read T1 (letters% "ai"))) [(ein% "1" "I,Iai->Iai" [w, U11old]).term] = true := by
  einsum_check

theorem check_opt_U11_22t : ∃ cs, checkTo (sym 2 2 true true) 3 cs
    (imdsBuild 2 2 true ++ optU1 2 2 true) (read U11 (letters% "Iai"))
    (derived rule 2 (refT1 2 2 true) (read T1 (letters% "ai"))) [(ein% "1" "I,Iai->Iai" [w, U11old]).term] = true := by
  einsum_check

theorem check_opt_U11 (n1 n2 : Nat) (u2 : Bool) (h1 : 0 < n1) (h2 : 0 < n2) : ∃ cs, checkTo (sym n1 n2 u2 true) 3 cs
    (imdsBuild n1 n2 u2 ++ optU1 n1 n2 u2) (read U11 (letters% "Iai"))
    (derived rule 2 (refT1 n1 n2 u2) (read T1 (letters% "ai"))) [(ein% "1" "I,Iai->Iai" [w, U11old]).term] = true := by
  rw [sym_min n1 n2, imdsBuild_min n1 n2, optU1_min n1 n2, refT1_min n1 n2]
  rcases (by omega : min n1 2 = 1 ∨ min n1 2 = 2) with h | h
  · rcases (by omega : min n2 2 = 1 ∨ min n2 2 = 2) with h' | h'
    · rw [h, h']; cases u2; exacts [check_opt_U11_11f, check_opt_U11_11t]
    · rw [h, h']; cases u2; exacts [check_opt_U11_12f, check_opt_U11_12t]
  · rcases (by omega : min n2 2 = 1 ∨ min n2 2 = 2) with h' | h'
    · rw [h, h']; cases u2; exacts [check_opt_U11_21f, check_opt_U11_21t]
    · rw [h, h']; cases u2; exacts [check_opt_U11_22f, check_opt_U11_22t]

end OpenMS.Qedcc
