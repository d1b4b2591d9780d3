/-
Residuals of the photon amplitudes compared with derivatives of the energy.
-/
import Verif.Lemmas.QedccProof
import Verif.Lemmas.EinsumStage

namespace OpenMS.Qedcc

open Einsum

set_option maxRecDepth 100000

theorem check_ref_S1_11f : ∃ cs, checkTo (sym 1 1 false true) 3 cs
    (refS 1 1 false) (read S1 (letters% "I"))
    (derived rule 2 energyP (read energyT [])) [(ein% "1" "I,I->I" [w, S1old]).term] = true := by
  einsum_check

theorem check_ref_S1_11t : ∃ cs, checkTo (sym 1 1 true true) 3 cs
    (refS 1 1 true) (read S1 (letters% "I"))
    (derived rule 2 energyP (read energyT [])) [(ein% "1" "I,I->I" [w, S1old]).term] = true := by
  einsum_check

theorem check_ref_S1_12f : ∃ cs, checkTo (sym 1 2 false true) 3 cs
    (refS 1 2 false) (read S1 (letters% "I"))
    (derived rule 2 energyP (read energyT [])) [(ein% "1" "I,I->I" [w, S1old]).term] = true := by
  einsum_check

theorem check_ref_S1_12t : ∃ cs, checkTo (sym 1 2 true true) 3 cs
    (refS 1 2 true) (read S1 (letters% "I"))
    (derived rule 2 energyP (read energyT [])) [(ein% "1" "I,I->I" [w, S1old]).term] = true := by
  einsum_check

theorem check_ref_S1_21f : ∃ cs, checkTo (sym 2 1 false true) 3 cs
    (refS 2 1 false) (read S1 (letters% "I"))
    (derived rule 2 energyP (read energyT [])) [(ein% "1" "I,I->I" [w, S1old]).term] = true := by
  einsum_check

theorem check_ref_S1_21t : ∃ cs, checkTo (sym 2 1 true true) 3 cs
    (refS 2 1 true) (read S1 (letters% "I"))
    (derived rule 2 energyP (read energyT [])) [(ein% "1" "I,I->I" [w, S1old]).term] = true := by
  einsum_check

theorem check_ref_S1_22f : ∃ cs, checkTo (sym 2 2 false true) 3 cs
    (refS 2 2 false) (read S1 (letters% "I"))
    (derived rule 2 energyP (read energyT [])) [(ein% "1" "I,I->I" [w, S1old]).term] = true := by
  einsum_check

theorem check_ref_S1_22t : ∃ cs, checkTo (sym 2 2 true true) 3 cs
    (refS 2 2 true) (read S1 (letters% "I"))
    (derived rule 2 energyP (read energyT [])) [(ein% "1" "I,I->I" [w, S1old]).term] = true := by
  einsum_check

theorem check_ref_S1 (n1 n2 : Nat) (u2 : Bool) (h1 : 0 < n1) (h2 : 0 < n2) : ∃ cs, checkTo (sym n1 n2 u2 true) 3 cs
    (refS n1 n2 u2) (read S1 (letters% "I"))
    (derived rule 2 energyP (read energyT [])) [(ein% "1" "I,I->I" [w, S1old]).term] = true := by
  rw [sym_min n1 n2, refS_min n1 n2]
  rcases (by omega : min n1 2 = 1 ∨ min n1 2 = 2) with h | h
  · rcases (by omega : min n2 2 = 1 ∨ min n2 2 = 2) with h' | h'
    · rw [h, h']; cases u2; exacts [check_ref_S1_11f, check_ref_S1_11t]
    · rw [h, h']; cases u2; exacts [check_ref_S1_12f, check_ref_S1_12t]
  · rcases (by omega : min n2 2 = 1 ∨ min n2 2 = 2) with h' | h'
    · rw [h, h']; cases u2; exacts [check_ref_S1_21f, check_ref_S1_21t]
    · rw [h, h']; cases u2; exacts [check_ref_S1_22f, check_ref_S1_22t]

theorem check_ref_S2_21f : ∃ cs, checkTo (sym 2 1 false true) 6 cs
    (refS 2 1 false) (read S2 (letters% "IJ"))
    (derived2 rule 2 5 energyP (read energyT [])) [(ein% "1" "I,IJ->IJ" [w, S2old]).term, (ein% "1" "J,IJ->IJ" [w, S2old]).term] = true := by
  einsum_check

theorem check_ref_S2_21t : ∃ cs, checkTo (sym 2 1 true true) 6 cs
    (refS 2 1 true) (read S2 (letters% "IJ"))
    (derived2 rule 2 5 energyP (read energyT [])) [(ein% "1" "I,IJ->IJ" [w, S2old]).term, (ein% "1" "J,IJ->IJ" [w, S2old]).term] = true := by
  einsum_check

theorem check_ref_S2_22f : ∃ cs, checkTo (sym 2 2 false true) 6 cs
    (refS 2 2 false) (read S2 (letters% "IJ"))
    (derived2 rule 2 5 energyP (read energyT [])) [(ein% "1" "I,IJ->IJ" [w, S2old]).term, (ein% "1" "J,IJ->IJ" [w, S2old]).term] = true := by
  einsum_check

theorem check_ref_S2_22t : ∃ cs, checkTo (sym 2 2 true true) 6 cs
    (refS 2 2 true) (read S2 (letters% "IJ"))
    (derived2 rule 2 5 energyP (read energyT [])) [(ein% "1" "I,IJ->IJ" [w, S2old]).term, (ein% "1" "J,IJ->IJ" [w, S2old]).term] = true := by
  einsum_check

theorem check_ref_S2 (n1 n2 : Nat) (u2 : Bool) (h1 : 1 < n1) (h2 : 0 < n2) : ∃ cs, checkTo (sym n1 n2 u2 true) 6 cs
    (refS n1 n2 u2) (read S2 (letters% "IJ"))
    (derived2 rule 2 5 energyP (read energyT [])) [(ein% "1" "I,IJ->IJ" [w, S2old]).term, (ein% "1" "J,IJ->IJ" [w, S2old]).term] = true := by
  rw [sym_min n1 n2, refS_min n1 n2]
  have h : min n1 2 = 2 := by omega
  rcases (by omega : min n2 2 = 1 ∨ min n2 2 = 2) with h' | h'
  · rw [h, h']; cases u2; exacts [check_ref_S2_21f, check_ref_S2_21t]
  · rw [h, h']; cases u2; exacts [check_ref_S2_22f, check_ref_S2_22t]

theorem check_opt_S1_11f : ∃ cs, checkTo (sym 1 1 false true) 3 cs
    (imdsBuild 1 1 false ++ optS 1 1 false) (read S1 (letters% "I"))
    (derived rule 2 energyP (read energyT [])) [(ein% "1" "I,I->I" [w, S1old]).term] = true := by
  einsum_check

theorem check_opt_S1_11t : ∃ cs, checkTo (sym 1 1 true true) 3 cs
    (imdsBuild 1 1 true ++ optS 1 1 true) (read S1 (letters% "I"))
    (derived rule 2 energyP (read energyT [])) [(ein% "1" "I,I->I" [w, S1old]).term] = true := by
  einsum_check

theorem check_opt_S1_12f : ∃ cs, checkTo (sym 1 2 false true) 3 cs
    (imdsBuild 1 2 false ++ optS 1 2 false) (read S1 (letters% "I"))
    (derived rule 2 energyP (read energyT [])) [(ein% "1" "I,I->I" [w, S1old]).term] = true := by
  einsum_check

theorem check_opt_S1_12t : ∃ cs, checkTo (sym 1 2 true true) 3 cs
    (imdsBuild 1 2 true ++ optS 1 2 true) (read S1 (letters% "I"))
    (derived rule 2 energyP (read energyT [])) [(ein% "1" "I,I->I" [w, S1old]).term] = true := by
  einsum_check

theorem check_opt_S1_21f : ∃ cs, checkTo (sym 2 1 false true) 3 cs
    (imdsBuild 2 1 false ++ optS 2 1 false) (read S1 (letters% "I"))
    (derived rule 2 energyP (read energyT [])) [(ein% "1" "I,I->I" [w, S1old]).term] = true := by
  einsum_check

theorem check_opt_S1_21t : ∃ cs, checkTo (sym 2 1 true true) 3 cs
    (imdsBuild 2 1 true ++ optS 2 1 true) (read S1 (letters% "I"))
    (derived rule 2 energyP (read energyT [])) [(ein% "1" "I,I->I" [w, S1old]).term] = true := by
  einsum_check

theorem check_opt_S1_22f : ∃ cs, checkTo (sym 2 2 false true) 3 cs
    (imdsBuild 2 2 false ++ optS 2 2 false) (read S1 (letters% "I"))
    (derived rule 2 energyP (read energyT [])) [(ein% "1" "I,I->I" [w, S1old]).term] = true := by
  einsum_check

theorem check_opt_S1_22t : ∃ cs, checkTo (sym 2 2 true true) 3 cs
    (imdsBuild 2 2 true ++ optS 2 2 true) (read S1 (letters% "I"))
    (derived rule 2 energyP (read energyT [])) [(ein% "1" "I,I->I" [w, S1old]).term] = true := by
  einsum_check

theorem check_opt_S1 (n1 n2 : Nat) (u2 : Bool) (h1 : 0 < n1) (h2 : 0 < n2) : ∃ cs, checkTo (sym n1 n2 u2 true) 3 cs
    (imdsBuild n1 n2 u2 ++ optS n1 n2 u2) (read S1 (letters% "I"))
    (derived rule 2 energyP (read energyT [])) [(ein% "1" "I,I->I" [w, S1old]).term] = true := by
  rw [sym_min n1 n2, imdsBuild_min n1 n2, optS_min n1 n2]
  rcases (by omega : min n1 2 = 1 ∨ min n1 2 = 2) with h | h
  · rcases (by omega : min n2 2 = 1 ∨ min n2 2 = 2) with h' | h'
    · rw [h, h']; cases u2; exacts [check_opt_S1_11f, check_opt_S1_11t]
    · rw [h, h']; cases u2; exacts [check_opt_S1_12f, check_opt_S1_12t]
  · rcases (by omega : min n2 2 = 1 ∨ min n2 2 = 2) with h' | h'
    · rw [h, h']; cases u2; exacts [check_opt_S1_21f, check_opt_S1_21t]
    · rw [h, h']; cases u2; exacts [check_opt_S1_22f, check_opt_S1_22t]

theorem check_opt_S2_21f : ∃ cs, checkTo (sym 2 1 false true) 6 cs
    (imdsBuild 2 1 false ++ optS 2 1 false) (read S2 (letters% "IJ"))
    (derived2 rule 2 5 energyP (read energyT [])) [(ein% "1" "I,IJ->IJ" [w, S2old]).term, (ein% "1" "J,IJ->IJ" [w, S2old]).term] = true := by
  einsum_check

theorem check_opt_S2_21t : ∃ cs, checkTo (sym 2 1 true true) 6 cs
    (imdsBuild 2 1 true ++ optS 2 1 true) (read S2 (letters% "IJ"))
    (derived2 rule 2 5 energyP (read energyT [])) [(ein% "1" "I,IJ->IJ" [w, S2old]).term, (ein% "1" "J,IJ->IJ" [w, S2old]).term] = true := by
  einsum_check

theorem check_opt_S2_22f : ∃ cs, checkTo (sym 2 2 false true) 6 cs
    (imdsBuild 2 2 false ++ optS 2 2 false) (read S2 (letters% "IJ"))
    (derived2 rule 2 5 energyP (read energyT [])) [(ein% "1" "I,IJ->IJ" [w, S2old]).term, (ein% "1" "J,IJ->IJ" [w, S2old]).term] = true := by
  einsum_check

theorem check_opt_S2_22t : ∃ cs, checkTo (sym 2 2 true true) 6 cs
    (imdsBuild 2 2 true ++ optS 2 2 true) (read S2 (letters% "IJ"))
    (derived2 rule 2 5 energyP (read energyT [])) [(ein% "1" "I,IJ->IJ" [w, S2old]).term, (ein% "1" "J,IJ->IJ" [w, S2old]).term] = true := by
  einsum_check

theorem check_opt_S2 (n1 n2 : Nat) (u2 : Bool) (h1 : 1 < n1) (h2 : 0 < n2) : ∃ cs, checkTo (sym n1 n2 u2 true) 6 cs
    (imdsBuild n1 n2 u2 ++ optS n1 n2 u2) (read S2 (letters% "IJ"))
    (derived2 rule 2 5 energyP (read energyT [])) [(ein% "1" "I,IJ->IJ" [w, S2old]).term, (ein% "1" "J,IJ->IJ" [w, S2old]).term] = true := by
  rw [sym_min n1 n2, imdsBuild_min n1 n2, optS_min n1 n2]
  have h : min n1 2 = 2 := by omega
  rcases (by omega : min n2 2 = 1 ∨ min n2 2 = 2) with h' | h'
  · rw [h, h']; cases u2; exacts [check_opt_S2_21f, check_opt_S2_21t]
  · rw [h, h']; cases u2; exacts [check_opt_S2_22f, check_opt_S2_22t]

end OpenMS.Qedcc
