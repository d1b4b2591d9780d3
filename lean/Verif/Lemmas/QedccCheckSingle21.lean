/-
First-order photon-electron doubles residual of the single-mode function compared with the
derivative of the doubles residual.
-/
import Verif.Lemmas.QedccErr
import Verif.Lemmas.EinsumStage

namespace OpenMS.Qedcc

open Einsum

set_option maxRecDepth 100000

theorem check_single_U21_11 : ∃ cs, checkOne (sym 1 1 true true) 5 2 cs
    (singleU2 1 1 true) (read sU21 (letters% "Iabij"))
    (derived rule 2 (refT2 1 1 true ++ [add T2 [⟨⟨-1, 0⟩, quarticL.out, quarticL.ops⟩]]) (read T2 (letters% "abij"))) [(ein% "1" "I,Iabij->Iabij" [w, U21old]).term] = true := by
  einsum_check

theorem check_single_U21_12 : ∃ cs, checkOne (sym 1 2 true true) 5 2 cs
    (singleU2 1 2 true) (read sU21 (letters% "Iabij"))
    (derived rule 2 (refT2 1 2 true ++ [add T2 [⟨⟨-1, 0⟩, quarticL.out, quarticL.ops⟩]]) (read T2 (letters% "abij"))) [(ein% "1" "I,Iabij->Iabij" [w, U21old]).term] = true := by
  einsum_check

theorem check_single_U21_21 : ∃ cs, checkOne (sym 2 1 true true) 5 2 cs
    (singleU2 2 1 true) (read sU21 (letters% "Iabij"))
    (derived rule 2 (refT2 2 1 true ++ [add T2 [⟨⟨-1, 0⟩, quarticL.out, quarticL.ops⟩]]) (read T2 (letters% "abij"))) [(ein% "1" "I,Iabij->Iabij" [w, U21old]).term] = true := by
  einsum_check

theorem check_single_U21_22 : ∃ cs, checkOne (sym 2 2 true true) 5 2 cs
    (singleU2 2 2 true) (read sU21 (letters% "Iabij"))
    (derived rule 2 (refT2 2 2 true ++ [add T2 [⟨⟨-1, 0⟩, quarticL.out, quarticL.ops⟩]]) (read T2 (letters% "abij"))) [(ein% "1" "I,Iabij->Iabij" [w, U21old]).term] = true := by
  einsum_check

theorem check_single_U21_31 : ∃ cs, checkOne (sym 3 1 true true) 5 2 cs
    (singleU2 3 1 true) (read sU21 (letters% "Iabij"))
    (derived rule 2 (refT2 3 1 true ++ [add T2 [⟨⟨-1, 0⟩, quarticL.out, quarticL.ops⟩]]) (read T2 (letters% "abij"))) [(ein% "1" "I,Iabij->Iabij" [w, U21old]).term] = true := by
  einsum_check

theorem check_single_U21_32 : ∃ cs, checkOne (sym 3 2 true true) 5 2 cs
    (singleU2 3 2 true) (read sU21 (letters% "Iabij"))
    (derived rule 2 (refT2 3 2 true ++ [add T2 [⟨⟨-1, 0⟩, quarticL.out, quarticL.ops⟩]]) (read T2 (letters% "abij"))) [(ein% "1" "I,Iabij->Iabij" [w, U21old]).term] = true := by
  einsum_check

end OpenMS.Qedcc
