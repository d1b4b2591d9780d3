/-
Second-order photon-electron doubles residual of the single-mode function compared with the
second derivative of the doubles residual.
-/
import Verif.Lemmas.QedccErr
import Verif.Lemmas.EinsumStage

namespace OpenMS.Qedcc

open Einsum

set_option maxRecDepth 100000

theorem check_single_U22_12 : ∃ cs, checkOne (sym 1 2 true true) 5 2 cs
    (singleU2 1 2 true) (read sU22 (letters% "Iabij"))
    (derived2 rule 2 2 (refT2 1 2 true ++ [add T2 [⟨⟨-1, 0⟩, quarticL.out, quarticL.ops⟩]]) (read T2 (letters% "abij"))) [(ein% "2" "I,IIabij->Iabij" [w, U22old]).term] = true := by
  einsum_check

theorem check_single_U22_22 : ∃ cs, checkOne (sym 2 2 true true) 5 2 cs
    (singleU2 2 2 true) (read sU22 (letters% "Iabij"))
    (derived2 rule 2 2 (refT2 2 2 true ++ [add T2 [⟨⟨-1, 0⟩, quarticL.out, quarticL.ops⟩]]) (read T2 (letters% "abij"))) ((ein% "2" "I,IIabij->Iabij" [w, U22old]).term :: lackU22) = true := by
  einsum_check

theorem check_single_U22_32 : ∃ cs, checkOne (sym 3 2 true true) 5 2 cs
    (singleU2 3 2 true) (read sU22 (letters% "Iabij"))
    (derived2 rule 2 2 (refT2 3 2 true ++ [add T2 [⟨⟨-1, 0⟩, quarticL.out, quarticL.ops⟩]]) (read T2 (letters% "abij"))) [(ein% "2" "I,IIabij->Iabij" [w, U22old]).term] = true := by
  einsum_check

end OpenMS.Qedcc
