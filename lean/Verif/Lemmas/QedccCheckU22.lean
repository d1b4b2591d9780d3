/-
Second-order photon-electron doubles residual with one mode (ref) compared with the second
derivative of the doubles residual.
-/
import Verif.Lemmas.QedccErr
import Verif.Lemmas.EinsumStage

namespace OpenMS.Qedcc

open Einsum

set_option maxRecDepth 100000

theorem check_ref_U22_12t : ∃ cs, checkOne (sym 1 2 true true) 5 2 cs
    (refU2 1 2 true) (read U22 (letters% "Iabij"))
    (derived2 rule 2 2 (refT2 1 2 true ++ [add T2 [⟨⟨-1, 0⟩, quarticL.out, quarticL.ops⟩]]) (read T2 (letters% "abij"))) [(ein% "2" "I,IIabij->Iabij" [w, U22old]).term] = true := by
  einsum_check

theorem check_ref_U22_22t : ∃ cs, checkOne (sym 2 2 true true) 5 2 cs
    (refU2 2 2 true) (read U22 (letters% "Iabij"))
    (derived2 rule 2 2 (refT2 2 2 true ++ [add T2 [⟨⟨-1, 0⟩, quarticL.out, quarticL.ops⟩]]) (read T2 (letters% "abij"))) [(ein% "2" "I,IIabij->Iabij" [w, U22old]).term] = true := by
  einsum_check

theorem check_ref_U22 (n1 n2 : Nat) (h1 : 0 < n1) (h2 : 1 < n2) : ∃ cs, checkOne (sym n1 n2 true true) 5 2 cs
    (refU2 n1 n2 true) (read U22 (letters% "Iabij"))
    (derived2 rule 2 2 (refT2 n1 n2 true ++ [add T2 [⟨⟨-1, 0⟩, quarticL.out, quarticL.ops⟩]]) (read T2 (letters% "abij"))) [(ein% "2" "I,IIabij->Iabij" [w, U22old]).term] = true := by
  rw [sym_min n1 n2, refU2_min n1 n2, refT2_min n1 n2]
  rcases (by omega : min n1 2 = 1 ∨ min n1 2 = 2) with h | h
  · have h' : min n2 2 = 2 := by omega
    rw [h, h']; exact check_ref_U22_12t
  · have h' : min n2 2 = 2 := by omega
    rw [h, h']; exact check_ref_U22_22t

end OpenMS.Qedcc
