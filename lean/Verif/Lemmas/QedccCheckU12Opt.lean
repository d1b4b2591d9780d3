/-
Second-order photon-electron singles residual of openms/mqed/myqedcc_equations_opt.py compared
with the second derivative of the singles residual.
-/
import Verif.Lemmas.QedccErr
import Verif.Lemmas.EinsumStage

namespace OpenMS.Qedcc

open Einsum

set_option maxRecDepth 100000

theorem check_opt_U12_12f : ∃ cs, checkTo (sym 1 2 false true) 6 cs
    (imdsBuild 1 2 false ++ optU1 1 2 false) (read U12 (letters% "IJai") ++ read U12 (letters% "JIai"))
    (derived2 rule 2 5 (refT1 1 2 false ++ [add T1 [cpy ⟨1, 0⟩ T1]]) (read T1 (letters% "ai"))) ((freqU12 ++ surplusOptU12).map twice) = true := by
  einsum_check

theorem check_opt_U12_12t : ∃ cs, checkTo (sym 1 2 true true) 6 cs
    (imdsBuild 1 2 true ++ optU1 1 2 true) (read U12 (letters% "IJai") ++ read U12 (letters% "JIai"))
    (derived2 rule 2 5 (refT1 1 2 true ++ [add T1 [cpy ⟨1, 0⟩ T1]]) (read T1 (letters% "ai"))) ((freqU12 ++ surplusOptU12).map twice) = true := by
  einsum_check

theorem check_opt_U12_22f : ∃ cs, checkTo (sym 2 2 false true) 6 cs
    (imdsBuild 2 2 false ++ optU1 2 2 false) (read U12 (letters% "IJai") ++ read U12 (letters% "JIai"))
    (derived2 rule 2 5 (refT1 2 2 false ++ [add T1 [cpy ⟨1, 0⟩ T1]]) (read T1 (letters% "ai"))) ((freqU12 ++ surplusOptU12).map twice) = true := by
  einsum_check

theorem check_opt_U12_22t : ∃ cs, checkTo (sym 2 2 true true) 6 cs
    (imdsBuild 2 2 true ++ optU1 2 2 true) (read U12 (letters% "IJai") ++ read U12 (letters% "JIai"))
    (derived2 rule 2 5 (refT1 2 2 true ++ [add T1 [cpy ⟨1, 0⟩ T1]]) (read T1 (letters% "ai"))) ((freqU12 ++ surplusOptU12).map twice) = true := by
  einsum_check

theorem check_opt_U12 (n1 n2 : Nat) (u2 : Bool) (h1 : 0 < n1) (h2 : 1 < n2) : ∃ cs, checkTo (sym n1 n2 u2 true) 6 cs
    (imdsBuild n1 n2 u2 ++ optU1 n1 n2 u2) (read U12 (letters% "IJai") ++ read U12 (letters% "JIai"))
    (derived2 rule 2 5 (refT1 n1 n2 u2 ++ [add T1 [cpy ⟨1, 0⟩ T1]]) (read T1 (letters% "ai"))) ((freqU12 ++ surplusOptU12).map twice) = true := by
  rw [sym_min n1 n2, imdsBuild_min n1 n2, optU1_min n1 n2, refT1_min n1 n2]
  rcases (by omega : min n1 2 = 1 ∨ min n1 2 = 2) with h | h
  · have h' : min n2 2 = 2 := by omega
    rw [h, h']; cases u2; exacts [check_opt_U12_12f, check_opt_U12_12t]
  · have h' : min n2 2 = 2 := by omega
    rw [h, h']; cases u2; exacts [check_opt_U12_22f, check_opt_U12_22t]

end OpenMS.Qedcc
