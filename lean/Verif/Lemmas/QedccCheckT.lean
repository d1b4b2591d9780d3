/-
Singles and doubles residuals of openms/mqed/myqedcc_equations_opt.py compared with
those of openms/mqed/qedcc_equations.py.
-/
import Verif.Lemmas.EinsumStage
import Verif.Lemmas.QedccProof

namespace OpenMS.Qedcc

open Einsum

set_option maxRecDepth 100000

theorem check_T1 (u2 : Bool) : ∃ cs, check (sym 2 2 u2 false) 3 cs
    (optT 2 2 u2) (refT1 2 2 u2)
    (read T1 (letters% "ai"))
    (read T1 (letters% "ai") ++ [(ein% "1" "x,xai->ai" [G, U11old]).term]) = true := by
  cases u2
  · einsum_check
  · einsum_check

theorem check_T2 (u2 : Bool) : ∃ cs, check (sym 2 2 u2 false) 5 cs
    (optT 2 2 u2) (refT2 2 2 u2)
    (read T2 (letters% "abij")) (read T2 (letters% "abij")) = true := by
  cases u2
  · einsum_check
  · einsum_check

theorem check_T2_left (u2 : Bool) : ∃ cs, check (sym 2 2 u2 false) 5 cs
    (refT2 2 2 u2) (refT2 2 2 u2)
    (read T2 (letters% "baij")) [(ein% "-1" "abij->abij" [T2]).term] = true := by
  cases u2
  · einsum_check
  · einsum_check

theorem check_T2_right (u2 : Bool) : ∃ cs, check (sym 2 2 u2 false) 5 cs
    (refT2 2 2 u2) (refT2 2 2 u2)
    (read T2 (letters% "abji")) [(ein% "-1" "abij->abij" [T2]).term] = true := by
  cases u2
  · einsum_check
  · einsum_check

end OpenMS.Qedcc
