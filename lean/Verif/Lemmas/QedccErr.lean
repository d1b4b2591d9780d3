/-
Terms by which second-order photon-electron residuals differ from the derivatives.
-/
import Verif.Lemmas.QedccProof

namespace OpenMS.Qedcc

open Einsum

/-- `(ω_I + ω_J) U12`. -/
def freqU12 : List Term :=
  [(ein% "1" "I,IJai->IJai" [w, U12old]).term, (ein% "1" "J,IJai->IJai" [w, U12old]).term]

/-- Surplus of `U1n[1]` with doubles. -/
def surplusU12 : List Term :=
  [(ein% "-0.5" "klcd,ci,IJadkl->IJai" [I.oovv, T1old, U22old]).term,
    (ein% "1" "klcd,ck,IJadil->IJai" [I.oovv, T1old, U22old]).term,
    (ein% "-0.5" "klcd,Iak,Jcdil->IJai" [I.oovv, U11old, U21old]).term,
    (ein% "-0.5" "klcd,Ici,Jadkl->IJai" [I.oovv, U11old, U21old]).term,
    (ein% "1" "klcd,Ick,Jadil->IJai" [I.oovv, U11old, U21old]).term,
    (ein% "-0.5" "klcd,Jak,Icdil->IJai" [I.oovv, U11old, U21old]).term,
    (ein% "-0.5" "klcd,Jci,Iadkl->IJai" [I.oovv, U11old, U21old]).term,
    (ein% "1" "klcd,Jck,Iadil->IJai" [I.oovv, U11old, U21old]).term]

/-- Surplus of the optimised `U1n[1]`. -/
def surplusOptU12 : List Term :=
  (ein% "-0.5" "klcd,acik,IJdl->IJai" [I.oovv, T2old, U12old]).term :: surplusU12

/-- Twice a term. -/
def twice (t : Term) : Term := ⟨⟨2 * t.coef.num, t.coef.half⟩, t.dum, t.facs⟩

/-- Work array of the optimised `U2n[0]`. -/
def wmvoT : Tensor := ⟨900, [.mode, .vir, .occ]⟩

/-- Name of the surplus of the optimised `U2n[0]`. -/
def modeErrT : Tensor := ⟨901, [.mode, .vir, .vir, .occ, .occ]⟩

/-- `W_n(a,i)`. -/
def wmvoP : Def := set wmvoT [
  ein% "1" "Iac,ci->Iai" [g.vv, T1old],
  ein% "-1" "Iki,ak->Iai" [g.oo, T1old],
  ein% "1" "Ikc,acik->Iai" [g.ov, T2old],
  ein% "-1" "Ikc,ci,ak->Iai" [g.ov, T1old, T1old]]

/-- Antisymmetriser of `∑_n (W_m(a,i) - W_n(a,i)) U12(m,n,b,j)`. -/
def modeErrP : Def := set modeErrT [
  ein% "1" "Iai,IJbj->Iabij" [wmvoT, U12old], ein% "-1" "Jai,IJbj->Iabij" [wmvoT, U12old],
  ein% "-1" "Iai,IJbj->Ibaij" [wmvoT, U12old], ein% "1" "Jai,IJbj->Ibaij" [wmvoT, U12old],
  ein% "-1" "Iai,IJbj->Iabji" [wmvoT, U12old], ein% "1" "Jai,IJbj->Iabji" [wmvoT, U12old],
  ein% "1" "Iai,IJbj->Ibaji" [wmvoT, U12old], ein% "-1" "Jai,IJbj->Ibaji" [wmvoT, U12old]]

/-- The same as terms. -/
def modeErrTerms : List Term := expand [wmvoP, modeErrP] (read modeErrT (letters% "Iabij"))

/-- Terms missing from `single_qedccsd_U2n` for `nfock1 = 2`. -/
def lackU22 : List Term := [
  (ein% "2" "II,Iac,Ibcij->Iabij" [S2old, g.vv, U21old]).term,
  (ein% "-2" "II,Ibc,Iacij->Iabij" [S2old, g.vv, U21old]).term,
  (ein% "-2" "II,Iki,Iabjk->Iabij" [S2old, g.oo, U21old]).term,
  (ein% "2" "II,Ikj,Iabik->Iabij" [S2old, g.oo, U21old]).term,
  (ein% "-2" "II,Ikc,ak,Ibcij->Iabij" [S2old, g.ov, T1old, U21old]).term,
  (ein% "2" "II,Ikc,bk,Iacij->Iabij" [S2old, g.ov, T1old, U21old]).term,
  (ein% "-2" "II,Ikc,ci,Iabjk->Iabij" [S2old, g.ov, T1old, U21old]).term,
  (ein% "2" "II,Ikc,cj,Iabik->Iabij" [S2old, g.ov, T1old, U21old]).term,
  (ein% "2" "II,Ikc,abik,Icj->Iabij" [S2old, g.ov, T2old, U11old]).term,
  (ein% "-2" "II,Ikc,abjk,Ici->Iabij" [S2old, g.ov, T2old, U11old]).term,
  (ein% "2" "II,Ikc,acij,Ibk->Iabij" [S2old, g.ov, T2old, U11old]).term,
  (ein% "-2" "II,Ikc,bcij,Iak->Iabij" [S2old, g.ov, T2old, U11old]).term]

end OpenMS.Qedcc
