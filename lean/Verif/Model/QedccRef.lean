/-
The QED-CCSD residuals of openms/mqed/qedcc_equations.py, line by line.
`n1` and `n2` are `nfock1` and `nfock2`; `u2` says whether `U2nold[0]` is not `None`.
`g` is always given.  An early `return` is a condition on the rest.  Consecutive
lines that add to the same array form one statement.  Coefficients and index strings
are those of the code.
-/
import Verif.Model.QedccTensors

set_option linter.unusedVariables false

namespace OpenMS.Qedcc

open Einsum

/-- openms/mqed/qedcc_equations.py L23-63: `qedccsd_T1`. -/
def refT1 (n1 n2 : Nat) (u2 : Bool) : List Def :=
  [set T1 [
      ein% "1" "ai->ai" [F.vo],
      ein% "-1" "ji,aj->ai" [F.oo, T1old],
      ein% "1" "ab,bi->ai" [F.vv, T1old],
      ein% "1" "Iai,I->ai" [g.vo, S1old],
      ein% "-1" "jb,abji->ai" [F.ov, T2old],
      ein% "-1" "Iji,Iaj->ai" [g.oo, U11old],
      ein% "1" "Iab,Ibi->ai" [g.vv, U11old],
      ein% "-1" "jaib,bj->ai" [I.ovov, T1old],
      ein% "0.5" "jkib,abkj->ai" [I.ooov, T2old],
      ein% "-0.5" "jabc,cbji->ai" [I.ovvv, T2old],
      ein% "-1" "jb,bi,aj->ai" [F.ov, T1old, T1old],
      ein% "-1" "Iji,aj,I->ai" [g.oo, T1old, S1old],
      ein% "1" "Iab,bi,I->ai" [g.vv, T1old, S1old],
      ein% "-1" "Ijb,aj,Ibi->ai" [g.ov, T1old, U11old],
      ein% "-1" "Ijb,bi,Iaj->ai" [g.ov, T1old, U11old],
      ein% "1" "Ijb,bj,Iai->ai" [g.ov, T1old, U11old],
      ein% "-1" "Ijb,abji,I->ai" [g.ov, T2old, S1old],
      ein% "-1" "jkib,aj,bk->ai" [I.ooov, T1old, T1old],
      ein% "1" "jabc,ci,bj->ai" [I.ovvv, T1old, T1old],
      ein% "-0.5" "jkbc,aj,cbki->ai" [I.oovv, T1old, T2old],
      ein% "-0.5" "jkbc,ci,abkj->ai" [I.oovv, T1old, T2old],
      ein% "1" "jkbc,cj,abki->ai" [I.oovv, T1old, T2old],
      ein% "1" "jkbc,ci,aj,bk->ai" [I.oovv, T1old, T1old, T1old],
      ein% "-1" "I,Ijb,bi,aj->ai" [S1old, g.ov, T1old, T1old]]] ++
  when (u2) (
    [add T1 [
        ein% "-1" "Ijb,Iabji->ai" [g.ov, U21old]]])

/-- openms/mqed/qedcc_equations.py L65-184: `qedccsd_T2`. -/
def refT2 (n1 n2 : Nat) (u2 : Bool) : List Def :=
  [set T2 [
      ein% "1" "baji->abij" [I.vvoo],
      ein% "1" "ki,bakj->abij" [F.oo, T2old],
      ein% "-1" "kj,baki->abij" [F.oo, T2old],
      ein% "1" "ac,bcji->abij" [F.vv, T2old],
      ein% "-1" "bc,acji->abij" [F.vv, T2old],
      ein% "1" "Iai,Ibj->abij" [g.vo, U11old],
      ein% "-1" "Iaj,Ibi->abij" [g.vo, U11old],
      ein% "-1" "Ibi,Iaj->abij" [g.vo, U11old],
      ein% "1" "Ibj,Iai->abij" [g.vo, U11old],
      ein% "-1" "kaji,bk->abij" [I.ovoo, T1old],
      ein% "1" "kbji,ak->abij" [I.ovoo, T1old],
      ein% "-1" "baic,cj->abij" [I.vvov, T1old],
      ein% "1" "bajc,ci->abij" [I.vvov, T1old],
      ein% "-0.5" "klji,balk->abij" [I.oooo, T2old],
      ein% "1" "kaic,bckj->abij" [I.ovov, T2old],
      ein% "-1" "kajc,bcki->abij" [I.ovov, T2old],
      ein% "-1" "kbic,ackj->abij" [I.ovov, T2old],
      ein% "1" "kbjc,acki->abij" [I.ovov, T2old],
      ein% "-0.5" "bacd,dcji->abij" [I.vvvv, T2old],
      ein% "-1" "kc,ak,bcji->abij" [F.ov, T1old, T2old],
      ein% "1" "kc,bk,acji->abij" [F.ov, T1old, T2old],
      ein% "1" "kc,ci,bakj->abij" [F.ov, T1old, T2old],
      ein% "-1" "kc,cj,baki->abij" [F.ov, T1old, T2old],
      ein% "-1" "Iki,ak,Ibj->abij" [g.oo, T1old, U11old],
      ein% "1" "Iki,bk,Iaj->abij" [g.oo, T1old, U11old],
      ein% "1" "Iki,bakj,I->abij" [g.oo, T2old, S1old],
      ein% "1" "Ikj,ak,Ibi->abij" [g.oo, T1old, U11old],
      ein% "-1" "Ikj,bk,Iai->abij" [g.oo, T1old, U11old],
      ein% "-1" "Ikj,baki,I->abij" [g.oo, T2old, S1old],
      ein% "1" "Iac,ci,Ibj->abij" [g.vv, T1old, U11old],
      ein% "-1" "Iac,cj,Ibi->abij" [g.vv, T1old, U11old],
      ein% "1" "Iac,bcji,I->abij" [g.vv, T2old, S1old],
      ein% "-1" "Ibc,ci,Iaj->abij" [g.vv, T1old, U11old],
      ein% "1" "Ibc,cj,Iai->abij" [g.vv, T1old, U11old],
      ein% "-1" "Ibc,acji,I->abij" [g.vv, T2old, S1old],
      ein% "1" "klji,bk,al->abij" [I.oooo, T1old, T1old],
      ein% "1" "kaic,cj,bk->abij" [I.ovov, T1old, T1old],
      ein% "-1" "kajc,ci,bk->abij" [I.ovov, T1old, T1old],
      ein% "-1" "kbic,cj,ak->abij" [I.ovov, T1old, T1old],
      ein% "1" "kbjc,ci,ak->abij" [I.ovov, T1old, T1old],
      ein% "1" "bacd,di,cj->abij" [I.vvvv, T1old, T1old],
      ein% "1" "Ikc,acji,Ibk->abij" [g.ov, T2old, U11old],
      ein% "-1" "Ikc,acki,Ibj->abij" [g.ov, T2old, U11old],
      ein% "1" "Ikc,ackj,Ibi->abij" [g.ov, T2old, U11old],
      ein% "-1" "Ikc,baki,Icj->abij" [g.ov, T2old, U11old],
      ein% "1" "Ikc,bakj,Ici->abij" [g.ov, T2old, U11old],
      ein% "-1" "Ikc,bcji,Iak->abij" [g.ov, T2old, U11old],
      ein% "1" "Ikc,bcki,Iaj->abij" [g.ov, T2old, U11old],
      ein% "-1" "Ikc,bckj,Iai->abij" [g.ov, T2old, U11old],
      ein% "1" "klic,ak,bclj->abij" [I.ooov, T1old, T2old],
      ein% "-1" "klic,bk,aclj->abij" [I.ooov, T1old, T2old],
      ein% "0.5" "klic,cj,balk->abij" [I.ooov, T1old, T2old],
      ein% "-1" "klic,ck,balj->abij" [I.ooov, T1old, T2old],
      ein% "-1" "kljc,ak,bcli->abij" [I.ooov, T1old, T2old],
      ein% "1" "kljc,bk,acli->abij" [I.ooov, T1old, T2old],
      ein% "-0.5" "kljc,ci,balk->abij" [I.ooov, T1old, T2old],
      ein% "1" "kljc,ck,bali->abij" [I.ooov, T1old, T2old],
      ein% "0.5" "kacd,bk,dcji->abij" [I.ovvv, T1old, T2old],
      ein% "-1" "kacd,di,bckj->abij" [I.ovvv, T1old, T2old],
      ein% "1" "kacd,dj,bcki->abij" [I.ovvv, T1old, T2old],
      ein% "-1" "kacd,dk,bcji->abij" [I.ovvv, T1old, T2old],
      ein% "-0.5" "kbcd,ak,dcji->abij" [I.ovvv, T1old, T2old],
      ein% "1" "kbcd,di,ackj->abij" [I.ovvv, T1old, T2old],
      ein% "-1" "kbcd,dj,acki->abij" [I.ovvv, T1old, T2old],
      ein% "1" "kbcd,dk,acji->abij" [I.ovvv, T1old, T2old],
      ein% "0.5" "klcd,adji,bclk->abij" [I.oovv, T2old, T2old],
      ein% "-1" "klcd,adki,bclj->abij" [I.oovv, T2old, T2old],
      ein% "-0.5" "klcd,baki,dclj->abij" [I.oovv, T2old, T2old],
      ein% "-0.5" "klcd,bdji,aclk->abij" [I.oovv, T2old, T2old],
      ein% "1" "klcd,bdki,aclj->abij" [I.oovv, T2old, T2old],
      ein% "0.25" "klcd,dcji,balk->abij" [I.oovv, T2old, T2old],
      ein% "-0.5" "klcd,dcki,balj->abij" [I.oovv, T2old, T2old],
      ein% "-1" "Ikc,ak,bcji,I->abij" [g.ov, T1old, T2old, S1old],
      ein% "1" "Ikc,bk,acji,I->abij" [g.ov, T1old, T2old, S1old],
      ein% "-1" "Ikc,ci,ak,Ibj->abij" [g.ov, T1old, T1old, U11old],
      ein% "1" "Ikc,ci,bk,Iaj->abij" [g.ov, T1old, T1old, U11old],
      ein% "1" "Ikc,ci,bakj,I->abij" [g.ov, T1old, T2old, S1old],
      ein% "1" "Ikc,cj,ak,Ibi->abij" [g.ov, T1old, T1old, U11old],
      ein% "-1" "Ikc,cj,bk,Iai->abij" [g.ov, T1old, T1old, U11old],
      ein% "-1" "Ikc,cj,baki,I->abij" [g.ov, T1old, T2old, S1old],
      ein% "-1" "klic,cj,bk,al->abij" [I.ooov, T1old, T1old, T1old],
      ein% "1" "kljc,ci,bk,al->abij" [I.ooov, T1old, T1old, T1old],
      ein% "-1" "kacd,di,cj,bk->abij" [I.ovvv, T1old, T1old, T1old],
      ein% "1" "kbcd,di,cj,ak->abij" [I.ovvv, T1old, T1old, T1old],
      ein% "-1" "klcd,ak,dl,bcji->abij" [I.oovv, T1old, T1old, T2old],
      ein% "-0.5" "klcd,bk,al,dcji->abij" [I.oovv, T1old, T1old, T2old],
      ein% "1" "klcd,bk,dl,acji->abij" [I.oovv, T1old, T1old, T2old],
      ein% "-1" "klcd,di,ak,bclj->abij" [I.oovv, T1old, T1old, T2old],
      ein% "1" "klcd,di,bk,aclj->abij" [I.oovv, T1old, T1old, T2old],
      ein% "-0.5" "klcd,di,cj,balk->abij" [I.oovv, T1old, T1old, T2old],
      ein% "1" "klcd,di,ck,balj->abij" [I.oovv, T1old, T1old, T2old],
      ein% "1" "klcd,dj,ak,bcli->abij" [I.oovv, T1old, T1old, T2old],
      ein% "-1" "klcd,dj,bk,acli->abij" [I.oovv, T1old, T1old, T2old],
      ein% "-1" "klcd,dj,ck,bali->abij" [I.oovv, T1old, T1old, T2old],
      ein% "1" "klcd,di,cj,bk,al->abij" [I.oovv, T1old, T1old, T1old, T1old]]] ++
  when (u2) (
    [add T2 [
        ein% "1" "Iki,Ibakj->abij" [g.oo, U21old],
        ein% "-1" "Ikj,Ibaki->abij" [g.oo, U21old],
        ein% "1" "Iac,Ibcji->abij" [g.vv, U21old],
        ein% "-1" "Ibc,Iacji->abij" [g.vv, U21old],
        ein% "-1" "Ikc,ak,Ibcji->abij" [g.ov, T1old, U21old],
        ein% "1" "Ikc,bk,Iacji->abij" [g.ov, T1old, U21old],
        ein% "1" "Ikc,ci,Ibakj->abij" [g.ov, T1old, U21old],
        ein% "-1" "Ikc,cj,Ibaki->abij" [g.ov, T1old, U21old],
        ein% "1" "Ikc,ck,Ibaji->abij" [g.ov, T1old, U21old]]])

/-- openms/mqed/qedcc_equations.py L347-405: `qedccsd_Sn`; `S1` and `S2` before the elements of modes with frequency zero are
set to zero (L375-377, L399-401). -/
def refS (n1 n2 : Nat) (u2 : Bool) : List Def :=
  when (0 < n1) (
    [set S1 [
        ein% "1" "I,I->I" [w, S1old],
        ein% "1" "ia,Iai->I" [F.ov, U11old],
        ein% "1" "Iia,ai->I" [g.ov, T1old],
        ein% "1" "Jia,J,Iai->I" [g.ov, S1old, U11old],
        ein% "-1" "ijab,bi,Iaj->I" [I.oovv, T1old, U11old]]] ++
    when (u2) (
      [add S1 [
          ein% "0.25" "ijab,Ibaji->I" [I.oovv, U21old]]]) ++
    when (1 < n1) (
      [add S1 [
          ein% "1" "Jia,ai,IJ->I" [g.ov, T1old, S2old]]]) ++
    when (1 < n2) (
      [add S1 [
          ein% "1" "Jia,IJai->I" [g.ov, U12old]]]) ++
    when (1 < n1) (
      [set S2 [
          ein% "1" "I,JI->IJ" [w, S2old],
          ein% "1" "J,IJ->IJ" [w, S2old],
          ein% "1" "Iia,Jai->IJ" [g.ov, U11old],
          ein% "1" "Jia,Iai->IJ" [g.ov, U11old],
          ein% "1" "Kia,IK,Jai->IJ" [g.ov, S2old, U11old],
          ein% "1" "Kia,JK,Iai->IJ" [g.ov, S2old, U11old],
          ein% "-1" "ijab,Ibi,Jaj->IJ" [I.oovv, U11old, U11old]]] ++
      when (1 < n2) (
        [add S2 [
            ein% "1" "ia,IJai->IJ" [F.ov, U12old]]] ++
        when (u2) (
          [add S2 [
              ein% "0.25" "ijab,IJbaji->IJ" [I.oovv, U22old]]]) ++
        [add S2 [
            ein% "1" "Kia,K,IJai->IJ" [g.ov, S1old, U12old],
            ein% "-1" "ijab,bi,IJaj->IJ" [I.oovv, T1old, U12old]]])))

/-- openms/mqed/qedcc_equations.py L407-582: `qedccsd_U1n` for several modes (for one mode L421-422 calls
`single_qedccsd_U1n`, `singleU1` below). -/
def refU1 (n1 n2 : Nat) (u2 : Bool) : List Def :=
  when (0 < n2) (
    [set U11 [
        ein% "1" "Iai->Iai" [g.vo],
        ein% "-1" "ji,Iaj->Iai" [F.oo, U11old],
        ein% "1" "ab,Ibi->Iai" [F.vv, U11old],
        ein% "1" "I,Iai->Iai" [w, U11old],
        ein% "-1" "Iji,aj->Iai" [g.oo, T1old],
        ein% "1" "Iab,bi->Iai" [g.vv, T1old],
        ein% "-1" "Ijb,abji->Iai" [g.ov, T2old],
        ein% "-1" "jaib,Ibj->Iai" [I.ovov, U11old]]] ++
    when (u2) (
      [add U11 [
          ein% "-1" "jb,Iabji->Iai" [F.ov, U21old]]]) ++
    when (1 < n2) (
      [add U11 [
          ein% "-1" "Jji,IJaj->Iai" [g.oo, U12old],
          ein% "1" "Jab,IJbi->Iai" [g.vv, U12old],
          ein% "-1" "Jjb,aj,IJbi->Iai" [g.ov, T1old, U12old],
          ein% "-1" "Jjb,bi,IJaj->Iai" [g.ov, T1old, U12old],
          ein% "1" "Jjb,bj,IJai->Iai" [g.ov, T1old, U12old]]] ++
      when (u2) (
        [add U11 [
            ein% "-0.625" "Jjb,IJabji->Iai" [g.ov, U22old],
            ein% "0.375" "Jjb,JIbaji->Iai" [g.ov, U22old]]])) ++
    when (u2) (
      [add U11 [
          ein% "0.5" "jkib,Iabkj->Iai" [I.ooov, U21old],
          ein% "-0.5" "jabc,Icbji->Iai" [I.ovvv, U21old],
          ein% "-1" "Jjb,J,Iabji->Iai" [g.ov, S1old, U21old],
          ein% "-0.5" "jkbc,aj,Icbki->Iai" [I.oovv, T1old, U21old],
          ein% "-0.5" "jkbc,ci,Iabkj->Iai" [I.oovv, T1old, U21old],
          ein% "1" "jkbc,cj,Iabki->Iai" [I.oovv, T1old, U21old]]]) ++
    [add U11 [
        ein% "-1" "jb,aj,Ibi->Iai" [F.ov, T1old, U11old],
        ein% "-1" "jb,bi,Iaj->Iai" [F.ov, T1old, U11old],
        ein% "-1" "Ijb,bi,aj->Iai" [g.ov, T1old, T1old],
        ein% "-1" "Jji,J,Iaj->Iai" [g.oo, S1old, U11old],
        ein% "1" "Jab,J,Ibi->Iai" [g.vv, S1old, U11old],
        ein% "-1" "Jjb,Iaj,Jbi->Iai" [g.ov, U11old, U11old],
        ein% "-1" "Jjb,Ibi,Jaj->Iai" [g.ov, U11old, U11old],
        ein% "1" "Jjb,Ibj,Jai->Iai" [g.ov, U11old, U11old],
        ein% "-1" "jkib,aj,Ibk->Iai" [I.ooov, T1old, U11old],
        ein% "1" "jkib,bj,Iak->Iai" [I.ooov, T1old, U11old],
        ein% "1" "jabc,ci,Ibj->Iai" [I.ovvv, T1old, U11old],
        ein% "-1" "jabc,cj,Ibi->Iai" [I.ovvv, T1old, U11old],
        ein% "1" "jkbc,acji,Ibk->Iai" [I.oovv, T2old, U11old],
        ein% "0.5" "jkbc,ackj,Ibi->Iai" [I.oovv, T2old, U11old],
        ein% "0.5" "jkbc,cbji,Iak->Iai" [I.oovv, T2old, U11old],
        ein% "-1" "Jjb,aj,J,Ibi->Iai" [g.ov, T1old, S1old, U11old],
        ein% "-1" "Jjb,bi,J,Iaj->Iai" [g.ov, T1old, S1old, U11old],
        ein% "-1" "jkbc,aj,ck,Ibi->Iai" [I.oovv, T1old, T1old, U11old],
        ein% "1" "jkbc,ci,aj,Ibk->Iai" [I.oovv, T1old, T1old, U11old],
        ein% "-1" "jkbc,ci,bj,Iak->Iai" [I.oovv, T1old, T1old, U11old]]] ++
    when (1 < n1) (
      [add U11 [
          ein% "1" "Jai,IJ->Iai" [g.vo, S2old],
          ein% "-1" "Jji,aj,IJ->Iai" [g.oo, T1old, S2old],
          ein% "1" "Jab,bi,IJ->Iai" [g.vv, T1old, S2old],
          ein% "-1" "Jjb,abji,IJ->Iai" [g.ov, T2old, S2old],
          ein% "-1" "Jjb,bi,aj,IJ->Iai" [g.ov, T1old, T1old, S2old]]]) ++
    when (1 < n2) (
      [set U12 [
          ein% "-1" "ji,IJaj->IJai" [F.oo, U12old],
          ein% "1" "ab,IJbi->IJai" [F.vv, U12old],
          ein% "1" "I,JIai->IJai" [w, U12old],
          ein% "1" "J,IJai->IJai" [w, U12old],
          ein% "-1" "Iji,Jaj->IJai" [g.oo, U11old],
          ein% "1" "Iab,Jbi->IJai" [g.vv, U11old],
          ein% "-1" "Jji,Iaj->IJai" [g.oo, U11old],
          ein% "1" "Jab,Ibi->IJai" [g.vv, U11old],
          ein% "-1" "jaib,IJbj->IJai" [I.ovov, U12old]]] ++
      when (u2) (
        [add U12 [
            ein% "-0.625" "jb,IJabji->IJai" [F.ov, U22old],
            ein% "0.375" "jb,JIbaji->IJai" [F.ov, U22old],
            ein% "-1" "Ijb,Jabji->IJai" [g.ov, U21old],
            ein% "-1" "Jjb,Iabji->IJai" [g.ov, U21old],
            ein% "0.375" "jkib,IJabkj->IJai" [I.ooov, U22old],
            ein% "-0.125" "jkib,JIbakj->IJai" [I.ooov, U22old],
            ein% "-0.375" "jabc,IJcbji->IJai" [I.ovvv, U22old],
            ein% "0.125" "jabc,JIcbij->IJai" [I.ovvv, U22old],
            ein% "-0.625" "Kjb,K,IJabji->IJai" [g.ov, S1old, U22old],
            ein% "0.375" "Kjb,K,JIbaji->IJai" [g.ov, S1old, U22old],
            ein% "-0.375" "jkbc,aj,IJcbki->IJai" [I.oovv, T1old, U22old],
            ein% "0.125" "jkbc,aj,JIcbik->IJai" [I.oovv, T1old, U22old],
            ein% "-0.375" "jkbc,ci,IJabkj->IJai" [I.oovv, T1old, U22old],
            ein% "0.125" "jkbc,ci,JIbakj->IJai" [I.oovv, T1old, U22old],
            ein% "0.625" "jkbc,cj,IJabki->IJai" [I.oovv, T1old, U22old],
            ein% "-0.375" "jkbc,cj,JIbaki->IJai" [I.oovv, T1old, U22old],
            ein% "-0.5" "jkbc,Iaj,Jcbki->IJai" [I.oovv, U11old, U21old],
            ein% "-0.5" "jkbc,Ici,Jabkj->IJai" [I.oovv, U11old, U21old],
            ein% "1" "jkbc,Icj,Jabki->IJai" [I.oovv, U11old, U21old],
            ein% "-0.5" "jkbc,Jaj,Icbki->IJai" [I.oovv, U11old, U21old],
            ein% "-0.5" "jkbc,Jci,Iabkj->IJai" [I.oovv, U11old, U21old],
            ein% "1" "jkbc,Jcj,Iabki->IJai" [I.oovv, U11old, U21old],
            ein% "-0.375" "jkbc,ci,IJabkj->IJai" [I.oovv, T1old, U22old],
            ein% "0.125" "jkbc,ci,JIbakj->IJai" [I.oovv, T1old, U22old],
            ein% "0.625" "jkbc,cj,IJabki->IJai" [I.oovv, T1old, U22old],
            ein% "-0.375" "jkbc,cj,JIbaki->IJai" [I.oovv, T1old, U22old],
            ein% "-0.5" "jkbc,Iaj,Jcbki->IJai" [I.oovv, U11old, U21old],
            ein% "-0.5" "jkbc,Ici,Jabkj->IJai" [I.oovv, U11old, U21old],
            ein% "1" "jkbc,Icj,Jabki->IJai" [I.oovv, U11old, U21old],
            ein% "-0.5" "jkbc,Jaj,Icbki->IJai" [I.oovv, U11old, U21old],
            ein% "-0.5" "jkbc,Jci,Iabkj->IJai" [I.oovv, U11old, U21old],
            ein% "1" "jkbc,Jcj,Iabki->IJai" [I.oovv, U11old, U21old]]] ++
        when (1 < n1) (
          [add U12 [
              ein% "-1" "Kjb,IK,Jabji->IJai" [g.ov, S2old, U21old],
              ein% "-1" "Kjb,JK,Iabji->IJai" [g.ov, S2old, U21old]]])) ++
      [add U12 [
          ein% "-1" "jb,aj,IJbi->IJai" [F.ov, T1old, U12old],
          ein% "-1" "jb,bi,IJaj->IJai" [F.ov, T1old, U12old],
          ein% "-1" "jb,Iaj,Jbi->IJai" [F.ov, U11old, U11old],
          ein% "-1" "jb,Ibi,Jaj->IJai" [F.ov, U11old, U11old],
          ein% "-1" "Ijb,aj,Jbi->IJai" [g.ov, T1old, U11old],
          ein% "-1" "Ijb,bi,Jaj->IJai" [g.ov, T1old, U11old],
          ein% "-1" "Jjb,aj,Ibi->IJai" [g.ov, T1old, U11old],
          ein% "-1" "Jjb,bi,Iaj->IJai" [g.ov, T1old, U11old],
          ein% "-1" "Kji,K,IJaj->IJai" [g.oo, S1old, U12old]]] ++
      when (1 < n1) (
        [add U12 [
            ein% "-1" "Kji,IK,Jaj->IJai" [g.oo, S2old, U11old],
            ein% "-1" "Kji,JK,Iaj->IJai" [g.oo, S2old, U11old],
            ein% "1" "Kab,IK,Jbi->IJai" [g.vv, S2old, U11old],
            ein% "1" "Kab,JK,Ibi->IJai" [g.vv, S2old, U11old],
            ein% "-1" "Kjb,aj,IK,Jbi->IJai" [g.ov, T1old, S2old, U11old],
            ein% "-1" "Kjb,aj,JK,Ibi->IJai" [g.ov, T1old, S2old, U11old],
            ein% "-1" "Kjb,bi,IK,Jaj->IJai" [g.ov, T1old, S2old, U11old],
            ein% "-1" "Kjb,bi,JK,Iaj->IJai" [g.ov, T1old, S2old, U11old]]]) ++
      [add U12 [
          ein% "1" "Kab,K,IJbi->IJai" [g.vv, S1old, U12old],
          ein% "-1" "Kjb,Iaj,JKbi->IJai" [g.ov, U11old, U12old],
          ein% "-1" "Kjb,Ibi,JKaj->IJai" [g.ov, U11old, U12old],
          ein% "1" "Kjb,Ibj,JKai->IJai" [g.ov, U11old, U12old],
          ein% "-1" "Kjb,Jaj,IKbi->IJai" [g.ov, U11old, U12old],
          ein% "-1" "Kjb,Jbi,IKaj->IJai" [g.ov, U11old, U12old],
          ein% "1" "Kjb,Jbj,IKai->IJai" [g.ov, U11old, U12old],
          ein% "1" "Kjb,Kai,IJbj->IJai" [g.ov, U11old, U12old],
          ein% "-1" "Kjb,Kaj,IJbi->IJai" [g.ov, U11old, U12old],
          ein% "-1" "Kjb,Kbi,IJaj->IJai" [g.ov, U11old, U12old],
          ein% "-1" "jkib,aj,IJbk->IJai" [I.ooov, T1old, U12old],
          ein% "1" "jkib,bj,IJak->IJai" [I.ooov, T1old, U12old],
          ein% "-1" "jkib,Iaj,Jbk->IJai" [I.ooov, U11old, U11old],
          ein% "1" "jkib,Ibj,Jak->IJai" [I.ooov, U11old, U11old],
          ein% "1" "jabc,ci,IJbj->IJai" [I.ovvv, T1old, U12old],
          ein% "-1" "jabc,cj,IJbi->IJai" [I.ovvv, T1old, U12old],
          ein% "1" "jabc,Ici,Jbj->IJai" [I.ovvv, U11old, U11old],
          ein% "-1" "jabc,Icj,Jbi->IJai" [I.ovvv, U11old, U11old],
          ein% "1" "jkbc,acji,IJbk->IJai" [I.oovv, T2old, U12old],
          ein% "0.5" "jkbc,ackj,IJbi->IJai" [I.oovv, T2old, U12old],
          ein% "0.5" "jkbc,cbji,IJak->IJai" [I.oovv, T2old, U12old],
          ein% "-1" "Kjb,K,Iaj,Jbi->IJai" [g.ov, S1old, U11old, U11old],
          ein% "-1" "Kjb,K,Ibi,Jaj->IJai" [g.ov, S1old, U11old, U11old],
          ein% "-1" "Kjb,aj,K,IJbi->IJai" [g.ov, T1old, S1old, U12old],
          ein% "-1" "Kjb,bi,K,IJaj->IJai" [g.ov, T1old, S1old, U12old],
          ein% "-1" "jkbc,aj,ck,IJbi->IJai" [I.oovv, T1old, T1old, U12old],
          ein% "1" "jkbc,aj,Ici,Jbk->IJai" [I.oovv, T1old, U11old, U11old],
          ein% "-1" "jkbc,aj,Ick,Jbi->IJai" [I.oovv, T1old, U11old, U11old],
          ein% "1" "jkbc,ci,aj,IJbk->IJai" [I.oovv, T1old, T1old, U12old],
          ein% "-1" "jkbc,ci,bj,IJak->IJai" [I.oovv, T1old, T1old, U12old],
          ein% "1" "jkbc,ci,Iaj,Jbk->IJai" [I.oovv, T1old, U11old, U11old],
          ein% "-1" "jkbc,ci,Ibj,Jak->IJai" [I.oovv, T1old, U11old, U11old],
          ein% "1" "jkbc,cj,Iak,Jbi->IJai" [I.oovv, T1old, U11old, U11old],
          ein% "1" "jkbc,cj,Ibi,Jak->IJai" [I.oovv, T1old, U11old, U11old]]]))

/-- openms/mqed/qedcc_equations.py L584-1214: `qedccsd_U2n` for several modes (for one mode L596-597 calls
`single_qedccsd_U2n`, `singleU2` below).  `U22` is computed for the first mode only
(L843-1213, letter `z`); `w` stands there as an array of all modes (L850), modelled
by its first element. -/
def refU2 (n1 n2 : Nat) (u2 : Bool) : List Def :=
  when (u2) (
    when (0 < n2) (
      [set U21 [
          ein% "1" "ki,Ibakj->Iabij" [F.oo, U21old],
          ein% "-1" "kj,Ibaki->Iabij" [F.oo, U21old],
          ein% "1" "ac,Ibcji->Iabij" [F.vv, U21old],
          ein% "-1" "bc,Iacji->Iabij" [F.vv, U21old],
          ein% "1" "I,Ibaji->Iabij" [w, U21old],
          ein% "1" "Iki,bakj->Iabij" [g.oo, T2old],
          ein% "-1" "Ikj,baki->Iabij" [g.oo, T2old],
          ein% "1" "Iac,bcji->Iabij" [g.vv, T2old],
          ein% "-1" "Ibc,acji->Iabij" [g.vv, T2old],
          ein% "-1" "kaji,Ibk->Iabij" [I.ovoo, U11old],
          ein% "1" "kbji,Iak->Iabij" [I.ovoo, U11old],
          ein% "-1" "baic,Icj->Iabij" [I.vvov, U11old],
          ein% "1" "bajc,Ici->Iabij" [I.vvov, U11old],
          ein% "-0.5" "klji,Ibalk->Iabij" [I.oooo, U21old],
          ein% "1" "kaic,Ibckj->Iabij" [I.ovov, U21old],
          ein% "-1" "kajc,Ibcki->Iabij" [I.ovov, U21old],
          ein% "-1" "kbic,Iackj->Iabij" [I.ovov, U21old],
          ein% "1" "kbjc,Iacki->Iabij" [I.ovov, U21old],
          ein% "-0.5" "bacd,Idcji->Iabij" [I.vvvv, U21old],
          ein% "-1" "kc,ak,Ibcji->Iabij" [F.ov, T1old, U21old],
          ein% "1" "kc,bk,Iacji->Iabij" [F.ov, T1old, U21old],
          ein% "1" "kc,ci,Ibakj->Iabij" [F.ov, T1old, U21old],
          ein% "-1" "kc,cj,Ibaki->Iabij" [F.ov, T1old, U21old],
          ein% "1" "kc,acji,Ibk->Iabij" [F.ov, T2old, U11old],
          ein% "-1" "kc,baki,Icj->Iabij" [F.ov, T2old, U11old],
          ein% "1" "kc,bakj,Ici->Iabij" [F.ov, T2old, U11old],
          ein% "-1" "kc,bcji,Iak->Iabij" [F.ov, T2old, U11old],
          ein% "-1" "Ikc,ak,bcji->Iabij" [g.ov, T1old, T2old],
          ein% "1" "Ikc,bk,acji->Iabij" [g.ov, T1old, T2old],
          ein% "1" "Ikc,ci,bakj->Iabij" [g.ov, T1old, T2old],
          ein% "-1" "Ikc,cj,baki->Iabij" [g.ov, T1old, T2old],
          ein% "1" "Jki,J,Ibakj->Iabij" [g.oo, S1old, U21old],
          ein% "-1" "Jki,Iak,Jbj->Iabij" [g.oo, U11old, U11old],
          ein% "1" "Jki,Ibk,Jaj->Iabij" [g.oo, U11old, U11old],
          ein% "-1" "Jkj,J,Ibaki->Iabij" [g.oo, S1old, U21old],
          ein% "1" "Jkj,Iak,Jbi->Iabij" [g.oo, U11old, U11old],
          ein% "-1" "Jkj,Ibk,Jai->Iabij" [g.oo, U11old, U11old],
          ein% "1" "Jac,J,Ibcji->Iabij" [g.vv, S1old, U21old],
          ein% "1" "Jac,Ici,Jbj->Iabij" [g.vv, U11old, U11old],
          ein% "-1" "Jac,Icj,Jbi->Iabij" [g.vv, U11old, U11old],
          ein% "-1" "Jbc,J,Iacji->Iabij" [g.vv, S1old, U21old],
          ein% "-1" "Jbc,Ici,Jaj->Iabij" [g.vv, U11old, U11old],
          ein% "1" "Jbc,Icj,Jai->Iabij" [g.vv, U11old, U11old],
          ein% "-1" "klji,ak,Ibl->Iabij" [I.oooo, T1old, U11old],
          ein% "1" "klji,bk,Ial->Iabij" [I.oooo, T1old, U11old],
          ein% "1" "kaic,bk,Icj->Iabij" [I.ovov, T1old, U11old],
          ein% "1" "kaic,cj,Ibk->Iabij" [I.ovov, T1old, U11old],
          ein% "-1" "kajc,bk,Ici->Iabij" [I.ovov, T1old, U11old],
          ein% "-1" "kajc,ci,Ibk->Iabij" [I.ovov, T1old, U11old],
          ein% "-1" "kbic,ak,Icj->Iabij" [I.ovov, T1old, U11old],
          ein% "-1" "kbic,cj,Iak->Iabij" [I.ovov, T1old, U11old],
          ein% "1" "kbjc,ak,Ici->Iabij" [I.ovov, T1old, U11old],
          ein% "1" "kbjc,ci,Iak->Iabij" [I.ovov, T1old, U11old],
          ein% "1" "bacd,di,Icj->Iabij" [I.vvvv, T1old, U11old],
          ein% "-1" "bacd,dj,Ici->Iabij" [I.vvvv, T1old, U11old],
          ein% "-1" "Jkc,Iak,Jbcji->Iabij" [g.ov, U11old, U21old],
          ein% "1" "Jkc,Ibk,Jacji->Iabij" [g.ov, U11old, U21old],
          ein% "1" "Jkc,Ici,Jbakj->Iabij" [g.ov, U11old, U21old],
          ein% "-1" "Jkc,Icj,Jbaki->Iabij" [g.ov, U11old, U21old],
          ein% "1" "Jkc,Ick,Jbaji->Iabij" [g.ov, U11old, U21old],
          ein% "-1" "Jkc,Jai,Ibckj->Iabij" [g.ov, U11old, U21old],
          ein% "1" "Jkc,Jaj,Ibcki->Iabij" [g.ov, U11old, U21old],
          ein% "-1" "Jkc,Jak,Ibcji->Iabij" [g.ov, U11old, U21old],
          ein% "1" "Jkc,Jbi,Iackj->Iabij" [g.ov, U11old, U21old],
          ein% "-1" "Jkc,Jbj,Iacki->Iabij" [g.ov, U11old, U21old],
          ein% "1" "Jkc,Jbk,Iacji->Iabij" [g.ov, U11old, U21old],
          ein% "1" "Jkc,Jci,Ibakj->Iabij" [g.ov, U11old, U21old],
          ein% "-1" "Jkc,Jcj,Ibaki->Iabij" [g.ov, U11old, U21old],
          ein% "1" "klic,ak,Ibclj->Iabij" [I.ooov, T1old, U21old],
          ein% "-1" "klic,bk,Iaclj->Iabij" [I.ooov, T1old, U21old],
          ein% "0.5" "klic,cj,Ibalk->Iabij" [I.ooov, T1old, U21old],
          ein% "-1" "klic,ck,Ibalj->Iabij" [I.ooov, T1old, U21old],
          ein% "1" "klic,ackj,Ibl->Iabij" [I.ooov, T2old, U11old],
          ein% "1" "klic,bakj,Icl->Iabij" [I.ooov, T2old, U11old],
          ein% "0.5" "klic,balk,Icj->Iabij" [I.ooov, T2old, U11old],
          ein% "-1" "klic,bckj,Ial->Iabij" [I.ooov, T2old, U11old],
          ein% "-1" "kljc,ak,Ibcli->Iabij" [I.ooov, T1old, U21old],
          ein% "1" "kljc,bk,Iacli->Iabij" [I.ooov, T1old, U21old],
          ein% "-0.5" "kljc,ci,Ibalk->Iabij" [I.ooov, T1old, U21old],
          ein% "1" "kljc,ck,Ibali->Iabij" [I.ooov, T1old, U21old],
          ein% "-1" "kljc,acki,Ibl->Iabij" [I.ooov, T2old, U11old],
          ein% "-1" "kljc,baki,Icl->Iabij" [I.ooov, T2old, U11old],
          ein% "-0.5" "kljc,balk,Ici->Iabij" [I.ooov, T2old, U11old],
          ein% "1" "kljc,bcki,Ial->Iabij" [I.ooov, T2old, U11old],
          ein% "0.5" "kacd,bk,Idcji->Iabij" [I.ovvv, T1old, U21old],
          ein% "-1" "kacd,di,Ibckj->Iabij" [I.ovvv, T1old, U21old],
          ein% "1" "kacd,dj,Ibcki->Iabij" [I.ovvv, T1old, U21old],
          ein% "-1" "kacd,dk,Ibcji->Iabij" [I.ovvv, T1old, U21old],
          ein% "1" "kacd,bdji,Ick->Iabij" [I.ovvv, T2old, U11old],
          ein% "-1" "kacd,bdki,Icj->Iabij" [I.ovvv, T2old, U11old],
          ein% "1" "kacd,bdkj,Ici->Iabij" [I.ovvv, T2old, U11old],
          ein% "0.5" "kacd,dcji,Ibk->Iabij" [I.ovvv, T2old, U11old],
          ein% "-0.5" "kbcd,ak,Idcji->Iabij" [I.ovvv, T1old, U21old],
          ein% "1" "kbcd,di,Iackj->Iabij" [I.ovvv, T1old, U21old],
          ein% "-1" "kbcd,dj,Iacki->Iabij" [I.ovvv, T1old, U21old],
          ein% "1" "kbcd,dk,Iacji->Iabij" [I.ovvv, T1old, U21old],
          ein% "-1" "kbcd,adji,Ick->Iabij" [I.ovvv, T2old, U11old],
          ein% "1" "kbcd,adki,Icj->Iabij" [I.ovvv, T2old, U11old],
          ein% "-1" "kbcd,adkj,Ici->Iabij" [I.ovvv, T2old, U11old],
          ein% "-0.5" "kbcd,dcji,Iak->Iabij" [I.ovvv, T2old, U11old],
          ein% "0.5" "klcd,adji,Ibclk->Iabij" [I.oovv, T2old, U21old],
          ein% "-1" "klcd,adki,Ibclj->Iabij" [I.oovv, T2old, U21old],
          ein% "1" "klcd,adkj,Ibcli->Iabij" [I.oovv, T2old, U21old],
          ein% "0.5" "klcd,adlk,Ibcji->Iabij" [I.oovv, T2old, U21old],
          ein% "-0.5" "klcd,baki,Idclj->Iabij" [I.oovv, T2old, U21old],
          ein% "0.5" "klcd,bakj,Idcli->Iabij" [I.oovv, T2old, U21old],
          ein% "0.25" "klcd,balk,Idcji->Iabij" [I.oovv, T2old, U21old],
          ein% "-0.5" "klcd,bdji,Iaclk->Iabij" [I.oovv, T2old, U21old],
          ein% "1" "klcd,bdki,Iaclj->Iabij" [I.oovv, T2old, U21old],
          ein% "-1" "klcd,bdkj,Iacli->Iabij" [I.oovv, T2old, U21old],
          ein% "-0.5" "klcd,bdlk,Iacji->Iabij" [I.oovv, T2old, U21old],
          ein% "0.25" "klcd,dcji,Ibalk->Iabij" [I.oovv, T2old, U21old],
          ein% "-0.5" "klcd,dcki,Ibalj->Iabij" [I.oovv, T2old, U21old],
          ein% "0.5" "klcd,dckj,Ibali->Iabij" [I.oovv, T2old, U21old],
          ein% "-1" "Jkc,ak,J,Ibcji->Iabij" [g.ov, T1old, S1old, U21old],
          ein% "-1" "Jkc,ak,Ici,Jbj->Iabij" [g.ov, T1old, U11old, U11old],
          ein% "1" "Jkc,ak,Icj,Jbi->Iabij" [g.ov, T1old, U11old, U11old],
          ein% "1" "Jkc,bk,J,Iacji->Iabij" [g.ov, T1old, S1old, U21old],
          ein% "1" "Jkc,bk,Ici,Jaj->Iabij" [g.ov, T1old, U11old, U11old],
          ein% "-1" "Jkc,bk,Icj,Jai->Iabij" [g.ov, T1old, U11old, U11old],
          ein% "1" "Jkc,ci,J,Ibakj->Iabij" [g.ov, T1old, S1old, U21old],
          ein% "-1" "Jkc,ci,Iak,Jbj->Iabij" [g.ov, T1old, U11old, U11old],
          ein% "1" "Jkc,ci,Ibk,Jaj->Iabij" [g.ov, T1old, U11old, U11old],
          ein% "-1" "Jkc,cj,J,Ibaki->Iabij" [g.ov, T1old, S1old, U21old],
          ein% "1" "Jkc,cj,Iak,Jbi->Iabij" [g.ov, T1old, U11old, U11old],
          ein% "-1" "Jkc,cj,Ibk,Jai->Iabij" [g.ov, T1old, U11old, U11old],
          ein% "1" "Jkc,acji,J,Ibk->Iabij" [g.ov, T2old, S1old, U11old],
          ein% "-1" "Jkc,baki,J,Icj->Iabij" [g.ov, T2old, S1old, U11old],
          ein% "1" "Jkc,bakj,J,Ici->Iabij" [g.ov, T2old, S1old, U11old],
          ein% "-1" "Jkc,bcji,J,Iak->Iabij" [g.ov, T2old, S1old, U11old],
          ein% "-1" "klic,bk,al,Icj->Iabij" [I.ooov, T1old, T1old, U11old],
          ein% "1" "klic,cj,ak,Ibl->Iabij" [I.ooov, T1old, T1old, U11old],
          ein% "-1" "klic,cj,bk,Ial->Iabij" [I.ooov, T1old, T1old, U11old],
          ein% "1" "kljc,bk,al,Ici->Iabij" [I.ooov, T1old, T1old, U11old],
          ein% "-1" "kljc,ci,ak,Ibl->Iabij" [I.ooov, T1old, T1old, U11old],
          ein% "1" "kljc,ci,bk,Ial->Iabij" [I.ooov, T1old, T1old, U11old],
          ein% "-1" "kacd,di,bk,Icj->Iabij" [I.ovvv, T1old, T1old, U11old],
          ein% "-1" "kacd,di,cj,Ibk->Iabij" [I.ovvv, T1old, T1old, U11old],
          ein% "1" "kacd,dj,bk,Ici->Iabij" [I.ovvv, T1old, T1old, U11old],
          ein% "1" "kbcd,di,ak,Icj->Iabij" [I.ovvv, T1old, T1old, U11old],
          ein% "1" "kbcd,di,cj,Iak->Iabij" [I.ovvv, T1old, T1old, U11old],
          ein% "-1" "kbcd,dj,ak,Ici->Iabij" [I.ovvv, T1old, T1old, U11old],
          ein% "-1" "klcd,ak,dl,Ibcji->Iabij" [I.oovv, T1old, T1old, U21old],
          ein% "1" "klcd,ak,bdji,Icl->Iabij" [I.oovv, T1old, T2old, U11old],
          ein% "-1" "klcd,ak,bdli,Icj->Iabij" [I.oovv, T1old, T2old, U11old],
          ein% "1" "klcd,ak,bdlj,Ici->Iabij" [I.oovv, T1old, T2old, U11old],
          ein% "0.5" "klcd,ak,dcji,Ibl->Iabij" [I.oovv, T1old, T2old, U11old],
          ein% "-0.5" "klcd,bk,al,Idcji->Iabij" [I.oovv, T1old, T1old, U21old],
          ein% "1" "klcd,bk,dl,Iacji->Iabij" [I.oovv, T1old, T1old, U21old],
          ein% "-1" "klcd,bk,adji,Icl->Iabij" [I.oovv, T1old, T2old, U11old],
          ein% "1" "klcd,bk,adli,Icj->Iabij" [I.oovv, T1old, T2old, U11old],
          ein% "-1" "klcd,bk,adlj,Ici->Iabij" [I.oovv, T1old, T2old, U11old],
          ein% "-0.5" "klcd,bk,dcji,Ial->Iabij" [I.oovv, T1old, T2old, U11old],
          ein% "-1" "klcd,di,ak,Ibclj->Iabij" [I.oovv, T1old, T1old, U21old],
          ein% "1" "klcd,di,bk,Iaclj->Iabij" [I.oovv, T1old, T1old, U21old],
          ein% "-0.5" "klcd,di,cj,Ibalk->Iabij" [I.oovv, T1old, T1old, U21old],
          ein% "1" "klcd,di,ck,Ibalj->Iabij" [I.oovv, T1old, T1old, U21old],
          ein% "-1" "klcd,di,ackj,Ibl->Iabij" [I.oovv, T1old, T2old, U11old],
          ein% "-1" "klcd,di,bakj,Icl->Iabij" [I.oovv, T1old, T2old, U11old],
          ein% "-0.5" "klcd,di,balk,Icj->Iabij" [I.oovv, T1old, T2old, U11old],
          ein% "1" "klcd,di,bckj,Ial->Iabij" [I.oovv, T1old, T2old, U11old],
          ein% "1" "klcd,dj,ak,Ibcli->Iabij" [I.oovv, T1old, T1old, U21old],
          ein% "-1" "klcd,dj,bk,Iacli->Iabij" [I.oovv, T1old, T1old, U21old],
          ein% "-1" "klcd,dj,ck,Ibali->Iabij" [I.oovv, T1old, T1old, U21old],
          ein% "1" "klcd,dj,acki,Ibl->Iabij" [I.oovv, T1old, T2old, U11old],
          ein% "1" "klcd,dj,baki,Icl->Iabij" [I.oovv, T1old, T2old, U11old],
          ein% "0.5" "klcd,dj,balk,Ici->Iabij" [I.oovv, T1old, T2old, U11old],
          ein% "-1" "klcd,dj,bcki,Ial->Iabij" [I.oovv, T1old, T2old, U11old],
          ein% "-1" "klcd,dk,acji,Ibl->Iabij" [I.oovv, T1old, T2old, U11old],
          ein% "1" "klcd,dk,bali,Icj->Iabij" [I.oovv, T1old, T2old, U11old],
          ein% "-1" "klcd,dk,balj,Ici->Iabij" [I.oovv, T1old, T2old, U11old],
          ein% "1" "klcd,dk,bcji,Ial->Iabij" [I.oovv, T1old, T2old, U11old],
          ein% "1" "klcd,di,bk,al,Icj->Iabij" [I.oovv, T1old, T1old, T1old, U11old],
          ein% "-1" "klcd,di,cj,ak,Ibl->Iabij" [I.oovv, T1old, T1old, T1old, U11old],
          ein% "1" "klcd,di,cj,bk,Ial->Iabij" [I.oovv, T1old, T1old, T1old, U11old],
          ein% "-1" "klcd,dj,bk,al,Ici->Iabij" [I.oovv, T1old, T1old, T1old, U11old]]] ++
      when (1 < n1) (
        [add U21 [
            ein% "1" "Jki,bakj,IJ->Iabij" [g.oo, T2old, S2old],
            ein% "-1" "Jkj,baki,IJ->Iabij" [g.oo, T2old, S2old],
            ein% "1" "Jac,bcji,IJ->Iabij" [g.vv, T2old, S2old],
            ein% "-1" "Jbc,acji,IJ->Iabij" [g.vv, T2old, S2old],
            ein% "-1" "Jkc,ak,bcji,IJ->Iabij" [g.ov, T1old, T2old, S2old],
            ein% "1" "Jkc,bk,acji,IJ->Iabij" [g.ov, T1old, T2old, S2old],
            ein% "1" "Jkc,ci,bakj,IJ->Iabij" [g.ov, T1old, T2old, S2old],
            ein% "-1" "Jkc,cj,baki,IJ->Iabij" [g.ov, T1old, T2old, S2old]]]) ++
      when (1 < n2) (
        [add U21 [
            ein% "1" "Jai,IJbj->Iabij" [g.vo, U12old],
            ein% "-1" "Jaj,IJbi->Iabij" [g.vo, U12old],
            ein% "-1" "Jbi,IJaj->Iabij" [g.vo, U12old],
            ein% "1" "Jbj,IJai->Iabij" [g.vo, U12old],
            ein% "-1" "Jki,ak,IJbj->Iabij" [g.oo, T1old, U12old],
            ein% "1" "Jki,bk,IJaj->Iabij" [g.oo, T1old, U12old],
            ein% "1" "Jkj,ak,IJbi->Iabij" [g.oo, T1old, U12old],
            ein% "-1" "Jkj,bk,IJai->Iabij" [g.oo, T1old, U12old],
            ein% "1" "Jac,ci,IJbj->Iabij" [g.vv, T1old, U12old],
            ein% "-1" "Jac,cj,IJbi->Iabij" [g.vv, T1old, U12old],
            ein% "-1" "Jbc,ci,IJaj->Iabij" [g.vv, T1old, U12old],
            ein% "1" "Jbc,cj,IJai->Iabij" [g.vv, T1old, U12old],
            ein% "1" "Jkc,acji,IJbk->Iabij" [g.ov, T2old, U12old],
            ein% "-1" "Jkc,acki,IJbj->Iabij" [g.ov, T2old, U12old],
            ein% "1" "Jkc,ackj,IJbi->Iabij" [g.ov, T2old, U12old],
            ein% "-1" "Jkc,baki,IJcj->Iabij" [g.ov, T2old, U12old],
            ein% "1" "Jkc,bakj,IJci->Iabij" [g.ov, T2old, U12old],
            ein% "-1" "Jkc,bcji,IJak->Iabij" [g.ov, T2old, U12old],
            ein% "1" "Jkc,bcki,IJaj->Iabij" [g.ov, T2old, U12old],
            ein% "-1" "Jkc,bckj,IJai->Iabij" [g.ov, T2old, U12old],
            ein% "-1" "Jkc,ci,ak,IJbj->Iabij" [g.ov, T1old, T1old, U12old],
            ein% "1" "Jkc,ci,bk,IJaj->Iabij" [g.ov, T1old, T1old, U12old],
            ein% "1" "Jkc,cj,ak,IJbi->Iabij" [g.ov, T1old, T1old, U12old],
            ein% "-1" "Jkc,cj,bk,IJai->Iabij" [g.ov, T1old, T1old, U12old],
            ein% "0.625" "Jki,IJbakj->Iabij" [g.oo, U22old],
            ein% "-0.375" "Jki,JIabkj->Iabij" [g.oo, U22old],
            ein% "-0.625" "Jkj,IJbaki->Iabij" [g.oo, U22old],
            ein% "0.375" "Jkj,JIabki->Iabij" [g.oo, U22old],
            ein% "0.625" "Jac,IJbcji->Iabij" [g.vv, U22old],
            ein% "-0.375" "Jac,JIcbji->Iabij" [g.vv, U22old],
            ein% "-0.625" "Jbc,IJacji->Iabij" [g.vv, U22old],
            ein% "0.375" "Jbc,JIcaji->Iabij" [g.vv, U22old],
            ein% "-0.625" "Jkc,ak,IJbcji->Iabij" [g.ov, T1old, U22old],
            ein% "0.375" "Jkc,ak,JIcbji->Iabij" [g.ov, T1old, U22old],
            ein% "0.625" "Jkc,bk,IJacji->Iabij" [g.ov, T1old, U22old],
            ein% "-0.375" "Jkc,bk,JIcaji->Iabij" [g.ov, T1old, U22old],
            ein% "0.625" "Jkc,ci,IJbakj->Iabij" [g.ov, T1old, U22old],
            ein% "-0.375" "Jkc,ci,JIabkj->Iabij" [g.ov, T1old, U22old],
            ein% "-0.625" "Jkc,cj,IJbaki->Iabij" [g.ov, T1old, U22old],
            ein% "0.375" "Jkc,cj,JIabki->Iabij" [g.ov, T1old, U22old],
            ein% "0.625" "Jkc,ck,IJbaji->Iabij" [g.ov, T1old, U22old],
            ein% "-0.375" "Jkc,ck,JIabji->Iabij" [g.ov, T1old, U22old]]]) ++
      when (1 < n2) (
        [set U22 [
            ein% "1" "ki,zzbakj->zabij" [F.oo, U22old],
            ein% "-1" "kj,zzbaki->zabij" [F.oo, U22old],
            ein% "-1" "bc,zzacji->zabij" [F.vv, U22old],
            ein% "1" "ac,zzbcji->zabij" [F.vv, U22old],
            ein% "1" "kbji,zzak->zabij" [I.ovoo, U12old],
            ein% "-1" "kaji,zzbk->zabij" [I.ovoo, U12old],
            ein% "-1" "baic,zzcj->zabij" [I.vvov, U12old],
            ein% "1" "bajc,zzci->zabij" [I.vvov, U12old],
            ein% "1" "z,zzbaji->zabij" [w, U22old],
            ein% "1" "z,zzbaji->zabij" [w, U22old],
            ein% "1" "zki,zbakj->zabij" [g.oo, U21old],
            ein% "-1" "zkj,zbaki->zabij" [g.oo, U21old],
            ein% "1" "zki,zbakj->zabij" [g.oo, U21old],
            ein% "-1" "zkj,zbaki->zabij" [g.oo, U21old],
            ein% "-1" "zbc,zacji->zabij" [g.vv, U21old],
            ein% "1" "zac,zbcji->zabij" [g.vv, U21old],
            ein% "-1" "zbc,zacji->zabij" [g.vv, U21old],
            ein% "1" "zac,zbcji->zabij" [g.vv, U21old],
            ein% "-0.5" "klji,zzbalk->zabij" [I.oooo, U22old],
            ein% "-1" "kbic,zzackj->zabij" [I.ovov, U22old],
            ein% "1" "kaic,zzbckj->zabij" [I.ovov, U22old],
            ein% "1" "kbjc,zzacki->zabij" [I.ovov, U22old],
            ein% "-1" "kajc,zzbcki->zabij" [I.ovov, U22old],
            ein% "-0.5" "bacd,zzdcji->zabij" [I.vvvv, U22old],
            ein% "1" "kc,ci,zzbakj->zabij" [F.ov, T1old, U22old],
            ein% "-1" "kc,cj,zzbaki->zabij" [F.ov, T1old, U22old],
            ein% "1" "kc,bk,zzacji->zabij" [F.ov, T1old, U22old],
            ein% "-1" "kc,ak,zzbcji->zabij" [F.ov, T1old, U22old],
            ein% "-1" "kc,bcji,zzak->zabij" [F.ov, T2old, U12old],
            ein% "1" "kc,acji,zzbk->zabij" [F.ov, T2old, U12old],
            ein% "-1" "kc,baki,zzcj->zabij" [F.ov, T2old, U12old],
            ein% "1" "kc,bakj,zzci->zabij" [F.ov, T2old, U12old],
            ein% "1" "klji,bk,zzal->zabij" [I.oooo, T1old, U12old],
            ein% "-1" "klji,ak,zzbl->zabij" [I.oooo, T1old, U12old],
            ein% "-1" "kbic,cj,zzak->zabij" [I.ovov, T1old, U12old],
            ein% "1" "kaic,cj,zzbk->zabij" [I.ovov, T1old, U12old],
            ein% "-1" "kbic,ak,zzcj->zabij" [I.ovov, T1old, U12old],
            ein% "1" "kaic,bk,zzcj->zabij" [I.ovov, T1old, U12old],
            ein% "1" "kbjc,ci,zzak->zabij" [I.ovov, T1old, U12old],
            ein% "-1" "kajc,ci,zzbk->zabij" [I.ovov, T1old, U12old],
            ein% "1" "kbjc,ak,zzci->zabij" [I.ovov, T1old, U12old],
            ein% "-1" "kajc,bk,zzci->zabij" [I.ovov, T1old, U12old],
            ein% "1" "bacd,di,zzcj->zabij" [I.vvvv, T1old, U12old],
            ein% "-1" "bacd,dj,zzci->zabij" [I.vvvv, T1old, U12old],
            ein% "1" "z,zki,zzbakj->zabij" [S1old, g.oo, U22old],
            ein% "-1" "z,zkj,zzbaki->zabij" [S1old, g.oo, U22old]]] ++
        when (1 < n1) (
          [add U22 [
              ein% "1" "zz,zki,zbakj->zabij" [S2old, g.oo, U21old],
              ein% "-1" "zz,zkj,zbaki->zabij" [S2old, g.oo, U21old],
              ein% "1" "zz,zki,zbakj->zabij" [S2old, g.oo, U21old],
              ein% "-1" "zz,zkj,zbaki->zabij" [S2old, g.oo, U21old],
              ein% "-1" "zz,zbc,zacji->zabij" [S2old, g.vv, U21old],
              ein% "1" "zz,zac,zbcji->zabij" [S2old, g.vv, U21old],
              ein% "-1" "zz,zbc,zacji->zabij" [S2old, g.vv, U21old],
              ein% "1" "zz,zac,zbcji->zabij" [S2old, g.vv, U21old],
              ein% "1" "zz,zkc,ci,zbakj->zabij" [S2old, g.ov, T1old, U21old],
              ein% "-1" "zz,zkc,cj,zbaki->zabij" [S2old, g.ov, T1old, U21old],
              ein% "1" "zz,zkc,bk,zacji->zabij" [S2old, g.ov, T1old, U21old],
              ein% "-1" "zz,zkc,ak,zbcji->zabij" [S2old, g.ov, T1old, U21old],
              ein% "1" "zz,zkc,ci,zbakj->zabij" [S2old, g.ov, T1old, U21old],
              ein% "-1" "zz,zkc,cj,zbaki->zabij" [S2old, g.ov, T1old, U21old],
              ein% "1" "zz,zkc,bk,zacji->zabij" [S2old, g.ov, T1old, U21old],
              ein% "-1" "zz,zkc,ak,zbcji->zabij" [S2old, g.ov, T1old, U21old],
              ein% "-1" "zz,zkc,bcji,zak->zabij" [S2old, g.ov, T2old, U11old],
              ein% "1" "zz,zkc,acji,zbk->zabij" [S2old, g.ov, T2old, U11old],
              ein% "-1" "zz,zkc,baki,zcj->zabij" [S2old, g.ov, T2old, U11old],
              ein% "1" "zz,zkc,bakj,zci->zabij" [S2old, g.ov, T2old, U11old],
              ein% "-1" "zz,zkc,bcji,zak->zabij" [S2old, g.ov, T2old, U11old],
              ein% "1" "zz,zkc,acji,zbk->zabij" [S2old, g.ov, T2old, U11old],
              ein% "-1" "zz,zkc,baki,zcj->zabij" [S2old, g.ov, T2old, U11old],
              ein% "1" "zz,zkc,bakj,zci->zabij" [S2old, g.ov, T2old, U11old]]]) ++
        [add U22 [
            ein% "1" "zkc,ci,zbakj->zabij" [g.ov, T1old, U21old],
            ein% "-1" "zkc,cj,zbaki->zabij" [g.ov, T1old, U21old],
            ein% "1" "zkc,bk,zacji->zabij" [g.ov, T1old, U21old],
            ein% "-1" "zkc,ak,zbcji->zabij" [g.ov, T1old, U21old],
            ein% "1" "zkc,ci,zbakj->zabij" [g.ov, T1old, U21old],
            ein% "-1" "zkc,cj,zbaki->zabij" [g.ov, T1old, U21old],
            ein% "1" "zkc,bk,zacji->zabij" [g.ov, T1old, U21old],
            ein% "-1" "zkc,ak,zbcji->zabij" [g.ov, T1old, U21old],
            ein% "-1" "zkc,bcji,zak->zabij" [g.ov, T2old, U11old],
            ein% "1" "zkc,acji,zbk->zabij" [g.ov, T2old, U11old],
            ein% "-1" "zkc,baki,zcj->zabij" [g.ov, T2old, U11old],
            ein% "1" "zkc,bakj,zci->zabij" [g.ov, T2old, U11old],
            ein% "-1" "zkc,bcji,zak->zabij" [g.ov, T2old, U11old],
            ein% "1" "zkc,acji,zbk->zabij" [g.ov, T2old, U11old],
            ein% "-1" "zkc,baki,zcj->zabij" [g.ov, T2old, U11old],
            ein% "1" "zkc,bakj,zci->zabij" [g.ov, T2old, U11old],
            ein% "-1" "z,zbc,zzacji->zabij" [S1old, g.vv, U22old],
            ein% "1" "z,zac,zzbcji->zabij" [S1old, g.vv, U22old],
            ein% "0.5" "klic,cj,zzbalk->zabij" [I.ooov, T1old, U22old],
            ein% "-1" "klic,bk,zzaclj->zabij" [I.ooov, T1old, U22old],
            ein% "1" "klic,ak,zzbclj->zabij" [I.ooov, T1old, U22old],
            ein% "-1" "klic,ck,zzbalj->zabij" [I.ooov, T1old, U22old],
            ein% "-0.5" "kljc,ci,zzbalk->zabij" [I.ooov, T1old, U22old],
            ein% "1" "kljc,bk,zzacli->zabij" [I.ooov, T1old, U22old],
            ein% "-1" "kljc,ak,zzbcli->zabij" [I.ooov, T1old, U22old],
            ein% "1" "kljc,ck,zzbali->zabij" [I.ooov, T1old, U22old],
            ein% "1" "klic,bakj,zzcl->zabij" [I.ooov, T2old, U12old],
            ein% "-1" "klic,bckj,zzal->zabij" [I.ooov, T2old, U12old],
            ein% "1" "klic,ackj,zzbl->zabij" [I.ooov, T2old, U12old],
            ein% "0.5" "klic,balk,zzcj->zabij" [I.ooov, T2old, U12old],
            ein% "-1" "kljc,baki,zzcl->zabij" [I.ooov, T2old, U12old],
            ein% "1" "kljc,bcki,zzal->zabij" [I.ooov, T2old, U12old],
            ein% "-1" "kljc,acki,zzbl->zabij" [I.ooov, T2old, U12old],
            ein% "-0.5" "kljc,balk,zzci->zabij" [I.ooov, T2old, U12old],
            ein% "1" "kbcd,di,zzackj->zabij" [I.ovvv, T1old, U22old],
            ein% "-1" "kacd,di,zzbckj->zabij" [I.ovvv, T1old, U22old],
            ein% "-1" "kbcd,dj,zzacki->zabij" [I.ovvv, T1old, U22old],
            ein% "1" "kacd,dj,zzbcki->zabij" [I.ovvv, T1old, U22old],
            ein% "-0.5" "kbcd,ak,zzdcji->zabij" [I.ovvv, T1old, U22old],
            ein% "1" "kbcd,dk,zzacji->zabij" [I.ovvv, T1old, U22old],
            ein% "0.5" "kacd,bk,zzdcji->zabij" [I.ovvv, T1old, U22old],
            ein% "-1" "kacd,dk,zzbcji->zabij" [I.ovvv, T1old, U22old],
            ein% "-1" "kbcd,adji,zzck->zabij" [I.ovvv, T2old, U12old],
            ein% "-0.5" "kbcd,dcji,zzak->zabij" [I.ovvv, T2old, U12old],
            ein% "1" "kacd,bdji,zzck->zabij" [I.ovvv, T2old, U12old],
            ein% "0.5" "kacd,dcji,zzbk->zabij" [I.ovvv, T2old, U12old],
            ein% "1" "kbcd,adki,zzcj->zabij" [I.ovvv, T2old, U12old],
            ein% "-1" "kacd,bdki,zzcj->zabij" [I.ovvv, T2old, U12old],
            ein% "-1" "kbcd,adkj,zzci->zabij" [I.ovvv, T2old, U12old],
            ein% "1" "kacd,bdkj,zzci->zabij" [I.ovvv, T2old, U12old],
            ein% "-0.5" "klcd,bdji,zzaclk->zabij" [I.oovv, T2old, U22old],
            ein% "0.5" "klcd,adji,zzbclk->zabij" [I.oovv, T2old, U22old],
            ein% "0.25" "klcd,dcji,zzbalk->zabij" [I.oovv, T2old, U22old],
            ein% "-0.5" "klcd,baki,zzdclj->zabij" [I.oovv, T2old, U22old],
            ein% "1" "klcd,bdki,zzaclj->zabij" [I.oovv, T2old, U22old],
            ein% "-1" "klcd,adki,zzbclj->zabij" [I.oovv, T2old, U22old],
            ein% "-0.5" "klcd,dcki,zzbalj->zabij" [I.oovv, T2old, U22old],
            ein% "0.5" "klcd,bakj,zzdcli->zabij" [I.oovv, T2old, U22old],
            ein% "-1" "klcd,bdkj,zzacli->zabij" [I.oovv, T2old, U22old],
            ein% "1" "klcd,adkj,zzbcli->zabij" [I.oovv, T2old, U22old],
            ein% "0.5" "klcd,dckj,zzbali->zabij" [I.oovv, T2old, U22old],
            ein% "0.25" "klcd,balk,zzdcji->zabij" [I.oovv, T2old, U22old],
            ein% "-0.5" "klcd,bdlk,zzacji->zabij" [I.oovv, T2old, U22old],
            ein% "0.5" "klcd,adlk,zzbcji->zabij" [I.oovv, T2old, U22old],
            ein% "2" "kc,zci,zbakj->zabij" [F.ov, U11old, U21old],
            ein% "-2" "kc,zcj,zbaki->zabij" [F.ov, U11old, U21old],
            ein% "2" "kc,zbk,zacji->zabij" [F.ov, U11old, U21old],
            ein% "-2" "kc,zak,zbcji->zabij" [F.ov, U11old, U21old],
            ein% "2" "klji,zbk,zal->zabij" [I.oooo, U11old, U11old],
            ein% "-2" "kbic,zcj,zak->zabij" [I.ovov, U11old, U11old],
            ein% "2" "kaic,zcj,zbk->zabij" [I.ovov, U11old, U11old],
            ein% "2" "kbjc,zci,zak->zabij" [I.ovov, U11old, U11old],
            ein% "-2" "kajc,zci,zbk->zabij" [I.ovov, U11old, U11old],
            ein% "2" "bacd,zdi,zcj->zabij" [I.vvvv, U11old, U11old],
            ein% "1" "zki,zbk,zzaj->zabij" [g.oo, U11old, U12old],
            ein% "-1" "zki,zak,zzbj->zabij" [g.oo, U11old, U12old],
            ein% "-1" "zkj,zbk,zzai->zabij" [g.oo, U11old, U12old],
            ein% "1" "zkj,zak,zzbi->zabij" [g.oo, U11old, U12old],
            ein% "1" "zki,zbk,zzaj->zabij" [g.oo, U11old, U12old],
            ein% "-1" "zki,zak,zzbj->zabij" [g.oo, U11old, U12old],
            ein% "-1" "zkj,zbk,zzai->zabij" [g.oo, U11old, U12old],
            ein% "1" "zkj,zak,zzbi->zabij" [g.oo, U11old, U12old],
            ein% "-1" "zki,zbj,zzak->zabij" [g.oo, U11old, U12old],
            ein% "1" "zki,zaj,zzbk->zabij" [g.oo, U11old, U12old],
            ein% "1" "zkj,zbi,zzak->zabij" [g.oo, U11old, U12old],
            ein% "-1" "zkj,zai,zzbk->zabij" [g.oo, U11old, U12old],
            ein% "-1" "zbc,zci,zzaj->zabij" [g.vv, U11old, U12old],
            ein% "1" "zac,zci,zzbj->zabij" [g.vv, U11old, U12old],
            ein% "1" "zbc,zcj,zzai->zabij" [g.vv, U11old, U12old],
            ein% "-1" "zac,zcj,zzbi->zabij" [g.vv, U11old, U12old],
            ein% "-1" "zbc,zci,zzaj->zabij" [g.vv, U11old, U12old],
            ein% "1" "zac,zci,zzbj->zabij" [g.vv, U11old, U12old],
            ein% "1" "zbc,zcj,zzai->zabij" [g.vv, U11old, U12old],
            ein% "-1" "zac,zcj,zzbi->zabij" [g.vv, U11old, U12old],
            ein% "1" "zbc,zai,zzcj->zabij" [g.vv, U11old, U12old],
            ein% "-1" "zac,zbi,zzcj->zabij" [g.vv, U11old, U12old],
            ein% "-1" "zbc,zaj,zzci->zabij" [g.vv, U11old, U12old],
            ein% "1" "zac,zbj,zzci->zabij" [g.vv, U11old, U12old],
            ein% "1" "klic,zcj,zbalk->zabij" [I.ooov, U11old, U21old],
            ein% "-2" "klic,zbk,zaclj->zabij" [I.ooov, U11old, U21old],
            ein% "2" "klic,zak,zbclj->zabij" [I.ooov, U11old, U21old],
            ein% "-2" "klic,zck,zbalj->zabij" [I.ooov, U11old, U21old],
            ein% "-1" "kljc,zci,zbalk->zabij" [I.ooov, U11old, U21old],
            ein% "2" "kljc,zbk,zacli->zabij" [I.ooov, U11old, U21old],
            ein% "-2" "kljc,zak,zbcli->zabij" [I.ooov, U11old, U21old],
            ein% "2" "kljc,zck,zbali->zabij" [I.ooov, U11old, U21old],
            ein% "2" "kbcd,zdi,zackj->zabij" [I.ovvv, U11old, U21old],
            ein% "-2" "kacd,zdi,zbckj->zabij" [I.ovvv, U11old, U21old],
            ein% "-2" "kbcd,zdj,zacki->zabij" [I.ovvv, U11old, U21old],
            ein% "2" "kacd,zdj,zbcki->zabij" [I.ovvv, U11old, U21old],
            ein% "-1" "kbcd,zak,zdcji->zabij" [I.ovvv, U11old, U21old],
            ein% "2" "kbcd,zdk,zacji->zabij" [I.ovvv, U11old, U21old],
            ein% "1" "kacd,zbk,zdcji->zabij" [I.ovvv, U11old, U21old],
            ein% "-2" "kacd,zdk,zbcji->zabij" [I.ovvv, U11old, U21old],
            ein% "1" "zkc,zci,zzbakj->zabij" [g.ov, U11old, U22old],
            ein% "-1" "zkc,zcj,zzbaki->zabij" [g.ov, U11old, U22old],
            ein% "1" "zkc,zbk,zzacji->zabij" [g.ov, U11old, U22old],
            ein% "-1" "zkc,zak,zzbcji->zabij" [g.ov, U11old, U22old],
            ein% "1" "zkc,zck,zzbaji->zabij" [g.ov, U11old, U22old],
            ein% "1" "zkc,zci,zzbakj->zabij" [g.ov, U11old, U22old],
            ein% "-1" "zkc,zcj,zzbaki->zabij" [g.ov, U11old, U22old],
            ein% "1" "zkc,zbk,zzacji->zabij" [g.ov, U11old, U22old],
            ein% "-1" "zkc,zak,zzbcji->zabij" [g.ov, U11old, U22old],
            ein% "1" "zkc,zck,zzbaji->zabij" [g.ov, U11old, U22old],
            ein% "1" "zkc,zbi,zzackj->zabij" [g.ov, U11old, U22old],
            ein% "-1" "zkc,zai,zzbckj->zabij" [g.ov, U11old, U22old],
            ein% "1" "zkc,zci,zzbakj->zabij" [g.ov, U11old, U22old],
            ein% "-1" "zkc,zbj,zzacki->zabij" [g.ov, U11old, U22old],
            ein% "1" "zkc,zaj,zzbcki->zabij" [g.ov, U11old, U22old],
            ein% "-1" "zkc,zcj,zzbaki->zabij" [g.ov, U11old, U22old],
            ein% "1" "zkc,zbk,zzacji->zabij" [g.ov, U11old, U22old],
            ein% "-1" "zkc,zak,zzbcji->zabij" [g.ov, U11old, U22old],
            ein% "-1" "zkc,zbcji,zzak->zabij" [g.ov, U21old, U12old],
            ein% "1" "zkc,zacji,zzbk->zabij" [g.ov, U21old, U12old],
            ein% "-1" "zkc,zbaki,zzcj->zabij" [g.ov, U21old, U12old],
            ein% "1" "zkc,zbcki,zzaj->zabij" [g.ov, U21old, U12old],
            ein% "-1" "zkc,zacki,zzbj->zabij" [g.ov, U21old, U12old],
            ein% "1" "zkc,zbakj,zzci->zabij" [g.ov, U21old, U12old],
            ein% "-1" "zkc,zbckj,zzai->zabij" [g.ov, U21old, U12old],
            ein% "1" "zkc,zackj,zzbi->zabij" [g.ov, U21old, U12old],
            ein% "-1" "zkc,zbcji,zzak->zabij" [g.ov, U21old, U12old],
            ein% "1" "zkc,zacji,zzbk->zabij" [g.ov, U21old, U12old],
            ein% "-1" "zkc,zbaki,zzcj->zabij" [g.ov, U21old, U12old],
            ein% "1" "zkc,zbcki,zzaj->zabij" [g.ov, U21old, U12old],
            ein% "-1" "zkc,zacki,zzbj->zabij" [g.ov, U21old, U12old],
            ein% "1" "zkc,zbakj,zzci->zabij" [g.ov, U21old, U12old],
            ein% "-1" "zkc,zbckj,zzai->zabij" [g.ov, U21old, U12old],
            ein% "1" "zkc,zackj,zzbi->zabij" [g.ov, U21old, U12old],
            ein% "1" "zkc,zbaji,zzck->zabij" [g.ov, U21old, U12old],
            ein% "-1" "zkc,zbcji,zzak->zabij" [g.ov, U21old, U12old],
            ein% "1" "zkc,zacji,zzbk->zabij" [g.ov, U21old, U12old],
            ein% "-1" "zkc,zbaki,zzcj->zabij" [g.ov, U21old, U12old],
            ein% "1" "zkc,zbakj,zzci->zabij" [g.ov, U21old, U12old],
            ein% "-1" "klic,cj,bk,zzal->zabij" [I.ooov, T1old, T1old, U12old],
            ein% "1" "klic,cj,ak,zzbl->zabij" [I.ooov, T1old, T1old, U12old],
            ein% "-1" "klic,bk,al,zzcj->zabij" [I.ooov, T1old, T1old, U12old],
            ein% "1" "kljc,ci,bk,zzal->zabij" [I.ooov, T1old, T1old, U12old],
            ein% "-1" "kljc,ci,ak,zzbl->zabij" [I.ooov, T1old, T1old, U12old],
            ein% "1" "kljc,bk,al,zzci->zabij" [I.ooov, T1old, T1old, U12old],
            ein% "1" "kbcd,di,cj,zzak->zabij" [I.ovvv, T1old, T1old, U12old],
            ein% "-1" "kacd,di,cj,zzbk->zabij" [I.ovvv, T1old, T1old, U12old],
            ein% "1" "kbcd,di,ak,zzcj->zabij" [I.ovvv, T1old, T1old, U12old],
            ein% "-1" "kacd,di,bk,zzcj->zabij" [I.ovvv, T1old, T1old, U12old],
            ein% "-1" "kbcd,dj,ak,zzci->zabij" [I.ovvv, T1old, T1old, U12old],
            ein% "1" "kacd,dj,bk,zzci->zabij" [I.ovvv, T1old, T1old, U12old],
            ein% "1" "z,zkc,ci,zzbakj->zabij" [S1old, g.ov, T1old, U22old],
            ein% "-1" "z,zkc,cj,zzbaki->zabij" [S1old, g.ov, T1old, U22old],
            ein% "1" "z,zkc,bk,zzacji->zabij" [S1old, g.ov, T1old, U22old],
            ein% "-1" "z,zkc,ak,zzbcji->zabij" [S1old, g.ov, T1old, U22old],
            ein% "-1" "z,zkc,bcji,zzak->zabij" [S1old, g.ov, T2old, U12old],
            ein% "1" "z,zkc,acji,zzbk->zabij" [S1old, g.ov, T2old, U12old],
            ein% "-1" "z,zkc,baki,zzcj->zabij" [S1old, g.ov, T2old, U12old],
            ein% "1" "z,zkc,bakj,zzci->zabij" [S1old, g.ov, T2old, U12old],
            ein% "-1" "klcd,zbdji,zaclk->zabij" [I.oovv, U21old, U21old],
            ein% "1" "klcd,zadji,zbclk->zabij" [I.oovv, U21old, U21old],
            ein% "0.5" "klcd,zdcji,zbalk->zabij" [I.oovv, U21old, U21old],
            ein% "-1" "klcd,zbaki,zdclj->zabij" [I.oovv, U21old, U21old],
            ein% "2" "klcd,zbdki,zaclj->zabij" [I.oovv, U21old, U21old],
            ein% "-2" "klcd,zadki,zbclj->zabij" [I.oovv, U21old, U21old],
            ein% "-1" "klcd,zdcki,zbalj->zabij" [I.oovv, U21old, U21old],
            ein% "-0.5" "klcd,di,cj,zzbalk->zabij" [I.oovv, T1old, T1old, U22old],
            ein% "1" "klcd,di,bk,zzaclj->zabij" [I.oovv, T1old, T1old, U22old],
            ein% "-1" "klcd,di,ak,zzbclj->zabij" [I.oovv, T1old, T1old, U22old],
            ein% "1" "klcd,di,ck,zzbalj->zabij" [I.oovv, T1old, T1old, U22old],
            ein% "-1" "klcd,dj,bk,zzacli->zabij" [I.oovv, T1old, T1old, U22old],
            ein% "1" "klcd,dj,ak,zzbcli->zabij" [I.oovv, T1old, T1old, U22old],
            ein% "-1" "klcd,dj,ck,zzbali->zabij" [I.oovv, T1old, T1old, U22old],
            ein% "-0.5" "klcd,bk,al,zzdcji->zabij" [I.oovv, T1old, T1old, U22old],
            ein% "1" "klcd,bk,dl,zzacji->zabij" [I.oovv, T1old, T1old, U22old],
            ein% "-1" "klcd,ak,dl,zzbcji->zabij" [I.oovv, T1old, T1old, U22old],
            ein% "-1" "klcd,di,bakj,zzcl->zabij" [I.oovv, T1old, T2old, U12old],
            ein% "1" "klcd,di,bckj,zzal->zabij" [I.oovv, T1old, T2old, U12old],
            ein% "-1" "klcd,di,ackj,zzbl->zabij" [I.oovv, T1old, T2old, U12old],
            ein% "-0.5" "klcd,di,balk,zzcj->zabij" [I.oovv, T1old, T2old, U12old],
            ein% "1" "klcd,dj,baki,zzcl->zabij" [I.oovv, T1old, T2old, U12old],
            ein% "-1" "klcd,dj,bcki,zzal->zabij" [I.oovv, T1old, T2old, U12old],
            ein% "1" "klcd,dj,acki,zzbl->zabij" [I.oovv, T1old, T2old, U12old],
            ein% "-1" "klcd,bk,adji,zzcl->zabij" [I.oovv, T1old, T2old, U12old],
            ein% "-0.5" "klcd,bk,dcji,zzal->zabij" [I.oovv, T1old, T2old, U12old],
            ein% "1" "klcd,ak,bdji,zzcl->zabij" [I.oovv, T1old, T2old, U12old],
            ein% "1" "klcd,dk,bcji,zzal->zabij" [I.oovv, T1old, T2old, U12old],
            ein% "0.5" "klcd,ak,dcji,zzbl->zabij" [I.oovv, T1old, T2old, U12old],
            ein% "-1" "klcd,dk,acji,zzbl->zabij" [I.oovv, T1old, T2old, U12old],
            ein% "1" "klcd,bk,adli,zzcj->zabij" [I.oovv, T1old, T2old, U12old],
            ein% "-1" "klcd,ak,bdli,zzcj->zabij" [I.oovv, T1old, T2old, U12old],
            ein% "1" "klcd,dk,bali,zzcj->zabij" [I.oovv, T1old, T2old, U12old],
            ein% "0.5" "klcd,dj,balk,zzci->zabij" [I.oovv, T1old, T2old, U12old],
            ein% "-1" "klcd,bk,adlj,zzci->zabij" [I.oovv, T1old, T2old, U12old],
            ein% "1" "klcd,ak,bdlj,zzci->zabij" [I.oovv, T1old, T2old, U12old],
            ein% "-1" "klcd,dk,balj,zzci->zabij" [I.oovv, T1old, T2old, U12old],
            ein% "-2" "klic,cj,zbk,zal->zabij" [I.ooov, T1old, U11old, U11old],
            ein% "-2" "klic,bk,zcj,zal->zabij" [I.ooov, T1old, U11old, U11old],
            ein% "2" "klic,ak,zcj,zbl->zabij" [I.ooov, T1old, U11old, U11old],
            ein% "2" "kljc,ci,zbk,zal->zabij" [I.ooov, T1old, U11old, U11old],
            ein% "2" "kljc,bk,zci,zal->zabij" [I.ooov, T1old, U11old, U11old],
            ein% "-2" "kljc,ak,zci,zbl->zabij" [I.ooov, T1old, U11old, U11old],
            ein% "2" "kbcd,di,zcj,zak->zabij" [I.ovvv, T1old, U11old, U11old],
            ein% "-2" "kacd,di,zcj,zbk->zabij" [I.ovvv, T1old, U11old, U11old],
            ein% "-2" "kbcd,dj,zci,zak->zabij" [I.ovvv, T1old, U11old, U11old],
            ein% "2" "kacd,dj,zci,zbk->zabij" [I.ovvv, T1old, U11old, U11old],
            ein% "2" "kbcd,ak,zdi,zcj->zabij" [I.ovvv, T1old, U11old, U11old],
            ein% "-2" "kacd,bk,zdi,zcj->zabij" [I.ovvv, T1old, U11old, U11old],
            ein% "1" "zkc,ci,zbk,zzaj->zabij" [g.ov, T1old, U11old, U12old],
            ein% "-1" "zkc,ci,zak,zzbj->zabij" [g.ov, T1old, U11old, U12old],
            ein% "1" "zkc,bk,zci,zzaj->zabij" [g.ov, T1old, U11old, U12old],
            ein% "-1" "zkc,ak,zci,zzbj->zabij" [g.ov, T1old, U11old, U12old],
            ein% "-1" "zkc,cj,zbk,zzai->zabij" [g.ov, T1old, U11old, U12old],
            ein% "1" "zkc,cj,zak,zzbi->zabij" [g.ov, T1old, U11old, U12old],
            ein% "-1" "zkc,bk,zcj,zzai->zabij" [g.ov, T1old, U11old, U12old],
            ein% "1" "zkc,ak,zcj,zzbi->zabij" [g.ov, T1old, U11old, U12old],
            ein% "1" "zkc,ci,zbk,zzaj->zabij" [g.ov, T1old, U11old, U12old],
            ein% "-1" "zkc,ci,zak,zzbj->zabij" [g.ov, T1old, U11old, U12old],
            ein% "1" "zkc,bk,zci,zzaj->zabij" [g.ov, T1old, U11old, U12old],
            ein% "-1" "zkc,ak,zci,zzbj->zabij" [g.ov, T1old, U11old, U12old],
            ein% "-1" "zkc,cj,zbk,zzai->zabij" [g.ov, T1old, U11old, U12old],
            ein% "1" "zkc,cj,zak,zzbi->zabij" [g.ov, T1old, U11old, U12old],
            ein% "-1" "zkc,bk,zcj,zzai->zabij" [g.ov, T1old, U11old, U12old],
            ein% "1" "zkc,ak,zcj,zzbi->zabij" [g.ov, T1old, U11old, U12old],
            ein% "-1" "zkc,ci,zbj,zzak->zabij" [g.ov, T1old, U11old, U12old],
            ein% "1" "zkc,ci,zaj,zzbk->zabij" [g.ov, T1old, U11old, U12old],
            ein% "1" "zkc,cj,zbi,zzak->zabij" [g.ov, T1old, U11old, U12old],
            ein% "-1" "zkc,cj,zai,zzbk->zabij" [g.ov, T1old, U11old, U12old],
            ein% "-1" "zkc,bk,zai,zzcj->zabij" [g.ov, T1old, U11old, U12old],
            ein% "1" "zkc,ak,zbi,zzcj->zabij" [g.ov, T1old, U11old, U12old],
            ein% "1" "zkc,bk,zaj,zzci->zabij" [g.ov, T1old, U11old, U12old],
            ein% "-1" "zkc,ak,zbj,zzci->zabij" [g.ov, T1old, U11old, U12old],
            ein% "2" "z,zkc,zci,zbakj->zabij" [S1old, g.ov, U11old, U21old],
            ein% "-2" "z,zkc,zcj,zbaki->zabij" [S1old, g.ov, U11old, U21old],
            ein% "2" "z,zkc,zbk,zacji->zabij" [S1old, g.ov, U11old, U21old],
            ein% "-2" "z,zkc,zak,zbcji->zabij" [S1old, g.ov, U11old, U21old],
            ein% "-1" "klcd,di,zcj,zbalk->zabij" [I.oovv, T1old, U11old, U21old],
            ein% "2" "klcd,di,zbk,zaclj->zabij" [I.oovv, T1old, U11old, U21old],
            ein% "-2" "klcd,di,zak,zbclj->zabij" [I.oovv, T1old, U11old, U21old],
            ein% "2" "klcd,di,zck,zbalj->zabij" [I.oovv, T1old, U11old, U21old],
            ein% "1" "klcd,dj,zci,zbalk->zabij" [I.oovv, T1old, U11old, U21old],
            ein% "2" "klcd,bk,zdi,zaclj->zabij" [I.oovv, T1old, U11old, U21old],
            ein% "-2" "klcd,ak,zdi,zbclj->zabij" [I.oovv, T1old, U11old, U21old],
            ein% "-2" "klcd,dk,zci,zbalj->zabij" [I.oovv, T1old, U11old, U21old],
            ein% "-2" "klcd,dj,zbk,zacli->zabij" [I.oovv, T1old, U11old, U21old],
            ein% "2" "klcd,dj,zak,zbcli->zabij" [I.oovv, T1old, U11old, U21old],
            ein% "-2" "klcd,dj,zck,zbali->zabij" [I.oovv, T1old, U11old, U21old],
            ein% "-2" "klcd,bk,zdj,zacli->zabij" [I.oovv, T1old, U11old, U21old],
            ein% "2" "klcd,ak,zdj,zbcli->zabij" [I.oovv, T1old, U11old, U21old],
            ein% "2" "klcd,dk,zcj,zbali->zabij" [I.oovv, T1old, U11old, U21old],
            ein% "-1" "klcd,bk,zal,zdcji->zabij" [I.oovv, T1old, U11old, U21old],
            ein% "2" "klcd,bk,zdl,zacji->zabij" [I.oovv, T1old, U11old, U21old],
            ein% "1" "klcd,ak,zbl,zdcji->zabij" [I.oovv, T1old, U11old, U21old],
            ein% "-2" "klcd,dk,zbl,zacji->zabij" [I.oovv, T1old, U11old, U21old],
            ein% "-2" "klcd,ak,zdl,zbcji->zabij" [I.oovv, T1old, U11old, U21old],
            ein% "2" "klcd,dk,zal,zbcji->zabij" [I.oovv, T1old, U11old, U21old],
            ein% "2" "klcd,bdji,zak,zcl->zabij" [I.oovv, T2old, U11old, U11old],
            ein% "-2" "klcd,adji,zbk,zcl->zabij" [I.oovv, T2old, U11old, U11old],
            ein% "-1" "klcd,dcji,zbk,zal->zabij" [I.oovv, T2old, U11old, U11old],
            ein% "2" "klcd,baki,zdj,zcl->zabij" [I.oovv, T2old, U11old, U11old],
            ein% "2" "klcd,bdki,zcj,zal->zabij" [I.oovv, T2old, U11old, U11old],
            ein% "-2" "klcd,adki,zcj,zbl->zabij" [I.oovv, T2old, U11old, U11old],
            ein% "-2" "klcd,bakj,zdi,zcl->zabij" [I.oovv, T2old, U11old, U11old],
            ein% "-2" "klcd,bdkj,zci,zal->zabij" [I.oovv, T2old, U11old, U11old],
            ein% "2" "klcd,adkj,zci,zbl->zabij" [I.oovv, T2old, U11old, U11old],
            ein% "-1" "klcd,balk,zdi,zcj->zabij" [I.oovv, T2old, U11old, U11old],
            ein% "2" "zkc,zbi,zcj,zak->zabij" [g.ov, U11old, U11old, U11old],
            ein% "-2" "zkc,zci,zbj,zak->zabij" [g.ov, U11old, U11old, U11old],
            ein% "-2" "zkc,zai,zcj,zbk->zabij" [g.ov, U11old, U11old, U11old],
            ein% "2" "zkc,zci,zaj,zbk->zabij" [g.ov, U11old, U11old, U11old]]])))

end OpenMS.Qedcc
