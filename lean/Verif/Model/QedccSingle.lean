/-
The QED-CCSD residuals for one mode in openms/mqed/qedcc_equations.py, line by line.
`n1` and `n2` are `nfock1` and `nfock2`; `u2` says whether `U2nold[0]` is not `None`.
`g` is always given.  An early `return` is a condition on the rest.  Consecutive
lines that add to the same array form one statement.  Coefficients and index strings
are those of the code.
-/
import Verif.Model.QedccTensors

set_option linter.unusedVariables false

namespace OpenMS.Qedcc

open Einsum

/-- openms/mqed/qedcc_equations.py L1217-1376: `single_qedccsd_U1n`: all modes are the first one, letter `z`. -/
def singleU1 (n1 n2 : Nat) (u2 : Bool) : List Def :=
  when (0 < n2) (
    [set sU11 [
        ein% "1" "zai->zai" [g.vo],
        ein% "-1" "zji,aj->zai" [g.oo, T1old],
        ein% "1" "zab,bi->zai" [g.vv, T1old],
        ein% "-1" "zjb,abji->zai" [g.ov, T2old],
        ein% "-1" "ji,zaj->zai" [F.oo, U11old],
        ein% "1" "ab,zbi->zai" [F.vv, U11old],
        ein% "1" "z,zai->zai" [w, U11old],
        ein% "-1" "jaib,zbj->zai" [I.ovov, U11old]]] ++
    when (1 < n1) (
      [add sU11 [
          ein% "1" "zz,zai->zai" [S2old, g.vo],
          ein% "-1" "zz,zji,aj->zai" [S2old, g.oo, T1old],
          ein% "1" "zz,zab,bi->zai" [S2old, g.vv, T1old],
          ein% "-1" "zz,zjb,abji->zai" [S2old, g.ov, T2old],
          ein% "-1" "zz,zjb,bi,aj->zai" [S2old, g.ov, T1old, T1old]]]) ++
    [add sU11 [
        ein% "-1" "zjb,bi,aj->zai" [g.ov, T1old, T1old],
        ein% "-1" "jb,bi,zaj->zai" [F.ov, T1old, U11old],
        ein% "-1" "jb,aj,zbi->zai" [F.ov, T1old, U11old],
        ein% "-1" "z,zji,zaj->zai" [S1old, g.oo, U11old],
        ein% "1" "z,zab,zbi->zai" [S1old, g.vv, U11old],
        ein% "-1" "jkib,aj,zbk->zai" [I.ooov, T1old, U11old],
        ein% "1" "jkib,bj,zak->zai" [I.ooov, T1old, U11old],
        ein% "1" "jabc,ci,zbj->zai" [I.ovvv, T1old, U11old],
        ein% "-1" "jabc,cj,zbi->zai" [I.ovvv, T1old, U11old]]] ++
    when (1 < n2) (
      [add sU11 [
          ein% "-1" "zji,zzaj->zai" [g.oo, U12old],
          ein% "1" "zab,zzbi->zai" [g.vv, U12old],
          ein% "-1" "zjb,bi,zzaj->zai" [g.ov, T1old, U12old],
          ein% "-1" "zjb,aj,zzbi->zai" [g.ov, T1old, U12old],
          ein% "1" "zjb,bj,zzai->zai" [g.ov, T1old, U12old]]]) ++
    when (u2) (
      [add sU11 [
          ein% "-1" "jb,zabji->zai" [F.ov, U21old],
          ein% "0.5" "jkib,zabkj->zai" [I.ooov, U21old],
          ein% "-0.5" "jabc,zcbji->zai" [I.ovvv, U21old],
          ein% "-1" "z,zjb,zabji->zai" [S1old, g.ov, U21old],
          ein% "-0.5" "jkbc,ci,zabkj->zai" [I.oovv, T1old, U21old],
          ein% "-0.5" "jkbc,aj,zcbki->zai" [I.oovv, T1old, U21old],
          ein% "1" "jkbc,cj,zabki->zai" [I.oovv, T1old, U21old]]] ++
      when (1 < n2) (
        [add sU11 [
            ein% "-1" "zjb,zzabji->zai" [g.ov, U22old]]])) ++
    [add sU11 [
        ein% "1" "jkbc,acji,zbk->zai" [I.oovv, T2old, U11old],
        ein% "0.5" "jkbc,cbji,zak->zai" [I.oovv, T2old, U11old],
        ein% "0.5" "jkbc,ackj,zbi->zai" [I.oovv, T2old, U11old],
        ein% "1" "zjb,zai,zbj->zai" [g.ov, U11old, U11old],
        ein% "-2" "zjb,zbi,zaj->zai" [g.ov, U11old, U11old],
        ein% "-1" "z,zjb,bi,zaj->zai" [S1old, g.ov, T1old, U11old],
        ein% "-1" "z,zjb,aj,zbi->zai" [S1old, g.ov, T1old, U11old],
        ein% "1" "jkbc,ci,aj,zbk->zai" [I.oovv, T1old, T1old, U11old],
        ein% "-1" "jkbc,ci,bj,zak->zai" [I.oovv, T1old, T1old, U11old],
        ein% "-1" "jkbc,aj,ck,zbi->zai" [I.oovv, T1old, T1old, U11old]]] ++
    when (1 < n2) (
      [set sU12 [
          ein% "-1" "ji,zzaj->zai" [F.oo, U12old],
          ein% "1" "ab,zzbi->zai" [F.vv, U12old],
          ein% "1" "z,zzai->zai" [w, U12old],
          ein% "1" "z,zzai->zai" [w, U12old],
          ein% "-1" "zji,zaj->zai" [g.oo, U11old],
          ein% "-1" "zji,zaj->zai" [g.oo, U11old],
          ein% "1" "zab,zbi->zai" [g.vv, U11old],
          ein% "1" "zab,zbi->zai" [g.vv, U11old],
          ein% "-1" "jaib,zzbj->zai" [I.ovov, U12old],
          ein% "-1" "jb,bi,zzaj->zai" [F.ov, T1old, U12old],
          ein% "-1" "jb,aj,zzbi->zai" [F.ov, T1old, U12old],
          ein% "-1" "z,zji,zzaj->zai" [S1old, g.oo, U12old],
          ein% "-1" "zjb,bi,zaj->zai" [g.ov, T1old, U11old],
          ein% "-1" "zjb,aj,zbi->zai" [g.ov, T1old, U11old],
          ein% "-1" "zjb,bi,zaj->zai" [g.ov, T1old, U11old],
          ein% "-1" "zjb,aj,zbi->zai" [g.ov, T1old, U11old],
          ein% "1" "z,zab,zzbi->zai" [S1old, g.vv, U12old],
          ein% "-1" "jkib,aj,zzbk->zai" [I.ooov, T1old, U12old],
          ein% "1" "jkib,bj,zzak->zai" [I.ooov, T1old, U12old],
          ein% "1" "jabc,ci,zzbj->zai" [I.ovvv, T1old, U12old],
          ein% "-1" "jabc,cj,zzbi->zai" [I.ovvv, T1old, U12old],
          ein% "0.5" "jkbc,cbji,zzak->zai" [I.oovv, T2old, U12old],
          ein% "0.5" "jkbc,ackj,zzbi->zai" [I.oovv, T2old, U12old],
          ein% "-2" "jb,zbi,zaj->zai" [F.ov, U11old, U11old],
          ein% "-2" "jkib,zaj,zbk->zai" [I.ooov, U11old, U11old],
          ein% "2" "jabc,zci,zbj->zai" [I.ovvv, U11old, U11old],
          ein% "-1" "zjb,zbi,zzaj->zai" [g.ov, U11old, U12old],
          ein% "-1" "zjb,zaj,zzbi->zai" [g.ov, U11old, U12old],
          ein% "1" "zjb,zbj,zzai->zai" [g.ov, U11old, U12old],
          ein% "-1" "zjb,zbi,zzaj->zai" [g.ov, U11old, U12old],
          ein% "-1" "zjb,zaj,zzbi->zai" [g.ov, U11old, U12old],
          ein% "1" "zjb,zbj,zzai->zai" [g.ov, U11old, U12old],
          ein% "1" "zjb,zai,zzbj->zai" [g.ov, U11old, U12old],
          ein% "-1" "zjb,zbi,zzaj->zai" [g.ov, U11old, U12old],
          ein% "-1" "zjb,zaj,zzbi->zai" [g.ov, U11old, U12old],
          ein% "-1" "z,zjb,bi,zzaj->zai" [S1old, g.ov, T1old, U12old],
          ein% "-1" "z,zjb,aj,zzbi->zai" [S1old, g.ov, T1old, U12old]]] ++
      when (1 < n1) (
        [add sU12 [
            ein% "-1" "zz,zji,zaj->zai" [S2old, g.oo, U11old],
            ein% "-1" "zz,zji,zaj->zai" [S2old, g.oo, U11old],
            ein% "1" "zz,zab,zbi->zai" [S2old, g.vv, U11old],
            ein% "1" "zz,zab,zbi->zai" [S2old, g.vv, U11old],
            ein% "-1" "zz,zjb,bi,zaj->zai" [S2old, g.ov, T1old, U11old],
            ein% "-1" "zz,zjb,aj,zbi->zai" [S2old, g.ov, T1old, U11old],
            ein% "-1" "zz,zjb,bi,zaj->zai" [S2old, g.ov, T1old, U11old],
            ein% "-1" "zz,zjb,aj,zbi->zai" [S2old, g.ov, T1old, U11old]]]) ++
      when (u2) (
        [add sU12 [
            ein% "-1" "zjb,zabji->zai" [g.ov, U21old],
            ein% "-1" "zjb,zabji->zai" [g.ov, U21old],
            ein% "-1" "jkbc,zci,zabkj->zai" [I.oovv, U11old, U21old],
            ein% "-1" "jkbc,zaj,zcbki->zai" [I.oovv, U11old, U21old],
            ein% "2" "jkbc,zcj,zabki->zai" [I.oovv, U11old, U21old],
            ein% "-1" "jb,zzabji->zai" [F.ov, U22old],
            ein% "0.5" "jkib,zzabkj->zai" [I.ooov, U22old],
            ein% "-0.5" "jabc,zzcbji->zai" [I.ovvv, U22old],
            ein% "-1" "z,zjb,zzabji->zai" [S1old, g.ov, U22old],
            ein% "-0.5" "jkbc,ci,zzabkj->zai" [I.oovv, T1old, U22old],
            ein% "-0.5" "jkbc,aj,zzcbki->zai" [I.oovv, T1old, U22old],
            ein% "1" "jkbc,cj,zzabki->zai" [I.oovv, T1old, U22old]]] ++
        when (1 < n1) (
          [add sU12 [
              ein% "-1" "zz,zjb,zabji->zai" [S2old, g.ov, U21old],
              ein% "-1" "zz,zjb,zabji->zai" [S2old, g.ov, U21old]]])) ++
      [add sU12 [
          ein% "1" "jkbc,acji,zzbk->zai" [I.oovv, T2old, U12old],
          ein% "1" "jkbc,ci,aj,zzbk->zai" [I.oovv, T1old, T1old, U12old],
          ein% "-1" "jkbc,ci,bj,zzak->zai" [I.oovv, T1old, T1old, U12old],
          ein% "-1" "jkbc,aj,ck,zzbi->zai" [I.oovv, T1old, T1old, U12old],
          ein% "-2" "z,zjb,zbi,zaj->zai" [S1old, g.ov, U11old, U11old],
          ein% "2" "jkbc,ci,zaj,zbk->zai" [I.oovv, T1old, U11old, U11old],
          ein% "2" "jkbc,aj,zci,zbk->zai" [I.oovv, T1old, U11old, U11old],
          ein% "2" "jkbc,cj,zbi,zak->zai" [I.oovv, T1old, U11old, U11old]]]))

/-- openms/mqed/qedcc_equations.py L1379-1990: `single_qedccsd_U2n`: all modes are the first one, letter `z`. -/
def singleU2 (n1 n2 : Nat) (u2 : Bool) : List Def :=
  when (u2) (
    when (0 < n2) (
      [set sU21 [],
       set sU22 [],
       add sU21 [
          ein% "1" "zki,bakj->zabij" [g.oo, T2old],
          ein% "-1" "zkj,baki->zabij" [g.oo, T2old],
          ein% "-1" "zbc,acji->zabij" [g.vv, T2old],
          ein% "1" "zac,bcji->zabij" [g.vv, T2old],
          ein% "1" "ki,zbakj->zabij" [F.oo, U21old],
          ein% "-1" "kj,zbaki->zabij" [F.oo, U21old],
          ein% "-1" "bc,zacji->zabij" [F.vv, U21old],
          ein% "1" "ac,zbcji->zabij" [F.vv, U21old],
          ein% "1" "kbji,zak->zabij" [I.ovoo, U11old],
          ein% "-1" "kaji,zbk->zabij" [I.ovoo, U11old],
          ein% "-1" "baic,zcj->zabij" [I.vvov, U11old],
          ein% "1" "bajc,zci->zabij" [I.vvov, U11old],
          ein% "1" "z,zbaji->zabij" [w, U21old],
          ein% "-0.5" "klji,zbalk->zabij" [I.oooo, U21old],
          ein% "-1" "kbic,zackj->zabij" [I.ovov, U21old],
          ein% "1" "kaic,zbckj->zabij" [I.ovov, U21old],
          ein% "1" "kbjc,zacki->zabij" [I.ovov, U21old],
          ein% "-1" "kajc,zbcki->zabij" [I.ovov, U21old],
          ein% "-0.5" "bacd,zdcji->zabij" [I.vvvv, U21old]]] ++
      when (1 < n2) (
        [add sU21 [
            ein% "1" "zki,zzbakj->zabij" [g.oo, U22old],
            ein% "-1" "zkj,zzbaki->zabij" [g.oo, U22old],
            ein% "-1" "zbc,zzacji->zabij" [g.vv, U22old],
            ein% "1" "zac,zzbcji->zabij" [g.vv, U22old],
            ein% "1" "zkc,ci,zzbakj->zabij" [g.ov, T1old, U22old],
            ein% "-1" "zkc,cj,zzbaki->zabij" [g.ov, T1old, U22old],
            ein% "1" "zkc,bk,zzacji->zabij" [g.ov, T1old, U22old],
            ein% "-1" "zkc,ak,zzbcji->zabij" [g.ov, T1old, U22old],
            ein% "1" "zkc,ck,zzbaji->zabij" [g.ov, T1old, U22old]]]) ++
      when (1 < n1) (
        [add sU21 [
            ein% "1" "zz,zki,bakj->zabij" [S2old, g.oo, T2old],
            ein% "-1" "zz,zkj,baki->zabij" [S2old, g.oo, T2old],
            ein% "-1" "zz,zbc,acji->zabij" [S2old, g.vv, T2old],
            ein% "1" "zz,zac,bcji->zabij" [S2old, g.vv, T2old],
            ein% "1" "zz,zkc,ci,bakj->zabij" [S2old, g.ov, T1old, T2old],
            ein% "-1" "zz,zkc,cj,baki->zabij" [S2old, g.ov, T1old, T2old],
            ein% "1" "zz,zkc,bk,acji->zabij" [S2old, g.ov, T1old, T2old],
            ein% "-1" "zz,zkc,ak,bcji->zabij" [S2old, g.ov, T1old, T2old]]]) ++
      [add sU21 [
          ein% "-0.5" "klcd,bdji,zaclk->zabij" [I.oovv, T2old, U21old],
          ein% "1" "zkc,ci,bakj->zabij" [g.ov, T1old, T2old],
          ein% "-1" "zkc,cj,baki->zabij" [g.ov, T1old, T2old],
          ein% "1" "zkc,bk,acji->zabij" [g.ov, T1old, T2old],
          ein% "-1" "zkc,ak,bcji->zabij" [g.ov, T1old, T2old],
          ein% "1" "kc,ci,zbakj->zabij" [F.ov, T1old, U21old],
          ein% "-1" "kc,cj,zbaki->zabij" [F.ov, T1old, U21old],
          ein% "1" "kc,bk,zacji->zabij" [F.ov, T1old, U21old],
          ein% "-1" "kc,ak,zbcji->zabij" [F.ov, T1old, U21old],
          ein% "-1" "kc,bcji,zak->zabij" [F.ov, T2old, U11old],
          ein% "1" "kc,acji,zbk->zabij" [F.ov, T2old, U11old],
          ein% "-1" "kc,baki,zcj->zabij" [F.ov, T2old, U11old],
          ein% "1" "kc,bakj,zci->zabij" [F.ov, T2old, U11old],
          ein% "1" "klji,bk,zal->zabij" [I.oooo, T1old, U11old],
          ein% "-1" "klji,ak,zbl->zabij" [I.oooo, T1old, U11old],
          ein% "-1" "kbic,cj,zak->zabij" [I.ovov, T1old, U11old],
          ein% "1" "kaic,cj,zbk->zabij" [I.ovov, T1old, U11old],
          ein% "-1" "kbic,ak,zcj->zabij" [I.ovov, T1old, U11old],
          ein% "1" "kaic,bk,zcj->zabij" [I.ovov, T1old, U11old],
          ein% "1" "kbjc,ci,zak->zabij" [I.ovov, T1old, U11old],
          ein% "-1" "kajc,ci,zbk->zabij" [I.ovov, T1old, U11old],
          ein% "1" "kbjc,ak,zci->zabij" [I.ovov, T1old, U11old],
          ein% "-1" "kajc,bk,zci->zabij" [I.ovov, T1old, U11old],
          ein% "1" "bacd,di,zcj->zabij" [I.vvvv, T1old, U11old],
          ein% "-1" "bacd,dj,zci->zabij" [I.vvvv, T1old, U11old]]] ++
      when (1 < n2) (
        [add sU21 [
            ein% "-1" "zbi,zzaj->zabij" [g.vo, U12old],
            ein% "1" "zai,zzbj->zabij" [g.vo, U12old],
            ein% "1" "zbj,zzai->zabij" [g.vo, U12old],
            ein% "-1" "zaj,zzbi->zabij" [g.vo, U12old],
            ein% "1" "zki,bk,zzaj->zabij" [g.oo, T1old, U12old],
            ein% "-1" "zki,ak,zzbj->zabij" [g.oo, T1old, U12old],
            ein% "-1" "zkj,bk,zzai->zabij" [g.oo, T1old, U12old],
            ein% "1" "zkj,ak,zzbi->zabij" [g.oo, T1old, U12old],
            ein% "-1" "zbc,ci,zzaj->zabij" [g.vv, T1old, U12old],
            ein% "1" "zac,ci,zzbj->zabij" [g.vv, T1old, U12old],
            ein% "1" "zbc,cj,zzai->zabij" [g.vv, T1old, U12old],
            ein% "-1" "zac,cj,zzbi->zabij" [g.vv, T1old, U12old],
            ein% "-1" "zkc,bcji,zzak->zabij" [g.ov, T2old, U12old],
            ein% "1" "zkc,acji,zzbk->zabij" [g.ov, T2old, U12old],
            ein% "-1" "zkc,baki,zzcj->zabij" [g.ov, T2old, U12old],
            ein% "1" "zkc,bcki,zzaj->zabij" [g.ov, T2old, U12old],
            ein% "-1" "zkc,acki,zzbj->zabij" [g.ov, T2old, U12old],
            ein% "1" "zkc,bakj,zzci->zabij" [g.ov, T2old, U12old],
            ein% "-1" "zkc,bckj,zzai->zabij" [g.ov, T2old, U12old],
            ein% "1" "zkc,ackj,zzbi->zabij" [g.ov, T2old, U12old],
            ein% "1" "zkc,ci,bk,zzaj->zabij" [g.ov, T1old, T1old, U12old],
            ein% "-1" "zkc,ci,ak,zzbj->zabij" [g.ov, T1old, T1old, U12old],
            ein% "-1" "zkc,cj,bk,zzai->zabij" [g.ov, T1old, T1old, U12old],
            ein% "1" "zkc,cj,ak,zzbi->zabij" [g.ov, T1old, T1old, U12old]]]) ++
      [add sU21 [
          ein% "1" "z,zki,zbakj->zabij" [S1old, g.oo, U21old],
          ein% "-1" "z,zkj,zbaki->zabij" [S1old, g.oo, U21old],
          ein% "-1" "z,zbc,zacji->zabij" [S1old, g.vv, U21old],
          ein% "1" "z,zac,zbcji->zabij" [S1old, g.vv, U21old],
          ein% "0.5" "klic,cj,zbalk->zabij" [I.ooov, T1old, U21old],
          ein% "-1" "klic,bk,zaclj->zabij" [I.ooov, T1old, U21old],
          ein% "1" "klic,ak,zbclj->zabij" [I.ooov, T1old, U21old],
          ein% "-1" "klic,ck,zbalj->zabij" [I.ooov, T1old, U21old],
          ein% "-0.5" "kljc,ci,zbalk->zabij" [I.ooov, T1old, U21old],
          ein% "1" "kljc,bk,zacli->zabij" [I.ooov, T1old, U21old],
          ein% "-1" "kljc,ak,zbcli->zabij" [I.ooov, T1old, U21old],
          ein% "1" "kljc,ck,zbali->zabij" [I.ooov, T1old, U21old],
          ein% "1" "klic,bakj,zcl->zabij" [I.ooov, T2old, U11old],
          ein% "-1" "klic,bckj,zal->zabij" [I.ooov, T2old, U11old],
          ein% "1" "klic,ackj,zbl->zabij" [I.ooov, T2old, U11old],
          ein% "0.5" "klic,balk,zcj->zabij" [I.ooov, T2old, U11old],
          ein% "-1" "kljc,baki,zcl->zabij" [I.ooov, T2old, U11old],
          ein% "1" "kljc,bcki,zal->zabij" [I.ooov, T2old, U11old],
          ein% "-1" "kljc,acki,zbl->zabij" [I.ooov, T2old, U11old],
          ein% "-0.5" "kljc,balk,zci->zabij" [I.ooov, T2old, U11old],
          ein% "1" "kbcd,di,zackj->zabij" [I.ovvv, T1old, U21old],
          ein% "-1" "kacd,di,zbckj->zabij" [I.ovvv, T1old, U21old],
          ein% "-1" "kbcd,dj,zacki->zabij" [I.ovvv, T1old, U21old],
          ein% "1" "kacd,dj,zbcki->zabij" [I.ovvv, T1old, U21old],
          ein% "-0.5" "kbcd,ak,zdcji->zabij" [I.ovvv, T1old, U21old],
          ein% "1" "kbcd,dk,zacji->zabij" [I.ovvv, T1old, U21old],
          ein% "0.5" "kacd,bk,zdcji->zabij" [I.ovvv, T1old, U21old],
          ein% "-1" "kacd,dk,zbcji->zabij" [I.ovvv, T1old, U21old],
          ein% "-1" "kbcd,adji,zck->zabij" [I.ovvv, T2old, U11old],
          ein% "-0.5" "kbcd,dcji,zak->zabij" [I.ovvv, T2old, U11old],
          ein% "1" "kacd,bdji,zck->zabij" [I.ovvv, T2old, U11old],
          ein% "0.5" "kacd,dcji,zbk->zabij" [I.ovvv, T2old, U11old],
          ein% "1" "kbcd,adki,zcj->zabij" [I.ovvv, T2old, U11old],
          ein% "-1" "kacd,bdki,zcj->zabij" [I.ovvv, T2old, U11old],
          ein% "-1" "kbcd,adkj,zci->zabij" [I.ovvv, T2old, U11old],
          ein% "1" "kacd,bdkj,zci->zabij" [I.ovvv, T2old, U11old],
          ein% "0.5" "klcd,adji,zbclk->zabij" [I.oovv, T2old, U21old],
          ein% "0.25" "klcd,dcji,zbalk->zabij" [I.oovv, T2old, U21old],
          ein% "-0.5" "klcd,baki,zdclj->zabij" [I.oovv, T2old, U21old],
          ein% "1" "klcd,bdki,zaclj->zabij" [I.oovv, T2old, U21old],
          ein% "-1" "klcd,adki,zbclj->zabij" [I.oovv, T2old, U21old],
          ein% "-0.5" "klcd,dcki,zbalj->zabij" [I.oovv, T2old, U21old],
          ein% "0.5" "klcd,bakj,zdcli->zabij" [I.oovv, T2old, U21old],
          ein% "-1" "klcd,bdkj,zacli->zabij" [I.oovv, T2old, U21old],
          ein% "1" "klcd,adkj,zbcli->zabij" [I.oovv, T2old, U21old],
          ein% "0.5" "klcd,dckj,zbali->zabij" [I.oovv, T2old, U21old],
          ein% "0.25" "klcd,balk,zdcji->zabij" [I.oovv, T2old, U21old],
          ein% "-0.5" "klcd,bdlk,zacji->zabij" [I.oovv, T2old, U21old],
          ein% "0.5" "klcd,adlk,zbcji->zabij" [I.oovv, T2old, U21old],
          ein% "-1" "zki,zbj,zak->zabij" [g.oo, U11old, U11old],
          ein% "1" "zki,zaj,zbk->zabij" [g.oo, U11old, U11old],
          ein% "1" "zkj,zbi,zak->zabij" [g.oo, U11old, U11old],
          ein% "-1" "zkj,zai,zbk->zabij" [g.oo, U11old, U11old],
          ein% "1" "zbc,zai,zcj->zabij" [g.vv, U11old, U11old],
          ein% "-1" "zbc,zci,zaj->zabij" [g.vv, U11old, U11old],
          ein% "-1" "zac,zbi,zcj->zabij" [g.vv, U11old, U11old],
          ein% "1" "zac,zci,zbj->zabij" [g.vv, U11old, U11old],
          ein% "1" "zkc,zbi,zackj->zabij" [g.ov, U11old, U21old],
          ein% "-1" "zkc,zai,zbckj->zabij" [g.ov, U11old, U21old],
          ein% "2" "zkc,zci,zbakj->zabij" [g.ov, U11old, U21old],
          ein% "-1" "zkc,zbj,zacki->zabij" [g.ov, U11old, U21old],
          ein% "1" "zkc,zaj,zbcki->zabij" [g.ov, U11old, U21old],
          ein% "-2" "zkc,zcj,zbaki->zabij" [g.ov, U11old, U21old],
          ein% "2" "zkc,zbk,zacji->zabij" [g.ov, U11old, U21old],
          ein% "-2" "zkc,zak,zbcji->zabij" [g.ov, U11old, U21old],
          ein% "1" "zkc,zck,zbaji->zabij" [g.ov, U11old, U21old],
          ein% "-1" "klic,cj,bk,zal->zabij" [I.ooov, T1old, T1old, U11old],
          ein% "1" "klic,cj,ak,zbl->zabij" [I.ooov, T1old, T1old, U11old],
          ein% "-1" "klic,bk,al,zcj->zabij" [I.ooov, T1old, T1old, U11old],
          ein% "1" "kljc,ci,bk,zal->zabij" [I.ooov, T1old, T1old, U11old],
          ein% "-1" "kljc,ci,ak,zbl->zabij" [I.ooov, T1old, T1old, U11old],
          ein% "1" "kljc,bk,al,zci->zabij" [I.ooov, T1old, T1old, U11old],
          ein% "1" "kbcd,di,cj,zak->zabij" [I.ovvv, T1old, T1old, U11old],
          ein% "-1" "kacd,di,cj,zbk->zabij" [I.ovvv, T1old, T1old, U11old],
          ein% "1" "kbcd,di,ak,zcj->zabij" [I.ovvv, T1old, T1old, U11old],
          ein% "-1" "kacd,di,bk,zcj->zabij" [I.ovvv, T1old, T1old, U11old],
          ein% "-1" "kbcd,dj,ak,zci->zabij" [I.ovvv, T1old, T1old, U11old],
          ein% "1" "kacd,dj,bk,zci->zabij" [I.ovvv, T1old, T1old, U11old],
          ein% "1" "z,zkc,ci,zbakj->zabij" [S1old, g.ov, T1old, U21old],
          ein% "-1" "z,zkc,cj,zbaki->zabij" [S1old, g.ov, T1old, U21old],
          ein% "1" "z,zkc,bk,zacji->zabij" [S1old, g.ov, T1old, U21old],
          ein% "-1" "z,zkc,ak,zbcji->zabij" [S1old, g.ov, T1old, U21old],
          ein% "-1" "z,zkc,bcji,zak->zabij" [S1old, g.ov, T2old, U11old],
          ein% "1" "z,zkc,acji,zbk->zabij" [S1old, g.ov, T2old, U11old],
          ein% "-1" "z,zkc,baki,zcj->zabij" [S1old, g.ov, T2old, U11old],
          ein% "1" "z,zkc,bakj,zci->zabij" [S1old, g.ov, T2old, U11old],
          ein% "-0.5" "klcd,di,cj,zbalk->zabij" [I.oovv, T1old, T1old, U21old],
          ein% "1" "klcd,di,bk,zaclj->zabij" [I.oovv, T1old, T1old, U21old],
          ein% "-1" "klcd,di,ak,zbclj->zabij" [I.oovv, T1old, T1old, U21old],
          ein% "1" "klcd,di,ck,zbalj->zabij" [I.oovv, T1old, T1old, U21old],
          ein% "-1" "klcd,dj,bk,zacli->zabij" [I.oovv, T1old, T1old, U21old],
          ein% "1" "klcd,dj,ak,zbcli->zabij" [I.oovv, T1old, T1old, U21old],
          ein% "-1" "klcd,dj,ck,zbali->zabij" [I.oovv, T1old, T1old, U21old],
          ein% "-0.5" "klcd,bk,al,zdcji->zabij" [I.oovv, T1old, T1old, U21old],
          ein% "1" "klcd,bk,dl,zacji->zabij" [I.oovv, T1old, T1old, U21old],
          ein% "-1" "klcd,ak,dl,zbcji->zabij" [I.oovv, T1old, T1old, U21old],
          ein% "-1" "klcd,di,bakj,zcl->zabij" [I.oovv, T1old, T2old, U11old],
          ein% "1" "klcd,di,bckj,zal->zabij" [I.oovv, T1old, T2old, U11old],
          ein% "-1" "klcd,di,ackj,zbl->zabij" [I.oovv, T1old, T2old, U11old],
          ein% "-0.5" "klcd,di,balk,zcj->zabij" [I.oovv, T1old, T2old, U11old],
          ein% "1" "klcd,dj,baki,zcl->zabij" [I.oovv, T1old, T2old, U11old],
          ein% "-1" "klcd,dj,bcki,zal->zabij" [I.oovv, T1old, T2old, U11old],
          ein% "1" "klcd,dj,acki,zbl->zabij" [I.oovv, T1old, T2old, U11old],
          ein% "-1" "klcd,bk,adji,zcl->zabij" [I.oovv, T1old, T2old, U11old],
          ein% "-0.5" "klcd,bk,dcji,zal->zabij" [I.oovv, T1old, T2old, U11old],
          ein% "1" "klcd,ak,bdji,zcl->zabij" [I.oovv, T1old, T2old, U11old],
          ein% "1" "klcd,dk,bcji,zal->zabij" [I.oovv, T1old, T2old, U11old],
          ein% "0.5" "klcd,ak,dcji,zbl->zabij" [I.oovv, T1old, T2old, U11old],
          ein% "-1" "klcd,dk,acji,zbl->zabij" [I.oovv, T1old, T2old, U11old],
          ein% "1" "klcd,bk,adli,zcj->zabij" [I.oovv, T1old, T2old, U11old],
          ein% "-1" "klcd,ak,bdli,zcj->zabij" [I.oovv, T1old, T2old, U11old],
          ein% "1" "klcd,dk,bali,zcj->zabij" [I.oovv, T1old, T2old, U11old],
          ein% "0.5" "klcd,dj,balk,zci->zabij" [I.oovv, T1old, T2old, U11old],
          ein% "-1" "klcd,bk,adlj,zci->zabij" [I.oovv, T1old, T2old, U11old],
          ein% "1" "klcd,ak,bdlj,zci->zabij" [I.oovv, T1old, T2old, U11old],
          ein% "-1" "klcd,dk,balj,zci->zabij" [I.oovv, T1old, T2old, U11old],
          ein% "-1" "zkc,ci,zbj,zak->zabij" [g.ov, T1old, U11old, U11old],
          ein% "1" "zkc,ci,zaj,zbk->zabij" [g.ov, T1old, U11old, U11old],
          ein% "1" "zkc,cj,zbi,zak->zabij" [g.ov, T1old, U11old, U11old],
          ein% "-1" "zkc,cj,zai,zbk->zabij" [g.ov, T1old, U11old, U11old],
          ein% "-1" "zkc,bk,zai,zcj->zabij" [g.ov, T1old, U11old, U11old],
          ein% "1" "zkc,bk,zci,zaj->zabij" [g.ov, T1old, U11old, U11old],
          ein% "1" "zkc,ak,zbi,zcj->zabij" [g.ov, T1old, U11old, U11old],
          ein% "-1" "zkc,ak,zci,zbj->zabij" [g.ov, T1old, U11old, U11old]]] ++
      when (1 < n2) (
        [add sU22 [
            ein% "1" "ki,zzbakj->zabij" [F.oo, U22old],
            ein% "-1" "kj,zzbaki->zabij" [F.oo, U22old],
            ein% "-1" "bc,zzacji->zabij" [F.vv, U22old],
            ein% "1" "ac,zzbcji->zabij" [F.vv, U22old],
            ein% "1" "kbji,zzak->zabij" [I.ovoo, U12old],
            ein% "-1" "kaji,zzbk->zabij" [I.ovoo, U12old],
            ein% "-1" "baic,zzcj->zabij" [I.vvov, U12old],
            ein% "1" "bajc,zzci->zabij" [I.vvov, U12old],
            ein% "1" "z,zzbaji->zabij" [w, U22old],
            ein% "1" "z,zzbaji->zabij" [w, U22old],
            ein% "1" "zki,zbakj->zabij" [g.oo, U21old],
            ein% "-1" "zkj,zbaki->zabij" [g.oo, U21old],
            ein% "1" "zki,zbakj->zabij" [g.oo, U21old],
            ein% "-1" "zkj,zbaki->zabij" [g.oo, U21old],
            ein% "-1" "zbc,zacji->zabij" [g.vv, U21old],
            ein% "1" "zac,zbcji->zabij" [g.vv, U21old],
            ein% "-1" "zbc,zacji->zabij" [g.vv, U21old],
            ein% "1" "zac,zbcji->zabij" [g.vv, U21old],
            ein% "-0.5" "klji,zzbalk->zabij" [I.oooo, U22old],
            ein% "-1" "kbic,zzackj->zabij" [I.ovov, U22old],
            ein% "1" "kaic,zzbckj->zabij" [I.ovov, U22old],
            ein% "1" "kbjc,zzacki->zabij" [I.ovov, U22old],
            ein% "-1" "kajc,zzbcki->zabij" [I.ovov, U22old],
            ein% "-0.5" "bacd,zzdcji->zabij" [I.vvvv, U22old],
            ein% "1" "kc,ci,zzbakj->zabij" [F.ov, T1old, U22old],
            ein% "-1" "kc,cj,zzbaki->zabij" [F.ov, T1old, U22old],
            ein% "1" "kc,bk,zzacji->zabij" [F.ov, T1old, U22old],
            ein% "-1" "kc,ak,zzbcji->zabij" [F.ov, T1old, U22old],
            ein% "-1" "kc,bcji,zzak->zabij" [F.ov, T2old, U12old],
            ein% "1" "kc,acji,zzbk->zabij" [F.ov, T2old, U12old],
            ein% "-1" "kc,baki,zzcj->zabij" [F.ov, T2old, U12old],
            ein% "1" "kc,bakj,zzci->zabij" [F.ov, T2old, U12old],
            ein% "1" "klji,bk,zzal->zabij" [I.oooo, T1old, U12old],
            ein% "-1" "klji,ak,zzbl->zabij" [I.oooo, T1old, U12old],
            ein% "-1" "kbic,cj,zzak->zabij" [I.ovov, T1old, U12old],
            ein% "1" "kaic,cj,zzbk->zabij" [I.ovov, T1old, U12old],
            ein% "-1" "kbic,ak,zzcj->zabij" [I.ovov, T1old, U12old],
            ein% "1" "kaic,bk,zzcj->zabij" [I.ovov, T1old, U12old],
            ein% "1" "kbjc,ci,zzak->zabij" [I.ovov, T1old, U12old],
            ein% "-1" "kajc,ci,zzbk->zabij" [I.ovov, T1old, U12old],
            ein% "1" "kbjc,ak,zzci->zabij" [I.ovov, T1old, U12old],
            ein% "-1" "kajc,bk,zzci->zabij" [I.ovov, T1old, U12old],
            ein% "1" "bacd,di,zzcj->zabij" [I.vvvv, T1old, U12old],
            ein% "-1" "bacd,dj,zzci->zabij" [I.vvvv, T1old, U12old],
            ein% "1" "z,zki,zzbakj->zabij" [S1old, g.oo, U22old],
            ein% "-1" "z,zkj,zzbaki->zabij" [S1old, g.oo, U22old]]] ++
        when (2 < n1) (
          [add sU22 [
              ein% "1" "zz,zki,zbakj->zabij" [S2old, g.oo, U21old],
              ein% "-1" "zz,zkj,zbaki->zabij" [S2old, g.oo, U21old],
              ein% "1" "zz,zki,zbakj->zabij" [S2old, g.oo, U21old],
              ein% "-1" "zz,zkj,zbaki->zabij" [S2old, g.oo, U21old],
              ein% "-1" "zz,zbc,zacji->zabij" [S2old, g.vv, U21old],
              ein% "1" "zz,zac,zbcji->zabij" [S2old, g.vv, U21old],
              ein% "-1" "zz,zbc,zacji->zabij" [S2old, g.vv, U21old],
              ein% "1" "zz,zac,zbcji->zabij" [S2old, g.vv, U21old],
              ein% "1" "zz,zkc,ci,zbakj->zabij" [S2old, g.ov, T1old, U21old],
              ein% "-1" "zz,zkc,cj,zbaki->zabij" [S2old, g.ov, T1old, U21old],
              ein% "1" "zz,zkc,bk,zacji->zabij" [S2old, g.ov, T1old, U21old],
              ein% "-1" "zz,zkc,ak,zbcji->zabij" [S2old, g.ov, T1old, U21old],
              ein% "1" "zz,zkc,ci,zbakj->zabij" [S2old, g.ov, T1old, U21old],
              ein% "-1" "zz,zkc,cj,zbaki->zabij" [S2old, g.ov, T1old, U21old],
              ein% "1" "zz,zkc,bk,zacji->zabij" [S2old, g.ov, T1old, U21old],
              ein% "-1" "zz,zkc,ak,zbcji->zabij" [S2old, g.ov, T1old, U21old],
              ein% "-1" "zz,zkc,bcji,zak->zabij" [S2old, g.ov, T2old, U11old],
              ein% "1" "zz,zkc,acji,zbk->zabij" [S2old, g.ov, T2old, U11old],
              ein% "-1" "zz,zkc,baki,zcj->zabij" [S2old, g.ov, T2old, U11old],
              ein% "1" "zz,zkc,bakj,zci->zabij" [S2old, g.ov, T2old, U11old],
              ein% "-1" "zz,zkc,bcji,zak->zabij" [S2old, g.ov, T2old, U11old],
              ein% "1" "zz,zkc,acji,zbk->zabij" [S2old, g.ov, T2old, U11old],
              ein% "-1" "zz,zkc,baki,zcj->zabij" [S2old, g.ov, T2old, U11old],
              ein% "1" "zz,zkc,bakj,zci->zabij" [S2old, g.ov, T2old, U11old]]]) ++
        [add sU22 [
            ein% "1" "zkc,ci,zbakj->zabij" [g.ov, T1old, U21old],
            ein% "-1" "zkc,cj,zbaki->zabij" [g.ov, T1old, U21old],
            ein% "1" "zkc,bk,zacji->zabij" [g.ov, T1old, U21old],
            ein% "-1" "zkc,ak,zbcji->zabij" [g.ov, T1old, U21old],
            ein% "1" "zkc,ci,zbakj->zabij" [g.ov, T1old, U21old],
            ein% "-1" "zkc,cj,zbaki->zabij" [g.ov, T1old, U21old],
            ein% "1" "zkc,bk,zacji->zabij" [g.ov, T1old, U21old],
            ein% "-1" "zkc,ak,zbcji->zabij" [g.ov, T1old, U21old],
            ein% "-1" "zkc,bcji,zak->zabij" [g.ov, T2old, U11old],
            ein% "1" "zkc,acji,zbk->zabij" [g.ov, T2old, U11old],
            ein% "-1" "zkc,baki,zcj->zabij" [g.ov, T2old, U11old],
            ein% "1" "zkc,bakj,zci->zabij" [g.ov, T2old, U11old],
            ein% "-1" "zkc,bcji,zak->zabij" [g.ov, T2old, U11old],
            ein% "1" "zkc,acji,zbk->zabij" [g.ov, T2old, U11old],
            ein% "-1" "zkc,baki,zcj->zabij" [g.ov, T2old, U11old],
            ein% "1" "zkc,bakj,zci->zabij" [g.ov, T2old, U11old],
            ein% "-1" "z,zbc,zzacji->zabij" [S1old, g.vv, U22old],
            ein% "1" "z,zac,zzbcji->zabij" [S1old, g.vv, U22old],
            ein% "0.5" "klic,cj,zzbalk->zabij" [I.ooov, T1old, U22old],
            ein% "-1" "klic,bk,zzaclj->zabij" [I.ooov, T1old, U22old],
            ein% "1" "klic,ak,zzbclj->zabij" [I.ooov, T1old, U22old],
            ein% "-1" "klic,ck,zzbalj->zabij" [I.ooov, T1old, U22old],
            ein% "-0.5" "kljc,ci,zzbalk->zabij" [I.ooov, T1old, U22old],
            ein% "1" "kljc,bk,zzacli->zabij" [I.ooov, T1old, U22old],
            ein% "-1" "kljc,ak,zzbcli->zabij" [I.ooov, T1old, U22old],
            ein% "1" "kljc,ck,zzbali->zabij" [I.ooov, T1old, U22old],
            ein% "1" "klic,bakj,zzcl->zabij" [I.ooov, T2old, U12old],
            ein% "-1" "klic,bckj,zzal->zabij" [I.ooov, T2old, U12old],
            ein% "1" "klic,ackj,zzbl->zabij" [I.ooov, T2old, U12old],
            ein% "0.5" "klic,balk,zzcj->zabij" [I.ooov, T2old, U12old],
            ein% "-1" "kljc,baki,zzcl->zabij" [I.ooov, T2old, U12old],
            ein% "1" "kljc,bcki,zzal->zabij" [I.ooov, T2old, U12old],
            ein% "-1" "kljc,acki,zzbl->zabij" [I.ooov, T2old, U12old],
            ein% "-0.5" "kljc,balk,zzci->zabij" [I.ooov, T2old, U12old],
            ein% "1" "kbcd,di,zzackj->zabij" [I.ovvv, T1old, U22old],
            ein% "-1" "kacd,di,zzbckj->zabij" [I.ovvv, T1old, U22old],
            ein% "-1" "kbcd,dj,zzacki->zabij" [I.ovvv, T1old, U22old],
            ein% "1" "kacd,dj,zzbcki->zabij" [I.ovvv, T1old, U22old],
            ein% "-0.5" "kbcd,ak,zzdcji->zabij" [I.ovvv, T1old, U22old],
            ein% "1" "kbcd,dk,zzacji->zabij" [I.ovvv, T1old, U22old],
            ein% "0.5" "kacd,bk,zzdcji->zabij" [I.ovvv, T1old, U22old],
            ein% "-1" "kacd,dk,zzbcji->zabij" [I.ovvv, T1old, U22old],
            ein% "-1" "kbcd,adji,zzck->zabij" [I.ovvv, T2old, U12old],
            ein% "-0.5" "kbcd,dcji,zzak->zabij" [I.ovvv, T2old, U12old],
            ein% "1" "kacd,bdji,zzck->zabij" [I.ovvv, T2old, U12old],
            ein% "0.5" "kacd,dcji,zzbk->zabij" [I.ovvv, T2old, U12old],
            ein% "1" "kbcd,adki,zzcj->zabij" [I.ovvv, T2old, U12old],
            ein% "-1" "kacd,bdki,zzcj->zabij" [I.ovvv, T2old, U12old],
            ein% "-1" "kbcd,adkj,zzci->zabij" [I.ovvv, T2old, U12old],
            ein% "1" "kacd,bdkj,zzci->zabij" [I.ovvv, T2old, U12old],
            ein% "-0.5" "klcd,bdji,zzaclk->zabij" [I.oovv, T2old, U22old],
            ein% "0.5" "klcd,adji,zzbclk->zabij" [I.oovv, T2old, U22old],
            ein% "0.25" "klcd,dcji,zzbalk->zabij" [I.oovv, T2old, U22old],
            ein% "-0.5" "klcd,baki,zzdclj->zabij" [I.oovv, T2old, U22old],
            ein% "1" "klcd,bdki,zzaclj->zabij" [I.oovv, T2old, U22old],
            ein% "-1" "klcd,adki,zzbclj->zabij" [I.oovv, T2old, U22old],
            ein% "-0.5" "klcd,dcki,zzbalj->zabij" [I.oovv, T2old, U22old],
            ein% "0.5" "klcd,bakj,zzdcli->zabij" [I.oovv, T2old, U22old],
            ein% "-1" "klcd,bdkj,zzacli->zabij" [I.oovv, T2old, U22old],
            ein% "1" "klcd,adkj,zzbcli->zabij" [I.oovv, T2old, U22old],
            ein% "0.5" "klcd,dckj,zzbali->zabij" [I.oovv, T2old, U22old],
            ein% "0.25" "klcd,balk,zzdcji->zabij" [I.oovv, T2old, U22old],
            ein% "-0.5" "klcd,bdlk,zzacji->zabij" [I.oovv, T2old, U22old],
            ein% "0.5" "klcd,adlk,zzbcji->zabij" [I.oovv, T2old, U22old],
            ein% "2" "kc,zci,zbakj->zabij" [F.ov, U11old, U21old],
            ein% "-2" "kc,zcj,zbaki->zabij" [F.ov, U11old, U21old],
            ein% "2" "kc,zbk,zacji->zabij" [F.ov, U11old, U21old],
            ein% "-2" "kc,zak,zbcji->zabij" [F.ov, U11old, U21old],
            ein% "2" "klji,zbk,zal->zabij" [I.oooo, U11old, U11old],
            ein% "-2" "kbic,zcj,zak->zabij" [I.ovov, U11old, U11old],
            ein% "2" "kaic,zcj,zbk->zabij" [I.ovov, U11old, U11old],
            ein% "2" "kbjc,zci,zak->zabij" [I.ovov, U11old, U11old],
            ein% "-2" "kajc,zci,zbk->zabij" [I.ovov, U11old, U11old],
            ein% "2" "bacd,zdi,zcj->zabij" [I.vvvv, U11old, U11old],
            ein% "1" "zki,zbk,zzaj->zabij" [g.oo, U11old, U12old],
            ein% "-1" "zki,zak,zzbj->zabij" [g.oo, U11old, U12old],
            ein% "-1" "zkj,zbk,zzai->zabij" [g.oo, U11old, U12old],
            ein% "1" "zkj,zak,zzbi->zabij" [g.oo, U11old, U12old],
            ein% "1" "zki,zbk,zzaj->zabij" [g.oo, U11old, U12old],
            ein% "-1" "zki,zak,zzbj->zabij" [g.oo, U11old, U12old],
            ein% "-1" "zkj,zbk,zzai->zabij" [g.oo, U11old, U12old],
            ein% "1" "zkj,zak,zzbi->zabij" [g.oo, U11old, U12old],
            ein% "-1" "zki,zbj,zzak->zabij" [g.oo, U11old, U12old],
            ein% "1" "zki,zaj,zzbk->zabij" [g.oo, U11old, U12old],
            ein% "1" "zkj,zbi,zzak->zabij" [g.oo, U11old, U12old],
            ein% "-1" "zkj,zai,zzbk->zabij" [g.oo, U11old, U12old],
            ein% "-1" "zbc,zci,zzaj->zabij" [g.vv, U11old, U12old],
            ein% "1" "zac,zci,zzbj->zabij" [g.vv, U11old, U12old],
            ein% "1" "zbc,zcj,zzai->zabij" [g.vv, U11old, U12old],
            ein% "-1" "zac,zcj,zzbi->zabij" [g.vv, U11old, U12old],
            ein% "-1" "zbc,zci,zzaj->zabij" [g.vv, U11old, U12old],
            ein% "1" "zac,zci,zzbj->zabij" [g.vv, U11old, U12old],
            ein% "1" "zbc,zcj,zzai->zabij" [g.vv, U11old, U12old],
            ein% "-1" "zac,zcj,zzbi->zabij" [g.vv, U11old, U12old],
            ein% "1" "zbc,zai,zzcj->zabij" [g.vv, U11old, U12old],
            ein% "-1" "zac,zbi,zzcj->zabij" [g.vv, U11old, U12old],
            ein% "-1" "zbc,zaj,zzci->zabij" [g.vv, U11old, U12old],
            ein% "1" "zac,zbj,zzci->zabij" [g.vv, U11old, U12old],
            ein% "1" "klic,zcj,zbalk->zabij" [I.ooov, U11old, U21old],
            ein% "-2" "klic,zbk,zaclj->zabij" [I.ooov, U11old, U21old],
            ein% "2" "klic,zak,zbclj->zabij" [I.ooov, U11old, U21old],
            ein% "-2" "klic,zck,zbalj->zabij" [I.ooov, U11old, U21old],
            ein% "-1" "kljc,zci,zbalk->zabij" [I.ooov, U11old, U21old],
            ein% "2" "kljc,zbk,zacli->zabij" [I.ooov, U11old, U21old],
            ein% "-2" "kljc,zak,zbcli->zabij" [I.ooov, U11old, U21old],
            ein% "2" "kljc,zck,zbali->zabij" [I.ooov, U11old, U21old],
            ein% "2" "kbcd,zdi,zackj->zabij" [I.ovvv, U11old, U21old],
            ein% "-2" "kacd,zdi,zbckj->zabij" [I.ovvv, U11old, U21old],
            ein% "-2" "kbcd,zdj,zacki->zabij" [I.ovvv, U11old, U21old],
            ein% "2" "kacd,zdj,zbcki->zabij" [I.ovvv, U11old, U21old],
            ein% "-1" "kbcd,zak,zdcji->zabij" [I.ovvv, U11old, U21old],
            ein% "2" "kbcd,zdk,zacji->zabij" [I.ovvv, U11old, U21old],
            ein% "1" "kacd,zbk,zdcji->zabij" [I.ovvv, U11old, U21old],
            ein% "-2" "kacd,zdk,zbcji->zabij" [I.ovvv, U11old, U21old],
            ein% "1" "zkc,zci,zzbakj->zabij" [g.ov, U11old, U22old],
            ein% "-1" "zkc,zcj,zzbaki->zabij" [g.ov, U11old, U22old],
            ein% "1" "zkc,zbk,zzacji->zabij" [g.ov, U11old, U22old],
            ein% "-1" "zkc,zak,zzbcji->zabij" [g.ov, U11old, U22old],
            ein% "1" "zkc,zck,zzbaji->zabij" [g.ov, U11old, U22old],
            ein% "1" "zkc,zci,zzbakj->zabij" [g.ov, U11old, U22old],
            ein% "-1" "zkc,zcj,zzbaki->zabij" [g.ov, U11old, U22old],
            ein% "1" "zkc,zbk,zzacji->zabij" [g.ov, U11old, U22old],
            ein% "-1" "zkc,zak,zzbcji->zabij" [g.ov, U11old, U22old],
            ein% "1" "zkc,zck,zzbaji->zabij" [g.ov, U11old, U22old],
            ein% "1" "zkc,zbi,zzackj->zabij" [g.ov, U11old, U22old],
            ein% "-1" "zkc,zai,zzbckj->zabij" [g.ov, U11old, U22old],
            ein% "1" "zkc,zci,zzbakj->zabij" [g.ov, U11old, U22old],
            ein% "-1" "zkc,zbj,zzacki->zabij" [g.ov, U11old, U22old],
            ein% "1" "zkc,zaj,zzbcki->zabij" [g.ov, U11old, U22old],
            ein% "-1" "zkc,zcj,zzbaki->zabij" [g.ov, U11old, U22old],
            ein% "1" "zkc,zbk,zzacji->zabij" [g.ov, U11old, U22old],
            ein% "-1" "zkc,zak,zzbcji->zabij" [g.ov, U11old, U22old],
            ein% "-1" "zkc,zbcji,zzak->zabij" [g.ov, U21old, U12old],
            ein% "1" "zkc,zacji,zzbk->zabij" [g.ov, U21old, U12old],
            ein% "-1" "zkc,zbaki,zzcj->zabij" [g.ov, U21old, U12old],
            ein% "1" "zkc,zbcki,zzaj->zabij" [g.ov, U21old, U12old],
            ein% "-1" "zkc,zacki,zzbj->zabij" [g.ov, U21old, U12old],
            ein% "1" "zkc,zbakj,zzci->zabij" [g.ov, U21old, U12old],
            ein% "-1" "zkc,zbckj,zzai->zabij" [g.ov, U21old, U12old],
            ein% "1" "zkc,zackj,zzbi->zabij" [g.ov, U21old, U12old],
            ein% "-1" "zkc,zbcji,zzak->zabij" [g.ov, U21old, U12old],
            ein% "1" "zkc,zacji,zzbk->zabij" [g.ov, U21old, U12old],
            ein% "-1" "zkc,zbaki,zzcj->zabij" [g.ov, U21old, U12old],
            ein% "1" "zkc,zbcki,zzaj->zabij" [g.ov, U21old, U12old],
            ein% "-1" "zkc,zacki,zzbj->zabij" [g.ov, U21old, U12old],
            ein% "1" "zkc,zbakj,zzci->zabij" [g.ov, U21old, U12old],
            ein% "-1" "zkc,zbckj,zzai->zabij" [g.ov, U21old, U12old],
            ein% "1" "zkc,zackj,zzbi->zabij" [g.ov, U21old, U12old],
            ein% "1" "zkc,zbaji,zzck->zabij" [g.ov, U21old, U12old],
            ein% "-1" "zkc,zbcji,zzak->zabij" [g.ov, U21old, U12old],
            ein% "1" "zkc,zacji,zzbk->zabij" [g.ov, U21old, U12old],
            ein% "-1" "zkc,zbaki,zzcj->zabij" [g.ov, U21old, U12old],
            ein% "1" "zkc,zbakj,zzci->zabij" [g.ov, U21old, U12old],
            ein% "-1" "klic,cj,bk,zzal->zabij" [I.ooov, T1old, T1old, U12old],
            ein% "1" "klic,cj,ak,zzbl->zabij" [I.ooov, T1old, T1old, U12old],
            ein% "-1" "klic,bk,al,zzcj->zabij" [I.ooov, T1old, T1old, U12old],
            ein% "1" "kljc,ci,bk,zzal->zabij" [I.ooov, T1old, T1old, U12old],
            ein% "-1" "kljc,ci,ak,zzbl->zabij" [I.ooov, T1old, T1old, U12old],
            ein% "1" "kljc,bk,al,zzci->zabij" [I.ooov, T1old, T1old, U12old],
            ein% "1" "kbcd,di,cj,zzak->zabij" [I.ovvv, T1old, T1old, U12old],
            ein% "-1" "kacd,di,cj,zzbk->zabij" [I.ovvv, T1old, T1old, U12old],
            ein% "1" "kbcd,di,ak,zzcj->zabij" [I.ovvv, T1old, T1old, U12old],
            ein% "-1" "kacd,di,bk,zzcj->zabij" [I.ovvv, T1old, T1old, U12old],
            ein% "-1" "kbcd,dj,ak,zzci->zabij" [I.ovvv, T1old, T1old, U12old],
            ein% "1" "kacd,dj,bk,zzci->zabij" [I.ovvv, T1old, T1old, U12old],
            ein% "1" "z,zkc,ci,zzbakj->zabij" [S1old, g.ov, T1old, U22old],
            ein% "-1" "z,zkc,cj,zzbaki->zabij" [S1old, g.ov, T1old, U22old],
            ein% "1" "z,zkc,bk,zzacji->zabij" [S1old, g.ov, T1old, U22old],
            ein% "-1" "z,zkc,ak,zzbcji->zabij" [S1old, g.ov, T1old, U22old],
            ein% "-1" "z,zkc,bcji,zzak->zabij" [S1old, g.ov, T2old, U12old],
            ein% "1" "z,zkc,acji,zzbk->zabij" [S1old, g.ov, T2old, U12old],
            ein% "-1" "z,zkc,baki,zzcj->zabij" [S1old, g.ov, T2old, U12old],
            ein% "1" "z,zkc,bakj,zzci->zabij" [S1old, g.ov, T2old, U12old],
            ein% "-1" "klcd,zbdji,zaclk->zabij" [I.oovv, U21old, U21old],
            ein% "1" "klcd,zadji,zbclk->zabij" [I.oovv, U21old, U21old],
            ein% "0.5" "klcd,zdcji,zbalk->zabij" [I.oovv, U21old, U21old],
            ein% "-1" "klcd,zbaki,zdclj->zabij" [I.oovv, U21old, U21old],
            ein% "2" "klcd,zbdki,zaclj->zabij" [I.oovv, U21old, U21old],
            ein% "-2" "klcd,zadki,zbclj->zabij" [I.oovv, U21old, U21old],
            ein% "-1" "klcd,zdcki,zbalj->zabij" [I.oovv, U21old, U21old],
            ein% "-0.5" "klcd,di,cj,zzbalk->zabij" [I.oovv, T1old, T1old, U22old],
            ein% "1" "klcd,di,bk,zzaclj->zabij" [I.oovv, T1old, T1old, U22old],
            ein% "-1" "klcd,di,ak,zzbclj->zabij" [I.oovv, T1old, T1old, U22old],
            ein% "1" "klcd,di,ck,zzbalj->zabij" [I.oovv, T1old, T1old, U22old],
            ein% "-1" "klcd,dj,bk,zzacli->zabij" [I.oovv, T1old, T1old, U22old],
            ein% "1" "klcd,dj,ak,zzbcli->zabij" [I.oovv, T1old, T1old, U22old],
            ein% "-1" "klcd,dj,ck,zzbali->zabij" [I.oovv, T1old, T1old, U22old],
            ein% "-0.5" "klcd,bk,al,zzdcji->zabij" [I.oovv, T1old, T1old, U22old],
            ein% "1" "klcd,bk,dl,zzacji->zabij" [I.oovv, T1old, T1old, U22old],
            ein% "-1" "klcd,ak,dl,zzbcji->zabij" [I.oovv, T1old, T1old, U22old],
            ein% "-1" "klcd,di,bakj,zzcl->zabij" [I.oovv, T1old, T2old, U12old],
            ein% "1" "klcd,di,bckj,zzal->zabij" [I.oovv, T1old, T2old, U12old],
            ein% "-1" "klcd,di,ackj,zzbl->zabij" [I.oovv, T1old, T2old, U12old],
            ein% "-0.5" "klcd,di,balk,zzcj->zabij" [I.oovv, T1old, T2old, U12old],
            ein% "1" "klcd,dj,baki,zzcl->zabij" [I.oovv, T1old, T2old, U12old],
            ein% "-1" "klcd,dj,bcki,zzal->zabij" [I.oovv, T1old, T2old, U12old],
            ein% "1" "klcd,dj,acki,zzbl->zabij" [I.oovv, T1old, T2old, U12old],
            ein% "-1" "klcd,bk,adji,zzcl->zabij" [I.oovv, T1old, T2old, U12old],
            ein% "-0.5" "klcd,bk,dcji,zzal->zabij" [I.oovv, T1old, T2old, U12old],
            ein% "1" "klcd,ak,bdji,zzcl->zabij" [I.oovv, T1old, T2old, U12old],
            ein% "1" "klcd,dk,bcji,zzal->zabij" [I.oovv, T1old, T2old, U12old],
            ein% "0.5" "klcd,ak,dcji,zzbl->zabij" [I.oovv, T1old, T2old, U12old],
            ein% "-1" "klcd,dk,acji,zzbl->zabij" [I.oovv, T1old, T2old, U12old],
            ein% "1" "klcd,bk,adli,zzcj->zabij" [I.oovv, T1old, T2old, U12old],
            ein% "-1" "klcd,ak,bdli,zzcj->zabij" [I.oovv, T1old, T2old, U12old],
            ein% "1" "klcd,dk,bali,zzcj->zabij" [I.oovv, T1old, T2old, U12old],
            ein% "0.5" "klcd,dj,balk,zzci->zabij" [I.oovv, T1old, T2old, U12old],
            ein% "-1" "klcd,bk,adlj,zzci->zabij" [I.oovv, T1old, T2old, U12old],
            ein% "1" "klcd,ak,bdlj,zzci->zabij" [I.oovv, T1old, T2old, U12old],
            ein% "-1" "klcd,dk,balj,zzci->zabij" [I.oovv, T1old, T2old, U12old],
            ein% "-2" "klic,cj,zbk,zal->zabij" [I.ooov, T1old, U11old, U11old],
            ein% "-2" "klic,bk,zcj,zal->zabij" [I.ooov, T1old, U11old, U11old],
            ein% "2" "klic,ak,zcj,zbl->zabij" [I.ooov, T1old, U11old, U11old],
            ein% "2" "kljc,ci,zbk,zal->zabij" [I.ooov, T1old, U11old, U11old],
            ein% "2" "kljc,bk,zci,zal->zabij" [I.ooov, T1old, U11old, U11old],
            ein% "-2" "kljc,ak,zci,zbl->zabij" [I.ooov, T1old, U11old, U11old],
            ein% "2" "kbcd,di,zcj,zak->zabij" [I.ovvv, T1old, U11old, U11old],
            ein% "-2" "kacd,di,zcj,zbk->zabij" [I.ovvv, T1old, U11old, U11old],
            ein% "-2" "kbcd,dj,zci,zak->zabij" [I.ovvv, T1old, U11old, U11old],
            ein% "2" "kacd,dj,zci,zbk->zabij" [I.ovvv, T1old, U11old, U11old],
            ein% "2" "kbcd,ak,zdi,zcj->zabij" [I.ovvv, T1old, U11old, U11old],
            ein% "-2" "kacd,bk,zdi,zcj->zabij" [I.ovvv, T1old, U11old, U11old],
            ein% "1" "zkc,ci,zbk,zzaj->zabij" [g.ov, T1old, U11old, U12old],
            ein% "-1" "zkc,ci,zak,zzbj->zabij" [g.ov, T1old, U11old, U12old],
            ein% "1" "zkc,bk,zci,zzaj->zabij" [g.ov, T1old, U11old, U12old],
            ein% "-1" "zkc,ak,zci,zzbj->zabij" [g.ov, T1old, U11old, U12old],
            ein% "-1" "zkc,cj,zbk,zzai->zabij" [g.ov, T1old, U11old, U12old],
            ein% "1" "zkc,cj,zak,zzbi->zabij" [g.ov, T1old, U11old, U12old],
            ein% "-1" "zkc,bk,zcj,zzai->zabij" [g.ov, T1old, U11old, U12old],
            ein% "1" "zkc,ak,zcj,zzbi->zabij" [g.ov, T1old, U11old, U12old],
            ein% "1" "zkc,ci,zbk,zzaj->zabij" [g.ov, T1old, U11old, U12old],
            ein% "-1" "zkc,ci,zak,zzbj->zabij" [g.ov, T1old, U11old, U12old],
            ein% "1" "zkc,bk,zci,zzaj->zabij" [g.ov, T1old, U11old, U12old],
            ein% "-1" "zkc,ak,zci,zzbj->zabij" [g.ov, T1old, U11old, U12old],
            ein% "-1" "zkc,cj,zbk,zzai->zabij" [g.ov, T1old, U11old, U12old],
            ein% "1" "zkc,cj,zak,zzbi->zabij" [g.ov, T1old, U11old, U12old],
            ein% "-1" "zkc,bk,zcj,zzai->zabij" [g.ov, T1old, U11old, U12old],
            ein% "1" "zkc,ak,zcj,zzbi->zabij" [g.ov, T1old, U11old, U12old],
            ein% "-1" "zkc,ci,zbj,zzak->zabij" [g.ov, T1old, U11old, U12old],
            ein% "1" "zkc,ci,zaj,zzbk->zabij" [g.ov, T1old, U11old, U12old],
            ein% "1" "zkc,cj,zbi,zzak->zabij" [g.ov, T1old, U11old, U12old],
            ein% "-1" "zkc,cj,zai,zzbk->zabij" [g.ov, T1old, U11old, U12old],
            ein% "-1" "zkc,bk,zai,zzcj->zabij" [g.ov, T1old, U11old, U12old],
            ein% "1" "zkc,ak,zbi,zzcj->zabij" [g.ov, T1old, U11old, U12old],
            ein% "1" "zkc,bk,zaj,zzci->zabij" [g.ov, T1old, U11old, U12old],
            ein% "-1" "zkc,ak,zbj,zzci->zabij" [g.ov, T1old, U11old, U12old],
            ein% "2" "z,zkc,zci,zbakj->zabij" [S1old, g.ov, U11old, U21old],
            ein% "-2" "z,zkc,zcj,zbaki->zabij" [S1old, g.ov, U11old, U21old],
            ein% "2" "z,zkc,zbk,zacji->zabij" [S1old, g.ov, U11old, U21old],
            ein% "-2" "z,zkc,zak,zbcji->zabij" [S1old, g.ov, U11old, U21old],
            ein% "-1" "klcd,di,zcj,zbalk->zabij" [I.oovv, T1old, U11old, U21old],
            ein% "2" "klcd,di,zbk,zaclj->zabij" [I.oovv, T1old, U11old, U21old],
            ein% "-2" "klcd,di,zak,zbclj->zabij" [I.oovv, T1old, U11old, U21old],
            ein% "2" "klcd,di,zck,zbalj->zabij" [I.oovv, T1old, U11old, U21old],
            ein% "1" "klcd,dj,zci,zbalk->zabij" [I.oovv, T1old, U11old, U21old],
            ein% "2" "klcd,bk,zdi,zaclj->zabij" [I.oovv, T1old, U11old, U21old],
            ein% "-2" "klcd,ak,zdi,zbclj->zabij" [I.oovv, T1old, U11old, U21old],
            ein% "-2" "klcd,dk,zci,zbalj->zabij" [I.oovv, T1old, U11old, U21old],
            ein% "-2" "klcd,dj,zbk,zacli->zabij" [I.oovv, T1old, U11old, U21old],
            ein% "2" "klcd,dj,zak,zbcli->zabij" [I.oovv, T1old, U11old, U21old],
            ein% "-2" "klcd,dj,zck,zbali->zabij" [I.oovv, T1old, U11old, U21old],
            ein% "-2" "klcd,bk,zdj,zacli->zabij" [I.oovv, T1old, U11old, U21old],
            ein% "2" "klcd,ak,zdj,zbcli->zabij" [I.oovv, T1old, U11old, U21old],
            ein% "2" "klcd,dk,zcj,zbali->zabij" [I.oovv, T1old, U11old, U21old],
            ein% "-1" "klcd,bk,zal,zdcji->zabij" [I.oovv, T1old, U11old, U21old],
            ein% "2" "klcd,bk,zdl,zacji->zabij" [I.oovv, T1old, U11old, U21old],
            ein% "1" "klcd,ak,zbl,zdcji->zabij" [I.oovv, T1old, U11old, U21old],
            ein% "-2" "klcd,dk,zbl,zacji->zabij" [I.oovv, T1old, U11old, U21old],
            ein% "-2" "klcd,ak,zdl,zbcji->zabij" [I.oovv, T1old, U11old, U21old],
            ein% "2" "klcd,dk,zal,zbcji->zabij" [I.oovv, T1old, U11old, U21old],
            ein% "2" "klcd,bdji,zak,zcl->zabij" [I.oovv, T2old, U11old, U11old],
            ein% "-2" "klcd,adji,zbk,zcl->zabij" [I.oovv, T2old, U11old, U11old],
            ein% "-1" "klcd,dcji,zbk,zal->zabij" [I.oovv, T2old, U11old, U11old],
            ein% "2" "klcd,baki,zdj,zcl->zabij" [I.oovv, T2old, U11old, U11old],
            ein% "2" "klcd,bdki,zcj,zal->zabij" [I.oovv, T2old, U11old, U11old],
            ein% "-2" "klcd,adki,zcj,zbl->zabij" [I.oovv, T2old, U11old, U11old],
            ein% "-2" "klcd,bakj,zdi,zcl->zabij" [I.oovv, T2old, U11old, U11old],
            ein% "-2" "klcd,bdkj,zci,zal->zabij" [I.oovv, T2old, U11old, U11old],
            ein% "2" "klcd,adkj,zci,zbl->zabij" [I.oovv, T2old, U11old, U11old],
            ein% "-1" "klcd,balk,zdi,zcj->zabij" [I.oovv, T2old, U11old, U11old],
            ein% "2" "zkc,zbi,zcj,zak->zabij" [g.ov, U11old, U11old, U11old],
            ein% "-2" "zkc,zci,zbj,zak->zabij" [g.ov, U11old, U11old, U11old],
            ein% "-2" "zkc,zai,zcj,zbk->zabij" [g.ov, U11old, U11old, U11old],
            ein% "2" "zkc,zci,zaj,zbk->zabij" [g.ov, U11old, U11old, U11old]]])))

end OpenMS.Qedcc
