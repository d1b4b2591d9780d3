/-
The QED-CCSD residuals with intermediates of
openms/mqed/myqedcc_equations_opt.py, line by line.
`n1` and `n2` are `nfock1` and `nfock2`; `u2` says whether `U2nold[0]` is not `None`.
`g` is always given.  An early `return` is a condition on the rest.  Consecutive
lines that add to the same array form one statement.  Coefficients and index strings
are those of the code.
-/
import Verif.Model.QedccTensors

set_option linter.unusedVariables false

namespace OpenMS.Qedcc

open Einsum

/-- openms/mqed/myqedcc_equations_opt.py L46-103: `Imds.build`. -/
def imdsBuild (n1 n2 : Nat) (u2 : Bool) : List Def :=
  [set imds.T2A [
      cpy% "1" T2old],
   set imds.T1T1 [
      ein% "1" "ai,bj->abij" [T1old, T1old]],
   add imds.T2A [
      cpy% "0.5" imds.T1T1,
      ein% "-0.5" "bi,aj->abij" [T1old, T1old]]] ++
  when (0 < n2) (
    [set imds.Xov [
        ein% "1" "ijab,xbj->xia" [I.oovv, U11old]]]) ++
  [set imds.Fvv [
      cpy% "1" F.vv,
      ein% "-0.5" "jb,aj->ab" [F.ov, T1old],
      ein% "-1" "ajcb,cj->ab" [I.vovv, T1old],
      ein% "-0.5" "jkbc,acjk->ab" [I.oovv, imds.T2A]]] ++
  when (0 < n1) (
    [add imds.Fvv [
        ein% "1" "xab,x->ab" [g.vv, S1old]]]) ++
  when (0 < n2) (
    [add imds.Fvv [
        ein% "-1" "yjb,yaj->ab" [g.ov, U11old]]]) ++
  [set imds.Foo [
      cpy% "1" F.oo,
      ein% "0.5" "jb,bi->ji" [F.ov, T1old],
      ein% "1" "jkib,bk->ji" [I.ooov, T1old],
      ein% "0.5" "jkbc,bcik->ji" [I.oovv, imds.T2A]]] ++
  when (0 < n1) (
    [add imds.Foo [
        ein% "1" "xji,x->ji" [g.oo, S1old]]]) ++
  when (0 < n2) (
    [add imds.Foo [
        ein% "1" "yjb,ybi->ji" [g.ov, U11old]]]) ++
  [set imds.Wovvo [
      tr% "-1" [1, 0, 2, 3] I.vovo,
      ein% "-1" "bkcd,dj->kbcj" [I.vovv, T1old],
      ein% "1" "kljc,bl->kbcj" [I.ooov, T1old]],
   set temp [
      cpy% "0.5" T2old,
      ein% "1" "dj,bl->dbjl" [T1old, T1old]],
   add imds.Wovvo [
      ein% "-1" "klcd,dbjl->kbcj" [I.oovv, temp]]] ++
  when (0 < n2) (
    [set imds.gU1xy [
        ein% "1" "Jia,Iai->JI" [g.ov, U11old]]]) ++
  [set imds.gtm [
      ein% "1" "xia,ai->x" [g.ov, T1old]]] ++
  when (0 < n1) (
    [set imds.gsov [
        ein% "1" "yia,y->ia" [g.ov, S1old]]]) ++
  [set imds.Fov [
      cpy% "1" F.ov,
      ein% "1" "jkbc,ck->jb" [I.oovv, T1old]],
   add imds.Fov [
      cpy% "1" imds.gsov],
   set imds.gT1oo [
      ein% "1" "Ijb,bi->Iji" [g.ov, T1old]],
   set imds.gT1T1ov [
      ein% "1" "Iji,aj->Iai" [imds.gT1oo, T1old]]] ++
  when (0 < n2) (
    [set imds.gvoU11_oovv [
        ein% "1" "Iai,Ibj->abij" [g.vo, U11old]]])

/-- openms/mqed/myqedcc_equations_opt.py L375-538: `qedccsd_T1T2_opt`. -/
def optT (n1 n2 : Nat) (u2 : Bool) : List Def :=
  [set T1 [
      cpy% "1" F.vo]] ++
  when (0 < n1) (
    [add T1 [
        ein% "1" "xai,x->ai" [g.vo, S1old],
        ein% "1" "x,xai->ai" [G, U11old]]]) ++
  [set T2 [
      cpy% "1" I.vvoo]] ++
  when (0 < n2) (
    [set abij_temp [
        ein% "1" "xai,xbj->abij" [g.vo, U11old]],
     add T2 [
        cpy% "1" abij_temp,
        tr% "-1" [1, 0, 2, 3] abij_temp,
        tr% "-1" [0, 1, 3, 2] abij_temp,
        tr% "1" [1, 0, 3, 2] abij_temp]]) ++
  [set T2A [
      cpy% "1" T2old],
   set T1T1 [
      ein% "1" "ai,bj->abij" [T1old, T1old]],
   add T2A [
      cpy% "0.5" T1T1,
      ein% "-0.5" "bi,aj->abij" [T1old, T1old]],
   set Fvv [
      cpy% "1" F.vv,
      ein% "-0.5" "jb,aj->ab" [F.ov, T1old],
      ein% "-1" "ajcb,cj->ab" [I.vovv, T1old],
      ein% "-0.5" "jkbc,acjk->ab" [I.oovv, T2A]]] ++
  when (0 < n1) (
    [add Fvv [
        ein% "1" "xab,x->ab" [g.vv, S1old],
        ein% "-1" "yjb,yaj->ab" [g.ov, U11old]]]) ++
  [set Foo [
      cpy% "1" F.oo,
      ein% "0.5" "jb,bi->ji" [F.ov, T1old],
      ein% "1" "jkib,bk->ji" [I.ooov, T1old],
      ein% "0.5" "jkbc,bcik->ji" [I.oovv, T2A]]] ++
  when (0 < n1) (
    [add Foo [
        ein% "1" "xji,x->ji" [g.oo, S1old],
        ein% "1" "yjb,ybi->ji" [g.ov, U11old]]]) ++
  [set Fov [
      cpy% "1" F.ov,
      ein% "1" "jkbc,ck->jb" [I.oovv, T1old]],
   set gsov [
      ein% "1" "yia,y->ia" [g.ov, S1old]],
   set gtm [
      ein% "1" "xjb,bj->x" [g.ov, T1old]],
   add Fov [
      cpy% "1" gsov],
   add T1 [
      ein% "1" "ab,bi->ai" [Fvv, T1old],
      ein% "-1" "ji,aj->ai" [Foo, T1old],
      ein% "1" "jb,abij->ai" [Fov, T2old],
      ein% "-1" "ajbi,bj->ai" [I.vovo, T1old],
      ein% "0.5" "ajbc,bcij->ai" [I.vovv, T2old],
      ein% "-0.5" "jkib,abjk->ai" [I.ooov, T2old]],
   set T2B [
      cpy% "1" T2old,
      ein% "1" "ai,bj->abij" [T1old, T1old],
      ein% "-1" "bi,aj->abij" [T1old, T1old]],
   set Woooo [
      cpy% "1" I.oooo,
      ein% "1" "klic,cj->klij" [I.ooov, T1old],
      ein% "-1" "kljc,ci->klij" [I.ooov, T1old],
      ein% "0.25" "klcd,cdij->klij" [I.oovv, T2B]],
   add T2 [
      ein% "0.5" "klij,abkl->abij" [Woooo, T2B]],
   set Wvvvv [
      cpy% "1" I.vvvv,
      ein% "-1" "akcd,bk->abcd" [I.vovv, T1old],
      ein% "1" "bkcd,ak->abcd" [I.vovv, T1old],
      ein% "0.25" "klcd,abkl->abcd" [I.oovv, T2B]],
   add T2 [
      ein% "0.5" "abcd,cdij->abij" [Wvvvv, T2B]],
   set Wovvo [
      tr% "-1" [1, 0, 2, 3] I.vovo,
      ein% "-1" "bkcd,dj->kbcj" [I.vovv, T1old],
      ein% "1" "kljc,bl->kbcj" [I.ooov, T1old]],
   set temp [
      cpy% "0.5" T2old,
      ein% "1" "dj,bl->dbjl" [T1old, T1old]],
   add Wovvo [
      ein% "-1" "klcd,dbjl->kbcj" [I.oovv, temp]],
   set temp [
      ein% "1" "kbcj,acik->abij" [Wovvo, T2old],
      ein% "1" "bkcj,ci,ak->abij" [I.vovo, T1old, T1old]],
   add T2 [
      cpy% "1" temp,
      tr% "-1" [0, 1, 3, 2] temp,
      tr% "-1" [1, 0, 2, 3] temp,
      tr% "1" [1, 0, 3, 2] temp],
   set Ftemp [
      cpy% "1" Fvv,
      ein% "-0.5" "jb,aj->ab" [Fov, T1old]],
   set temp_ab [
      ein% "1" "bc,acij->abij" [Ftemp, T2old],
      ein% "1" "bkij,ak->abij" [I.vooo, T1old]],
   add T2 [
      cpy% "1" temp_ab,
      tr% "-1" [1, 0, 2, 3] temp_ab],
   set Ftemp' [
      cpy% "1" Foo,
      ein% "0.5" "jb,bi->ji" [Fov, T1old]],
   set temp_ij [
      ein% "-1" "kj,abik->abij" [Ftemp', T2old],
      ein% "1" "abcj,ci->abij" [I.vvvo, T1old]],
   add T2 [
      cpy% "1" temp_ij,
      tr% "-1" [0, 1, 3, 2] temp_ij],
   add T1 [
      ein% "1" "xab,xbi->ai" [g.vv, U11old],
      ein% "-1" "xji,xaj->ai" [g.oo, U11old],
      ein% "1" "x,xai->ai" [gtm, U11old]],
   set ttt [
      ein% "1" "jb,bi->ji" [gsov, T1old]],
   add T1 [
      ein% "-1" "ji,aj->ai" [ttt, T1old]],
   set gtov [
      ein% "1" "xac,ci->xai" [g.vv, T1old],
      ein% "-1" "xki,ak->xai" [g.oo, T1old]],
   set temp_abij [
      ein% "1" "xai,xbj->abij" [gtov, U11old]],
   set T2temp [
      cpy% "1" T2old,
      ein% "-1" "bi,aj->abij" [T1old, T1old]],
   set Wmvo [
      ein% "1" "xkc,acik->xai" [g.ov, T2temp]],
   add temp_abij [
      ein% "1" "xai,xbj->abij" [Wmvo, U11old]],
   add T2 [
      cpy% "1" temp_abij,
      tr% "-1" [1, 0, 2, 3] temp_abij,
      tr% "-1" [0, 1, 3, 2] temp_abij,
      tr% "1" [1, 0, 3, 2] temp_abij],
   set gstv [
      ein% "1" "kc,bk->bc" [gsov, T1old]],
   set temp_ab [
      ein% "-0.5" "bc,acij->abij" [gstv, T2old]],
   add T2 [
      cpy% "1" temp_ab,
      tr% "-1" [1, 0, 2, 3] temp_ab],
   set gsto [
      ein% "1" "kc,cj->kj" [gsov, T1old]],
   set temp_ij [
      ein% "-0.5" "kj,abik->abij" [gsto, T2old]],
   add T2 [
      cpy% "1" temp_ij,
      tr% "-1" [0, 1, 3, 2] temp_ij]] ++
  when (u2) (
    [add T1 [
        ein% "-1" "Ijb,Iabji->ai" [g.ov, U21old]],
     set gT2_ovvv [
        ein% "1" "Ikc,Ibcij->bkij" [g.ov, U21old]],
     add T2 [
        ein% "1" "Iki,Ibakj->abij" [g.oo, U21old],
        ein% "-1" "Ikj,Ibaki->abij" [g.oo, U21old],
        ein% "1" "Iac,Ibcji->abij" [g.vv, U21old],
        ein% "-1" "Ibc,Iacji->abij" [g.vv, U21old],
        ein% "-1" "Ikc,ak,Ibcji->abij" [g.ov, T1old, U21old],
        ein% "1" "Ikc,bk,Iacji->abij" [g.ov, T1old, U21old],
        ein% "1" "Ikc,ci,Ibakj->abij" [g.ov, T1old, U21old],
        ein% "-1" "Ikc,cj,Ibaki->abij" [g.ov, T1old, U21old],
        ein% "1" "Ikc,ck,Ibaji->abij" [g.ov, T1old, U21old]]])

/-- openms/mqed/myqedcc_equations_opt.py L541-603: `qedccsd_Sn`; `S1` and `S2` before the elements of modes with frequency zero are set
to zero (L573-575, L597-599). -/
def optS (n1 n2 : Nat) (u2 : Bool) : List Def :=
  when (0 < n1) (
    [set S1 [
        ein% "1" "I,I->I" [w, S1old],
        ein% "1" "ia,Iai->I" [F.ov, U11old],
        ein% "1" "Iia,ai->I" [g.ov, T1old],
        ein% "1" "JI,J->I" [imds.gU1xy, S1old],
        ein% "1" "xia,ai->x" [imds.Xov, T1old]]] ++
    when (u2) (
      [add S1 [
          ein% "0.25" "ijab,Ibaji->I" [I.oovv, U21old]]]) ++
    when (1 < n1) (
      [add S1 [
          ein% "1" "J,IJ->I" [imds.gtm, S2old]]]) ++
    when (1 < n2) (
      [add S1 [
          ein% "1" "Jia,IJai->I" [g.ov, U12old]]]) ++
    when (1 < n1) (
      [set S2 [
          ein% "1" "I,JI->IJ" [w, S2old],
          ein% "1" "J,IJ->IJ" [w, S2old],
          ein% "1" "Iia,Jai->IJ" [g.ov, U11old],
          ein% "1" "Jia,Iai->IJ" [g.ov, U11old],
          ein% "1" "Kia,IK,Jai->IJ" [g.ov, S2old, U11old],
          ein% "1" "Kia,JK,Iai->IJ" [g.ov, S2old, U11old],
          ein% "-1" "ijab,Ibi,Jaj->IJ" [I.oovv, U11old, U11old]]] ++
      when (1 < n2) (
        [add S2 [
            ein% "1" "ia,IJai->IJ" [F.ov, U12old]]] ++
        when (u2) (
          [add S2 [
              ein% "0.25" "ijab,IJbaji->IJ" [I.oovv, U22old]]]) ++
        [add S2 [
            ein% "1" "Kia,K,IJai->IJ" [g.ov, S1old, U12old],
            ein% "-1" "ijab,bi,IJaj->IJ" [I.oovv, T1old, U12old]]])))

/-- openms/mqed/myqedcc_equations_opt.py L2251-2560: `qedccsd_U1n_opt`. -/
def optU1 (n1 n2 : Nat) (u2 : Bool) : List Def :=
  when (0 < n2) (
    when (0 < n2) (
      [set U11 [
          cpy% "1" g.vo,
          ein% "1" "I,Iai->Iai" [w, U11old]],
       set Xov [
          ein% "1" "ijab,xbj->xia" [I.oovv, U11old]],
       add U11 [
          ein% "0.5" "xjb,abij->xai" [Xov, T2old],
          ein% "1" "Iab,bi->Iai" [g.vv, T1old],
          ein% "-1" "Iji,aj->Iai" [g.oo, T1old]],
       set T2temp [
          cpy% "1" T2old,
          ein% "-1" "bi,aj->abij" [T1old, T1old]],
       add U11 [
          ein% "1" "xjb,abij->xai" [h.ov, T2temp],
          ein% "1" "ab,Ibi->Iai" [imds.Fvv, U11old],
          ein% "-1" "ji,xaj->xai" [imds.Foo, U11old],
          ein% "1" "jabi,xbj->xai" [imds.Wovvo, U11old]],
       set Xvv [
          ein% "1" "jb,aj->ab" [imds.Fov, T1old],
          ein% "1" "jb,aj->ab" [imds.gsov, T1old]],
       add U11 [
          ein% "-0.5" "ab,xbi->xai" [Xvv, U11old]],
       set Xoo [
          ein% "1" "jb,bi->ji" [imds.Fov, T1old],
          ein% "1" "jb,bi->ji" [imds.gsov, T1old]],
       add U11 [
          ein% "-0.5" "ji,xaj->xai" [Xoo, U11old]],
       set Xmm [
          ein% "1" "yjb,xbj->xy" [g.ov, U11old]],
       add U11 [
          ein% "1" "xy,yai->xai" [Xmm, U11old]]] ++
      when (u2) (
        [add U11 [
            ein% "-1" "jb,Iabji->Iai" [F.ov, U21old]]]) ++
      when (1 < n2) (
        [add U11 [
            ein% "-1" "Jji,IJaj->Iai" [g.oo, U12old],
            ein% "1" "Jab,IJbi->Iai" [g.vv, U12old],
            ein% "-1" "Jjb,aj,IJbi->Iai" [g.ov, T1old, U12old],
            ein% "-1" "Jjb,bi,IJaj->Iai" [g.ov, T1old, U12old],
            ein% "1" "J,IJai->Iai" [imds.gtm, U12old]]] ++
        when (u2) (
          [add U11 [
              ein% "-1" "Jjb,IJabji->Iai" [g.ov, U22old]]])) ++
      when (u2) (
        [add U11 [
            ein% "0.5" "jkib,Iabkj->Iai" [I.ooov, U21old],
            ein% "0.5" "ajbc,Icbji->Iai" [I.vovv, U21old],
            ein% "-1" "Jjb,J,Iabji->Iai" [g.ov, S1old, U21old],
            ein% "-0.5" "jkbc,aj,Icbki->Iai" [I.oovv, T1old, U21old],
            ein% "-0.5" "jkbc,ci,Iabkj->Iai" [I.oovv, T1old, U21old],
            ein% "1" "jkbc,cj,Iabki->Iai" [I.oovv, T1old, U21old]]]) ++
      when (1 < n1) (
        [add U11 [
            ein% "1" "Jai,IJ->Iai" [g.vo, S2old],
            ein% "-1" "Jji,aj,IJ->Iai" [g.oo, T1old, S2old],
            ein% "1" "Jab,bi,IJ->Iai" [g.vv, T1old, S2old],
            ein% "-1" "Jjb,abji,IJ->Iai" [g.ov, T2old, S2old],
            ein% "-1" "Jai,IJ->Iai" [imds.gT1T1ov, S2old]]]) ++
      when (1 < n2) (
        [set U12 [
            ein% "-2" "Iji,Jaj->IJai" [g.oo, U11old],
            ein% "2" "Iab,Jbi->IJai" [g.vv, U11old],
            ein% "2" "I,JIai->IJai" [w, U12old],
            ein% "1" "ab,IJbi->IJai" [imds.Fvv, U12old],
            ein% "-1" "ji,IJaj->IJai" [imds.Foo, U12old]],
         set gU11_vv [
            ein% "-1" "Jjb,Iaj->JIab" [g.ov, U11old]],
         add U12 [
            ein% "2" "KIab,JKbi->IJai" [gU11_vv, U12old]],
         set gU11_oo [
            ein% "-1" "Kjb,Ibi->KIij" [g.ov, U11old]],
         add U12 [
            ein% "2" "KIij,JKaj->IJai" [gU11_oo, U12old],
            ein% "1" "jabi,IJbj->IJai" [imds.Wovvo, U12old],
            ein% "-0.5" "ab,IJbi->IJai" [Xvv, U12old],
            ein% "-0.5" "ji,IJaj->IJai" [Xoo, U12old],
            ein% "2" "IK,JKai->IJai" [Xmm, U12old]],
         set Xmmm [
            ein% "1" "Kjb,IJbj->IJK" [g.ov, U12old]],
         add U12 [
            ein% "1" "Kai,IJK->IJai" [U11old, Xmmm],
            ein% "-2" "jb,Iaj,Jbi->IJai" [F.ov, U11old, U11old],
            ein% "-2" "Ijb,aj,Jbi->IJai" [g.ov, T1old, U11old],
            ein% "-2" "Ijb,bi,Jaj->IJai" [g.ov, T1old, U11old],
            ein% "-1" "jb,Iaj,Jbi->IJai" [imds.gsov, U11old, U11old],
            ein% "-1" "jb,Ibi,Jaj->IJai" [imds.gsov, U11old, U11old],
            ein% "-1" "jkib,Iaj,Jbk->IJai" [I.ooov, U11old, U11old],
            ein% "1" "jkib,Ibj,Jak->IJai" [I.ooov, U11old, U11old],
            ein% "1" "ajbc,Icj,Jbi->IJai" [I.vovv, U11old, U11old],
            ein% "-1" "ajbc,Ici,Jbj->IJai" [I.vovv, U11old, U11old],
            ein% "-1" "jkbc,aj,Ick,Jbi->IJai" [I.oovv, T1old, U11old, U11old],
            ein% "1" "jkbc,aj,Ici,Jbk->IJai" [I.oovv, T1old, U11old, U11old],
            ein% "-1" "jkbc,ci,Ibj,Jak->IJai" [I.oovv, T1old, U11old, U11old],
            ein% "1" "jkbc,ci,Iaj,Jbk->IJai" [I.oovv, T1old, U11old, U11old],
            ein% "1" "jkbc,cj,Iak,Jbi->IJai" [I.oovv, T1old, U11old, U11old],
            ein% "1" "jkbc,cj,Ibi,Jak->IJai" [I.oovv, T1old, U11old, U11old]]] ++
        when (u2) (
          [set tmpg [
              cpy% "1" F.ov,
              cpy% "1" imds.gsov],
           add U12 [
              ein% "-1" "jb,IJabji->IJai" [tmpg, U22old],
              ein% "-2" "Ijb,Jabji->IJai" [g.ov, U21old],
              ein% "0.5" "jkib,IJabkj->IJai" [I.ooov, U22old],
              ein% "0.5" "ajbc,IJcbji->IJai" [I.vovv, U22old],
              ein% "-0.5" "jkbc,aj,IJcbki->IJai" [I.oovv, T1old, U22old],
              ein% "-1" "jkbc,ci,IJabkj->IJai" [I.oovv, T1old, U22old],
              ein% "2" "jkbc,cj,IJabki->IJai" [I.oovv, T1old, U22old],
              ein% "-2" "jkbc,Iaj,Jcbki->IJai" [I.oovv, U11old, U21old],
              ein% "-2" "jkbc,Ici,Jabkj->IJai" [I.oovv, U11old, U21old],
              ein% "4" "jkbc,Icj,Jabki->IJai" [I.oovv, U11old, U21old]]] ++
          when (1 < n1) (
            [add U12 [
                ein% "-2" "Kjb,IK,Jabji->IJai" [g.ov, S2old, U21old]]])) ++
        when (1 < n1) (
          [add U12 [
              ein% "-2" "Kji,IK,Jaj->IJai" [g.oo, S2old, U11old],
              ein% "2" "Kab,IK,Jbi->IJai" [g.vv, S2old, U11old],
              ein% "-2" "Kjb,aj,IK,Jbi->IJai" [g.ov, T1old, S2old, U11old],
              ein% "-2" "Kjb,bi,IK,Jaj->IJai" [g.ov, T1old, S2old, U11old]]]))))

/-- openms/mqed/myqedcc_equations_opt.py L2563-3261: `qedccsd_U2n_opt`; `U22` is computed for the first mode only, letter `z`. -/
def optU2 (n1 n2 : Nat) (u2 : Bool) : List Def :=
  when (0 < n2) (
    when (u2) (
      when (0 < n2) (
        [set U21 [
            ein% "-1" "Ikc,ak,bcji->Iabij" [g.ov, T1old, T2old],
            ein% "1" "Ikc,bk,acji->Iabij" [g.ov, T1old, T2old],
            ein% "1" "Ikc,ci,bakj->Iabij" [g.ov, T1old, T2old],
            ein% "-1" "Ikc,cj,baki->Iabij" [g.ov, T1old, T2old],
            ein% "1" "Iki,bakj->Iabij" [g.oo, T2old],
            ein% "-1" "Ikj,baki->Iabij" [g.oo, T2old],
            ein% "1" "Iac,bcji->Iabij" [g.vv, T2old],
            ein% "-1" "Ibc,acji->Iabij" [g.vv, T2old],
            ein% "-1" "kj,Ibaki->Iabij" [F.oo, U21old],
            ein% "1" "ki,Ibakj->Iabij" [F.oo, U21old],
            ein% "1" "ac,Ibcji->Iabij" [F.vv, U21old],
            ein% "-1" "bc,Iacji->Iabij" [F.vv, U21old],
            ein% "1" "I,Ibaji->Iabij" [w, U21old],
            ein% "-0.5" "klji,Ibalk->Iabij" [I.oooo, U21old],
            ein% "1" "akci,Ibckj->Iabij" [I.vovo, U21old],
            ein% "-1" "akcj,Ibcki->Iabij" [I.vovo, U21old],
            ein% "-1" "bkci,Iackj->Iabij" [I.vovo, U21old],
            ein% "1" "bkcj,Iacki->Iabij" [I.vovo, U21old],
            ein% "-0.5" "bacd,Idcji->Iabij" [I.vvvv, U21old],
            ein% "-1" "kc,ak,Ibcji->Iabij" [F.ov, T1old, U21old],
            ein% "1" "kc,bk,Iacji->Iabij" [F.ov, T1old, U21old],
            ein% "1" "kc,ci,Ibakj->Iabij" [F.ov, T1old, U21old],
            ein% "-1" "kc,cj,Ibaki->Iabij" [F.ov, T1old, U21old],
            ein% "1" "Jki,J,Ibakj->Iabij" [g.oo, S1old, U21old],
            ein% "-1" "Jkj,J,Ibaki->Iabij" [g.oo, S1old, U21old],
            ein% "1" "Jac,J,Ibcji->Iabij" [g.vv, S1old, U21old],
            ein% "-1" "Jbc,J,Iacji->Iabij" [g.vv, S1old, U21old],
            ein% "-1" "Jkc,Iak,Jbcji->Iabij" [g.ov, U11old, U21old],
            ein% "1" "Jkc,Ibk,Jacji->Iabij" [g.ov, U11old, U21old],
            ein% "1" "Jkc,Ici,Jbakj->Iabij" [g.ov, U11old, U21old],
            ein% "-1" "Jkc,Icj,Jbaki->Iabij" [g.ov, U11old, U21old],
            ein% "1" "Jkc,Ick,Jbaji->Iabij" [g.ov, U11old, U21old],
            ein% "-1" "Jkc,Jai,Ibckj->Iabij" [g.ov, U11old, U21old],
            ein% "1" "Jkc,Jaj,Ibcki->Iabij" [g.ov, U11old, U21old],
            ein% "-1" "Jkc,Jak,Ibcji->Iabij" [g.ov, U11old, U21old],
            ein% "1" "Jkc,Jbi,Iackj->Iabij" [g.ov, U11old, U21old],
            ein% "-1" "Jkc,Jbj,Iacki->Iabij" [g.ov, U11old, U21old],
            ein% "1" "Jkc,Jbk,Iacji->Iabij" [g.ov, U11old, U21old],
            ein% "1" "Jkc,Jci,Ibakj->Iabij" [g.ov, U11old, U21old],
            ein% "-1" "Jkc,Jcj,Ibaki->Iabij" [g.ov, U11old, U21old],
            ein% "1" "klic,ak,Ibclj->Iabij" [I.ooov, T1old, U21old],
            ein% "-1" "klic,bk,Iaclj->Iabij" [I.ooov, T1old, U21old],
            ein% "0.5" "klic,cj,Ibalk->Iabij" [I.ooov, T1old, U21old],
            ein% "-1" "klic,ck,Ibalj->Iabij" [I.ooov, T1old, U21old],
            ein% "-1" "kljc,ak,Ibcli->Iabij" [I.ooov, T1old, U21old],
            ein% "1" "kljc,bk,Iacli->Iabij" [I.ooov, T1old, U21old],
            ein% "-0.5" "kljc,ci,Ibalk->Iabij" [I.ooov, T1old, U21old],
            ein% "1" "kljc,ck,Ibali->Iabij" [I.ooov, T1old, U21old],
            ein% "-0.5" "akcd,bk,Idcji->Iabij" [I.vovv, T1old, U21old],
            ein% "1" "akcd,di,Ibckj->Iabij" [I.vovv, T1old, U21old],
            ein% "-1" "akcd,dj,Ibcki->Iabij" [I.vovv, T1old, U21old],
            ein% "1" "akcd,dk,Ibcji->Iabij" [I.vovv, T1old, U21old],
            ein% "0.5" "bkcd,ak,Idcji->Iabij" [I.vovv, T1old, U21old],
            ein% "-1" "bkcd,di,Iackj->Iabij" [I.vovv, T1old, U21old],
            ein% "1" "bkcd,dj,Iacki->Iabij" [I.vovv, T1old, U21old],
            ein% "-1" "bkcd,dk,Iacji->Iabij" [I.vovv, T1old, U21old],
            ein% "0.5" "klcd,adji,Ibclk->Iabij" [I.oovv, T2old, U21old],
            ein% "-1" "klcd,adki,Ibclj->Iabij" [I.oovv, T2old, U21old],
            ein% "1" "klcd,adkj,Ibcli->Iabij" [I.oovv, T2old, U21old],
            ein% "0.5" "klcd,adlk,Ibcji->Iabij" [I.oovv, T2old, U21old],
            ein% "-0.5" "klcd,baki,Idclj->Iabij" [I.oovv, T2old, U21old],
            ein% "0.5" "klcd,bakj,Idcli->Iabij" [I.oovv, T2old, U21old],
            ein% "0.25" "klcd,balk,Idcji->Iabij" [I.oovv, T2old, U21old],
            ein% "-0.5" "klcd,bdji,Iaclk->Iabij" [I.oovv, T2old, U21old],
            ein% "1" "klcd,bdki,Iaclj->Iabij" [I.oovv, T2old, U21old],
            ein% "-1" "klcd,bdkj,Iacli->Iabij" [I.oovv, T2old, U21old],
            ein% "-0.5" "klcd,bdlk,Iacji->Iabij" [I.oovv, T2old, U21old],
            ein% "0.25" "klcd,dcji,Ibalk->Iabij" [I.oovv, T2old, U21old],
            ein% "-0.5" "klcd,dcki,Ibalj->Iabij" [I.oovv, T2old, U21old],
            ein% "0.5" "klcd,dckj,Ibali->Iabij" [I.oovv, T2old, U21old],
            ein% "-1" "Jkc,ak,J,Ibcji->Iabij" [g.ov, T1old, S1old, U21old],
            ein% "1" "Jkc,bk,J,Iacji->Iabij" [g.ov, T1old, S1old, U21old],
            ein% "1" "Jkc,ci,J,Ibakj->Iabij" [g.ov, T1old, S1old, U21old],
            ein% "-1" "Jkc,cj,J,Ibaki->Iabij" [g.ov, T1old, S1old, U21old],
            ein% "-1" "klcd,ak,dl,Ibcji->Iabij" [I.oovv, T1old, T1old, U21old],
            ein% "-0.5" "klcd,bk,al,Idcji->Iabij" [I.oovv, T1old, T1old, U21old],
            ein% "1" "klcd,bk,dl,Iacji->Iabij" [I.oovv, T1old, T1old, U21old],
            ein% "-1" "klcd,di,ak,Ibclj->Iabij" [I.oovv, T1old, T1old, U21old],
            ein% "1" "klcd,di,bk,Iaclj->Iabij" [I.oovv, T1old, T1old, U21old],
            ein% "-0.5" "klcd,di,cj,Ibalk->Iabij" [I.oovv, T1old, T1old, U21old],
            ein% "1" "klcd,di,ck,Ibalj->Iabij" [I.oovv, T1old, T1old, U21old],
            ein% "1" "klcd,dj,ak,Ibcli->Iabij" [I.oovv, T1old, T1old, U21old],
            ein% "-1" "klcd,dj,bk,Iacli->Iabij" [I.oovv, T1old, T1old, U21old],
            ein% "-1" "klcd,dj,ck,Ibali->Iabij" [I.oovv, T1old, T1old, U21old],
            ein% "-1" "klji,ak,Ibl->Iabij" [I.oooo, T1old, U11old],
            ein% "1" "klji,bk,Ial->Iabij" [I.oooo, T1old, U11old],
            ein% "1" "akji,Ibk->Iabij" [I.vooo, U11old],
            ein% "-1" "bkji,Iak->Iabij" [I.vooo, U11old],
            ein% "1" "baci,Icj->Iabij" [I.vvvo, U11old],
            ein% "-1" "bacj,Ici->Iabij" [I.vvvo, U11old],
            ein% "1" "kc,acji,Ibk->Iabij" [F.ov, T2old, U11old],
            ein% "-1" "kc,baki,Icj->Iabij" [F.ov, T2old, U11old],
            ein% "1" "kc,bakj,Ici->Iabij" [F.ov, T2old, U11old],
            ein% "-1" "kc,bcji,Iak->Iabij" [F.ov, T2old, U11old],
            ein% "-1" "Jki,Iak,Jbj->Iabij" [g.oo, U11old, U11old],
            ein% "1" "Jki,Ibk,Jaj->Iabij" [g.oo, U11old, U11old],
            ein% "1" "Jkj,Iak,Jbi->Iabij" [g.oo, U11old, U11old],
            ein% "-1" "Jkj,Ibk,Jai->Iabij" [g.oo, U11old, U11old],
            ein% "1" "Jac,Ici,Jbj->Iabij" [g.vv, U11old, U11old],
            ein% "-1" "Jac,Icj,Jbi->Iabij" [g.vv, U11old, U11old],
            ein% "-1" "Jbc,Ici,Jaj->Iabij" [g.vv, U11old, U11old],
            ein% "1" "Jbc,Icj,Jai->Iabij" [g.vv, U11old, U11old],
            ein% "1" "akci,bk,Icj->Iabij" [I.vovo, T1old, U11old],
            ein% "1" "akci,cj,Ibk->Iabij" [I.vovo, T1old, U11old],
            ein% "-1" "akcj,bk,Ici->Iabij" [I.vovo, T1old, U11old],
            ein% "-1" "akcj,ci,Ibk->Iabij" [I.vovo, T1old, U11old],
            ein% "-1" "bkci,ak,Icj->Iabij" [I.vovo, T1old, U11old],
            ein% "-1" "bkci,cj,Iak->Iabij" [I.vovo, T1old, U11old],
            ein% "1" "bkcj,ak,Ici->Iabij" [I.vovo, T1old, U11old],
            ein% "1" "bkcj,ci,Iak->Iabij" [I.vovo, T1old, U11old],
            ein% "1" "bacd,di,Icj->Iabij" [I.vvvv, T1old, U11old],
            ein% "-1" "bacd,dj,Ici->Iabij" [I.vvvv, T1old, U11old],
            ein% "1" "klic,ackj,Ibl->Iabij" [I.ooov, T2old, U11old],
            ein% "1" "klic,bakj,Icl->Iabij" [I.ooov, T2old, U11old],
            ein% "0.5" "klic,balk,Icj->Iabij" [I.ooov, T2old, U11old],
            ein% "-1" "klic,bckj,Ial->Iabij" [I.ooov, T2old, U11old],
            ein% "-1" "kljc,acki,Ibl->Iabij" [I.ooov, T2old, U11old],
            ein% "-1" "kljc,baki,Icl->Iabij" [I.ooov, T2old, U11old],
            ein% "-0.5" "kljc,balk,Ici->Iabij" [I.ooov, T2old, U11old],
            ein% "1" "kljc,bcki,Ial->Iabij" [I.ooov, T2old, U11old],
            ein% "-1" "akcd,bdji,Ick->Iabij" [I.vovv, T2old, U11old],
            ein% "1" "akcd,bdki,Icj->Iabij" [I.vovv, T2old, U11old],
            ein% "-1" "akcd,bdkj,Ici->Iabij" [I.vovv, T2old, U11old],
            ein% "-0.5" "akcd,dcji,Ibk->Iabij" [I.vovv, T2old, U11old],
            ein% "1" "bkcd,adji,Ick->Iabij" [I.vovv, T2old, U11old],
            ein% "-1" "bkcd,adki,Icj->Iabij" [I.vovv, T2old, U11old],
            ein% "1" "bkcd,adkj,Ici->Iabij" [I.vovv, T2old, U11old],
            ein% "0.5" "bkcd,dcji,Iak->Iabij" [I.vovv, T2old, U11old],
            ein% "-1" "Jkc,ak,Ici,Jbj->Iabij" [g.ov, T1old, U11old, U11old],
            ein% "1" "Jkc,ak,Icj,Jbi->Iabij" [g.ov, T1old, U11old, U11old],
            ein% "1" "Jkc,bk,Ici,Jaj->Iabij" [g.ov, T1old, U11old, U11old],
            ein% "-1" "Jkc,bk,Icj,Jai->Iabij" [g.ov, T1old, U11old, U11old],
            ein% "-1" "Jkc,ci,Iak,Jbj->Iabij" [g.ov, T1old, U11old, U11old],
            ein% "1" "Jkc,ci,Ibk,Jaj->Iabij" [g.ov, T1old, U11old, U11old],
            ein% "1" "Jkc,cj,Iak,Jbi->Iabij" [g.ov, T1old, U11old, U11old],
            ein% "-1" "Jkc,cj,Ibk,Jai->Iabij" [g.ov, T1old, U11old, U11old],
            ein% "1" "Jkc,acji,J,Ibk->Iabij" [g.ov, T2old, S1old, U11old],
            ein% "-1" "Jkc,baki,J,Icj->Iabij" [g.ov, T2old, S1old, U11old],
            ein% "1" "Jkc,bakj,J,Ici->Iabij" [g.ov, T2old, S1old, U11old],
            ein% "-1" "Jkc,bcji,J,Iak->Iabij" [g.ov, T2old, S1old, U11old],
            ein% "-1" "klic,bk,al,Icj->Iabij" [I.ooov, T1old, T1old, U11old],
            ein% "1" "klic,cj,ak,Ibl->Iabij" [I.ooov, T1old, T1old, U11old],
            ein% "-1" "klic,cj,bk,Ial->Iabij" [I.ooov, T1old, T1old, U11old],
            ein% "1" "kljc,bk,al,Ici->Iabij" [I.ooov, T1old, T1old, U11old],
            ein% "-1" "kljc,ci,ak,Ibl->Iabij" [I.ooov, T1old, T1old, U11old],
            ein% "1" "kljc,ci,bk,Ial->Iabij" [I.ooov, T1old, T1old, U11old],
            ein% "1" "akcd,di,bk,Icj->Iabij" [I.vovv, T1old, T1old, U11old],
            ein% "1" "akcd,di,cj,Ibk->Iabij" [I.vovv, T1old, T1old, U11old],
            ein% "-1" "akcd,dj,bk,Ici->Iabij" [I.vovv, T1old, T1old, U11old],
            ein% "-1" "bkcd,di,ak,Icj->Iabij" [I.vovv, T1old, T1old, U11old],
            ein% "-1" "bkcd,di,cj,Iak->Iabij" [I.vovv, T1old, T1old, U11old],
            ein% "1" "bkcd,dj,ak,Ici->Iabij" [I.vovv, T1old, T1old, U11old],
            ein% "1" "klcd,ak,bdji,Icl->Iabij" [I.oovv, T1old, T2old, U11old],
            ein% "-1" "klcd,ak,bdli,Icj->Iabij" [I.oovv, T1old, T2old, U11old],
            ein% "1" "klcd,ak,bdlj,Ici->Iabij" [I.oovv, T1old, T2old, U11old],
            ein% "0.5" "klcd,ak,dcji,Ibl->Iabij" [I.oovv, T1old, T2old, U11old],
            ein% "-1" "klcd,bk,adji,Icl->Iabij" [I.oovv, T1old, T2old, U11old],
            ein% "1" "klcd,bk,adli,Icj->Iabij" [I.oovv, T1old, T2old, U11old],
            ein% "-1" "klcd,bk,adlj,Ici->Iabij" [I.oovv, T1old, T2old, U11old],
            ein% "-0.5" "klcd,bk,dcji,Ial->Iabij" [I.oovv, T1old, T2old, U11old],
            ein% "-1" "klcd,di,ackj,Ibl->Iabij" [I.oovv, T1old, T2old, U11old],
            ein% "-1" "klcd,di,bakj,Icl->Iabij" [I.oovv, T1old, T2old, U11old],
            ein% "-0.5" "klcd,di,balk,Icj->Iabij" [I.oovv, T1old, T2old, U11old],
            ein% "1" "klcd,di,bckj,Ial->Iabij" [I.oovv, T1old, T2old, U11old],
            ein% "1" "klcd,dj,acki,Ibl->Iabij" [I.oovv, T1old, T2old, U11old],
            ein% "1" "klcd,dj,baki,Icl->Iabij" [I.oovv, T1old, T2old, U11old],
            ein% "0.5" "klcd,dj,balk,Ici->Iabij" [I.oovv, T1old, T2old, U11old],
            ein% "-1" "klcd,dj,bcki,Ial->Iabij" [I.oovv, T1old, T2old, U11old],
            ein% "-1" "klcd,dk,acji,Ibl->Iabij" [I.oovv, T1old, T2old, U11old],
            ein% "1" "klcd,dk,bali,Icj->Iabij" [I.oovv, T1old, T2old, U11old],
            ein% "-1" "klcd,dk,balj,Ici->Iabij" [I.oovv, T1old, T2old, U11old],
            ein% "1" "klcd,dk,bcji,Ial->Iabij" [I.oovv, T1old, T2old, U11old],
            ein% "1" "klcd,di,bk,al,Icj->Iabij" [I.oovv, T1old, T1old, T1old, U11old],
            ein% "-1" "klcd,di,cj,ak,Ibl->Iabij" [I.oovv, T1old, T1old, T1old, U11old],
            ein% "1" "klcd,di,cj,bk,Ial->Iabij" [I.oovv, T1old, T1old, T1old, U11old],
            ein% "-1" "klcd,dj,bk,al,Ici->Iabij" [I.oovv, T1old, T1old, T1old, U11old]]] ++
        when (1 < n1) (
          [add U21 [
              ein% "1" "Jki,bakj,IJ->Iabij" [g.oo, T2old, S2old],
              ein% "-1" "Jkj,baki,IJ->Iabij" [g.oo, T2old, S2old],
              ein% "1" "Jac,bcji,IJ->Iabij" [g.vv, T2old, S2old],
              ein% "-1" "Jbc,acji,IJ->Iabij" [g.vv, T2old, S2old],
              ein% "-1" "Jkc,ak,bcji,IJ->Iabij" [g.ov, T1old, T2old, S2old],
              ein% "1" "Jkc,bk,acji,IJ->Iabij" [g.ov, T1old, T2old, S2old],
              ein% "1" "Jkc,ci,bakj,IJ->Iabij" [g.ov, T1old, T2old, S2old],
              ein% "-1" "Jkc,cj,baki,IJ->Iabij" [g.ov, T1old, T2old, S2old]]]) ++
        when (1 < n2) (
          [set gvoU12_oovv [
              ein% "1" "Jai,IJbj->Iabij" [g.vo, U12old]],
           add U21 [
              cpy% "1" gvoU12_oovv,
              tr% "-1" [0, 2, 1, 3, 4] gvoU12_oovv,
              tr% "-1" [0, 1, 2, 4, 3] gvoU12_oovv,
              tr% "1" [0, 2, 1, 4, 3] gvoU12_oovv],
           set gtov [
              ein% "1" "xac,ci->xai" [g.vv, T1old],
              ein% "-1" "xki,ak->xai" [g.oo, T1old]],
           set temp_abij' [
              ein% "1" "xai,xybj->xabij" [gtov, U12old]],
           set T2temp [
              cpy% "1" T2old,
              ein% "-1" "bi,aj->abij" [T1old, T1old]],
           set Wmvo [
              ein% "1" "xkc,acik->xai" [g.ov, T2temp]],
           add temp_abij' [
              ein% "1" "xai,xybj->xabij" [Wmvo, U12old]],
           add U21 [
              cpy% "1" temp_abij',
              tr% "-1" [0, 2, 1, 3, 4] temp_abij',
              tr% "-1" [0, 1, 2, 4, 3] temp_abij',
              tr% "1" [0, 2, 1, 4, 3] temp_abij',
              ein% "1" "Jkc,acji,IJbk->Iabij" [g.ov, T2old, U12old],
              ein% "-1" "Jkc,baki,IJcj->Iabij" [g.ov, T2old, U12old],
              ein% "1" "Jkc,bakj,IJci->Iabij" [g.ov, T2old, U12old],
              ein% "-1" "Jkc,bcji,IJak->Iabij" [g.ov, T2old, U12old],
              ein% "1" "Jki,IJbakj->Iabij" [g.oo, U22old],
              ein% "-1" "Jkj,IJbaki->Iabij" [g.oo, U22old],
              ein% "1" "Jac,IJbcji->Iabij" [g.vv, U22old],
              ein% "-1" "Jbc,IJacji->Iabij" [g.vv, U22old],
              ein% "-1" "Jkc,ak,IJbcji->Iabij" [g.ov, T1old, U22old],
              ein% "1" "Jkc,bk,IJacji->Iabij" [g.ov, T1old, U22old],
              ein% "1" "Jkc,ci,IJbakj->Iabij" [g.ov, T1old, U22old],
              ein% "-1" "Jkc,cj,IJbaki->Iabij" [g.ov, T1old, U22old],
              ein% "1" "Jkc,ck,IJbaji->Iabij" [g.ov, T1old, U22old]]]) ++
        when (1 < n2) (
          [set U22 [
              ein% "1" "ki,zzbakj->zabij" [F.oo, U22old],
              ein% "-1" "kj,zzbaki->zabij" [F.oo, U22old],
              ein% "-1" "bc,zzacji->zabij" [F.vv, U22old],
              ein% "1" "ac,zzbcji->zabij" [F.vv, U22old],
              ein% "-1" "bkji,zzak->zabij" [I.vooo, U12old],
              ein% "1" "akji,zzbk->zabij" [I.vooo, U12old],
              ein% "1" "baci,zzcj->zabij" [I.vvvo, U12old],
              ein% "-1" "bacj,zzci->zabij" [I.vvvo, U12old],
              ein% "2" "J,IJbaji->zabij" [w, U22old],
              ein% "1" "zki,zbakj->zabij" [g.oo, U21old],
              ein% "-1" "zkj,zbaki->zabij" [g.oo, U21old],
              ein% "1" "zki,zbakj->zabij" [g.oo, U21old],
              ein% "-1" "zkj,zbaki->zabij" [g.oo, U21old],
              ein% "-1" "zbc,zacji->zabij" [g.vv, U21old],
              ein% "1" "zac,zbcji->zabij" [g.vv, U21old],
              ein% "-1" "zbc,zacji->zabij" [g.vv, U21old],
              ein% "1" "zac,zbcji->zabij" [g.vv, U21old],
              ein% "-0.5" "klji,zzbalk->zabij" [I.oooo, U22old],
              ein% "-1" "bkci,zzackj->zabij" [I.vovo, U22old],
              ein% "1" "akci,zzbckj->zabij" [I.vovo, U22old],
              ein% "1" "bkcj,zzacki->zabij" [I.vovo, U22old],
              ein% "-1" "akcj,zzbcki->zabij" [I.vovo, U22old],
              ein% "-0.5" "bacd,zzdcji->zabij" [I.vvvv, U22old],
              ein% "1" "kc,ci,zzbakj->zabij" [F.ov, T1old, U22old],
              ein% "-1" "kc,cj,zzbaki->zabij" [F.ov, T1old, U22old],
              ein% "1" "kc,bk,zzacji->zabij" [F.ov, T1old, U22old],
              ein% "-1" "kc,ak,zzbcji->zabij" [F.ov, T1old, U22old],
              ein% "-1" "kc,bcji,zzak->zabij" [F.ov, T2old, U12old],
              ein% "1" "kc,acji,zzbk->zabij" [F.ov, T2old, U12old],
              ein% "-1" "kc,baki,zzcj->zabij" [F.ov, T2old, U12old],
              ein% "1" "kc,bakj,zzci->zabij" [F.ov, T2old, U12old],
              ein% "1" "klji,bk,zzal->zabij" [I.oooo, T1old, U12old],
              ein% "-1" "klji,ak,zzbl->zabij" [I.oooo, T1old, U12old],
              ein% "-1" "bkci,cj,zzak->zabij" [I.vovo, T1old, U12old],
              ein% "1" "akci,cj,zzbk->zabij" [I.vovo, T1old, U12old],
              ein% "-1" "bkci,ak,zzcj->zabij" [I.vovo, T1old, U12old],
              ein% "1" "akci,bk,zzcj->zabij" [I.vovo, T1old, U12old],
              ein% "1" "bkcj,ci,zzak->zabij" [I.vovo, T1old, U12old],
              ein% "-1" "akcj,ci,zzbk->zabij" [I.vovo, T1old, U12old],
              ein% "1" "bkcj,ak,zzci->zabij" [I.vovo, T1old, U12old],
              ein% "-1" "akcj,bk,zzci->zabij" [I.vovo, T1old, U12old],
              ein% "1" "bacd,di,zzcj->zabij" [I.vvvv, T1old, U12old],
              ein% "-1" "bacd,dj,zzci->zabij" [I.vvvv, T1old, U12old],
              ein% "1" "z,zki,zzbakj->zabij" [S1old, g.oo, U22old],
              ein% "-1" "z,zkj,zzbaki->zabij" [S1old, g.oo, U22old]]] ++
          when (1 < n1) (
            [add U22 [
                ein% "1" "zz,zki,zbakj->zabij" [S2old, g.oo, U21old],
                ein% "-1" "zz,zkj,zbaki->zabij" [S2old, g.oo, U21old],
                ein% "1" "zz,zki,zbakj->zabij" [S2old, g.oo, U21old],
                ein% "-1" "zz,zkj,zbaki->zabij" [S2old, g.oo, U21old],
                ein% "-1" "zz,zbc,zacji->zabij" [S2old, g.vv, U21old],
                ein% "1" "zz,zac,zbcji->zabij" [S2old, g.vv, U21old],
                ein% "-1" "zz,zbc,zacji->zabij" [S2old, g.vv, U21old],
                ein% "1" "zz,zac,zbcji->zabij" [S2old, g.vv, U21old],
                ein% "1" "zz,zkc,ci,zbakj->zabij" [S2old, g.ov, T1old, U21old],
                ein% "-1" "zz,zkc,cj,zbaki->zabij" [S2old, g.ov, T1old, U21old],
                ein% "1" "zz,zkc,bk,zacji->zabij" [S2old, g.ov, T1old, U21old],
                ein% "-1" "zz,zkc,ak,zbcji->zabij" [S2old, g.ov, T1old, U21old],
                ein% "1" "zz,zkc,ci,zbakj->zabij" [S2old, g.ov, T1old, U21old],
                ein% "-1" "zz,zkc,cj,zbaki->zabij" [S2old, g.ov, T1old, U21old],
                ein% "1" "zz,zkc,bk,zacji->zabij" [S2old, g.ov, T1old, U21old],
                ein% "-1" "zz,zkc,ak,zbcji->zabij" [S2old, g.ov, T1old, U21old],
                ein% "-1" "zz,zkc,bcji,zak->zabij" [S2old, g.ov, T2old, U11old],
                ein% "1" "zz,zkc,acji,zbk->zabij" [S2old, g.ov, T2old, U11old],
                ein% "-1" "zz,zkc,baki,zcj->zabij" [S2old, g.ov, T2old, U11old],
                ein% "1" "zz,zkc,bakj,zci->zabij" [S2old, g.ov, T2old, U11old],
                ein% "-1" "zz,zkc,bcji,zak->zabij" [S2old, g.ov, T2old, U11old],
                ein% "1" "zz,zkc,acji,zbk->zabij" [S2old, g.ov, T2old, U11old],
                ein% "-1" "zz,zkc,baki,zcj->zabij" [S2old, g.ov, T2old, U11old],
                ein% "1" "zz,zkc,bakj,zci->zabij" [S2old, g.ov, T2old, U11old]]]) ++
          [add U22 [
              ein% "1" "zkc,ci,zbakj->zabij" [g.ov, T1old, U21old],
              ein% "-1" "zkc,cj,zbaki->zabij" [g.ov, T1old, U21old],
              ein% "1" "zkc,bk,zacji->zabij" [g.ov, T1old, U21old],
              ein% "-1" "zkc,ak,zbcji->zabij" [g.ov, T1old, U21old],
              ein% "1" "zkc,ci,zbakj->zabij" [g.ov, T1old, U21old],
              ein% "-1" "zkc,cj,zbaki->zabij" [g.ov, T1old, U21old],
              ein% "1" "zkc,bk,zacji->zabij" [g.ov, T1old, U21old],
              ein% "-1" "zkc,ak,zbcji->zabij" [g.ov, T1old, U21old],
              ein% "-1" "zkc,bcji,zak->zabij" [g.ov, T2old, U11old],
              ein% "1" "zkc,acji,zbk->zabij" [g.ov, T2old, U11old],
              ein% "-1" "zkc,baki,zcj->zabij" [g.ov, T2old, U11old],
              ein% "1" "zkc,bakj,zci->zabij" [g.ov, T2old, U11old],
              ein% "-1" "zkc,bcji,zak->zabij" [g.ov, T2old, U11old],
              ein% "1" "zkc,acji,zbk->zabij" [g.ov, T2old, U11old],
              ein% "-1" "zkc,baki,zcj->zabij" [g.ov, T2old, U11old],
              ein% "1" "zkc,bakj,zci->zabij" [g.ov, T2old, U11old],
              ein% "-1" "z,zbc,zzacji->zabij" [S1old, g.vv, U22old],
              ein% "1" "z,zac,zzbcji->zabij" [S1old, g.vv, U22old],
              ein% "0.5" "klic,cj,zzbalk->zabij" [I.ooov, T1old, U22old],
              ein% "-1" "klic,bk,zzaclj->zabij" [I.ooov, T1old, U22old],
              ein% "1" "klic,ak,zzbclj->zabij" [I.ooov, T1old, U22old],
              ein% "-1" "klic,ck,zzbalj->zabij" [I.ooov, T1old, U22old],
              ein% "-0.5" "kljc,ci,zzbalk->zabij" [I.ooov, T1old, U22old],
              ein% "1" "kljc,bk,zzacli->zabij" [I.ooov, T1old, U22old],
              ein% "-1" "kljc,ak,zzbcli->zabij" [I.ooov, T1old, U22old],
              ein% "1" "kljc,ck,zzbali->zabij" [I.ooov, T1old, U22old],
              ein% "1" "klic,bakj,zzcl->zabij" [I.ooov, T2old, U12old],
              ein% "-1" "klic,bckj,zzal->zabij" [I.ooov, T2old, U12old],
              ein% "1" "klic,ackj,zzbl->zabij" [I.ooov, T2old, U12old],
              ein% "0.5" "klic,balk,zzcj->zabij" [I.ooov, T2old, U12old],
              ein% "-1" "kljc,baki,zzcl->zabij" [I.ooov, T2old, U12old],
              ein% "1" "kljc,bcki,zzal->zabij" [I.ooov, T2old, U12old],
              ein% "-1" "kljc,acki,zzbl->zabij" [I.ooov, T2old, U12old],
              ein% "-0.5" "kljc,balk,zzci->zabij" [I.ooov, T2old, U12old],
              ein% "-1" "bkcd,di,zzackj->zabij" [I.vovv, T1old, U22old],
              ein% "1" "akcd,di,zzbckj->zabij" [I.vovv, T1old, U22old],
              ein% "1" "bkcd,dj,zzacki->zabij" [I.vovv, T1old, U22old],
              ein% "-1" "akcd,dj,zzbcki->zabij" [I.vovv, T1old, U22old],
              ein% "0.5" "bkcd,ak,zzdcji->zabij" [I.vovv, T1old, U22old],
              ein% "-1" "bkcd,dk,zzacji->zabij" [I.vovv, T1old, U22old],
              ein% "-0.5" "akcd,bk,zzdcji->zabij" [I.vovv, T1old, U22old],
              ein% "1" "akcd,dk,zzbcji->zabij" [I.vovv, T1old, U22old],
              ein% "1" "bkcd,adji,zzck->zabij" [I.vovv, T2old, U12old],
              ein% "0.5" "bkcd,dcji,zzak->zabij" [I.vovv, T2old, U12old],
              ein% "-1" "akcd,bdji,zzck->zabij" [I.vovv, T2old, U12old],
              ein% "-0.5" "akcd,dcji,zzbk->zabij" [I.vovv, T2old, U12old],
              ein% "-1" "bkcd,adki,zzcj->zabij" [I.vovv, T2old, U12old],
              ein% "1" "akcd,bdki,zzcj->zabij" [I.vovv, T2old, U12old],
              ein% "1" "bkcd,adkj,zzci->zabij" [I.vovv, T2old, U12old],
              ein% "-1" "akcd,bdkj,zzci->zabij" [I.vovv, T2old, U12old],
              ein% "-0.5" "klcd,bdji,zzaclk->zabij" [I.oovv, T2old, U22old],
              ein% "0.5" "klcd,adji,zzbclk->zabij" [I.oovv, T2old, U22old],
              ein% "0.25" "klcd,dcji,zzbalk->zabij" [I.oovv, T2old, U22old],
              ein% "-0.5" "klcd,baki,zzdclj->zabij" [I.oovv, T2old, U22old],
              ein% "1" "klcd,bdki,zzaclj->zabij" [I.oovv, T2old, U22old],
              ein% "-1" "klcd,adki,zzbclj->zabij" [I.oovv, T2old, U22old],
              ein% "-0.5" "klcd,dcki,zzbalj->zabij" [I.oovv, T2old, U22old],
              ein% "0.5" "klcd,bakj,zzdcli->zabij" [I.oovv, T2old, U22old],
              ein% "-1" "klcd,bdkj,zzacli->zabij" [I.oovv, T2old, U22old],
              ein% "1" "klcd,adkj,zzbcli->zabij" [I.oovv, T2old, U22old],
              ein% "0.5" "klcd,dckj,zzbali->zabij" [I.oovv, T2old, U22old],
              ein% "0.25" "klcd,balk,zzdcji->zabij" [I.oovv, T2old, U22old],
              ein% "-0.5" "klcd,bdlk,zzacji->zabij" [I.oovv, T2old, U22old],
              ein% "0.5" "klcd,adlk,zzbcji->zabij" [I.oovv, T2old, U22old],
              ein% "2" "kc,zci,zbakj->zabij" [F.ov, U11old, U21old],
              ein% "-2" "kc,zcj,zbaki->zabij" [F.ov, U11old, U21old],
              ein% "2" "kc,zbk,zacji->zabij" [F.ov, U11old, U21old],
              ein% "-2" "kc,zak,zbcji->zabij" [F.ov, U11old, U21old],
              ein% "2" "klji,zbk,zal->zabij" [I.oooo, U11old, U11old],
              ein% "-2" "bkci,zcj,zak->zabij" [I.vovo, U11old, U11old],
              ein% "2" "akci,zcj,zbk->zabij" [I.vovo, U11old, U11old],
              ein% "2" "bkcj,zci,zak->zabij" [I.vovo, U11old, U11old],
              ein% "-2" "akcj,zci,zbk->zabij" [I.vovo, U11old, U11old],
              ein% "2" "bacd,zdi,zcj->zabij" [I.vvvv, U11old, U11old],
              ein% "1" "zki,zbk,zzaj->zabij" [g.oo, U11old, U12old],
              ein% "-1" "zki,zak,zzbj->zabij" [g.oo, U11old, U12old],
              ein% "-1" "zkj,zbk,zzai->zabij" [g.oo, U11old, U12old],
              ein% "1" "zkj,zak,zzbi->zabij" [g.oo, U11old, U12old],
              ein% "1" "zki,zbk,zzaj->zabij" [g.oo, U11old, U12old],
              ein% "-1" "zki,zak,zzbj->zabij" [g.oo, U11old, U12old],
              ein% "-1" "zkj,zbk,zzai->zabij" [g.oo, U11old, U12old],
              ein% "1" "zkj,zak,zzbi->zabij" [g.oo, U11old, U12old],
              ein% "-1" "zki,zbj,zzak->zabij" [g.oo, U11old, U12old],
              ein% "1" "zki,zaj,zzbk->zabij" [g.oo, U11old, U12old],
              ein% "1" "zkj,zbi,zzak->zabij" [g.oo, U11old, U12old],
              ein% "-1" "zkj,zai,zzbk->zabij" [g.oo, U11old, U12old],
              ein% "-1" "zbc,zci,zzaj->zabij" [g.vv, U11old, U12old],
              ein% "1" "zac,zci,zzbj->zabij" [g.vv, U11old, U12old],
              ein% "1" "zbc,zcj,zzai->zabij" [g.vv, U11old, U12old],
              ein% "-1" "zac,zcj,zzbi->zabij" [g.vv, U11old, U12old],
              ein% "-1" "zbc,zci,zzaj->zabij" [g.vv, U11old, U12old],
              ein% "1" "zac,zci,zzbj->zabij" [g.vv, U11old, U12old],
              ein% "1" "zbc,zcj,zzai->zabij" [g.vv, U11old, U12old],
              ein% "-1" "zac,zcj,zzbi->zabij" [g.vv, U11old, U12old],
              ein% "1" "zbc,zai,zzcj->zabij" [g.vv, U11old, U12old],
              ein% "-1" "zac,zbi,zzcj->zabij" [g.vv, U11old, U12old],
              ein% "-1" "zbc,zaj,zzci->zabij" [g.vv, U11old, U12old],
              ein% "1" "zac,zbj,zzci->zabij" [g.vv, U11old, U12old],
              ein% "1" "klic,zcj,zbalk->zabij" [I.ooov, U11old, U21old],
              ein% "-2" "klic,zbk,zaclj->zabij" [I.ooov, U11old, U21old],
              ein% "2" "klic,zak,zbclj->zabij" [I.ooov, U11old, U21old],
              ein% "-2" "klic,zck,zbalj->zabij" [I.ooov, U11old, U21old],
              ein% "-1" "kljc,zci,zbalk->zabij" [I.ooov, U11old, U21old],
              ein% "2" "kljc,zbk,zacli->zabij" [I.ooov, U11old, U21old],
              ein% "-2" "kljc,zak,zbcli->zabij" [I.ooov, U11old, U21old],
              ein% "2" "kljc,zck,zbali->zabij" [I.ooov, U11old, U21old],
              ein% "-2" "bkcd,zdi,zackj->zabij" [I.vovv, U11old, U21old],
              ein% "2" "akcd,zdi,zbckj->zabij" [I.vovv, U11old, U21old],
              ein% "2" "bkcd,zdj,zacki->zabij" [I.vovv, U11old, U21old],
              ein% "-2" "akcd,zdj,zbcki->zabij" [I.vovv, U11old, U21old],
              ein% "1" "bkcd,zak,zdcji->zabij" [I.vovv, U11old, U21old],
              ein% "-2" "bkcd,zdk,zacji->zabij" [I.vovv, U11old, U21old],
              ein% "-1" "akcd,zbk,zdcji->zabij" [I.vovv, U11old, U21old],
              ein% "2" "akcd,zdk,zbcji->zabij" [I.vovv, U11old, U21old],
              ein% "1" "zkc,zci,zzbakj->zabij" [g.ov, U11old, U22old],
              ein% "-1" "zkc,zcj,zzbaki->zabij" [g.ov, U11old, U22old],
              ein% "1" "zkc,zbk,zzacji->zabij" [g.ov, U11old, U22old],
              ein% "-1" "zkc,zak,zzbcji->zabij" [g.ov, U11old, U22old],
              ein% "1" "zkc,zck,zzbaji->zabij" [g.ov, U11old, U22old],
              ein% "1" "zkc,zci,zzbakj->zabij" [g.ov, U11old, U22old],
              ein% "-1" "zkc,zcj,zzbaki->zabij" [g.ov, U11old, U22old],
              ein% "1" "zkc,zbk,zzacji->zabij" [g.ov, U11old, U22old],
              ein% "-1" "zkc,zak,zzbcji->zabij" [g.ov, U11old, U22old],
              ein% "1" "zkc,zck,zzbaji->zabij" [g.ov, U11old, U22old],
              ein% "1" "zkc,zbi,zzackj->zabij" [g.ov, U11old, U22old],
              ein% "-1" "zkc,zai,zzbckj->zabij" [g.ov, U11old, U22old],
              ein% "1" "zkc,zci,zzbakj->zabij" [g.ov, U11old, U22old],
              ein% "-1" "zkc,zbj,zzacki->zabij" [g.ov, U11old, U22old],
              ein% "1" "zkc,zaj,zzbcki->zabij" [g.ov, U11old, U22old],
              ein% "-1" "zkc,zcj,zzbaki->zabij" [g.ov, U11old, U22old],
              ein% "1" "zkc,zbk,zzacji->zabij" [g.ov, U11old, U22old],
              ein% "-1" "zkc,zak,zzbcji->zabij" [g.ov, U11old, U22old],
              ein% "-1" "zkc,zbcji,zzak->zabij" [g.ov, U21old, U12old],
              ein% "1" "zkc,zacji,zzbk->zabij" [g.ov, U21old, U12old],
              ein% "-1" "zkc,zbaki,zzcj->zabij" [g.ov, U21old, U12old],
              ein% "1" "zkc,zbcki,zzaj->zabij" [g.ov, U21old, U12old],
              ein% "-1" "zkc,zacki,zzbj->zabij" [g.ov, U21old, U12old],
              ein% "1" "zkc,zbakj,zzci->zabij" [g.ov, U21old, U12old],
              ein% "-1" "zkc,zbckj,zzai->zabij" [g.ov, U21old, U12old],
              ein% "1" "zkc,zackj,zzbi->zabij" [g.ov, U21old, U12old],
              ein% "-1" "zkc,zbcji,zzak->zabij" [g.ov, U21old, U12old],
              ein% "1" "zkc,zacji,zzbk->zabij" [g.ov, U21old, U12old],
              ein% "-1" "zkc,zbaki,zzcj->zabij" [g.ov, U21old, U12old],
              ein% "1" "zkc,zbcki,zzaj->zabij" [g.ov, U21old, U12old],
              ein% "-1" "zkc,zacki,zzbj->zabij" [g.ov, U21old, U12old],
              ein% "1" "zkc,zbakj,zzci->zabij" [g.ov, U21old, U12old],
              ein% "-1" "zkc,zbckj,zzai->zabij" [g.ov, U21old, U12old],
              ein% "1" "zkc,zackj,zzbi->zabij" [g.ov, U21old, U12old],
              ein% "1" "zkc,zbaji,zzck->zabij" [g.ov, U21old, U12old],
              ein% "-1" "zkc,zbcji,zzak->zabij" [g.ov, U21old, U12old],
              ein% "1" "zkc,zacji,zzbk->zabij" [g.ov, U21old, U12old],
              ein% "-1" "zkc,zbaki,zzcj->zabij" [g.ov, U21old, U12old],
              ein% "1" "zkc,zbakj,zzci->zabij" [g.ov, U21old, U12old],
              ein% "-1" "klic,cj,bk,zzal->zabij" [I.ooov, T1old, T1old, U12old],
              ein% "1" "klic,cj,ak,zzbl->zabij" [I.ooov, T1old, T1old, U12old],
              ein% "-1" "klic,bk,al,zzcj->zabij" [I.ooov, T1old, T1old, U12old],
              ein% "1" "kljc,ci,bk,zzal->zabij" [I.ooov, T1old, T1old, U12old],
              ein% "-1" "kljc,ci,ak,zzbl->zabij" [I.ooov, T1old, T1old, U12old],
              ein% "1" "kljc,bk,al,zzci->zabij" [I.ooov, T1old, T1old, U12old],
              ein% "-1" "bkcd,di,cj,zzak->zabij" [I.vovv, T1old, T1old, U12old],
              ein% "1" "akcd,di,cj,zzbk->zabij" [I.vovv, T1old, T1old, U12old],
              ein% "-1" "bkcd,di,ak,zzcj->zabij" [I.vovv, T1old, T1old, U12old],
              ein% "1" "akcd,di,bk,zzcj->zabij" [I.vovv, T1old, T1old, U12old],
              ein% "1" "bkcd,dj,ak,zzci->zabij" [I.vovv, T1old, T1old, U12old],
              ein% "-1" "akcd,dj,bk,zzci->zabij" [I.vovv, T1old, T1old, U12old],
              ein% "1" "z,zkc,ci,zzbakj->zabij" [S1old, g.ov, T1old, U22old],
              ein% "-1" "z,zkc,cj,zzbaki->zabij" [S1old, g.ov, T1old, U22old],
              ein% "1" "z,zkc,bk,zzacji->zabij" [S1old, g.ov, T1old, U22old],
              ein% "-1" "z,zkc,ak,zzbcji->zabij" [S1old, g.ov, T1old, U22old],
              ein% "-1" "z,zkc,bcji,zzak->zabij" [S1old, g.ov, T2old, U12old],
              ein% "1" "z,zkc,acji,zzbk->zabij" [S1old, g.ov, T2old, U12old],
              ein% "-1" "z,zkc,baki,zzcj->zabij" [S1old, g.ov, T2old, U12old],
              ein% "1" "z,zkc,bakj,zzci->zabij" [S1old, g.ov, T2old, U12old],
              ein% "-1" "klcd,zbdji,zaclk->zabij" [I.oovv, U21old, U21old],
              ein% "1" "klcd,zadji,zbclk->zabij" [I.oovv, U21old, U21old],
              ein% "0.5" "klcd,zdcji,zbalk->zabij" [I.oovv, U21old, U21old],
              ein% "-1" "klcd,zbaki,zdclj->zabij" [I.oovv, U21old, U21old],
              ein% "2" "klcd,zbdki,zaclj->zabij" [I.oovv, U21old, U21old],
              ein% "-2" "klcd,zadki,zbclj->zabij" [I.oovv, U21old, U21old],
              ein% "-1" "klcd,zdcki,zbalj->zabij" [I.oovv, U21old, U21old],
              ein% "-0.5" "klcd,di,cj,zzbalk->zabij" [I.oovv, T1old, T1old, U22old],
              ein% "1" "klcd,di,bk,zzaclj->zabij" [I.oovv, T1old, T1old, U22old],
              ein% "-1" "klcd,di,ak,zzbclj->zabij" [I.oovv, T1old, T1old, U22old],
              ein% "1" "klcd,di,ck,zzbalj->zabij" [I.oovv, T1old, T1old, U22old],
              ein% "-1" "klcd,dj,bk,zzacli->zabij" [I.oovv, T1old, T1old, U22old],
              ein% "1" "klcd,dj,ak,zzbcli->zabij" [I.oovv, T1old, T1old, U22old],
              ein% "-1" "klcd,dj,ck,zzbali->zabij" [I.oovv, T1old, T1old, U22old],
              ein% "-0.5" "klcd,bk,al,zzdcji->zabij" [I.oovv, T1old, T1old, U22old],
              ein% "1" "klcd,bk,dl,zzacji->zabij" [I.oovv, T1old, T1old, U22old],
              ein% "-1" "klcd,ak,dl,zzbcji->zabij" [I.oovv, T1old, T1old, U22old],
              ein% "-1" "klcd,di,bakj,zzcl->zabij" [I.oovv, T1old, T2old, U12old],
              ein% "1" "klcd,di,bckj,zzal->zabij" [I.oovv, T1old, T2old, U12old],
              ein% "-1" "klcd,di,ackj,zzbl->zabij" [I.oovv, T1old, T2old, U12old],
              ein% "-0.5" "klcd,di,balk,zzcj->zabij" [I.oovv, T1old, T2old, U12old],
              ein% "1" "klcd,dj,baki,zzcl->zabij" [I.oovv, T1old, T2old, U12old],
              ein% "-1" "klcd,dj,bcki,zzal->zabij" [I.oovv, T1old, T2old, U12old],
              ein% "1" "klcd,dj,acki,zzbl->zabij" [I.oovv, T1old, T2old, U12old],
              ein% "-1" "klcd,bk,adji,zzcl->zabij" [I.oovv, T1old, T2old, U12old],
              ein% "-0.5" "klcd,bk,dcji,zzal->zabij" [I.oovv, T1old, T2old, U12old],
              ein% "1" "klcd,ak,bdji,zzcl->zabij" [I.oovv, T1old, T2old, U12old],
              ein% "1" "klcd,dk,bcji,zzal->zabij" [I.oovv, T1old, T2old, U12old],
              ein% "0.5" "klcd,ak,dcji,zzbl->zabij" [I.oovv, T1old, T2old, U12old],
              ein% "-1" "klcd,dk,acji,zzbl->zabij" [I.oovv, T1old, T2old, U12old],
              ein% "1" "klcd,bk,adli,zzcj->zabij" [I.oovv, T1old, T2old, U12old],
              ein% "-1" "klcd,ak,bdli,zzcj->zabij" [I.oovv, T1old, T2old, U12old],
              ein% "1" "klcd,dk,bali,zzcj->zabij" [I.oovv, T1old, T2old, U12old],
              ein% "0.5" "klcd,dj,balk,zzci->zabij" [I.oovv, T1old, T2old, U12old],
              ein% "-1" "klcd,bk,adlj,zzci->zabij" [I.oovv, T1old, T2old, U12old],
              ein% "1" "klcd,ak,bdlj,zzci->zabij" [I.oovv, T1old, T2old, U12old],
              ein% "-1" "klcd,dk,balj,zzci->zabij" [I.oovv, T1old, T2old, U12old],
              ein% "-2" "klic,cj,zbk,zal->zabij" [I.ooov, T1old, U11old, U11old],
              ein% "-2" "klic,bk,zcj,zal->zabij" [I.ooov, T1old, U11old, U11old],
              ein% "2" "klic,ak,zcj,zbl->zabij" [I.ooov, T1old, U11old, U11old],
              ein% "2" "kljc,ci,zbk,zal->zabij" [I.ooov, T1old, U11old, U11old],
              ein% "2" "kljc,bk,zci,zal->zabij" [I.ooov, T1old, U11old, U11old],
              ein% "-2" "kljc,ak,zci,zbl->zabij" [I.ooov, T1old, U11old, U11old],
              ein% "-2" "bkcd,di,zcj,zak->zabij" [I.vovv, T1old, U11old, U11old],
              ein% "2" "akcd,di,zcj,zbk->zabij" [I.vovv, T1old, U11old, U11old],
              ein% "2" "bkcd,dj,zci,zak->zabij" [I.vovv, T1old, U11old, U11old],
              ein% "-2" "akcd,dj,zci,zbk->zabij" [I.vovv, T1old, U11old, U11old],
              ein% "-2" "bkcd,ak,zdi,zcj->zabij" [I.vovv, T1old, U11old, U11old],
              ein% "2" "akcd,bk,zdi,zcj->zabij" [I.vovv, T1old, U11old, U11old],
              ein% "1" "zkc,ci,zbk,zzaj->zabij" [g.ov, T1old, U11old, U12old],
              ein% "-1" "zkc,ci,zak,zzbj->zabij" [g.ov, T1old, U11old, U12old],
              ein% "1" "zkc,bk,zci,zzaj->zabij" [g.ov, T1old, U11old, U12old],
              ein% "-1" "zkc,ak,zci,zzbj->zabij" [g.ov, T1old, U11old, U12old],
              ein% "-1" "zkc,cj,zbk,zzai->zabij" [g.ov, T1old, U11old, U12old],
              ein% "1" "zkc,cj,zak,zzbi->zabij" [g.ov, T1old, U11old, U12old],
              ein% "-1" "zkc,bk,zcj,zzai->zabij" [g.ov, T1old, U11old, U12old],
              ein% "1" "zkc,ak,zcj,zzbi->zabij" [g.ov, T1old, U11old, U12old],
              ein% "1" "zkc,ci,zbk,zzaj->zabij" [g.ov, T1old, U11old, U12old],
              ein% "-1" "zkc,ci,zak,zzbj->zabij" [g.ov, T1old, U11old, U12old],
              ein% "1" "zkc,bk,zci,zzaj->zabij" [g.ov, T1old, U11old, U12old],
              ein% "-1" "zkc,ak,zci,zzbj->zabij" [g.ov, T1old, U11old, U12old],
              ein% "-1" "zkc,cj,zbk,zzai->zabij" [g.ov, T1old, U11old, U12old],
              ein% "1" "zkc,cj,zak,zzbi->zabij" [g.ov, T1old, U11old, U12old],
              ein% "-1" "zkc,bk,zcj,zzai->zabij" [g.ov, T1old, U11old, U12old],
              ein% "1" "zkc,ak,zcj,zzbi->zabij" [g.ov, T1old, U11old, U12old],
              ein% "-1" "zkc,ci,zbj,zzak->zabij" [g.ov, T1old, U11old, U12old],
              ein% "1" "zkc,ci,zaj,zzbk->zabij" [g.ov, T1old, U11old, U12old],
              ein% "1" "zkc,cj,zbi,zzak->zabij" [g.ov, T1old, U11old, U12old],
              ein% "-1" "zkc,cj,zai,zzbk->zabij" [g.ov, T1old, U11old, U12old],
              ein% "-1" "zkc,bk,zai,zzcj->zabij" [g.ov, T1old, U11old, U12old],
              ein% "1" "zkc,ak,zbi,zzcj->zabij" [g.ov, T1old, U11old, U12old],
              ein% "1" "zkc,bk,zaj,zzci->zabij" [g.ov, T1old, U11old, U12old],
              ein% "-1" "zkc,ak,zbj,zzci->zabij" [g.ov, T1old, U11old, U12old],
              ein% "2" "z,zkc,zci,zbakj->zabij" [S1old, g.ov, U11old, U21old],
              ein% "-2" "z,zkc,zcj,zbaki->zabij" [S1old, g.ov, U11old, U21old],
              ein% "2" "z,zkc,zbk,zacji->zabij" [S1old, g.ov, U11old, U21old],
              ein% "-2" "z,zkc,zak,zbcji->zabij" [S1old, g.ov, U11old, U21old],
              ein% "-1" "klcd,di,zcj,zbalk->zabij" [I.oovv, T1old, U11old, U21old],
              ein% "2" "klcd,di,zbk,zaclj->zabij" [I.oovv, T1old, U11old, U21old],
              ein% "-2" "klcd,di,zak,zbclj->zabij" [I.oovv, T1old, U11old, U21old],
              ein% "2" "klcd,di,zck,zbalj->zabij" [I.oovv, T1old, U11old, U21old],
              ein% "1" "klcd,dj,zci,zbalk->zabij" [I.oovv, T1old, U11old, U21old],
              ein% "2" "klcd,bk,zdi,zaclj->zabij" [I.oovv, T1old, U11old, U21old],
              ein% "-2" "klcd,ak,zdi,zbclj->zabij" [I.oovv, T1old, U11old, U21old],
              ein% "-2" "klcd,dk,zci,zbalj->zabij" [I.oovv, T1old, U11old, U21old],
              ein% "-2" "klcd,dj,zbk,zacli->zabij" [I.oovv, T1old, U11old, U21old],
              ein% "2" "klcd,dj,zak,zbcli->zabij" [I.oovv, T1old, U11old, U21old],
              ein% "-2" "klcd,dj,zck,zbali->zabij" [I.oovv, T1old, U11old, U21old],
              ein% "-2" "klcd,bk,zdj,zacli->zabij" [I.oovv, T1old, U11old, U21old],
              ein% "2" "klcd,ak,zdj,zbcli->zabij" [I.oovv, T1old, U11old, U21old],
              ein% "2" "klcd,dk,zcj,zbali->zabij" [I.oovv, T1old, U11old, U21old],
              ein% "-1" "klcd,bk,zal,zdcji->zabij" [I.oovv, T1old, U11old, U21old],
              ein% "2" "klcd,bk,zdl,zacji->zabij" [I.oovv, T1old, U11old, U21old],
              ein% "1" "klcd,ak,zbl,zdcji->zabij" [I.oovv, T1old, U11old, U21old],
              ein% "-2" "klcd,dk,zbl,zacji->zabij" [I.oovv, T1old, U11old, U21old],
              ein% "-2" "klcd,ak,zdl,zbcji->zabij" [I.oovv, T1old, U11old, U21old],
              ein% "2" "klcd,dk,zal,zbcji->zabij" [I.oovv, T1old, U11old, U21old],
              ein% "2" "klcd,bdji,zak,zcl->zabij" [I.oovv, T2old, U11old, U11old],
              ein% "-2" "klcd,adji,zbk,zcl->zabij" [I.oovv, T2old, U11old, U11old],
              ein% "-1" "klcd,dcji,zbk,zal->zabij" [I.oovv, T2old, U11old, U11old],
              ein% "2" "klcd,baki,zdj,zcl->zabij" [I.oovv, T2old, U11old, U11old],
              ein% "2" "klcd,bdki,zcj,zal->zabij" [I.oovv, T2old, U11old, U11old],
              ein% "-2" "klcd,adki,zcj,zbl->zabij" [I.oovv, T2old, U11old, U11old],
              ein% "-2" "klcd,bakj,zdi,zcl->zabij" [I.oovv, T2old, U11old, U11old],
              ein% "-2" "klcd,bdkj,zci,zal->zabij" [I.oovv, T2old, U11old, U11old],
              ein% "-1" "klcd,balk,zdi,zcj->zabij" [I.oovv, T2old, U11old, U11old],
              ein% "2" "klcd,adkj,zci,zbl->zabij" [I.oovv, T2old, U11old, U11old],
              ein% "2" "zkc,zbi,zcj,zak->zabij" [g.ov, U11old, U11old, U11old],
              ein% "-2" "zkc,zci,zbj,zak->zabij" [g.ov, U11old, U11old, U11old],
              ein% "-2" "zkc,zai,zcj,zbk->zabij" [g.ov, U11old, U11old, U11old],
              ein% "2" "zkc,zci,zaj,zbk->zabij" [g.ov, U11old, U11old, U11old]]]))))

end OpenMS.Qedcc
