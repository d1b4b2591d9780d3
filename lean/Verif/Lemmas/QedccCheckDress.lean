/-
The singles and doubles residuals compared with the textbook equations of the transformed
Hamiltonian, as tensor programs.
-/
import Verif.Lemmas.EinsumStage
import Verif.Lemmas.QedccDressRun
import Verif.Lemmas.QedccEval

set_option linter.unusedSectionVars false

namespace OpenMS.Qedcc

open Einsum

set_option maxRecDepth 100000

def effo : Tensor := ⟨200, [.occ, .occ]⟩
def effv : Tensor := ⟨201, [.vir, .vir]⟩
def effx : Tensor := ⟨202, [.occ, .vir]⟩

/-- Fock matrix in the field of the modes. -/
def effP : List Def := [
  set effo [ein% "1" "ki->ki" [F.oo], ein% "1" "xki,x->ki" [g.oo, S1old]],
  set effv [ein% "1" "ac->ac" [F.vv], ein% "1" "xac,x->ac" [g.vv, S1old]],
  set effx [ein% "1" "kc->kc" [F.ov], ein% "1" "xkc,x->kc" [g.ov, S1old]]]

/-- Singles equation without singles. -/
def textT1 : List Def := effP ++ [set T1 [
  ein% "1" "ai->ai" [F.vo],
  ein% "1" "xai,x->ai" [g.vo, S1old],
  ein% "1" "kc,acik->ai" [effx, T2old],
  ein% "0.5" "akcd,cdik->ai" [I.vovv, T2old],
  ein% "-0.5" "klic,ackl->ai" [I.ooov, T2old],
  ein% "1" "x,xai->ai" [G, U11old],
  ein% "1" "xac,xci->ai" [g.vv, U11old],
  ein% "-1" "xki,xak->ai" [g.oo, U11old],
  ein% "1" "xkc,xacik->ai" [g.ov, U21old]]]

/-- Doubles equation without singles. -/
def textT2 : List Def := effP ++ [set T2 [
  ein% "1" "abij->abij" [I.vvoo],
  ein% "1" "bc,acij->abij" [effv, T2old],
  ein% "-1" "ac,bcij->abij" [effv, T2old],
  ein% "-1" "kj,abik->abij" [effo, T2old],
  ein% "1" "ki,abjk->abij" [effo, T2old],
  ein% "0.5" "abcd,cdij->abij" [I.vvvv, T2old],
  ein% "0.5" "klij,abkl->abij" [I.oooo, T2old],
  ein% "1" "kbcj,acik->abij" [I.ovvo, T2old],
  ein% "-1" "kacj,bcik->abij" [I.ovvo, T2old],
  ein% "-1" "kbci,acjk->abij" [I.ovvo, T2old],
  ein% "1" "kaci,bcjk->abij" [I.ovvo, T2old],
  ein% "0.25" "klcd,cdij,abkl->abij" [I.oovv, T2old, T2old],
  ein% "1" "klcd,acik,bdjl->abij" [I.oovv, T2old, T2old],
  ein% "-1" "klcd,acjk,bdil->abij" [I.oovv, T2old, T2old],
  ein% "-0.5" "klcd,acij,bdkl->abij" [I.oovv, T2old, T2old],
  ein% "0.5" "klcd,bcij,adkl->abij" [I.oovv, T2old, T2old],
  ein% "-0.5" "klcd,abik,cdjl->abij" [I.oovv, T2old, T2old],
  ein% "0.5" "klcd,abjk,cdil->abij" [I.oovv, T2old, T2old],
  ein% "1" "xai,xbj->abij" [g.vo, U11old],
  ein% "-1" "xbi,xaj->abij" [g.vo, U11old],
  ein% "-1" "xaj,xbi->abij" [g.vo, U11old],
  ein% "1" "xbj,xai->abij" [g.vo, U11old],
  ein% "1" "xbc,xacij->abij" [g.vv, U21old],
  ein% "-1" "xac,xbcij->abij" [g.vv, U21old],
  ein% "-1" "xkj,xabik->abij" [g.oo, U21old],
  ein% "1" "xki,xabjk->abij" [g.oo, U21old],
  ein% "1" "xkc,acik,xbj->abij" [g.ov, T2old, U11old],
  ein% "-1" "xkc,bcik,xaj->abij" [g.ov, T2old, U11old],
  ein% "-1" "xkc,acjk,xbi->abij" [g.ov, T2old, U11old],
  ein% "1" "xkc,bcjk,xai->abij" [g.ov, T2old, U11old],
  ein% "-1" "xkc,xak,cbij->abij" [g.ov, U11old, T2old],
  ein% "1" "xkc,xbk,caij->abij" [g.ov, U11old, T2old],
  ein% "-1" "xkc,xci,abkj->abij" [g.ov, U11old, T2old],
  ein% "1" "xkc,xcj,abki->abij" [g.ov, U11old, T2old],
  ein% "1" "x,xabij->abij" [G, U21old]]]

/-- Terms of the textbook singles in the blocks of the transformed inputs. -/
def blkT1 : List Term :=
  (blockOk dressOk dressBl (letters% "ai") textT1 (read T1 (letters% "ai"))).getD []

def blkT2 : List Term :=
  (blockOk dressOk dressBl (letters% "abij") textT2 (read T2 (letters% "abij"))).getD []

theorem blkT1_eq : blockOk dressOk dressBl (letters% "ai") textT1 (read T1 (letters% "ai"))
    = some blkT1 := by decide +kernel

theorem blkT2_eq : blockOk dressOk dressBl (letters% "abij") textT2 (read T2 (letters% "abij"))
    = some blkT2 := by decide +kernel

theorem check_dress_T1 (u2 : Bool) : ∃ cs, check (sym 2 2 u2 false) 3 cs
    (optT 2 2 u2) dressP (read T1 (letters% "ai")) blkT1 = true := by
  cases u2
  · einsum_check
  · einsum_check

theorem check_dress_T2 (u2 : Bool) : ∃ cs, check (sym 2 2 u2 false) 5 cs
    (refT2 2 2 u2) dressP (read T2 (letters% "abij") ++ [(ein% "1" "x,xabij->abij" [G, U21old]).term])
    blkT2 = true := by
  cases u2
  · einsum_check
  · einsum_check

end OpenMS.Qedcc
