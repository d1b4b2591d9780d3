/-
Tensors of the QED-CCSD residuals: integrals, amplitudes and work arrays.
openms/mqed/qedcc_equations.py and openms/mqed/myqedcc_equations_opt.py receive
`F` (Fock matrix, the diagonals of `oo` and `vv` removed by the caller), `I`
(antisymmetrised integrals), `w` (mode frequencies), `g`, `h` (couplings), `G`, `H`
(zero, ccsd.py L155) and the amplitudes `T1old`, `T2old`, `Snold`, `U1nold`, `U2nold`
in blocks of occupied and virtual spin orbitals.  `h` is the same object as `g`
(boson.py L2226).
-/
import Verif.Model.EinsumSyntax

namespace OpenMS.Qedcc

open Einsum

/-! Input arrays.  A block such as `F.ov` is the array `F` read on an occupied
and a virtual axis. -/

/-- Block `oo` of `F`, as at openms/mqed/qedcc_equations.py L30. -/
def F.oo : Tensor := ⟨0, [.occ, .occ]⟩
/-- Block `ov` of `F`, as at openms/mqed/qedcc_equations.py L40. -/
def F.ov : Tensor := ⟨0, [.occ, .vir]⟩
/-- Block `vo` of `F`, as at openms/mqed/qedcc_equations.py L35. -/
def F.vo : Tensor := ⟨0, [.vir, .occ]⟩
/-- Block `vv` of `F`, as at openms/mqed/qedcc_equations.py L31. -/
def F.vv : Tensor := ⟨0, [.vir, .vir]⟩
/-- Block `oooo` of `I`, as at openms/mqed/qedcc_equations.py L91. -/
def I.oooo : Tensor := ⟨1, [.occ, .occ, .occ, .occ]⟩
/-- Block `ooov` of `I`, as at openms/mqed/qedcc_equations.py L44. -/
def I.ooov : Tensor := ⟨1, [.occ, .occ, .occ, .vir]⟩
/-- Block `oovo` of `I`, an argument of openms/mqed/qedcc_equations.py L23. -/
def I.oovo : Tensor := ⟨1, [.occ, .occ, .vir, .occ]⟩
/-- Block `oovv` of `I`, as at openms/mqed/qedcc_equations.py L55. -/
def I.oovv : Tensor := ⟨1, [.occ, .occ, .vir, .vir]⟩
/-- Block `ovoo` of `I`, as at openms/mqed/qedcc_equations.py L87. -/
def I.ovoo : Tensor := ⟨1, [.occ, .vir, .occ, .occ]⟩
/-- Block `ovov` of `I`, as at openms/mqed/qedcc_equations.py L43. -/
def I.ovov : Tensor := ⟨1, [.occ, .vir, .occ, .vir]⟩
/-- Block `ovvo` of `I`, an argument of openms/mqed/qedcc_equations.py L23. -/
def I.ovvo : Tensor := ⟨1, [.occ, .vir, .vir, .occ]⟩
/-- Block `ovvv` of `I`, as at openms/mqed/qedcc_equations.py L45. -/
def I.ovvv : Tensor := ⟨1, [.occ, .vir, .vir, .vir]⟩
/-- Block `vooo` of `I`, as at openms/mqed/qedcc_equations.py L284. -/
def I.vooo : Tensor := ⟨1, [.vir, .occ, .occ, .occ]⟩
/-- Block `voov` of `I`, an argument of openms/mqed/qedcc_equations.py L23. -/
def I.voov : Tensor := ⟨1, [.vir, .occ, .occ, .vir]⟩
/-- Block `vovo` of `I`, as at openms/mqed/qedcc_equations.py L245. -/
def I.vovo : Tensor := ⟨1, [.vir, .occ, .vir, .occ]⟩
/-- Block `vovv` of `I`, as at openms/mqed/qedcc_equations.py L221. -/
def I.vovv : Tensor := ⟨1, [.vir, .occ, .vir, .vir]⟩
/-- Block `vvoo` of `I`, as at openms/mqed/qedcc_equations.py L78. -/
def I.vvoo : Tensor := ⟨1, [.vir, .vir, .occ, .occ]⟩
/-- Block `vvov` of `I`, as at openms/mqed/qedcc_equations.py L89. -/
def I.vvov : Tensor := ⟨1, [.vir, .vir, .occ, .vir]⟩
/-- Block `vvvo` of `I`, as at openms/mqed/qedcc_equations.py L291. -/
def I.vvvo : Tensor := ⟨1, [.vir, .vir, .vir, .occ]⟩
/-- Block `vvvv` of `I`, as at openms/mqed/qedcc_equations.py L96. -/
def I.vvvv : Tensor := ⟨1, [.vir, .vir, .vir, .vir]⟩
/-- Block `oo` of `g`, as at openms/mqed/qedcc_equations.py L41. -/
def g.oo : Tensor := ⟨2, [.mode, .occ, .occ]⟩
/-- Block `ov` of `g`, as at openms/mqed/qedcc_equations.py L49. -/
def g.ov : Tensor := ⟨2, [.mode, .occ, .vir]⟩
/-- Block `vo` of `g`, as at openms/mqed/qedcc_equations.py L38. -/
def g.vo : Tensor := ⟨2, [.mode, .vir, .occ]⟩
/-- Block `vv` of `g`, as at openms/mqed/qedcc_equations.py L42. -/
def g.vv : Tensor := ⟨2, [.mode, .vir, .vir]⟩
/-- Block `oo` of `h`, an argument of openms/mqed/qedcc_equations.py L23. -/
def h.oo : Tensor := ⟨2, [.mode, .occ, .occ]⟩
/-- Block `ov` of `h`, as at openms/mqed/myqedcc_equations_opt.py L2283. -/
def h.ov : Tensor := ⟨2, [.mode, .occ, .vir]⟩
/-- Block `vo` of `h`, an argument of openms/mqed/qedcc_equations.py L23. -/
def h.vo : Tensor := ⟨2, [.mode, .vir, .occ]⟩
/-- Block `vv` of `h`, an argument of openms/mqed/qedcc_equations.py L23. -/
def h.vv : Tensor := ⟨2, [.mode, .vir, .vir]⟩
/-- Argument `w`, openms/mqed/qedcc_equations.py L23. -/
def w : Tensor := ⟨4, [.mode]⟩
/-- Amplitudes `T1old`, openms/mqed/qedcc_equations.py L25. -/
def T1old : Tensor := ⟨5, [.vir, .occ]⟩
/-- Amplitudes `T2old`, openms/mqed/qedcc_equations.py L25. -/
def T2old : Tensor := ⟨6, [.vir, .vir, .occ, .occ]⟩
/-- Amplitudes `S1old`, openms/mqed/qedcc_equations.py L198. -/
def S1old : Tensor := ⟨7, [.mode]⟩
/-- Amplitudes `S2old`, openms/mqed/qedcc_equations.py L853. -/
def S2old : Tensor := ⟨8, [.mode, .mode]⟩
/-- Amplitudes `U11old`, openms/mqed/qedcc_equations.py L197. -/
def U11old : Tensor := ⟨9, [.mode, .vir, .occ]⟩
/-- Amplitudes `U12old`, openms/mqed/qedcc_equations.py L848. -/
def U12old : Tensor := ⟨10, [.mode, .mode, .vir, .occ]⟩
/-- Amplitudes `U21old`, openms/mqed/qedcc_equations.py L849. -/
def U21old : Tensor := ⟨11, [.mode, .vir, .vir, .occ, .occ]⟩
/-- Amplitudes `U22old`, openms/mqed/qedcc_equations.py L850. -/
def U22old : Tensor := ⟨12, [.mode, .mode, .vir, .vir, .occ, .occ]⟩
/-- Argument `G`, openms/mqed/qedcc_equations.py L23. -/
def G : Tensor := ⟨13, [.mode]⟩
/-- Argument `H`, openms/mqed/qedcc_equations.py L23. -/
def H : Tensor := ⟨14, [.mode]⟩

/-! Results and work arrays. -/

/-- `T1`, openms/mqed/qedcc_equations.py L13. -/
def T1 : Tensor := ⟨20, [.vir, .occ]⟩
/-- `T2`, openms/mqed/qedcc_equations.py L14. -/
def T2 : Tensor := ⟨21, [.vir, .vir, .occ, .occ]⟩
/-- `S1`, openms/mqed/qedcc_equations.py L360. -/
def S1 : Tensor := ⟨22, [.mode]⟩
/-- `S2`, openms/mqed/qedcc_equations.py L383. -/
def S2 : Tensor := ⟨23, [.mode, .mode]⟩
/-- `U11`, openms/mqed/qedcc_equations.py L407. -/
def U11 : Tensor := ⟨24, [.mode, .vir, .occ]⟩
/-- `U12`, openms/mqed/qedcc_equations.py L407. -/
def U12 : Tensor := ⟨25, [.mode, .mode, .vir, .occ]⟩
/-- `U21`, openms/mqed/qedcc_equations.py L584. -/
def U21 : Tensor := ⟨26, [.mode, .vir, .vir, .occ, .occ]⟩
/-- `U22`, openms/mqed/qedcc_equations.py L584. -/
def U22 : Tensor := ⟨27, [.mode, .vir, .vir, .occ, .occ]⟩
/-- `U11` of the functions for one mode, openms/mqed/qedcc_equations.py L1217. -/
def sU11 : Tensor := ⟨28, [.mode, .vir, .occ]⟩
/-- `U12` of the functions for one mode, openms/mqed/qedcc_equations.py L1217. -/
def sU12 : Tensor := ⟨29, [.mode, .vir, .occ]⟩
/-- `U21` of the functions for one mode, openms/mqed/qedcc_equations.py L1379. -/
def sU21 : Tensor := ⟨30, [.mode, .vir, .vir, .occ, .occ]⟩
/-- `U22` of the functions for one mode, openms/mqed/qedcc_equations.py L1379. -/
def sU22 : Tensor := ⟨31, [.mode, .vir, .vir, .occ, .occ]⟩
/-- `T2A` of `Imds`, openms/mqed/myqedcc_equations_opt.py L49. -/
def imds.T2A : Tensor := ⟨32, [.vir, .vir, .occ, .occ]⟩
/-- `T1T1` of `Imds`, openms/mqed/myqedcc_equations_opt.py L50. -/
def imds.T1T1 : Tensor := ⟨33, [.vir, .vir, .occ, .occ]⟩
/-- `Xov` of `Imds`, openms/mqed/myqedcc_equations_opt.py L55. -/
def imds.Xov : Tensor := ⟨34, [.mode, .occ, .vir]⟩
/-- `Fvv` of `Imds`, openms/mqed/myqedcc_equations_opt.py L57. -/
def imds.Fvv : Tensor := ⟨35, [.vir, .vir]⟩
/-- `Foo` of `Imds`, openms/mqed/myqedcc_equations_opt.py L67. -/
def imds.Foo : Tensor := ⟨36, [.occ, .occ]⟩
/-- `Wovvo` of `Imds`, openms/mqed/myqedcc_equations_opt.py L77. -/
def imds.Wovvo : Tensor := ⟨37, [.occ, .vir, .vir, .occ]⟩
/-- `temp`, openms/mqed/qedcc_equations.py L271. -/
def temp : Tensor := ⟨38, [.vir, .vir, .occ, .occ]⟩
/-- `gU1xy` of `Imds`, openms/mqed/myqedcc_equations_opt.py L84. -/
def imds.gU1xy : Tensor := ⟨39, [.mode, .mode]⟩
/-- `gtm` of `Imds`, openms/mqed/myqedcc_equations_opt.py L87. -/
def imds.gtm : Tensor := ⟨40, [.mode]⟩
/-- `gsov` of `Imds`, openms/mqed/myqedcc_equations_opt.py L90. -/
def imds.gsov : Tensor := ⟨41, [.occ, .vir]⟩
/-- `Fov` of `Imds`, openms/mqed/myqedcc_equations_opt.py L94. -/
def imds.Fov : Tensor := ⟨42, [.occ, .vir]⟩
/-- `gT1oo` of `Imds`, openms/mqed/myqedcc_equations_opt.py L99. -/
def imds.gT1oo : Tensor := ⟨43, [.mode, .occ, .occ]⟩
/-- `gT1T1ov` of `Imds`, openms/mqed/myqedcc_equations_opt.py L100. -/
def imds.gT1T1ov : Tensor := ⟨44, [.mode, .vir, .occ]⟩
/-- `gvoU11_oovv` of `Imds`, openms/mqed/myqedcc_equations_opt.py L103. -/
def imds.gvoU11_oovv : Tensor := ⟨45, [.vir, .vir, .occ, .occ]⟩
/-- `abij_temp`, openms/mqed/qedcc_equations.py L206. -/
def abij_temp : Tensor := ⟨46, [.vir, .vir, .occ, .occ]⟩
/-- `T2A`, openms/mqed/qedcc_equations.py L213. -/
def T2A : Tensor := ⟨47, [.vir, .vir, .occ, .occ]⟩
/-- `T1T1`, openms/mqed/qedcc_equations.py L214. -/
def T1T1 : Tensor := ⟨48, [.vir, .vir, .occ, .occ]⟩
/-- `Fvv`, openms/mqed/qedcc_equations.py L219. -/
def Fvv : Tensor := ⟨49, [.vir, .vir]⟩
/-- `Foo`, openms/mqed/qedcc_equations.py L227. -/
def Foo : Tensor := ⟨50, [.occ, .occ]⟩
/-- `Fov`, openms/mqed/qedcc_equations.py L238. -/
def Fov : Tensor := ⟨51, [.occ, .vir]⟩
/-- `gsov`, openms/mqed/qedcc_equations.py L236. -/
def gsov : Tensor := ⟨52, [.occ, .vir]⟩
/-- `gtm`, openms/mqed/qedcc_equations.py L237. -/
def gtm : Tensor := ⟨53, [.mode]⟩
/-- `T2B`, openms/mqed/qedcc_equations.py L249. -/
def T2B : Tensor := ⟨54, [.vir, .vir, .occ, .occ]⟩
/-- `Woooo`, openms/mqed/qedcc_equations.py L253. -/
def Woooo : Tensor := ⟨55, [.occ, .occ, .occ, .occ]⟩
/-- `Wvvvv`, openms/mqed/qedcc_equations.py L260. -/
def Wvvvv : Tensor := ⟨56, [.vir, .vir, .vir, .vir]⟩
/-- `Wovvo`, openms/mqed/qedcc_equations.py L268. -/
def Wovvo : Tensor := ⟨57, [.occ, .vir, .vir, .occ]⟩
/-- `Ftemp`, openms/mqed/qedcc_equations.py L282. -/
def Ftemp : Tensor := ⟨58, [.vir, .vir]⟩
/-- `temp_ab`, openms/mqed/qedcc_equations.py L283. -/
def temp_ab : Tensor := ⟨59, [.vir, .vir, .occ, .occ]⟩
/-- `Ftemp`, openms/mqed/qedcc_equations.py L289. -/
def Ftemp' : Tensor := ⟨60, [.occ, .occ]⟩
/-- `temp_ij`, openms/mqed/qedcc_equations.py L290. -/
def temp_ij : Tensor := ⟨61, [.vir, .vir, .occ, .occ]⟩
/-- `ttt`, openms/mqed/qedcc_equations.py L301. -/
def ttt : Tensor := ⟨62, [.occ, .occ]⟩
/-- `gtov`, openms/mqed/qedcc_equations.py L305. -/
def gtov : Tensor := ⟨63, [.mode, .vir, .occ]⟩
/-- `temp_abij`, openms/mqed/qedcc_equations.py L307. -/
def temp_abij : Tensor := ⟨64, [.vir, .vir, .occ, .occ]⟩
/-- `T2temp`, openms/mqed/qedcc_equations.py L308. -/
def T2temp : Tensor := ⟨65, [.vir, .vir, .occ, .occ]⟩
/-- `Wmvo`, openms/mqed/qedcc_equations.py L309. -/
def Wmvo : Tensor := ⟨66, [.mode, .vir, .occ]⟩
/-- `gstv`, openms/mqed/qedcc_equations.py L317. -/
def gstv : Tensor := ⟨67, [.vir, .vir]⟩
/-- `gsto`, openms/mqed/qedcc_equations.py L323. -/
def gsto : Tensor := ⟨68, [.occ, .occ]⟩
/-- `gT2_ovvv`, openms/mqed/qedcc_equations.py L332. -/
def gT2_ovvv : Tensor := ⟨69, [.vir, .occ, .occ, .occ]⟩
/-- `Xov`, openms/mqed/myqedcc_equations_opt.py L2276. -/
def Xov : Tensor := ⟨70, [.mode, .occ, .vir]⟩
/-- `Xvv`, openms/mqed/myqedcc_equations_opt.py L2321. -/
def Xvv : Tensor := ⟨71, [.vir, .vir]⟩
/-- `Xoo`, openms/mqed/myqedcc_equations_opt.py L2324. -/
def Xoo : Tensor := ⟨72, [.occ, .occ]⟩
/-- `Xmm`, openms/mqed/myqedcc_equations_opt.py L2327. -/
def Xmm : Tensor := ⟨73, [.mode, .mode]⟩
/-- `gU11_vv`, openms/mqed/myqedcc_equations_opt.py L2408. -/
def gU11_vv : Tensor := ⟨74, [.mode, .mode, .vir, .vir]⟩
/-- `gU11_oo`, openms/mqed/myqedcc_equations_opt.py L2423. -/
def gU11_oo : Tensor := ⟨75, [.mode, .mode, .occ, .occ]⟩
/-- `Xmmm`, openms/mqed/myqedcc_equations_opt.py L2449. -/
def Xmmm : Tensor := ⟨76, [.mode, .mode, .mode]⟩
/-- `tmpg`, openms/mqed/myqedcc_equations_opt.py L2496. -/
def tmpg : Tensor := ⟨77, [.occ, .vir]⟩
/-- `gvoU12_oovv`, openms/mqed/myqedcc_equations_opt.py L2805. -/
def gvoU12_oovv : Tensor := ⟨78, [.mode, .vir, .vir, .occ, .occ]⟩
/-- `temp_abij`, openms/mqed/myqedcc_equations_opt.py L2818. -/
def temp_abij' : Tensor := ⟨79, [.mode, .vir, .vir, .occ, .occ]⟩

end OpenMS.Qedcc
