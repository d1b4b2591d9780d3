/-
Execution of the tensor programs of openms/mqed/qedcc_equations.py and
openms/mqed/myqedcc_equations_opt.py with errors: a statement raises if an array does not exist yet
or has other axes than its letters say.  Lengths of axes are represented by their kinds (occupied,
virtual, mode), so that two axes of one kind always have the same length.
-/
import Verif.Model.QedccInput

namespace OpenMS.Qedcc

open Einsum

/-- An array with its axes. -/
abbrev Shape := Nat × List Kind

/-- Occupied and virtual orbitals, the two blocks of an axis of `F`, `I` and `g`
(openms/mqed/qedcc_equations.py L35-38). -/
def axisKinds : List Kind := [.occ, .vir]

/-- Name and axes of a tensor. -/
def shape (t : Tensor) : Shape := (t.root, t.blk)

/-- Blocks of the two-electron integrals: the nine of `two_e_blocks`
(openms/lib/ov_blocks.py L30-L42, built by openms/lib/boson.py L2173-L2194) or, with `full`, the
sixteen of `two_e_blocks_full` (openms/lib/ov_blocks.py L65-L86). -/
def blocks (full : Bool) : List Shape :=
  bif full then
    axisKinds.flatMap fun p => axisKinds.flatMap fun q => axisKinds.flatMap fun r => axisKinds.map fun s =>
      (1, [p, q, r, s])
  else
    [shape I.vvvv, shape I.vvvo, shape I.vovv, shape I.vvoo, shape I.vovo, shape I.oovv,
      shape I.vooo, shape I.ooov, shape I.oooo]

/-- Arrays that exist when the residuals are called: openms/mqed/ccsd.py L154, L161-L222 (`amps`,
`G`, `H`) and L234-L236 (`F`, `I`, `w`, `g`, `h`).  `Snold` has `nfock1` elements, `U1nold` has
`nfock2`, `U2nold` has `nfock2` or is not used. -/
def available (full : Bool) (n1 n2 : Nat) (u2 : Bool) : List Shape :=
  (axisKinds.flatMap fun p => axisKinds.map fun q => (0, [p, q])) ++
  blocks full ++
  (axisKinds.flatMap fun p => axisKinds.map fun q => (2, [.mode, p, q])) ++
  [shape w, shape T1old, shape T2old, shape G, shape H] ++
  (bif 0 < n1 then [shape S1old] else []) ++ (bif 1 < n1 then [shape S2old] else []) ++
  (bif 0 < n2 then [shape U11old] else []) ++ (bif 1 < n2 then [shape U12old] else []) ++
  (bif u2 && 0 < n2 then [shape U21old] else []) ++
  (bif u2 && 1 < n2 then [shape U22old] else [])

/-- Number of the letter `z`, which stands for the first mode where the code writes the index `0`
(openms/mqed/qedcc_equations.py L847-L853). -/
def firstMode : Nat := (letters% "z").headD 0

/-- `coef*einsum('..,..->out', ops)` does not raise and gives an array with axes `k`: all operands
exist, every letter has the length of its axis and the letters of the result occur in the operands
(openms/mqed/qedcc_equations.py L35). -/
def runs (known : List Shape) (k : List Kind) (l : Line) : Bool :=
  l.ops.all (fun o => known.contains (o.root, o.blk) && o.idx.map kind == o.blk) &&
    l.out.all (fun n => n == firstMode || (l.ops.flatMap Operand.idx).contains n) &&
    l.out.map kind == k

/-- Axes of the result of a statement; `numpy.zeros` (no lines) is used for `sU21` and `sU22` only
(openms/mqed/qedcc_equations.py L1409-L1410). -/
def axesOf (d : Def) : List Kind :=
  match d.lines with
  | [] => sU21.blk
  | l :: _ => l.out.map kind

/-- A program (openms/mqed/qedcc_equations.py L23-L63 for instance) executed statement by statement;
`none` if a statement raises. -/
def exec {R O V X : Type*} [CommRing R] [Algebra ℚ R] [Fintype O] [Fintype V] [Fintype X] :
    List Def → List Shape × Tens R O V X → Option (List Shape × Tens R O V X)
  | [], s => some s
  | d :: ds, (known, ten) =>
    if d.lines.all (runs known (axesOf d)) then exec ds ((d.name, axesOf d) :: known, d.run ten)
    else none

/-- `a + b` of two one-dimensional numpy arrays of lengths `m` and `n`: length of the result, `none`
if it raises. -/
def sumLength (m n : Nat) : Option Nat :=
  if m = n then some m else if m = 1 then some n else if n = 1 then some m else none

/-- openms/mqed/myqedcc_equations_opt.py L2575 and openms/mqed/qedcc_equations.py L594, L1389:
`eps_vir_p_w = eps_vir + w` with `nvir` virtual orbitals and `nm` modes. -/
def epsVirW (nvir nm : Nat) : Option Nat := sumLength nvir nm

/-- openms/mqed/myqedcc_equations_opt.py L2563-L3261, `qedccsd_U2n_opt`: `eps_vir + w`, then the
program. -/
def execU2n {R O V X : Type*} [CommRing R] [Algebra ℚ R] [Fintype O] [Fintype V] [Fintype X]
    (n1 n2 : Nat) (u2 : Bool) (s : List Shape × Tens R O V X) :
    Option (List Shape × Tens R O V X) :=
  match epsVirW (Fintype.card V) (Fintype.card X) with
  | none => none
  | some _ => exec (optU2 n1 n2 u2) s

end OpenMS.Qedcc
