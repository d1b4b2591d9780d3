/-
Notation for programs made of `numpy.einsum` lines, so that the models of the
coupled-cluster equations can be compared with the source line by line.
-/
import Verif.Model.Einsum

namespace OpenMS.Einsum

/-- A tensor: its name and the kinds of its axes. -/
structure Tensor where
  root : Nat
  blk : List Kind
  deriving DecidableEq

/-- Tensor with letters on its axes. -/
def Tensor.at (t : Tensor) (idx : List Nat) : Operand := ⟨t.root, t.blk, idx⟩

/-- Number of a kind. -/
def Kind.num : Kind → Nat
  | .occ => 0
  | .vir => 1
  | .mode => 2

/-- A letter for every axis. -/
def axes (blk : List Kind) : List Nat := (blk.zipIdx).map fun p => 3 * p.2 + p.1.num

/-- `c*t` or `c*t.copy()`, as in openms/mqed/qedcc_equations.py L200. -/
def cpy (c : Coef) (t : Tensor) : Line := ⟨c, axes t.blk, [t.at (axes t.blk)]⟩

/-- `c*t.transpose(p)`: axis `k` of the result is axis `p[k]` of `t`
(openms/mqed/qedcc_equations.py L268). -/
def tr (c : Coef) (p : List Nat) (t : Tensor) : Line :=
  ⟨c, p.map fun k => (axes t.blk).getD k 0, [t.at (axes t.blk)]⟩

/-- `x = l₁ + l₂ + …`, as in openms/mqed/qedcc_equations.py L271. -/
def set (x : Tensor) (ls : List Line) : Def := ⟨x.root, ls⟩

/-- `x += l₁; x += l₂; …`, as in openms/mqed/qedcc_equations.py L269-L272. -/
def add (x : Tensor) (ls : List Line) : Def := ⟨x.root, cpy ⟨1, 0⟩ x :: ls⟩

/-- Statements executed if `c`, as `if nfock1 > 0:` in openms/mqed/qedcc_equations.py L196. -/
def when (c : Bool) (ds : List Def) : List Def := bif c then ds else []

/-- Value `x[…]` of a tensor, as a term; used to read the results, `T1` of
openms/mqed/qedcc_equations.py L33 for instance. -/
def read (x : Tensor) (idx : List Nat) : List Term := [⟨⟨1, 0⟩, [], [⟨x.root, idx⟩]⟩]

/-- Number of a letter of an `einsum` string: `i…` are occupied, `a…` virtual
orbitals, capital letters and `x y z` modes, as in openms/mqed/qedcc_equations.py L36. -/
def letter (c : Char) : Option Nat :=
  let find (s : String) (k : Nat) : Option Nat := (s.toList.idxOf? c).map fun p => 3 * p + k
  find "ijklmno" 0 <|> find "abcdefh" 1 <|> find "IJKxyz" 2

open Lean in
/-- List of the numbers of the letters. -/
def lettersSyntax (s : String) : MacroM (TSyntax `term) := do
  let ns ← s.toList.mapM fun c => match letter c with
    | some n => pure (quote n : TSyntax `term)
    | none => Macro.throwError s!"letter {c}"
  `([$(ns.toArray),*])

/-- `letters% "ai"`: the numbers of the letters. -/
macro "letters% " s:str : term => lettersSyntax s.getString

/-- A decimal number of the code as a coefficient: `-0.25` is `-1 / 2 ^ 2`. -/
def decimal (s : String) : Option Coef := do
  let (neg, s) := if s.startsWith "-" then (true, (s.drop 1).toString) else (false, s)
  let (a, k) ← match s.splitOn "." with
    | [a] => some (a, 0)
    | [a, b] => some (a ++ b, b.length)
    | _ => none
  let n ← a.toNat?
  if n % 5 ^ k != 0 then none
  let m : Int := ((n / 5 ^ k : Nat) : Int)
  pure ⟨if neg then -m else m, k⟩

open Lean in
/-- Coefficient as a literal in lowest terms. -/
def decimalSyntax (s : String) : MacroM (TSyntax `term) := do
  match decimal s with
  | none => Macro.throwError s!"number {s}"
  | some c =>
    let h := (List.range c.half).foldl
      (fun (p : Int × Nat) _ => if p.1 % 2 == 0 then (p.1 / 2, p.2 - 1) else p) (c.num, c.half)
    let n : TSyntax `term := quote h.1.natAbs
    let k : TSyntax `term := quote h.2
    if h.1 < 0 then `((⟨-$n, $k⟩ : OpenMS.Einsum.Coef)) else `((⟨$n, $k⟩ : OpenMS.Einsum.Coef))

open Lean in
/-- `ein% "-0.5" "ji,aj->ai" [F.oo, T1old]` is the line
`-0.5*einsum('ji,aj->ai', F.oo, T1old)`. -/
macro "ein% " c:str s:str "[" ops:term,* "]" : term => do
  match (s.getString.replace " " "").splitOn "->" with
  | [ins, out] =>
    let o ← lettersSyntax out
    let ls ← (ins.splitOn ",").mapM lettersSyntax
    let es := ops.getElems.toList
    if ls.length != es.length then Macro.throwError "number of operands"
    let xs ← (ls.zip es).mapM fun (l, e) => `(OpenMS.Einsum.Tensor.at $e $l)
    `((⟨$(← decimalSyntax c.getString), $o, [$(xs.toArray),*]⟩ : OpenMS.Einsum.Line))
  | _ => Macro.throwError "einsum string"

/-- `cpy% "0.5" T2old` is the line `0.5*T2old`. -/
macro "cpy% " c:str t:term:max : term => do
  `(OpenMS.Einsum.cpy $(← decimalSyntax c.getString) $t)

/-- `tr% "-1" [1, 0, 2, 3] temp` is the line `-temp.transpose((1, 0, 2, 3))`. -/
macro "tr% " c:str p:term:max t:term:max : term => do
  `(OpenMS.Einsum.tr $(← decimalSyntax c.getString) $p $t)

end OpenMS.Einsum
