/-
Tensor programs: sequences of lines such as

    T1 += -0.5*einsum('jkbc,aj,cbki->ai', I.oovv, T1old, T2old)

This is the language in which the coupled-cluster residuals of
openms/mqed/qedcc_equations.py and openms/mqed/myqedcc_equations_opt.py are
written (`einsum = numpy.einsum`, qedcc_equations.py L8,
myqedcc_equations_opt.py L14).

An index letter is a natural number; its remainder modulo three says over which
axis it runs (0: occupied spin orbitals, 1: virtual ones, 2: boson modes).  The
letters of the code are `i j k l m n` (occupied), `a b c d e f` (virtual) and
`I J K` or `x y z` (modes).

Numbers are elements of a commutative ring that contains the rationals (the
code uses floats).  The `optimize=True` arguments of the code only change the
order of the contractions and are left out.
-/
import Mathlib.Algebra.BigOperators.Group.Finset.Basic
import Mathlib.Algebra.Algebra.Rat
import Mathlib.Data.Fintype.Basic
import Mathlib.Tactic

namespace OpenMS.Einsum

/-- Kind of an axis: the arrays have axes of lengths `nocc`, `nvir` and the number of modes
(openms/mqed/qedcc_equations.py L27, L28, L355). -/
inductive Kind
  | occ | vir | mode
  deriving DecidableEq, Repr

/-- Kind of the axis over which a letter runs. -/
def kind (n : Nat) : Kind :=
  match n % 3 with
  | 0 => .occ
  | 1 => .vir
  | _ => .mode

/-- A position along an axis; `none` is used for letters without a value. -/
inductive Idx (O V X : Type*)
  | none
  | o (i : O)
  | v (a : V)
  | x (m : X)

/-- Values of letters. -/
abbrev Env (O V X : Type*) := Nat → Idx O V X

/-- Tensors by name. -/
abbrev Tens (R O V X : Type*) := Nat → List (Idx O V X) → R

/-- A factor: name of a tensor and letters of its axes, `T1old` with `aj` in
openms/mqed/qedcc_equations.py L36. -/
structure Fac where
  root : Nat
  idx : List Nat
  deriving DecidableEq, Repr

/-- A coefficient `num / 2 ^ half`: all numbers in front of `einsum` are of this form, `-0.25`
for instance (`-1.0` in openms/mqed/qedcc_equations.py L36). -/
structure Coef where
  num : Int
  half : Nat
  deriving DecidableEq, Repr

/-- Value of a coefficient. -/
def Coef.val (c : Coef) : ℚ := c.num / 2 ^ c.half

/-- Product of coefficients. -/
def Coef.mul (c d : Coef) : Coef := ⟨c.num * d.num, c.half + d.half⟩

/-- A sum of products: coefficient, letters summed over, factors. -/
structure Term where
  coef : Coef
  dum : List Nat
  facs : List Fac
  deriving DecidableEq

section eval

variable {R O V X : Type*} [CommRing R] [Algebra ℚ R] [Fintype O] [Fintype V] [Fintype X]

/-- Sum over the positions of the axis of letter `n`. -/
def sumOver (n : Nat) (f : Idx O V X → R) : R :=
  match kind n with
  | .occ => ∑ i : O, f (.o i)
  | .vir => ∑ a : V, f (.v a)
  | .mode => ∑ m : X, f (.x m)

/-- Sum over several letters. -/
def sumVars : List Nat → (Env O V X → R) → Env O V X → R
  | [], f, e => f e
  | n :: ns, f, e => sumOver n fun d => sumVars ns f (Function.update e n d)

/-- Product of the factors for given values of the letters. -/
def prodFacs (ten : Tens R O V X) (fs : List Fac) (e : Env O V X) : R :=
  (fs.map fun f => ten f.root (f.idx.map e)).prod

/-- Value of a term. -/
def Term.eval (ten : Tens R O V X) (t : Term) (e : Env O V X) : R :=
  algebraMap ℚ R t.coef.val * sumVars t.dum (prodFacs ten t.facs) e

/-- Value of a sum of terms. -/
def evalTerms (ten : Tens R O V X) (ts : List Term) (e : Env O V X) : R :=
  (ts.map fun t => t.eval ten e).sum

end eval

/-- An operand of `einsum`: tensor, kinds of its axes, letters. -/
structure Operand where
  root : Nat
  blk : List Kind
  idx : List Nat
  deriving DecidableEq

/-- A line `out += coef*einsum('..,..->out', ops)`, as in openms/mqed/qedcc_equations.py L36. -/
structure Line where
  coef : Coef
  out : List Nat
  ops : List Operand

/-- Every letter once. -/
def uniq : List Nat → List Nat
  | [] => []
  | n :: ns => if ns.contains n then uniq ns else n :: uniq ns

/-- The letters `einsum` sums over: those of the operands that are not in the
output. -/
def dummies (out : List Nat) (ops : List Operand) : List Nat :=
  uniq ((ops.flatMap Operand.idx).filter fun n => !out.contains n)

/-- Meaning of a line: the sum over the letters that are not in the output, as in
openms/mqed/qedcc_equations.py L36. -/
def Line.term (l : Line) : Term :=
  ⟨l.coef, dummies l.out l.ops, l.ops.map fun o => ⟨o.root, o.idx⟩⟩

/-- Shapes agree: every operand has as many axes as letters, of the right kinds,
and every letter of the output occurs in an operand.  Otherwise `einsum`
raises. -/
def Line.ok (l : Line) : Bool :=
  (l.ops.all fun o => o.idx.map kind == o.blk) &&
    l.out.all fun n => (l.ops.flatMap Operand.idx).contains n

/-- A statement: the tensor `name` gets the sum of the lines.  Each line has its
own letters for the axes of the result.  `x += …` is a statement whose first
line is `x` itself (openms/mqed/qedcc_equations.py L33-L35). -/
structure Def where
  name : Nat
  lines : List Line

/-- Letters of the result and terms of a statement. -/
def Def.terms (d : Def) : List (List Nat × Term) := d.lines.map fun l => (l.out, l.term)

section run

variable {R O V X : Type*} [CommRing R] [Algebra ℚ R] [Fintype O] [Fintype V] [Fintype X]

/-- Values of the letters `out` at the positions `ds`. -/
def bind : List Nat → List (Idx O V X) → Env O V X
  | n :: ns, d :: ds => Function.update (bind ns ds) n d
  | _, _ => fun _ => .none

/-- Sum of the terms at a position of the result. -/
def evalAt (ten : Tens R O V X) (ts : List (List Nat × Term)) (ds : List (Idx O V X)) : R :=
  (ts.map fun t => t.2.eval ten (bind t.1 ds)).sum

/-- Tensors after a statement such as openms/mqed/qedcc_equations.py L214. -/
def Def.run (d : Def) (ten : Tens R O V X) : Tens R O V X := fun r ds =>
  if r = d.name then evalAt ten d.terms ds else ten r ds

/-- Tensors after a program. -/
def run : List Def → Tens R O V X → Tens R O V X
  | [], ten => ten
  | d :: ds, ten => run ds (d.run ten)

end run

end OpenMS.Einsum
