/-
Central spins, openms/spindy/spin.py.

Numbers are real.  `none` stands for an exception.
-/
import Mathlib.Data.Real.Basic
import Mathlib.Algebra.Order.Archimedean.Real.Basic
import Mathlib.Data.Matrix.Basic
import Mathlib.LinearAlgebra.Matrix.Notation

namespace OpenMS.Spin

open Matrix

/-- A three by three tensor. -/
abbrev T3 := Matrix (Fin 3) (Fin 3) ℝ

/-- openms/spindy/spin.py L88-L93: `zfs_tensor` for a number `D`. -/
noncomputable def zfsNumber (D E : ℝ) : T3 :=
  !![-D / 3 + E, 0, 0; 0, -D / 3 - E, 0; 0, 0, 2 / 3 * D]

/-- openms/spindy/spin.py L68-L97 `zfs_tensor`: number or tensor. -/
noncomputable def zfsTensor : ℝ ⊕ T3 → ℝ → T3
  | .inl D, E => zfsNumber D E
  | .inr T, _ => T

/-- Shapes of a g factor: a number, an array, one tensor, a stack of tensors. -/
inductive G where
  | num (x : ℝ)
  | vec (v : List ℝ)
  | tensor (t : T3)
  | stack (ts : List T3)

/-- `numpy.isclose(x, 0)`. -/
def close0 (x : ℝ) : Prop := |x| ≤ 1e-8

/-- openms/spindy/spin.py L55-L61: entries off the diagonal vanish, the diagonal is constant. -/
def isotropic (t : T3) : Prop :=
  (∀ i j, i ≠ j → close0 (t i j)) ∧ t 0 0 = t 1 1 ∧ t 1 1 = t 2 2

open Classical in
/-- openms/spindy/spin.py L30-L66 `check_gfactor` for what is not a three by three tensor.  An array
of one number is a number for `float`; a stack of one tensor cannot be reshaped to one number. -/
noncomputable def checkGfactor : G → Option (G × Bool)
  | .num x => some (.num x, true)
  | .vec [x] => some (.num x, true)
  | .vec v => some (.vec v, true)
  | .tensor t => if isotropic t then some (.num (t 0 0), true) else some (.tensor t, false)
  | .stack [_] => none
  | .stack ts =>
    if ∀ t ∈ ts, isotropic t then some (.vec (ts.map fun t => t 0 0), true)
    else some (.stack ts, false)

/-- `numpy.eye(3) * g`: a number scales, three numbers scale the columns, other lengths cannot be
broadcast. -/
noncomputable def eyeMul : G → Option T3
  | .num x => some (x • (1 : T3))
  | .vec [x] => some (x • (1 : T3))
  | .vec [x, y, z] => some (diagonal ![x, y, z])
  | .vec _ => none
  | .tensor t => some (of fun i j => (1 : T3) i j * t i j)
  | .stack _ => none

/-- openms/spindy/spin.py L167-L180 `set_gfactor`: the stored `_gfactor`. -/
noncomputable def setGfactor : G → Option G
  | .tensor t => some (.tensor t)
  | g =>
    match checkGfactor g with
    | none => none
    | some (g', false) => some g'
    | some (g', true) => (eyeMul g').map .tensor

/-- openms/spindy/spin.py L154: `ndim`. -/
noncomputable def ndim (spin : ℝ) : ℤ := ⌊spin * 2 + 1 + 1e-8⌋

/-! ### Keyword arguments -/

/-- The arguments of a call that reach `kwargs`: those that are not named in the signature. -/
def kwargs {V : Type*} (named : List String) (call : List (String × V)) : List (String × V) :=
  call.filter fun a => a.1 ∉ named

/-- `self.__dict__.update(kwargs)`. -/
def updateDict {V : Type*} (d : String → Option V) (kw : List (String × V)) : String → Option V :=
  kw.foldl (fun d a => Function.update d a.1 (some a.2)) d

/-- openms/spindy/spin.py L130-L148 `Spin.__init__`: the numbers among the attributes. -/
noncomputable def spinAttrs (call : List (String × ℝ)) : String → Option ℝ :=
  updateDict (fun a => if a = "spin" then some 0.5 else if a = "D" then some 0 else
    if a = "E" then some 0 else if a = "gfactor" then some (-2.00231930426256) else
    if a = "detuning" then some 0 else none) (kwargs ["coord", "D", "E"] call)

/-- openms/spindy/spin.py L205-L215 `SpinSystem.__init__`: the lists among the attributes. -/
noncomputable def systemAttrs (call : List (String × List ℝ)) : String → Option (List ℝ) :=
  updateDict (fun a => if a = "spin" then some [0.5] else none)
    (kwargs ["coords", "spin", "coord"] call)

/-- openms/spindy/spin.py L215: `self.size`. -/
noncomputable def systemSize (call : List (String × List ℝ)) : Option ℕ :=
  (systemAttrs call "spin").map List.length

end OpenMS.Spin
