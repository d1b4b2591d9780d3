/-
One iteration of the QED-CCSD solver of openms/mqed/ccsd.py.
-/
import Verif.Model.QedccInput

namespace OpenMS.Qedcc

variable {R O V X : Type*} [Field R] [Algebra ℚ R] [Fintype O] [Fintype V] [Fintype X]

/-- openms/mqed/ccsd.py L127-131: the residuals are called with the Fock matrix without its diagonal
elements `eo`, `ev`.  Here the inverse: the inputs with the whole Fock matrix. -/
def Inputs.full {R O V X : Type*} [CommRing R] [DecidableEq O] [DecidableEq V] (eo : O → R)
    (ev : V → R) (t : Inputs R O V X) : Inputs R O V X :=
  { t with F := fun p q => t.F p q + match p, q with
      | .inl i, .inl j => if i = j then eo j else 0
      | .inr a, .inr b => if a = b then ev a else 0
      | _, _ => 0 }

variable (n1 n2 : Nat) (u2 : Bool) (eo : O → R) (ev : V → R) (t : Inputs R O V X)

/-- openms/mqed/ccsd.py L145, L234-238: new `T1`. -/
def stepT1 (a : V) (i : O) : R := Opt.resT1 n1 n2 u2 t a i / (eo i - ev a)

/-- openms/mqed/ccsd.py L146-147, L234-239: new `T2`. -/
def stepT2 (a b : V) (i j : O) : R :=
  Opt.resT2 n1 n2 u2 t a b i j / (eo i + eo j - ev a - ev b)

/-- openms/mqed/ccsd.py L59, L234-242: new `Sn[0]`. -/
noncomputable def stepS1 (m : X) : R := Opt.resS1 n1 n2 u2 t m / (-t.w m)

/-- openms/mqed/ccsd.py L61-62, L234-242: new `Sn[1]`. -/
noncomputable def stepS2 (m n : X) : R := Opt.resS2 n1 n2 u2 t m n / (-t.w m - t.w n)

/-- openms/mqed/ccsd.py L74, L234-245: new `U1n[0]`. -/
def stepU11 (m : X) (a : V) (i : O) : R := Opt.resU11 n1 n2 u2 t m a i / (eo i - ev a - t.w m)

/-- openms/mqed/ccsd.py L87-89, L234-247: new `U2n[0]`. -/
def stepU21 (m : X) (a b : V) (i j : O) : R :=
  Opt.resU21 n1 n2 u2 t m a b i j / (-ev a - ev b + eo i + eo j - t.w m)

/-- openms/mqed/ccsd.py L268-276: linear mixing of an amplitude. -/
def mix [LT R] [DecidableLT R] (damp old new : R) : R :=
  if damp < 1 then damp * old + (1 - damp) * new else new

end OpenMS.Qedcc
