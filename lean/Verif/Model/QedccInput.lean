/-
Typed inputs of the QED-CCSD residuals, their displaced form, and the residual
functions of openms/mqed/qedcc_equations.py and
openms/mqed/myqedcc_equations_opt.py as functions of them.
-/
import Verif.Model.QedccRef
import Verif.Model.QedccOpt
import Verif.Model.QedccSingle
import Mathlib.Algebra.DualNumber

namespace OpenMS.Qedcc

open Einsum TrivSqZeroExt

/-- Arguments `F, I, w, g, G` and `amps` of `new_qedccsd_sn_u2n`
(openms/mqed/myqedcc_equations_opt.py L105).  `O`, `V` are the occupied and virtual
spin orbitals, `X` the modes.  `F`, `I` and `g` have blocks (`F.ov`, …), modelled by
matrices on all spin orbitals.  `h` is `g` (boson.py L2226) and `H` enters only as
`H.copy()*0.0` (myqedcc_equations_opt.py L554). -/
structure Inputs (R O V X : Type*) where
  F : O ⊕ V → O ⊕ V → R
  I : O ⊕ V → O ⊕ V → O ⊕ V → O ⊕ V → R
  g : X → O ⊕ V → O ⊕ V → R
  w : X → R
  G : X → R
  T1 : V → O → R
  T2 : V → V → O → O → R
  S1 : X → R
  S2 : X → X → R
  U11 : X → V → O → R
  U12 : X → X → V → O → R
  U21 : X → V → V → O → O → R
  U22 : X → X → V → V → O → O → R

section

variable {R O V X : Type*}

/-- Orbital of a position. -/
def orb : Idx O V X → Option (O ⊕ V)
  | .o i => some (.inl i)
  | .v a => some (.inr a)
  | _ => none

/-- Occupied orbital of a position. -/
def occ : Idx O V X → Option O
  | .o i => some i
  | _ => none

/-- Virtual orbital of a position. -/
def vir : Idx O V X → Option V
  | .v a => some a
  | _ => none

/-- Mode of a position. -/
def mode : Idx O V X → Option X
  | .x m => some m
  | _ => none

variable [CommRing R]

/-- Value of an array at positions, `0` if a position is on a wrong axis. -/
def at1 {A : Type*} (f : A → R) : Option A → R
  | some a => f a
  | none => 0

/-- The arrays by number, as in `Model/QedccTensors.lean`. -/
def Inputs.ten (t : Inputs R O V X) : Tens R O V X := fun r ix =>
  match r, ix with
  | 0, [p, q] => at1 (fun p => at1 (fun q => t.F p q) (orb q)) (orb p)
  | 1, [p, q, r, s] =>
    at1 (fun p => at1 (fun q => at1 (fun r => at1 (fun s => t.I p q r s) (orb s)) (orb r))
      (orb q)) (orb p)
  | 2, [m, p, q] => at1 (fun m => at1 (fun p => at1 (fun q => t.g m p q) (orb q)) (orb p)) (mode m)
  | 4, [m] => at1 (fun m => t.w m) (mode m)
  | 5, [a, i] => at1 (fun a => at1 (fun i => t.T1 a i) (occ i)) (vir a)
  | 6, [a, b, i, j] =>
    at1 (fun a => at1 (fun b => at1 (fun i => at1 (fun j => t.T2 a b i j) (occ j)) (occ i))
      (vir b)) (vir a)
  | 7, [m] => at1 (fun m => t.S1 m) (mode m)
  | 8, [m, n] => at1 (fun m => at1 (fun n => t.S2 m n) (mode n)) (mode m)
  | 9, [m, a, i] =>
    at1 (fun m => at1 (fun a => at1 (fun i => t.U11 m a i) (occ i)) (vir a)) (mode m)
  | 10, [m, n, a, i] =>
    at1 (fun m => at1 (fun n => at1 (fun a => at1 (fun i => t.U12 m n a i) (occ i)) (vir a))
      (mode n)) (mode m)
  | 11, [m, a, b, i, j] =>
    at1 (fun m => at1 (fun a => at1 (fun b => at1 (fun i => at1 (fun j => t.U21 m a b i j) (occ j))
      (occ i)) (vir b)) (vir a)) (mode m)
  | 12, [m, n, a, b, i, j] =>
    at1 (fun m => at1 (fun n => at1 (fun a => at1 (fun b => at1 (fun i => at1 (fun j =>
      t.U22 m n a b i j) (occ j)) (occ i)) (vir b)) (vir a)) (mode n)) (mode m)
  | 13, [m] => at1 (fun m => t.G m) (mode m)
  | _, _ => 0

/-- Integrals and amplitudes have the symmetries of fermions and bosons. -/
structure Inputs.Symmetric (t : Inputs R O V X) : Prop where
  I_left : ∀ p q r s, t.I q p r s = -t.I p q r s
  I_right : ∀ p q r s, t.I p q s r = -t.I p q r s
  T2_left : ∀ a b i j, t.T2 b a i j = -t.T2 a b i j
  T2_right : ∀ a b i j, t.T2 a b j i = -t.T2 a b i j
  S2 : ∀ m n, t.S2 n m = t.S2 m n
  U12 : ∀ m n a i, t.U12 n m a i = t.U12 m n a i
  U21_left : ∀ m a b i j, t.U21 m b a i j = -t.U21 m a b i j
  U21_right : ∀ m a b i j, t.U21 m a b j i = -t.U21 m a b i j
  U22 : ∀ m n a b i j, t.U22 n m a b i j = t.U22 m n a b i j
  U22_left : ∀ m n a b i j, t.U22 m n b a i j = -t.U22 m n a b i j
  U22_right : ∀ m n a b i j, t.U22 m n a b j i = -t.U22 m n a b i j

/-- Amplitudes that the truncation leaves out are zero: `S2` for `nfock1 = 1`, `U12`
and `U22` for `nfock2 = 1`, `U21` and `U22` if `U2n` is not used. -/
structure Inputs.Truncated (t : Inputs R O V X) (n1 n2 : Nat) (u2 : Bool) : Prop where
  S2 : n1 < 2 → t.S2 = fun _ _ => 0
  U12 : n2 < 2 → t.U12 = fun _ _ _ _ => 0
  U21 : u2 = false → t.U21 = fun _ _ _ _ _ => 0
  U22 : n2 < 2 ∨ u2 = false → t.U22 = fun _ _ _ _ _ _ => 0

/-- The inputs displaced along mode `m`: the amplitudes as functions of the
coherent-state variable `z`,
`T(z) = T + ∑ z_I U1_I + ½ ∑ z_I z_J U2_IJ`, `S(z) = ∑ z_I S1_I + ½ ∑ z_I z_J S2_IJ`,
at `z = ε` along `m`, with `U_I(z) = ∂_I T(z)` and `S1_I(z) = z_I + ∂_I S(z)` (a
creation operator is `z`, an annihilation operator `∂`). -/
def Inputs.shift [DecidableEq X] (t : Inputs R O V X) (m : X) : Inputs (DualNumber R) O V X where
  F p q := inl (t.F p q)
  I p q r s := inl (t.I p q r s)
  g n p q := inl (t.g n p q)
  w n := inl (t.w n)
  G n := inl (t.G n)
  T1 a i := inl (t.T1 a i) + inr (t.U11 m a i)
  T2 a b i j := inl (t.T2 a b i j) + inr (t.U21 m a b i j)
  S1 n := inl (t.S1 n) + inr (t.S2 m n + if n = m then 1 else 0)
  S2 n k := inl (t.S2 n k)
  U11 n a i := inl (t.U11 n a i) + inr (t.U12 m n a i)
  U12 n k a i := inl (t.U12 n k a i)
  U21 n a b i j := inl (t.U21 n a b i j) + inr (t.U22 m n a b i j)
  U22 n k a b i j := inl (t.U22 n k a b i j)

variable [Algebra ℚ R] [Fintype O] [Fintype V] [Fintype X]

/-- Result of a program: tensor `x` at positions `ix`. -/
def result (p : List Def) (t : Inputs R O V X) (x : Tensor) (ix : List (Idx O V X)) : R :=
  run p t.ten x.root ix

/-- Correlation energy, openms/mqed/ccsd.py L40-52 (`eph_energy`, `epcc_energy`).  The
electronic part is `cc_energy` of the package cqcpy, which is not in the repository; it
is modelled by the usual formula. -/
def energy (t : Inputs R O V X) : R :=
  ∑ a, ∑ i, t.F (.inl i) (.inr a) * t.T1 a i
    + algebraMap ℚ R (1 / 4)
      * ∑ a, ∑ b, ∑ i, ∑ j, t.I (.inl i) (.inl j) (.inr a) (.inr b) * t.T2 a b i j
    + algebraMap ℚ R (1 / 2)
      * ∑ a, ∑ i, ∑ b, ∑ j, t.I (.inl i) (.inl j) (.inr a) (.inr b) * (t.T1 a i * t.T1 b j)
    + ∑ m, t.G m * t.S1 m
    + ∑ m, ∑ a, ∑ i, t.g m (.inl i) (.inr a) * t.U11 m a i
    + ∑ a, ∑ i, ∑ m, t.g m (.inl i) (.inr a) * (t.T1 a i * t.S1 m)

variable (n1 n2 : Nat) (u2 : Bool) (t : Inputs R O V X)

namespace Ref

/-- openms/mqed/qedcc_equations.py L23-63. -/
def resT1 (a : V) (i : O) : R := result (refT1 n1 n2 u2) t T1 [.v a, .o i]

/-- openms/mqed/qedcc_equations.py L65-184. -/
def resT2 (a b : V) (i j : O) : R := result (refT2 n1 n2 u2) t T2 [.v a, .v b, .o i, .o j]

open scoped Classical in
/-- openms/mqed/qedcc_equations.py L347-405, `Sn[0]`: zero for modes with frequency zero
(L375-377). -/
noncomputable def resS1 (m : X) : R :=
  if t.w m = 0 then 0 else result (refS n1 n2 u2) t S1 [.x m]

open scoped Classical in
/-- openms/mqed/qedcc_equations.py L347-405, `Sn[1]`: zero on the diagonal for modes with
frequency zero (L399-401). -/
noncomputable def resS2 (m n : X) : R :=
  if m = n ∧ t.w m = 0 then 0 else result (refS n1 n2 u2) t S2 [.x m, .x n]

/-- openms/mqed/qedcc_equations.py L407-582, `U1n[0]` for several modes. -/
def resU11 (m : X) (a : V) (i : O) : R := result (refU1 n1 n2 u2) t U11 [.x m, .v a, .o i]

/-- openms/mqed/qedcc_equations.py L407-582, `U1n[1]` for several modes. -/
def resU12 (m n : X) (a : V) (i : O) : R :=
  result (refU1 n1 n2 u2) t U12 [.x m, .x n, .v a, .o i]

/-- openms/mqed/qedcc_equations.py L584-1214, `U2n[0]` for several modes. -/
def resU21 (m : X) (a b : V) (i j : O) : R :=
  result (refU2 n1 n2 u2) t U21 [.x m, .v a, .v b, .o i, .o j]

/-- openms/mqed/qedcc_equations.py L584-1214, `U2n[1][0,0]`, with first mode `z`. -/
def resU22 (z : X) (a b : V) (i j : O) : R :=
  result (refU2 n1 n2 u2) t U22 [.x z, .v a, .v b, .o i, .o j]

/-- openms/mqed/qedcc_equations.py L1217-1376 (`single_qedccsd_U1n`, called by L421-422 if there
is one mode): `U1n[0]`. -/
def oneU11 (m : X) (a : V) (i : O) : R := result (singleU1 n1 n2 u2) t sU11 [.x m, .v a, .o i]

/-- openms/mqed/qedcc_equations.py L1217-1376: `U1n[1]`. -/
def oneU12 (m : X) (a : V) (i : O) : R := result (singleU1 n1 n2 u2) t sU12 [.x m, .v a, .o i]

/-- openms/mqed/qedcc_equations.py L1379-1990 (`single_qedccsd_U2n`, called by L596-597 if there
is one mode): `U2n[0]`. -/
def oneU21 (m : X) (a b : V) (i j : O) : R :=
  result (singleU2 n1 n2 u2) t sU21 [.x m, .v a, .v b, .o i, .o j]

/-- openms/mqed/qedcc_equations.py L1379-1990: `U2n[1]`. -/
def oneU22 (m : X) (a b : V) (i j : O) : R :=
  result (singleU2 n1 n2 u2) t sU22 [.x m, .v a, .v b, .o i, .o j]

end Ref

namespace Opt

/-- openms/mqed/myqedcc_equations_opt.py L375-538, `T1`. -/
def resT1 (a : V) (i : O) : R := result (optT n1 n2 u2) t T1 [.v a, .o i]

/-- openms/mqed/myqedcc_equations_opt.py L375-538, `T2`. -/
def resT2 (a b : V) (i j : O) : R := result (optT n1 n2 u2) t T2 [.v a, .v b, .o i, .o j]

open scoped Classical in
/-- openms/mqed/myqedcc_equations_opt.py L541-603, `Sn[0]`. -/
noncomputable def resS1 (m : X) : R :=
  if t.w m = 0 then 0 else result (imdsBuild n1 n2 u2 ++ optS n1 n2 u2) t S1 [.x m]

open scoped Classical in
/-- openms/mqed/myqedcc_equations_opt.py L541-603, `Sn[1]`. -/
noncomputable def resS2 (m n : X) : R :=
  if m = n ∧ t.w m = 0 then 0
  else result (imdsBuild n1 n2 u2 ++ optS n1 n2 u2) t S2 [.x m, .x n]

/-- openms/mqed/myqedcc_equations_opt.py L2251-2560, `U1n[0]`. -/
def resU11 (m : X) (a : V) (i : O) : R :=
  result (imdsBuild n1 n2 u2 ++ optU1 n1 n2 u2) t U11 [.x m, .v a, .o i]

/-- openms/mqed/myqedcc_equations_opt.py L2251-2560, `U1n[1]`. -/
def resU12 (m n : X) (a : V) (i : O) : R :=
  result (imdsBuild n1 n2 u2 ++ optU1 n1 n2 u2) t U12 [.x m, .x n, .v a, .o i]

/-- openms/mqed/myqedcc_equations_opt.py L2563-3261, `U2n[0]`. -/
def resU21 (m : X) (a b : V) (i j : O) : R :=
  result (imdsBuild n1 n2 u2 ++ optU2 n1 n2 u2) t U21 [.x m, .v a, .v b, .o i, .o j]

/-- openms/mqed/myqedcc_equations_opt.py L2563-3261, `U2n[1][0,0]`, with first mode `z`. -/
def resU22 (z : X) (a b : V) (i j : O) : R :=
  result (imdsBuild n1 n2 u2 ++ optU2 n1 n2 u2) t U22 [.x z, .v a, .v b, .o i, .o j]

end Opt

end

end OpenMS.Qedcc
