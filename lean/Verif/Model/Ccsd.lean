import Verif.Model.Packing
import Mathlib.Data.Real.Basic

/-!
# QED coupled cluster driver

Model of the bookkeeping in `/repo/openms/mqed/ccsd.py`: amplitude vectors, the call chain from the
class to the module-level `kernel`, and the denominators.  The amplitude equations themselves
(`myqedcc_equations_opt.py`, generated) are not modelled.
-/

namespace OpenMS.Ccsd

/-! ### Amplitude vectors -/

/-- Amplitudes.  `T1` is already flattened; `T2 p q` is the entry of
`T2.transpose(0,2,1,3).reshape(nov, nov)`, where `nov` is the length of `T1`; the bosonic
amplitudes are lists of flattened arrays, absent (`none`) without bosons. -/
structure Amps (K : Type*) where
  T1 : List K
  T2 : ℕ → ℕ → K
  Sn : Option (List (List K))
  U1n : Option (List (List K))
  U2n : Option (List (List K))

/-- Number of singles. -/
def Amps.nov {K : Type*} (A : Amps K) : ℕ := A.T1.length

/-- Flattened optional list of arrays. -/
def flat {K : Type*} (x : Option (List (List K))) : List K := (x.getD []).flatten

/-- `ccsd.py` L466-476, L482-493: the bosonic tail of the vector. -/
def bosonPart {K : Type*} (addU2n : Bool) (A : Amps K) : List K :=
  flat A.Sn ++ flat A.U1n ++ (if addU2n then flat A.U2n else [])

/-- `ccsd.py` L460-494: `amplitudes2vector`.  `lib.pack_tril` lists the lower triangle by rows. -/
def amplitudes2vector {K : Type*} (addU2n : Bool) (A : Amps K) : List K :=
  A.T1 ++ Boson.packSymmetric A.T2 A.nov ++ bosonPart addU2n A

/-- `ccsd.py` L496-521: `vector2amplitudes(vector, amps)`.  The loops `for S in Sn: S = vector[...]`
rebind the loop variable and leave `Sn`, `U1n`, `U2n` as they were.  Simplified: the slices in
those loops have the right length for vectors made by `amplitudes2vector`; otherwise `reshape`
raises. -/
def vector2amplitudes {K : Type*} [Field K] (v : List K) (A : Amps K) : Amps K :=
  let nov := A.nov
  { T1 := v.take nov
    T2 := Boson.unpackSymmetric ((v.drop nov).take (nov * (nov + 1) / 2)) nov 1
    Sn := A.Sn
    U1n := A.U1n
    U2n := A.U2n }

/-- `ccsd.py` L523-531: `run_diis`; `active` is the condition on step and energy change and `update`
is `adiis.update`. -/
def runDiis {K : Type*} [Field K] (addU2n active : Bool) (update : List K → List K) (A : Amps K) :
    Amps K :=
  if active then vector2amplitudes (update (amplitudes2vector addU2n A)) A else A

/-! ### Calling the driver -/

/-- Python values that can be passed. -/
inductive Val
  | none
  | bool (b : Bool)
  | arr (id : ℕ)
  deriving DecidableEq

/-- Truth value of an argument used in `if ret:` (arrays do not occur there). -/
def Val.truthy : Val → Bool
  | .bool b => b
  | _ => false

/-- Binding of positional arguments to parameters with defaults. -/
def bindArgs : List (String × Val) → List Val → List (String × Val)
  | [], _ => []
  | (p, d) :: ps, [] => (p, d) :: bindArgs ps []
  | (p, _) :: ps, a :: as => (p, a) :: bindArgs ps as

/-- Value of a parameter. -/
def getArg (env : List (String × Val)) (p : String) : Val := (env.lookup p).getD .none

/-- `ccsd.py` L96-98: parameters of the module-level `kernel` after `mycc`. -/
def kernelParams : List (String × Val) :=
  [("eris", .none), ("t1", .none), ("t2", .none), ("Sn", .none), ("Un", .none),
   ("theory", .arr 0), ("ret", .bool false)]

/-- What is returned: total and correlation energy, and the amplitudes if included. -/
structure Result (E α : Type*) where
  etot : E
  ecorr : E
  amps : Option α

/-- `ccsd.py` L303-310: the end of the module-level `kernel`, given the arguments it received and
the outcome of the iterations. -/
def moduleKernel {E α : Type*} [Add E] (args : List Val) (ehf eold : E) (amps : α) : Result E α :=
  let env := bindArgs kernelParams args
  if (getArg env "ret").truthy then ⟨ehf + eold, eold, some amps⟩ else ⟨ehf + eold, eold, none⟩

/-- `ccsd.py` L533-543: `CCSD.kernel` and `CCSD.ccsd_nfock`, which call
`kernel(self, t1, t2, Sn, Un, eris, ret)`. -/
def ccsdKernel {E α : Type*} [Add E] (t1 t2 Sn Un eris ret : Val) (ehf eold : E) (amps : α) :
    Result E α :=
  moduleKernel [t1, t2, Sn, Un, eris, ret] ehf eold amps

/-! ### Denominators -/

/-- A numpy array: its shape and its entries. -/
structure Arr where
  shape : List ℕ
  val : List ℕ → ℝ

/-- Broadcast shape of two shapes of equal rank (`none`: `ValueError`). -/
def bshape : List ℕ → List ℕ → Option (List ℕ)
  | [], [] => some []
  | a :: as, b :: bs =>
    if a = b ∨ b = 1 then (bshape as bs).map (a :: ·)
    else if a = 1 then (bshape as bs).map (b :: ·) else none
  | _, _ => none

/-- Index into an operand: axes of size one are read at position zero. -/
def clip : List ℕ → List ℕ → List ℕ
  | s :: ss, i :: is => (if s = 1 then 0 else i) :: clip ss is
  | _, _ => []

/-- `A - B` with broadcasting. -/
noncomputable def bsub (A B : Arr) : Option Arr :=
  (bshape A.shape B.shape).map fun sh =>
    ⟨sh, fun idx => A.val (clip A.shape idx) - B.val (clip B.shape idx)⟩

/-- `A[..., None]`. -/
def appendAxis (A : Arr) : Arr := ⟨A.shape ++ [1], fun idx => A.val idx.dropLast⟩

/-- `A[None, ...]`. -/
def prependAxis (A : Arr) : Arr := ⟨1 :: A.shape, fun idx => A.val idx.tail⟩

/-- `numpy.expand_dims(w, axis=tuple(range(k)))` for a one-dimensional `w` of length `m`. -/
def expandW (m : ℕ) (w : ℕ → ℝ) (k : ℕ) : Arr :=
  ⟨List.replicate k 1 ++ [m], fun idx => w (idx.getD k 0)⟩

/-- `ccsd.py` L54-64: entry `i` of `getDsn`. -/
noncomputable def dsn (m : ℕ) (w : ℕ → ℝ) : ℕ → Option Arr
  | 0 => some ⟨[m], fun idx => -w (idx.getD 0 0)⟩
  | i + 1 => (dsn m w i).bind fun D => bsub (appendAxis D) (expandW m w (i + 1))

/-- `ccsd.py` L66-77: entry `i` of `getD1p`. -/
noncomputable def d1p (m nv no : ℕ) (eo ev w : ℕ → ℝ) : ℕ → Option Arr
  | 0 => some ⟨[m, nv, no], fun idx =>
      eo (idx.getD 2 0) - ev (idx.getD 1 0) - w (idx.getD 0 0)⟩
  | i + 1 => (d1p m nv no eo ev w i).bind fun D => bsub (prependAxis D) (expandW m w (i + 1 + 2))

/-- `ccsd.py` L79-93: entry `i` of `getD2p`. -/
noncomputable def d2p (m nv no : ℕ) (eo ev w : ℕ → ℝ) : ℕ → Option Arr
  | 0 => some ⟨[m, nv, nv, no, no], fun idx =>
      -ev (idx.getD 1 0) - ev (idx.getD 2 0) + eo (idx.getD 3 0) + eo (idx.getD 4 0) - w (idx.getD 0 0)⟩
  | i + 1 => (d2p m nv no eo ev w i).bind fun D => bsub (prependAxis D) (expandW m w (i + 1 + 4))

end OpenMS.Ccsd
