/-
Gutzwiller approximation with one band, openms/gwf/ga_sband.py.

Arrays are real functions of the site.  The results of `scipy.linalg.eigh` are inputs, described by
relations.  `none` stands for a value that is not a number, or for an exception.
-/
import Mathlib.Analysis.Real.Sqrt
import Mathlib.Data.Matrix.Basic
import Mathlib.LinearAlgebra.Matrix.Notation

namespace OpenMS.Gutzwiller

open Matrix

variable {n : Type*} [Fintype n]

/-- openms/gwf/ga_sband.py L133 `EPS`. -/
noncomputable def EPS : ℝ := 1e-7

/-- The amplitudes `self.f` of the empty, the singly and the doubly occupied site. -/
abbrev Amp (n : Type*) := Fin 3 → n → ℝ

/-- openms/gwf/ga_sband.py L146-L176 `get_occ`, L620-L623 `make_rdm1`: `occ` are the
`nelectron // 2` orbitals of lowest energy. -/
def makeRdm1 (C : Matrix n n ℝ) (occ : Finset n) : Matrix n n ℝ :=
  of fun i j => ∑ k ∈ occ, C i k * 2 * C j k

open Classical in
/-- openms/gwf/ga_sband.py L481-L488 `init_var_params`; the square root of a negative number is not a
number. -/
noncomputable def initVarParams (dm : Matrix n n ℝ) : Option (Amp n) :=
  if ∀ i, 0 ≤ dm i i * (1 - dm i i) then
    some ![fun i => 1 - dm i i, fun i => Real.sqrt (dm i i * (1 - dm i i)), fun i => dm i i]
  else none

/-- openms/gwf/ga_sband.py L523-L525: the renormalisation factor before it is cut. -/
noncomputable def rawR (f : Amp n) (dm : Matrix n n ℝ) (i : n) : ℝ :=
  (f 2 i * f 1 i + f 1 i * f 0 i) / Real.sqrt (|dm i i * (1 - dm i i)| + EPS)

/-- openms/gwf/ga_sband.py L496-L529 `update_renormalizations`. -/
noncomputable def renorm (f : Amp n) (dm : Matrix n n ℝ) (i : n) : ℝ :=
  if rawR f dm i > 1 then 1 else rawR f dm i

/-- openms/gwf/ga_sband.py L530-L540 `get_deltas`. -/
def deltas (h dm : Matrix n n ℝ) (R : n → ℝ) (i : n) : ℝ := (∑ j, h i j * dm j i) * R i

/-- openms/gwf/ga_sband.py L434 `Mpp`. -/
noncomputable def Mpp : Matrix (Fin 3) (Fin 3) ℝ :=
  !![0, Real.sqrt 2, 0; Real.sqrt 2, 0, Real.sqrt 2; 0, Real.sqrt 2, 0]

/-- openms/gwf/ga_sband.py L435-L436 `Npp`. -/
noncomputable def Npp : Matrix (Fin 3) (Fin 3) ℝ := !![0, 0, 0; 0, 0.5, 0; 0, 0, 1]

/-- openms/gwf/ga_sband.py L437 `Upp`. -/
def Upp : Matrix (Fin 3) (Fin 3) ℝ := !![0, 0, 0; 0, 0, 0; 0, 0, 1]

/-- openms/gwf/ga_sband.py L587, L612: occupation of a site per spin. -/
def nf (f : Amp n) (i : n) : ℝ := f 1 i * f 1 i + f 2 i * f 2 i

/-- openms/gwf/ga_sband.py L586-L590: the local Hamiltonian of a site; the quotient is not finite for
a site that is empty or full. -/
noncomputable def Hpp (U : n → ℝ) (rho : Matrix n n ℝ) (f : Amp n) (R Delta lam : n → ℝ) (i : n) :
    Option (Matrix (Fin 3) (Fin 3) ℝ) :=
  if rho i i * (1 - rho i i) = 0 then none
  else
    let lmd := -4.0 * |R i * Delta i| * (nf f i - 0.5) / (|nf f i * (1 - nf f i)| + EPS)
    some ((Delta i / Real.sqrt |rho i i * (1 - rho i i)| + EPS) • Mpp + (U i • Upp +
      (lmd - 2 * lam i) • Npp))

/-- openms/gwf/ga_sband.py L593-L598: the new amplitudes from the matrix `c` of eigenvectors. -/
noncomputable def newf (c : Matrix (Fin 3) (Fin 3) ℝ) : Fin 3 → ℝ :=
  ![c 0 0, c 0 1 / Real.sqrt 2, c 0 2]

/-- openms/gwf/ga_sband.py L602-L603: `mixed_f`. -/
noncomputable def mixF (mix : ℝ) (old new : Amp n) : Amp n := fun a i =>
  Real.sqrt (mix * (old a i * old a i) + (1 - mix) * (new a i * new a i))

/-- `scipy.linalg.eigh` of a symmetric matrix: orthonormal columns, ascending eigenvalues. -/
structure Eigh (H c : Matrix (Fin 3) (Fin 3) ℝ) (e : Fin 3 → ℝ) : Prop where
  orth : cᵀ * c = 1
  eig : H * c = c * diagonal e
  asc : Monotone e

/-- openms/gwf/ga_sband.py L606-L617 `update_lambda`: the new `lamda`. -/
def newLamda (rho : Matrix n n ℝ) (f : Amp n) (R lam : n → ℝ) (i : n) : ℝ :=
  lam i + (rho i i - nf f i) * R i

/-- openms/gwf/ga_sband.py L606-L617 `update_lambda`: the returned error. -/
noncomputable def lamdaErr (rho : Matrix n n ℝ) (f : Amp n) : ℝ :=
  (∑ i, |rho i i - nf f i|) / Fintype.card n

open Classical in
/-- openms/gwf/ga_sband.py L629-L648 `update_qp_ham`. -/
noncomputable def qpHam (h : Matrix n n ℝ) (R lam : n → ℝ) : Matrix n n ℝ :=
  diagonal lam + of fun i j => R i * R j * h i j

/-! ### The iteration -/

/-- What the iteration carries. -/
structure State (n : Type*) where
  f : Amp n
  R : n → ℝ
  lam : n → ℝ
  dm : Matrix n n ℝ
  conv : Bool
  eTot : ℝ

/-- Results of the diagonalisations of one cycle: density of the quasiparticle Hamiltonian and
eigenvectors of the local Hamiltonian of every site. -/
structure Oracle (n : Type*) where
  dm : Matrix n n ℝ
  c : n → Matrix (Fin 3) (Fin 3) ℝ

/-- Norm of the change of all amplitudes. -/
noncomputable def gnorm (f g : Amp n) : ℝ := Real.sqrt (∑ a, ∑ i, (f a i - g a i) ^ 2)

open Classical in
/-- openms/gwf/ga_sband.py L255-L287: one cycle; `e_tot` is not touched. -/
noncomputable def cycle (h : Matrix n n ℝ) (U : n → ℝ) (mix tol tolGrad : ℝ) (o : Oracle n)
    (s : State n) : Option (State n) :=
  let R := renorm s.f s.dm
  let Delta := deltas h o.dm R
  if ∀ i, (Hpp U o.dm s.f R Delta s.lam i).isSome then
    let f := mixF mix s.f fun a i => newf (o.c i) a
    let lam := newLamda o.dm f R s.lam
    let err := lamdaErr o.dm f
    some { f := f, R := R, lam := lam, dm := o.dm,
           conv := s.conv || decide (gnorm s.f f < tol ∨ err < tolGrad), eTot := s.eTot }
  else none

/-- openms/gwf/ga_sband.py L255-L289: the loop over the cycles, never left early; with no cycle the
name `cycle` is read before it is set. -/
noncomputable def loop (h : Matrix n n ℝ) (U : n → ℝ) (mix tol tolGrad : ℝ) :
    List (Oracle n) → State n → Option (State n)
  | [], s => some s
  | o :: os, s => (cycle h U mix tol tolGrad o s).bind (loop h U mix tol tolGrad os)

/-- openms/gwf/ga_sband.py L180-L294 `kernel`: returns `scf_conv` and `e_tot`. -/
noncomputable def kernel (h : Matrix n n ℝ) (U : n → ℝ) (mix tol tolGrad : ℝ) (R lam : Option (n → ℝ))
    (dm0 : Matrix n n ℝ) (os : List (Oracle n)) : Option (Bool × ℝ) :=
  match initVarParams dm0 with
  | none => none
  | some f =>
    match os with
    | [] => none
    | os => (loop h U mix tol tolGrad os
        { f := f, R := R.getD 1, lam := lam.getD 0, dm := dm0, conv := false, eTot := 0 }).map
          fun s => (s.conv, s.eTot)

end OpenMS.Gutzwiller
