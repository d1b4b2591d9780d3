import Verif.Model.JointStep
import Verif.Model.Energy
import Mathlib.Analysis.Normed.Algebra.MatrixExponential

/-!
# One propagation step of electrons and bosons with a mean-field bilinear term

Model of `PhaselessElecBoson.propagate_walkers` in `/repo/openms/qmc/propagators.py` L1768-1851 in the
product formalism (`decouple_bilinear = False`, the default), for a population of walkers with bosons in
second quantisation, and of `get_boson_bdag_plus_b` in `/repo/openms/qmc/generic_walkers.py`.  The
bosonic basis is that of the code: the Fock states of all modes one after the other.
-/

namespace OpenMS.ProductStep

open Matrix OpenMS.Propagators OpenMS.Green OpenMS.Step OpenMS.JointStep

/-- The bosonic basis: `n X` states for the mode `X`. -/
abbrev Fock {m : Type*} (n : m → ℕ) : Type _ := (X : m) × Fin (n X)

variable {p ia ib c m : Type*} [Fintype p] [DecidableEq p] [Fintype ia] [DecidableEq ia] [Fintype ib]
  [DecidableEq ib] [Fintype c] [Fintype m] [DecidableEq m] {n : m → ℕ}

/-- What does not change during a run: the electronic part (`expH` is recomputed in every step), the
one-body matrices `shifted_h1e` of both spins, the boson Hamiltonian, the coupling matrices `geb` and the
bosonic trial state. -/
structure PSetup (p ia ib c : Type*) {m : Type*} (n : m → ℕ) where
  el : Setup p ia ib c
  h : Fin 2 → Matrix p p ℂ
  Hb : Matrix (Fock n) (Fock n) ℂ
  geb : m → Matrix p p ℂ
  psi : Fock n → ℂ

/-- `generic_walkers.py` L316-321: the density matrix of one mode of one walker. -/
noncomputable def modeDM (chi : Matrix (Fock n) Unit ℂ) (X : m) : Matrix (Fin (n X)) (Fin (n X)) ℂ :=
  Matrix.of fun i j => chi ⟨X, i⟩ () * starRingEnd ℂ (chi ⟨X, j⟩ ())

/-- `generic_walkers.py` L345-353: `Qalpha` of one mode: the density matrices are averaged with the
weights of the walkers on the process and contracted with `b^dagger + b`. -/
noncomputable def qalpha (ws : List (ℝ × Matrix (Fock n) Unit ℂ)) (X : m) : ℂ :=
  ∑ i : Fin (n X), ∑ j : Fin (n X), Energy.displacement i j *
    ((ws.map fun w => (w.1 : ℂ) * modeDM w.2 X i j).sum / ((ws.map fun w => w.1).sum : ℝ))

/-- `propagators.py` L1743-1754: the Green's function summed over spins. -/
noncomputable def gsum (S : Setup p ia ib c) (k : Matrix p ia ℂ × Matrix p ib ℂ) : Matrix p p ℂ :=
  if S.two then fullG S.Ta k.1 + fullG S.Tb k.2 else (2 : ℂ) • fullG S.Ta k.1

/-- `propagators.py` L1756-1760: `walkers.rho`, averaged over the walkers on the process. -/
noncomputable def rho (S : Setup p ia ib c) (ks : List (ℝ × (Matrix p ia ℂ × Matrix p ib ℂ))) :
    Matrix p p ℂ :=
  Matrix.of fun a b => (ks.map fun k => (k.1 : ℂ) * gsum S k.2 a b).sum / ((ks.map fun k => k.1).sum : ℝ)

/-- `propagators.py` L1714: `zlambda`. -/
noncomputable def zlambda (S : PSetup p ia ib c n)
    (ks : List (ℝ × (Matrix p ia ℂ × Matrix p ib ℂ))) (X : m) : ℂ :=
  ∑ a, ∑ b, rho S.el ks a b * S.geb X a b

/-- `propagators.py` L14-61, L1715: `boson_adag_plus_a`, one block for every mode. -/
noncomputable def adagPlusA (z : m → ℂ) : Matrix (Fock n) (Fock n) ℂ :=
  Matrix.of fun F G => if F.1 = G.1 then Energy.displacement F.2 G.2 * z F.1 else 0

/-- `propagators.py` L1361-1412: `exp_h1e` with the mean field of the bosons. -/
noncomputable def withField (S : PSetup p ia ib c n) (Q : m → ℂ) : Setup p ia ib c :=
  { S.el with expH := fun s => NormedSpace.exp ((-S.el.dt / 2 : ℂ) • (S.h s + ∑ X, Q X • S.geb X)) }

/-- `propagators.py` L1538-1539, L1719-1720: half step of the free bosons, bilinear step with the mean
field of the electrons, half step. -/
noncomputable def moveP (S : PSetup p ia ib c n) (z : m → ℂ) (chi : Matrix (Fock n) Unit ℂ) :
    Matrix (Fock n) Unit ℂ :=
  NormedSpace.exp ((-S.el.dt / 2 : ℂ) • S.Hb) *
    (NormedSpace.exp ((-S.el.dt : ℂ) • (adagPlusA z : Matrix (Fock n) (Fock n) ℂ)) *
      (NormedSpace.exp ((-S.el.dt / 2 : ℂ) • S.Hb) * chi))

/-- `propagators.py` L1785-1849: the step of one walker with the mean fields `Q` and `z`, its Green's
functions `k` and its random fields.  The bilinear part adds zeros to `cfb` and `cmf` (L1740). -/
noncomputable def pone (S : PSetup p ia ib c n) (Q z : m → ℂ) (eshift : ℂ) (x : c → ℝ)
    (k : Matrix p ia ℂ × Matrix p ib ℂ) (w : JWalker p ia ib (Fock n)) :
    Except String (JWalker p ia ib (Fock n)) :=
  let T := withField S Q
  let xb := xbar T k
  let A := fieldOp T x xb
  let a := move T A (T.expH 0) w.el.phia
  let b := if T.two then move T A (T.expH 1) w.el.phib else w.el.phib
  let chi := moveP S z w.chi
  let new := ovlp T a b * bosonOvlp S.psi chi
  open Classical in
  if new = 0 then .error "zero overlap" else
  match updateWeight T.scheme T.dt eshift w.el.weight w.el.ehybrid
    ⟨ovlp T w.el.phia w.el.phib * bosonOvlp S.psi w.chi, new, cfb x xb, cmf T.dt x xb T.lbar,
      w.el.eloc⟩ with
  | .error e => .error e
  | .ok (wt, eh) => .ok ⟨⟨a, b, wt, eh, w.el.eloc⟩, chi⟩

/-- `propagators.py` L1768-1849: one step of the walkers of one process, each with its fields.  Zero
overlaps and a vanishing sum of weights (division by zero, L1758) are reported as errors. -/
noncomputable def pstep (S : PSetup p ia ib c n) (eshift : ℂ)
    (ws : List ((c → ℝ) × JWalker p ia ib (Fock n))) : Except String (List (JWalker p ia ib (Fock n))) :=
  match ws.mapM fun w => halves S.el w.2.el.phia w.2.el.phib with
  | none => .error "LinAlgError"
  | some ks =>
    open Classical in
    if ∃ w ∈ ws, bosonOvlp S.psi w.2.chi = 0 then .error "zero boson overlap" else
    if (ws.map fun w => w.2.el.weight).sum = 0 then .error "zero weight" else
    let Q := qalpha (ws.map fun w => (w.2.el.weight, w.2.chi))
    let z := zlambda S ((ws.map fun w => w.2.el.weight).zip ks)
    (ws.zip ks).mapM fun w => pone S Q z eshift w.1.1 w.2 w.1.2

end OpenMS.ProductStep
