import Verif.Model.Green
import Verif.Model.Propagate
import Verif.Model.WeightUpdate

/-!
# One propagation step of one walker

Model of `Phaseless.propagate_walkers` in `/repo/openms/qmc/propagators.py` L699-756 for one
walker, put together from the pieces modelled elsewhere, and of the sequence of propagation steps
and orthogonalisations in `/repo/openms/qmc/qmc.py` L959-995.  `two` says whether there are two
spin components (for one component the second matrix of a walker is not used).
-/

namespace OpenMS.Step

open Matrix OpenMS.Propagators OpenMS.Green

variable {p ia ib g : Type*} [Fintype p] [Fintype ia] [DecidableEq ia] [Fintype ib]
  [DecidableEq ib] [Fintype g]

/-- A walker: orbitals, weight, stored hybrid and local energy. -/
structure Walker (p ia ib : Type*) where
  phia : Matrix p ia ℂ
  phib : Matrix p ib ℂ
  weight : ℝ
  ehybrid : ℝ
  eloc : ℂ

/-- What does not change during a run: time step, Taylor order, bound of the force bias,
energy scheme, one-body propagators of both spins (`exp_h1e`), fields, mean-field values and trial
orbitals. -/
structure Setup (p ia ib g : Type*) where
  two : Bool
  dt : ℝ
  order : ℕ
  bound : ℝ
  scheme : Option String
  expH : Fin 2 → Matrix p p ℂ
  L : g → Matrix p p ℂ
  lbar : g → ℂ
  Ta : Matrix p ia ℂ
  Tb : Matrix p ib ℂ

/-- `some` for two components. -/
def beta {A : Type*} (two : Bool) (x : A) : Option A := if two then some x else none

/-- `propagators.py` L720, L745: the overlap of a walker with the trial. -/
noncomputable def ovlp (S : Setup p ia ib g) (a : Matrix p ia ℂ) (b : Matrix p ib ℂ) : ℂ :=
  overlap S.Ta a (beta S.two (S.Tb, b))

/-- L720: the half-rotated Green's functions; a singular overlap matrix raises `LinAlgError`
(`none`).  For one component the second one is not computed. -/
noncomputable def halves (S : Setup p ia ib g) (a : Matrix p ia ℂ) (b : Matrix p ib ℂ) :
    Option (Matrix p ia ℂ × Matrix p ib ℂ) :=
  match ghalf S.Ta a with
  | none => none
  | some ha =>
    if S.two then (ghalf S.Tb b).map fun hb => (ha, hb) else some (ha, 0)

/-- L652-656: the bounded force bias. -/
noncomputable def xbar (S : Setup p ia ib g) (h : Matrix p ia ℂ × Matrix p ib ℂ) (γ : g) : ℂ :=
  rescaleFbias S.bound
    (xbarRaw S.dt (getVbias S.L S.Ta h.1 (beta S.two (S.Tb, h.2))) S.lbar γ)

/-- L555-566, L684: `eri_op = 1j * sqrt(dt) * Σ_n xshift_n L_n`. -/
noncomputable def fieldOp (S : Setup p ia ib g) (x : g → ℝ) (xb : g → ℂ) : Matrix p p ℂ :=
  (Complex.I * (Real.sqrt S.dt : ℂ)) • ∑ γ, xshift x xb γ • S.L γ

/-- L734, L737, L740 for one spin component: half step, field step, half step. -/
noncomputable def move {i : Type*} (S : Setup p ia ib g) (A E : Matrix p p ℂ) (phi : Matrix p i ℂ) :
    Matrix p i ℂ :=
  E * expOpOne A (E * phi) S.order

/-- L699-756: one step of one walker with the random fields `x` and the energy shift.  A new
overlap of zero (whose logarithm is `-inf`) is reported as an error; real arithmetic does not
cover it. -/
noncomputable def step (S : Setup p ia ib g) (eshift : ℂ) (x : g → ℝ) (w : Walker p ia ib) :
    Except String (Walker p ia ib) :=
  match halves S w.phia w.phib with
  | none => .error "LinAlgError"
  | some h =>
    let xb := xbar S h
    let A := fieldOp S x xb
    let a := move S A (S.expH 0) w.phia
    let b := if S.two then move S A (S.expH 1) w.phib else w.phib
    let new := ovlp S a b
    open Classical in
    if new = 0 then .error "zero overlap" else
    match updateWeight S.scheme S.dt eshift w.weight w.ehybrid
      ⟨ovlp S w.phia w.phib, new, cfb x xb, cmf S.dt x xb S.lbar, w.eloc⟩ with
    | .error e => .error e
    | .ok (wt, eh) => .ok ⟨a, b, wt, eh, w.eloc⟩

/-- An event in the life of a walker: a propagation step with its shift and fields, or an
orthogonalisation (`qmc.py` L967-971). -/
inductive Event (g : Type*) where
  | prop (eshift : ℂ) (x : g → ℝ)
  | ortho

/-- `qmc.py` L959-995 for one walker: the events in order; the list records weight and hybrid
energy after every propagation step.  `qr` is the orthogonalisation routine. -/
noncomputable def run (S : Setup p ia ib g) (qr : Walker p ia ib → Walker p ia ib) :
    List (Event g) → Walker p ia ib → Except String (Walker p ia ib × List (ℝ × ℝ))
  | [], w => .ok (w, [])
  | .ortho :: es, w => run S qr es (qr w)
  | .prop e x :: es, w =>
    match step S e x w with
    | .error m => .error m
    | .ok w' =>
      match run S qr es w' with
      | .error m => .error m
      | .ok (w'', l) => .ok (w'', (w'.weight, w'.ehybrid) :: l)

end OpenMS.Step
