import Verif.Model.Step
import Verif.Model.JointFields

/-!
# One propagation step of one walker of electrons and bosons

Model of `PhaselessElecBoson.propagate_walkers` in `/repo/openms/qmc/propagators.py` L1768-1851 for
one walker with the bosons turned on, the bilinear term decoupled and bosons in second quantisation.
The fields are those of the electrons alone (`c`) followed by those of the bilinear term (`d`).
-/

namespace OpenMS.JointStep

open Matrix OpenMS.Propagators OpenMS.Green OpenMS.Step OpenMS.Joint

variable {p ia ib c d b : Type*} [Fintype p] [Fintype ia] [DecidableEq ia] [Fintype ib]
  [DecidableEq ib] [Fintype c] [Fintype d] [Fintype b]

/-- A walker: the electronic part and the bosonic state `boson_phiw` (one column). -/
structure JWalker (p ia ib b : Type*) where
  el : Walker p ia ib
  chi : Matrix b Unit ℂ

/-- What does not change during a run: the electronic part, the propagator `exp(-dt/2 shifted_Hb)`,
the boson operators `chol_B`, their mean values (`boson_mfshift` without the factor `1j`) and the
bosonic trial state. -/
structure JSetup (p ia ib c d b : Type*) where
  el : Setup p ia ib (c ⊕ d)
  expB : Matrix b b ℂ
  chol : d → Matrix b b ℂ
  bmf : d → ℂ
  psi : b → ℂ

/-- `trial.py` L860-866: `dot(boson_phiw, boson_psi.conj())`. -/
noncomputable def bosonOvlp (psi : b → ℂ) (chi : Matrix b Unit ℂ) : ℂ :=
  ∑ n, chi n () * starRingEnd ℂ (psi n)

/-- `trial.py` L433-438, L911-918: `boson_Gf` is `boson_phiw / ovlp` times the conjugate trial state, and
the force bias is `einsum("nMN, zMN->zn", chol_B, boson_Gf)`. -/
noncomputable def bosonVbias (S : JSetup p ia ib c d b) (chi : Matrix b Unit ℂ) (γ : d) : ℂ :=
  ∑ m, ∑ n, S.chol γ m n * (chi m () * (1 / bosonOvlp S.psi chi) * starRingEnd ℂ (S.psi n))

/-- `propagators.py` L1534-1539, L1698-1703: half step of the free bosons, bilinear step, half step. -/
noncomputable def moveB (S : JSetup p ia ib c d b) (y : d → ℝ) (yb : d → ℂ) (chi : Matrix b Unit ℂ) :
    Matrix b Unit ℂ :=
  S.expB * expOpOne ((Complex.I * (Real.sqrt S.el.dt : ℂ)) • ∑ γ, xshift y yb γ • S.chol γ)
    (S.expB * chi) S.el.order

/-- L1689-1691: the bosonic force bias of a walker.  `boson_Gf` was computed at the beginning of the
step (L1773, `trial.py` L424-438), from the state before the half step. -/
noncomputable def bbar (S : JSetup p ia ib c d b) (chi : Matrix b Unit ℂ) : d → ℂ :=
  bosonXbar S.el.dt S.el.bound (bosonVbias S chi) S.bmf

/-- `propagators.py` L1768-1851: one step of one walker with the random fields `x` and the energy
shift; the bilinear part uses the last fields (L640-642, L1682).  A vanishing overlap of the bosons
(division by zero at `trial.py` L433) or a vanishing new overlap is reported as an error. -/
noncomputable def jstep (S : JSetup p ia ib c d b) (eshift : ℂ) (x : c ⊕ d → ℝ)
    (w : JWalker p ia ib b) : Except String (JWalker p ia ib b) :=
  match halves S.el w.el.phia w.el.phib with
  | none => .error "LinAlgError"
  | some h =>
    open Classical in
    if bosonOvlp S.psi w.chi = 0 then .error "zero boson overlap" else
    let xb := xbar S.el h
    let A := fieldOp S.el x xb
    let a := move S.el A (S.el.expH 0) w.el.phia
    let b := if S.el.two then move S.el A (S.el.expH 1) w.el.phib else w.el.phib
    let y := x ∘ Sum.inr
    let yb := bbar S w.chi
    let chi := moveB S y yb w.chi
    let new := ovlp S.el a b * bosonOvlp S.psi chi
    if new = 0 then .error "zero overlap" else
    match updateWeight S.el.scheme S.el.dt eshift w.el.weight w.el.ehybrid
      ⟨ovlp S.el w.el.phia w.el.phib * bosonOvlp S.psi w.chi, new, cfb x xb + bosonCfb y yb,
        cmf S.el.dt x xb S.el.lbar + bosonCmf S.el.dt y yb S.bmf, w.el.eloc⟩ with
    | .error e => .error e
    | .ok (wt, eh) => .ok ⟨⟨a, b, wt, eh, w.el.eloc⟩, chi⟩

end OpenMS.JointStep
