import Verif.Model.Energy

/-!
# Deprecated force bias and the energies that use it

`openms/qmc/trial.py` L921-993 (`force_bias` of the single determinant), `openms/qmc/propagators.py` L403 and
`openms/qmc/afqmc.py` L204 (`TL_tensor`), `openms/qmc/propagators.py` L462-467 (`compute_local_energies`),
`openms/qmc/estimators.py` L733-777 (`local_eng_elec_chol`) and `openms/qmc/afqmc.py` L468-495 (`local_energy` of the class
`QEDAFQMC`).  One walker; `p` are basis functions, `i` occupied orbitals, `g` fields, `F` photon states, `S` spin components.
-/

namespace OpenMS.ForceBias

open Matrix OpenMS.Green

variable {p i g : Type*} [Fintype p] [Fintype i] [DecidableEq i] [Fintype g]

/-- `propagators.py` L403, `afqmc.py` L204: `TL_tensor`, `einsum("pr, npq->nrq", psi.conj(), ltensor)`. -/
noncomputable def tlTensor (T : Matrix p i ℂ) (L : g → Matrix p p ℂ) (n : g) : Matrix i p ℂ :=
  Matrix.of fun r q => ∑ a, conj T a r * L n a q

/-- The array `overlap` of `trial.py` L961 for one walker: a number or a matrix. -/
inductive Ovlp (i : Type*) where
  /-- no axes beside the walkers -/
  | number (z : ℂ)
  /-- two more axes -/
  | matrix (S : Matrix i i ℂ)

/-- `trial.py` L962: `linalg.inv`, which refuses arrays with one axis and singular matrices. -/
noncomputable def invArray : Ovlp i → Except String (Matrix i i ℂ)
  | .number _ => .error "LinAlgError"
  | .matrix S => match inv S with
    | none => .error "LinAlgError"
    | some m => .ok m

/-- `trial.py` L966: `theta`, `einsum("zqp, zpr->zqr", phiw, inv_overlap)`. -/
noncomputable def thetaOf (W : Matrix p i ℂ) (m : Matrix i i ℂ) : Matrix p i ℂ := Matrix.of fun q r => ∑ a, W q a * m a r

/-- `trial.py` L968: `Gf`, `einsum("zqr, pr->zpq", theta, psi.conj())`. -/
noncomputable def gfOf (T θ : Matrix p i ℂ) : Matrix p p ℂ := Matrix.of fun a b => ∑ r, θ b r * conj T a r

/-- `trial.py` L972: `TL_theta`, `einsum("npq, zqr->znpr", TL_tensor, theta)`. -/
noncomputable def tlTheta (TL : g → Matrix i p ℂ) (θ : Matrix p i ℂ) (n : g) : Matrix i i ℂ :=
  Matrix.of fun a r => ∑ q, TL n a q * θ q r

/-- `trial.py` L955-993: `force_bias`; with a boson state (`boson`) the name `trial` of L987 is not defined. -/
noncomputable def forceBias (boson : Bool) (ov : Ovlp i) (T W : Matrix p i ℂ) (TL : g → Matrix i p ℂ) :
    Except String (Matrix p p ℂ × (g → Matrix i i ℂ)) :=
  match invArray ov with
  | .error e => .error e
  | .ok m => if boson then .error "NameError" else .ok (gfOf T (thetaOf W m), tlTheta TL (thetaOf W m))

/-- `trial.py` L961 and L857: `ovlp_with_walkers` returns the overlap of the determinants, a number per walker. -/
noncomputable def forceBiasCode (boson : Bool) (T W : Matrix p i ℂ) (L : g → Matrix p p ℂ) :
    Except String (Matrix p p ℂ × (g → Matrix i i ℂ)) :=
  forceBias boson (.number (overlap (i' := i) T W none)) T W (tlTensor T L)

/-- `estimators.py` L760-777: `local_eng_elec_chol`. -/
noncomputable def localEngChol (TLθ : g → Matrix i i ℂ) (h1 : Matrix p p ℂ) (vb : g → ℂ) (G : Matrix p p ℂ) : ℂ :=
  let ej := 2 * ∑ n, vb n * vb n
  let ek := ∑ n, ∑ a, ∑ r, TLθ n a r * TLθ n r a
  let e1 := 2 * ∑ a, ∑ b, G a b * h1 a b
  e1 + (ej - ek)

/-- `afqmc.py` L468-495: `local_energy` of `QEDAFQMC`; `fac` is `spin_fac`, `nuc` the attribute `energy_nuc`, which nothing in the
class sets (`AttributeError`). -/
noncomputable def qedLocalEnergy {F S M : Type*} [Fintype F] [Fintype S] [Fintype M] (fac : ℂ) (nuc : Option ℂ)
    (freq : M → ℂ) (h1 : p → p → ℂ) (eri : p → p → p → p → ℂ) (MuQc : F → F → p → p → ℂ) (G : F → F → S → p → p → ℂ) :
    Except String ℂ :=
  let ecoul := ∑ q, ∑ s, ∑ f, ∑ σ, (2 * (∑ a, ∑ r, ∑ f, ∑ σ, eri a r q s * G f f σ a r) * fac) * G f f σ q s
  let exx := ∑ σ, ∑ q, ∑ r, ∑ f, (∑ a, ∑ s, ∑ f, eri a r q s * G f f σ a s) * G f f σ q r
  let e2 := (ecoul - exx) * fac
  let e1 := 2 * (∑ a, ∑ b, ∑ f, ∑ σ, h1 a b * G f f σ a b) * fac
  let bilinear := 2 * (∑ f, ∑ f', ∑ a, ∑ b, ∑ σ, MuQc f f' a b * G f f' σ a b) * fac
  let zpe := 1 / 2 * ∑ m, freq m
  match nuc with
  | none => .error "AttributeError"
  | some e => .ok (e1 + e2 + e + zpe + bilinear)

/-- `afqmc.py` L401-414: `MuQc` with `a = diag(sqrt(1..NFock-1), k=1)` and `aTa = a.T + a`. -/
noncomputable def muQc {M : Type*} [Fintype M] {n : ℕ} (factor : M → ℂ) (dip : M → p → p → ℂ) (f f' : Fin n) (a b : p) : ℂ :=
  ∑ m, factor m * ((if f.val = f'.val + 1 then (Real.sqrt f.val : ℂ) else 0) +
    (if f.val + 1 = f'.val then (Real.sqrt f'.val : ℂ) else 0)) * dip m a b

end OpenMS.ForceBias
