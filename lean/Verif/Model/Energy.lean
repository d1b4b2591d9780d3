import Verif.Model.Green
import Mathlib.Analysis.SpecialFunctions.Pow.Real
import Mathlib.Data.Nat.Dist

/-!
# Energy estimators

Model of the estimators in `/repo/openms/qmc/estimators.py` for one walker (every estimator
treats the walkers independently), of `get_blksize` and `stochastic_thc` in
`/repo/openms/qmc/tools.py`, and of `local_energy` over several processes in
`/repo/openms/qmc/propagators.py`.
-/

namespace OpenMS.Energy

open Matrix OpenMS.Green

variable {p i i' g : Type*} [Fintype p] [Fintype i] [Fintype i'] [Fintype g]

/-- `estimators.py` L307-316: `e_rh1e_Ghalf`. -/
noncomputable def eRh1e (rh : Matrix p i ℂ) (h : Matrix p i ℂ) : ℂ := ∑ q, ∑ k, rh q k * h q k

/-- `estimators.py` L343-368: `ecoul_rltensor_uhf`; the second spin component is optional. -/
noncomputable def ecoul (rla : g → Matrix p i ℂ) (ha : Matrix p i ℂ)
    (beta : Option ((g → Matrix p i' ℂ) × Matrix p i' ℂ)) : ℂ :=
  let LG : g → ℂ := fun γ =>
    match beta with
    | none => ∑ q, ∑ k, ha q k * rla γ q k
    | some (rlb, hb) => (∑ q, ∑ k, ha q k * rla γ q k) + ∑ q, ∑ k, hb q k * rlb γ q k
  (1 / 2) * ∑ γ, LG γ * LG γ

/-- `estimators.py` L459-476: `ecoul_rltensor_Ghalf_numba`. -/
noncomputable def ecoulNumba (rla : g → Matrix p i ℂ) (ha : Matrix p i ℂ)
    (beta : Option ((g → Matrix p i' ℂ) × Matrix p i' ℂ)) : ℂ :=
  let LG : g → ℂ := fun γ =>
    match beta with
    | none => ∑ q, ∑ k, ha q k * rla γ q k
    | some (rlb, hb) => (∑ q, ∑ k, ha q k * rla γ q k) + ∑ q, ∑ k, hb q k * rlb γ q k
  ∑ γ, (1 / 2) * LG γ

/-- `estimators.py` L479-544 (`exx_rltensor_Ghalf`) and L427-456 (the compiled variant, which
performs the same operations): `LG = rl[l].T @ Ghalf`, `0.5 Σ LG.ravel() · LG.T.ravel()`. -/
noncomputable def exx (rl : g → Matrix p i ℂ) (h : Matrix p i ℂ) : ℂ :=
  (∑ γ, let LG : Matrix i i ℂ := (rl γ)ᵀ * h; ∑ a, ∑ b, LG a b * LG b a) * (1 / 2)

/-- `estimators.py` L592-621: `local_energy_SD_UHF`, the pair `(e1, e2)`. -/
noncomputable def localEnergyUHF (enuc : ℂ) (rh1a : Matrix p i ℂ) (rh1b : Matrix p i' ℂ)
    (rla : g → Matrix p i ℂ) (rlb : g → Matrix p i' ℂ) (ha : Matrix p i ℂ)
    (hb : Matrix p i' ℂ) : ℂ × ℂ :=
  (eRh1e rh1a ha + eRh1e rh1b hb + enuc,
    ecoul rla ha (some (rlb, hb)) - (exx rla ha + exx rlb hb))

/-- `estimators.py` L319-341: `local_energy_SD_RHF`, the pair `(e1, e2)`. -/
noncomputable def localEnergyRHF (enuc : ℂ) (rh1a : Matrix p i ℂ) (rla : g → Matrix p i ℂ)
    (ha : Matrix p i ℂ) : ℂ × ℂ :=
  (2 * eRh1e rh1a ha + enuc,
    4 * ecoul (i' := i) rla ha none - 2 * exx rla ha)

/-- `estimators.py` L692-730: `local_eng_elec_chol_new` for one spin-restricted walker. -/
noncomputable def localEngCholNew (h1 : Matrix p p ℂ) (L : g → Matrix p p ℂ)
    (G : Matrix p p ℂ) : ℂ :=
  let vj : g → ℂ := fun n => ∑ r, ∑ s, L n r s * G r s
  let vk : g → Matrix p p ℂ := fun n => Matrix.of fun r s => ∑ a, conj (L n) a r * G a s
  2 * (∑ a, ∑ b, G a b * h1 a b) + 2 * (∑ n, vj n * vj n) -
    ∑ n, ∑ a, ∑ r, vk n a r * vk n r a

/-! ## Mixed sparsity and low rank exchange -/

/-- `tools.py` L13-21: `get_blksize`: the largest distance from the diagonal of an entry with
modulus at least the threshold; `none` is the `ValueError` of `numpy.max` of an empty
array, when some matrix has no such entry. -/
noncomputable def getBlksize {N : ℕ} (L : List (Matrix (Fin N) (Fin N) ℂ)) (thr : ℝ) : Option ℕ :=
  open Classical in
  L.foldl (fun acc M => acc.bind fun b =>
    let idx := (Finset.univ : Finset (Fin N × Fin N)).filter (fun x => thr ≤ ‖M x.1 x.2‖)
    if idx.Nonempty then some (max b (idx.sup fun x => Nat.dist x.1 x.2)) else none) (some 0)

/-- `estimators.py` L73-89: `_banded_LT_dot_G` for rows `q`, the slice is
`max(0,q-bw) ≤ p < min(N,q+bw+1)`. -/
noncomputable def bandedLTG {N M : ℕ} (L : Matrix (Fin N) (Fin N) ℂ) (G : Matrix (Fin N) (Fin M) ℂ)
    (bw : ℕ) : Matrix (Fin N) (Fin M) ℂ :=
  Matrix.of fun q b => ∑ p ∈ Finset.univ.filter (fun p : Fin N => (q : ℕ) - bw ≤ p ∧ (p : ℕ) < q + bw + 1),
    L p q * G p b

/-- One entry of the plan (`tools.py` L67-79): the factors of the truncated singular value
decomposition, or the banded route. -/
inductive Plan (N : ℕ)
  | lowrank (k : ℕ) (X Uright : Matrix (Fin N) (Fin k) ℂ)
  | banded

/-- `tools.py` L50, L63-79: which route is taken for a matrix of numerical rank `rank`;
`max(1, int(N * 0.1))`. -/
def isLowRank (N rank : ℕ) : Bool := rank ≤ max 1 (N / 10) && 0 < rank

/-- `estimators.py` L111-123: the matrix `LG` of one field. -/
noncomputable def planLG {N : ℕ} (L G : Matrix (Fin N) (Fin N) ℂ) (bw : ℕ) :
    Plan N → Matrix (Fin N) (Fin N) ℂ
  | .lowrank _ X U => X * (Gᵀ * U)ᵀ
  | .banded => bandedLTG L G bw

/-- `estimators.py` L91-128: `exx_mixed_rank_sparsity` for one walker. -/
noncomputable def exxMixed {N : ℕ} (Ls : g → Matrix (Fin N) (Fin N) ℂ) (G : Matrix (Fin N) (Fin N) ℂ)
    (plan : g → Plan N) (bw : ℕ) : ℂ :=
  (1 / 2) * ∑ l, ∑ a, ∑ b, planLG (Ls l) G bw (plan l) a b * planLG (Ls l) G bw (plan l) b a

/-! ## Stochastic resolution of the identity -/

/-- `tools.py` L166-167, L187: the tensors `X_u = Σ_γ L_γ θ_{uγ} / √n` of `stochastic_thc` with
`method="rademacher"`, for given signs. -/
noncomputable def stochasticThc (n : ℕ) (L : g → Matrix p p ℝ) (θ : Fin n → g → Bool) :
    Fin n → Matrix p p ℝ :=
  fun u => Matrix.of fun a b =>
    ∑ γ, L γ a b * ((if θ u γ then 1 else -1) / Real.sqrt n)

/-! ## Electron-boson energies -/

/-- `a + a.T` with `a = diag(sqrt(arange(1, mdim)), k=1)` (`estimators.py` L673-674,
`propagators.py` L56-57). -/
noncomputable def displacement (a b : ℕ) : ℂ :=
  (if b = a + 1 then (Real.sqrt b : ℂ) else 0) + (if a = b + 1 then (Real.sqrt a : ℂ) else 0)

/-- The block write `H[idx:idx+mdim, idx:idx+mdim] += h_od * z`. -/
noncomputable def addBlock (H : ℕ → ℕ → ℂ) (idx mdim : ℕ) (z : ℂ) : ℕ → ℕ → ℂ :=
  fun a b => if idx ≤ a ∧ a < idx + mdim ∧ idx ≤ b ∧ b < idx + mdim
    then H a b + displacement (a - idx) (b - idx) * z else H a b

/-- `estimators.py` L641-679: `local_eng_eboson` for one walker.  `modes` is the list of
`(nboson_states[m], zalpha[m])`.  `idx` stays 0 during the loop. -/
noncomputable def localEngEboson (modes : List (ℕ × ℂ)) (Gb : ℕ → ℕ → ℂ) : ℂ :=
  let size := (modes.map Prod.fst).sum
  let Hb := modes.foldl (fun H m => addBlock H 0 m.1 m.2) (fun _ _ => 0)
  ∑ a ∈ Finset.range size, ∑ b ∈ Finset.range size, Hb a b * Gb a b

/-- `propagators.py` L14-61: `boson_adag_plus_a`, where `idx` is advanced (blocks do not
overlap, so `=` and `+=` agree). -/
noncomputable def bosonAdagPlusA (modes : List (ℕ × ℂ)) : ℕ → ℕ → ℂ :=
  (modes.foldl (fun (s : (ℕ → ℕ → ℂ) × ℕ) m => (addBlock s.1 s.2 m.1 m.2, s.2 + m.1))
    (fun _ _ => 0, 0)).1

/-- `estimators.py` L623-639: `local_eng_boson_2nd` for one walker; `none` is the error from
stacking `arange`s of different lengths. -/
noncomputable def localEngBoson (modes : List (ℕ × ℂ)) (Gb : ℕ → ℕ → ℂ) : Option ℂ :=
  match modes with
  | [] => some 0
  | m :: _ =>
    if ∀ x ∈ modes, x.1 = m.1 then
      some (∑ F ∈ Finset.range (modes.length * m.1),
        ((modes.getD (F / m.1) (0, 0)).2 * ((F % m.1 : ℕ) : ℂ)) * Gb F F)
    else none

/-! ## Several processes -/

/-- What one process contributes for one walker: weight and real parts of the energies. -/
structure WalkerE (K : Type*) where
  weight : K
  e1 : K
  e2 : K
  eb : K
  eg : K

variable {K : Type*} [Field K]

/-- `backend.dot(walkers.weights, x)` on one process. -/
def wdot (ws : List (WalkerE K)) (f : WalkerE K → K) : K := (ws.map fun w => w.weight * f w).sum

/-- `comm.allreduce(x, op=MPI.SUM)` over the processes. -/
def allreduce (procs : List (List (WalkerE K))) (f : List (WalkerE K) → K) : K :=
  (procs.map f).sum

/-- `propagators.py` L472-507: `[etot, norm, e1, e2]` as every process sees it. -/
def localEnergy (procs : List (List (WalkerE K))) (enuc : K) : K × K × K × K :=
  (allreduce procs fun ws => wdot ws fun w => w.e1 + w.e2 + enuc,
    allreduce procs fun ws => wdot ws fun _ => 1,
    allreduce procs fun ws => wdot ws WalkerE.e1,
    allreduce procs fun ws => wdot ws WalkerE.e2)

/-- `propagators.py` L1179-1219: `[etot, norm, e1, e2, eb, eg]` returned on the process with
walkers `mine`: `etot`, `eb`, `eg` are overwritten with local sums. -/
def localEnergyEB (procs : List (List (WalkerE K))) (mine : List (WalkerE K)) (enuc : K) :
    K × K × K × K × K × K :=
  let s := localEnergy procs enuc
  (wdot mine fun w => w.e1 + w.e2 + enuc + (w.eb + w.eg), s.2.1, s.2.2.1, s.2.2.2,
    wdot mine WalkerE.eb, wdot mine WalkerE.eg)

end OpenMS.Energy
