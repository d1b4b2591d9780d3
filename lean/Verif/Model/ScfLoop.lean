import Verif.Model.Photon

/-!
# SCF driver and incremental potential

Model of the control flow of `kernel` in `/repo/openms/mqed/qedhf.py` L70-298 and
`/repo/openms/mqed/scqedhf.py` L147-418, and of `get_jk`, `get_veff`, `get_bare_jk`,
`get_bare_veff` in `qedhf.py` L576-687.
-/

namespace OpenMS.Scf

/-! ### Convergence loop -/

/-- What a run of the driver sees: `e 0` is the energy of the initial density, `e (c+1)` and `g c`
energy and gradient norm computed in cycle `c`; `eX`, `gX` those of the extra cycle made after
convergence was met in a given cycle.  Any sequences are allowed; the numerical work producing
them is not modelled here. -/
structure Run where
  e : ℕ → ℝ
  g : ℕ → ℝ
  eX : ℕ → ℝ
  gX : ℕ → ℝ

/-- `qedhf.py` L242-243 (`scqedhf.py` L365-366): the test in the loop, when `mf.check_convergence`
is not set. -/
noncomputable def inLoop (tol tolg : ℝ) (r : Run) (c : ℕ) : Bool :=
  decide (|r.e (c + 1) - r.e c| < tol) && decide (r.g c < tolg)

/-- `qedhf.py` L200-256: the loop `for cycle in range(mf.max_cycle)` from cycle `c` on with `k`
cycles left; returns `scf_conv` and the last cycle number plus one. -/
noncomputable def loop (tol tolg : ℝ) (r : Run) : ℕ → ℕ → Bool × ℕ
  | _, 0 => (false, 0)
  | c, k + 1 =>
    if inLoop tol tolg r c then (true, c + 1)
    else if k = 0 then (false, c + 1) else loop tol tolg r (c + 1) k

/-- What the driver returns (orbitals left out). -/
structure Result where
  conv : Bool
  etot : ℝ
  cycles : ℕ

/-- `qedhf.py` L156-298: the driver.  With no cycles allowed the energy of the initial density is
returned; after convergence an extra cycle is made if `conv_check`, with tolerances relaxed, and
its test joined by `or`, but the flag is only ever set, never cleared. -/
noncomputable def kernel (tol tolg : ℝ) (maxCycle : ℕ) (convCheck : Bool) (r : Run) : Result :=
  if maxCycle = 0 then ⟨false, r.e 0, 0⟩
  else
    let (conv, cycles) := loop tol tolg r 0 maxCycle
    if conv && convCheck then
      let e := r.eX cycles
      let tol' := tol * 10
      let tolg' := tolg * 3
      let conv' := if decide (|e - r.e cycles| < tol') || decide (r.gX cycles < tolg') then true else conv
      ⟨conv', e, cycles⟩
    else ⟨conv, r.e cycles, cycles⟩

/-! ### Incremental potential -/

open OpenMS.Photon

variable {X n : Type*} [Fintype X] [Fintype n]

/-- The integrals: two-electron integrals, couplings, and whether self-energy terms are added. -/
structure Ints (X n : Type*) where
  eri : n → n → n → n → ℝ
  g : X → Matrix n n ℝ
  addDse : Bool

/-- `hf.dot_eri_dm` (pyscf) `J`: `einsum('ijkl,ji->kl', eri, dm)`. -/
noncomputable def coulomb (s : Ints X n) (D : Matrix n n ℝ) : Matrix n n ℝ :=
  Matrix.of fun k l => ∑ i, ∑ j, s.eri i j k l * D j i

/-- `hf.dot_eri_dm` (pyscf) `K`: `einsum('ijkl,jk->il', eri, dm)`. -/
noncomputable def exchange (s : Ints X n) (D : Matrix n n ℝ) : Matrix n n ℝ :=
  Matrix.of fun i l => ∑ j, ∑ k, s.eri i j k l * D j k

/-- `qedhf.py` L576-597: `get_jk`.  `eri`: is `self._eri` present; `mem`: is
`mol.incore_anyway or self._is_mem_enough()` true.  Otherwise `RHF.get_jk` is called, which is this
same function with the same arguments: it never returns (`none`). -/
noncomputable def getJk (s : Ints X n) (eri mem : Bool) (D : Matrix n n ℝ) :
    Option ((Matrix n n ℝ × Matrix n n ℝ) × Bool) :=
  if eri || mem then
    let vj := coulomb s D
    let vk := exchange s D
    if s.addDse then
      some ((vj + vjDse s.g (fun _ => 1) D, vk + vkDse s.g (fun _ => 1) D), true)
    else some ((vj, vk), true)
  else none

/-- `qedhf.py` L605-618: `get_bare_jk`; the last branch is pyscf's own direct routine. -/
noncomputable def getBareJk (s : Ints X n) (eri mem : Bool) (D : Matrix n n ℝ) :
    Option ((Matrix n n ℝ × Matrix n n ℝ) × Bool) :=
  if eri || mem then some ((coulomb s D, exchange s D), true)
  else some ((coulomb s D, exchange s D), eri)

/-- State between calls: is `_eri` present, the last density and the last potential. -/
structure VState (n : Type*) where
  eri : Bool
  dmLast : Matrix n n ℝ
  vhfLast : Matrix n n ℝ

/-- `qedhf.py` L676-686 (`get_veff`) and L625-633 (`get_bare_veff`): one call, with the routine
`jk` for the matrices.  The driver hands the density and potential of the previous call back. -/
noncomputable def veff (jk : Bool → Bool → Matrix n n ℝ → Option ((Matrix n n ℝ × Matrix n n ℝ) × Bool))
    (direct : Bool) (st : VState n) (mem : Bool) (D : Matrix n n ℝ) : Option (VState n) :=
  if st.eri || !direct then
    (jk st.eri mem D).map fun r => ⟨r.2, D, r.1.1 - (1 / 2 : ℝ) • r.1.2⟩
  else
    (jk st.eri mem (D - st.dmLast)).map fun r => ⟨r.2, D, r.1.1 - (1 / 2 : ℝ) • r.1.2 + st.vhfLast⟩

/-- A history of calls; the first has `dm_last = 0`, `vhf_last = 0`. -/
noncomputable def history
    (jk : Bool → Bool → Matrix n n ℝ → Option ((Matrix n n ℝ × Matrix n n ℝ) × Bool))
    (direct eri0 : Bool) (h : List (Bool × Matrix n n ℝ)) : Option (VState n) :=
  h.foldl (fun o c => o.bind fun st => veff jk direct st c.1 c.2) (some ⟨eri0, 0, 0⟩)

end OpenMS.Scf
