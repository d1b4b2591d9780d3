/-
Integrals passed to the QED-CCSD equations: `Photon.get_mos`, `fock`, `hf_energy`, `g_fock`,
`get_I`, `mfG`, `gint` and `get_gmat_so` of openms/lib/boson.py.

Atomic orbitals are a finite type `n`; spin atomic orbitals, the rows of `block_diag`, are `n ⊕ n`.
Columns are positions, because the code cuts them by position.
-/
import Verif.Model.Photon
import Verif.Model.QedccInput
import Mathlib.Data.Matrix.Block

namespace OpenMS.CcIntegrals

open Matrix OpenMS.Photon

variable {X n : Type*} [Fintype X] [Fintype n]

/-- What the functions read.  The fields of `Dressing` are those of `add_oei_ao`; `ca`, `cb`, `na`,
`nb` are set by `get_mos` (openms/lib/boson.py L2034-L2053), `hcore` is `mf.get_hcore()`, `eri` the
array `int2e`, `qedHf` says that `mf` is an object of openms/mqed/qedhf.py and not a bare one. -/
structure Setup (X n : Type*) extends Dressing X n where
  ca : n → ℕ → ℝ
  cb : n → ℕ → ℝ
  na : ℕ
  nb : ℕ
  f : X → ℝ
  hcore : Matrix n n ℝ
  eri : n → n → n → n → ℝ
  enuc : ℝ
  shift : Bool
  useCs : Bool
  qedHf : Bool

variable (s : Setup X n)

/-- openms/lib/boson.py L2040, L2145 `nmo // 2`. -/
def nao (n : Type*) [Fintype n] : ℕ := Fintype.card n

/-- openms/lib/boson.py L2051 `pa`. -/
def Setup.pa : Matrix n n ℝ := of fun p q => ∑ i ∈ Finset.range s.na, s.ca p i * s.ca q i

/-- openms/lib/boson.py L2052 `pb`. -/
def Setup.pb : Matrix n n ℝ := of fun p q => ∑ i ∈ Finset.range s.nb, s.cb p i * s.cb q i

/-- openms/lib/ov_blocks.py L6-L20 `block_diag(A, B)` for two square matrices. -/
def twice (A B : Matrix n n ℝ) : Matrix (n ⊕ n) (n ⊕ n) ℝ := fromBlocks A 0 0 B

/-- openms/lib/ov_blocks.py L6-L20 `block_diag(A, B)` where `A` has `k` columns. -/
def blockCols (k : ℕ) (A B : n → ℕ → ℝ) : n ⊕ n → ℕ → ℝ
  | .inl μ, j => if j < k then A μ j else 0
  | .inr μ, j => if j < k then 0 else B μ (j - k)

/-- openms/lib/boson.py L2053 `ptot`. -/
def Setup.ptot : Matrix (n ⊕ n) (n ⊕ n) ℝ := twice s.pa s.pb

/-- Occupied spin orbitals: columns of `Co`. -/
abbrev Setup.O : Type := Fin (s.na + s.nb)

/-- Virtual spin orbitals: columns of `Cv`. -/
abbrev Setup.V : Type := Fin ((nao n - s.na) + (nao n - s.nb))

/-- openms/lib/boson.py L2113 `Co`. -/
def Setup.Co : n ⊕ n → ℕ → ℝ := blockCols s.na s.ca s.cb

/-- openms/lib/boson.py L2114 `Cv`. -/
def Setup.Cv : n ⊕ n → ℕ → ℝ :=
  blockCols (nao n - s.na) (fun μ a => s.ca μ (s.na + a)) (fun μ a => s.cb μ (s.nb + a))

/-- Coefficients of a spin orbital, a column of `Co` or `Cv`. -/
def Setup.chi (p : s.O ⊕ s.V) (P : n ⊕ n) : ℝ := Sum.elim (fun i => s.Co P i.1) (fun a => s.Cv P a.1) p

/-- openms/lib/boson.py L1407-L1436 `update_cs`, called by `add_oei_ao` (L1542). -/
noncomputable def Setup.cs : Dressing X n :=
  { s.toDressing with z := if s.useCs then fun x => contract (s.pa + s.pb) (s.g x) else s.z }

/-- openms/lib/boson.py L2071-L2075 `h1`. -/
noncomputable def Setup.h1 : Matrix n n ℝ :=
  if s.shift then s.hcore else s.hcore + oei s.cs false s.f

/-- openms/mqed/qedhf.py L576-L594 `get_jk`, Coulomb part; `dot_eri_dm` is
`einsum('ijkl,ji->kl')`. -/
noncomputable def Setup.vj (D : Matrix n n ℝ) : Matrix n n ℝ :=
  of (fun p q => ∑ r, ∑ t, s.eri r t p q * D t r) +
    if s.qedHf && s.addDse then vjDse s.g (fun _ => 1) D else 0

/-- openms/mqed/qedhf.py L576-L594 `get_jk`, exchange part; `dot_eri_dm` is
`einsum('ijkl,jk->il')`. -/
noncomputable def Setup.vk (D : Matrix n n ℝ) : Matrix n n ℝ :=
  of (fun p q => ∑ r, ∑ t, s.eri p r t q * D r t) +
    if s.qedHf && s.addDse then vkDse s.g (fun _ => 1) D else 0

/-- openms/mqed/qedhf.py L576-L595 `get_jk`: with the integrals in memory the matrices, otherwise a
call of `RHF.get_jk`, which is the function itself; `none` when the recursion limit is reached. -/
noncomputable def Setup.getJk (inMemory : Bool) (D : Matrix n n ℝ) :
    ℕ → Option (Matrix n n ℝ × Matrix n n ℝ)
  | 0 => none
  | k + 1 =>
    if inMemory then some (s.vj D, s.vk D)
    else (Setup.getJk inMemory D k).map fun r =>
      if s.addDse then (r.1 + vjDse s.g (fun _ => 1) D, r.2 + vkDse s.g (fun _ => 1) D) else r

/-- openms/lib/boson.py L2064-L2091 `fock`; `ghf.get_jk` gives both spins the Coulomb matrices of
both densities and each spin block of the density its exchange matrix. -/
noncomputable def Setup.fock : Matrix (n ⊕ n) (n ⊕ n) ℝ :=
  twice s.h1 s.h1 + twice (s.vj s.pa + s.vj s.pb) (s.vj s.pa + s.vj s.pb) -
    twice (s.vk s.pa) (s.vk s.pb)

/-- openms/lib/boson.py L2242-L2249 `gmatso`. -/
noncomputable def Setup.gso (x : X) : Matrix (n ⊕ n) (n ⊕ n) ℝ :=
  twice (Real.sqrt (s.omega x / 2) • s.g x) (Real.sqrt (s.omega x / 2) • s.g x)

/-- openms/lib/boson.py L2253 `xi`. -/
noncomputable def Setup.xi (x : X) : ℝ := (∑ a, ∑ b, s.gso x a b * s.ptot a b) / s.omega x

/-- openms/lib/boson.py L2254 `const`. -/
noncomputable def Setup.const : ℝ := -∑ x, s.omega x * s.xi x ^ 2

/-- Matrix element of two spin orbitals. -/
def Setup.elem (M : Matrix (n ⊕ n) (n ⊕ n) ℝ) (p q : s.O ⊕ s.V) : ℝ :=
  ∑ P, ∑ Q, s.chi p P * M P Q * s.chi q Q

/-- openms/lib/boson.py L2109-L2138 `g_fock`. -/
noncomputable def Setup.F (p q : s.O ⊕ s.V) : ℝ :=
  if s.shift then s.elem s.fock p q - 2 * ∑ x, s.xi x * s.elem (s.gso x) p q
  else s.elem s.fock p q

/-- openms/lib/boson.py L2211-L2226 `gint`. -/
noncomputable def Setup.gint (x : X) (p q : s.O ⊕ s.V) : ℝ := s.elem (s.gso x) p q

/-- openms/lib/boson.py L2198-L2208 `mfG`. -/
noncomputable def Setup.mfG (x : X) : ℝ :=
  if s.shift then 0 else ∑ p, ∑ q, s.gso x p q * s.ptot q p

/-- openms/mqed/ccsd.py L161: the kernel replaces `G` and `H` if there is a mode. -/
def Setup.kernelG (_ : Setup X n) (_ : X) : ℝ := 0

/-- openms/lib/boson.py L2094-L2106 `hf_energy`. -/
noncomputable def Setup.hfEnergy : ℝ :=
  let e := (∑ i, ∑ j, s.ptot i j * s.fock j i) + ∑ i, ∑ j, s.ptot i j * twice s.hcore s.hcore j i
  if s.shift then 1 / 2 * e + s.enuc + s.const else 1 / 2 * e + s.enuc

/-- openms/lib/boson.py L2147 `C`. -/
def Setup.C (P : ℕ) (μ : n) : ℝ := if P < nao n then s.ca μ P else s.cb μ (P - nao n)

/-- openms/lib/boson.py L2154-L2156 `bare_eri` with the coupling products. -/
def Setup.eriDse (p q r t : n) : ℝ := s.eri p q r t + ∑ x, s.g x p q * s.g x r t

/-- openms/lib/boson.py L2157-L2159: transformation and zeroing of the blocks of mixed spin. -/
def Setup.eriMo (P Q R T : ℕ) : ℝ :=
  if (P < nao n ∧ nao n ≤ Q) ∨ (nao n ≤ P ∧ Q < nao n) ∨ (R < nao n ∧ nao n ≤ T)
      ∨ (nao n ≤ R ∧ T < nao n) then 0
  else ∑ p, ∑ q, ∑ r, ∑ t, s.C P p * s.C Q q * s.C R r * s.C T t * s.eriDse p q r t

/-- openms/lib/boson.py L2161 `Ua_mo`. -/
def Setup.Ua (P Q R T : ℕ) : ℝ := s.eriMo P R Q T - s.eriMo P T Q R

/-- openms/lib/boson.py L2168 `oidx`. -/
def Setup.oidx (k : ℕ) : ℕ := if k < s.na then k else nao n + (k - s.na)

/-- openms/lib/boson.py L2169 `vidx`. -/
def Setup.vidx (k : ℕ) : ℕ :=
  if k < nao n - s.na then s.na + k else nao n + s.nb + (k - (nao n - s.na))

/-- Position of a spin orbital among all. -/
def Setup.pos (p : s.O ⊕ s.V) : ℕ := Sum.elim (fun i => s.oidx i.1) (fun a => s.vidx a.1) p

/-- openms/lib/boson.py L2141-L2194 `get_I`. -/
def Setup.I (p q r t : s.O ⊕ s.V) : ℝ := s.Ua (s.pos p) (s.pos q) (s.pos r) (s.pos t)

/-! ### `get_gmat_so` as a sequence of reads and writes -/

/-- Attributes of a photon object that `get_gmat_so` touches; `none` is python's `None`. -/
structure Obj where
  dipole : Option Unit
  quadrupole : Option Unit
  gmat : Option Unit
  gmatso : Option Unit

/-- openms/lib/boson.py L1914-L1923, L1952-L1983 `get_gmatao`: stores the coupling matrices and,
through `get_polarized_dipole_ao`, the dipole matrices. -/
def getGmatao (o : Obj) : Obj :=
  match o.gmat with
  | some _ => o
  | none => { o with dipole := some (), gmat := some () }

/-- openms/lib/boson.py L1926-L1949 `get_gmat_ao`: returns the coupling matrices, stores nothing;
raises if there are no dipole matrices. -/
def getGmatAo (o : Obj) : Option Unit := o.dipole

/-- openms/lib/boson.py L2229-L2257 `get_gmat_so`, the kernel of the class: the results of
`get_dipole_ao`, `get_quadrupole_ao` and `get_gmat_ao` are dropped. -/
def getGmatSo (o : Obj) : Option Obj :=
  match getGmatAo o, o.gmat with
  | some _, some _ => some { o with gmatso := some () }
  | _, _ => none

end OpenMS.CcIntegrals
