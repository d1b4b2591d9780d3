import Mathlib.Analysis.SpecialFunctions.Pow.Real
import Mathlib.Data.Fintype.BigOperators
import Mathlib.Algebra.BigOperators.Fin

/-!
# Full CI with bosons

Model of `/repo/openms/mqed/qedfci.py`.  A CI vector has an electronic index (alpha string, beta
string) and one occupation per mode; it is a function of those, only read and summed where every
occupation is at most the number of bosons `N x` of its mode (`boson_states[x]`).  Loops that only
accumulate (`fcinew[...] += ...` on a zero array) are written as sums.  Entries are real (the code
allocates `numpy.zeros(cishape)`).
-/

namespace OpenMS.QedFci

variable {m : ℕ} {S : Type*}

/-- `qedfci.py` L82-84: occupations allowed by `cishape = (na, nb) + tuple(boson_states + 1)`. -/
def InBox (N : Fin m → ℕ) (σ : Fin m → ℕ) : Prop := ∀ x, σ x ≤ N x

/-- The allowed occupations as a finite set. -/
def box (N : Fin m → ℕ) : Finset (Fin m → ℕ) := Fintype.piFinset fun x => Finset.range (N x + 1)

/-- `qedfci.py` L314-325: `cre_boson`.  `slices_for_cre(imode, nmode, ip)` fixes the occupation of
the mode to `ip + 1`, `slices_for(imode, nmode, ip)` to `ip`. -/
noncomputable def creBoson (N : Fin m → ℕ) (x : Fin m) (c : S → (Fin m → ℕ) → ℝ) (s : S)
    (σ : Fin m → ℕ) : ℝ :=
  ∑ ip ∈ Finset.range (N x), if σ x = ip + 1 then
    Real.sqrt ((ip : ℝ) + 1) * c s (Function.update σ x ip) else 0

/-- `qedfci.py` L328-339: `des_boson`. -/
noncomputable def desBoson (N : Fin m → ℕ) (x : Fin m) (c : S → (Fin m → ℕ) → ℝ) (s : S)
    (σ : Fin m → ℕ) : ℝ :=
  ∑ ip ∈ Finset.range (N x), if σ x = ip then
    Real.sqrt ((ip : ℝ) + 1) * c s (Function.update σ x (ip + 1)) else 0

/-- `qedfci.py` L342-369: `contract_bb` for a one-dimensional `Hbb` and optional `zalpha`. -/
noncomputable def contractBB (N : Fin m → ℕ) (Hbb : Fin m → ℝ) (z : Option (Fin m → ℝ))
    (c : S → (Fin m → ℕ) → ℝ) (s : S) (σ : Fin m → ℕ) : ℝ :=
  (∑ x, ∑ i ∈ Finset.Ico 1 (N x + 1), if σ x = i then c s σ * (Hbb x * (i : ℝ)) else 0) +
    z.elim 0 fun z => ∑ x, ∑ i ∈ Finset.range (N x),
      ((if σ x = i + 1 then z x * (Real.sqrt ((i : ℝ) + 1) * Hbb x) * c s (Function.update σ x i) else 0) +
       (if σ x = i then z x * (Real.sqrt ((i : ℝ) + 1) * Hbb x) * c s (Function.update σ x (i + 1)) else 0))

/-- The last remaining mode axis of `ci0[slices0]` when mode `x` is fixed (two or more modes). -/
def lastAxis (x : Fin (m + 2)) : Fin (m + 2) :=
  if x = Fin.last (m + 1) then (Fin.last m).castSucc else Fin.last (m + 1)

/-- `qedfci.py` L351-357 with a two-dimensional `Hbb`, as `kernel` passes it (L650-652):
`Hbb[imode]` is a row of length `nmode` and is broadcast along the last axis of `ci0[slices0]`.
One mode: the last axis is an electronic one and the row has one entry.  Two or more modes: the
last axis belongs to `lastAxis x`; unless its size `N + 1` is the number of modes the shapes do not
match and `ValueError` is raised (`none`), provided the loop over `i` runs at all. -/
noncomputable def contractBB2 : {m : ℕ} → (N : Fin m → ℕ) → (Hbb : Fin m → Fin m → ℝ) →
    (c : S → (Fin m → ℕ) → ℝ) → Option (S → (Fin m → ℕ) → ℝ)
  | 0, _, _, _ => some fun _ _ => 0
  | 1, N, Hbb, c => some fun s σ =>
      ∑ i ∈ Finset.Ico 1 (N 0 + 1), if σ 0 = i then c s σ * (Hbb 0 0 * (i : ℝ)) else 0
  | k + 2, N, Hbb, c =>
      open Classical in
      if ∀ x, 1 ≤ N x → N (lastAxis x) + 1 = k + 2 then
        some fun s σ => ∑ x, ∑ i ∈ Finset.Ico 1 (N x + 1),
          if σ x = i then
            c s σ * ((if h : σ (lastAxis x) < k + 2 then Hbb x ⟨σ (lastAxis x), h⟩ else 0) * (i : ℝ))
          else 0
      else none

/-! ### Electronic part -/

variable {n Sa Sb : Type*} [Fintype n] [Fintype Sa] [Fintype Sb] [DecidableEq n] [DecidableEq Sa]
  [DecidableEq Sb]

/-- `cistring.gen_linkstr_index`: for every string the entries `(a, i, str1, sign)` with
`a^+ i |str0> = sign |str1>`. -/
abbrev Table (n S : Type*) := S → List (n × n × S × ℝ)

/-- `qedfci.py` L87-122: `contract_1e`. -/
def contract1e (ta : Table n Sa) (tb : Table n Sb) (h : n → n → ℝ)
    (c : Sa × Sb → (Fin m → ℕ) → ℝ) (s : Sa × Sb) (σ : Fin m → ℕ) : ℝ :=
  (∑ s0 : Sa, ((ta s0).map fun t => if t.2.2.1 = s.1 then t.2.2.2 * c (s0, s.2) σ * h t.1 t.2.1 else 0).sum) +
  ∑ s0 : Sb, ((tb s0).map fun t => if t.2.2.1 = s.2 then t.2.2.2 * c (s.1, s0) σ * h t.1 t.2.1 else 0).sum

/-- `qedfci.py` L137-144: the array `t1 = t1a + t1b` (L157, or L185-191 in `contract_2e_spin0`). -/
def t1 (ta : Table n Sa) (tb : Table n Sb) (c : Sa × Sb → (Fin m → ℕ) → ℝ) (a i : n) (s : Sa × Sb)
    (σ : Fin m → ℕ) : ℝ :=
  (∑ s0 : Sa, ((ta s0).map fun t =>
    if t.1 = a ∧ t.2.1 = i ∧ t.2.2.1 = s.1 then t.2.2.2 * c (s0, s.2) σ else 0).sum) +
  ∑ s0 : Sb, ((tb s0).map fun t =>
    if t.1 = a ∧ t.2.1 = i ∧ t.2.2.1 = s.2 then t.2.2.2 * c (s.1, s0) σ else 0).sum

/-- `qedfci.py` L127-170 (one tensor for both spins, L155-158) and L172-205: `contract_2e`,
`contract_2e_spin0`. -/
def contract2e (ta : Table n Sa) (tb : Table n Sb) (eri : n → n → n → n → ℝ)
    (c : Sa × Sb → (Fin m → ℕ) → ℝ) (s : Sa × Sb) (σ : Fin m → ℕ) : ℝ :=
  let t2 : n → n → Sa × Sb → ℝ := fun a i s => ∑ r, ∑ t, eri a i r t * t1 ta tb c r t s σ
  (∑ s0 : Sa, ((ta s0).map fun t => if t.2.2.1 = s.1 then t.2.2.2 * t2 t.1 t.2.1 (s0, s.2) else 0).sum) +
  ∑ s0 : Sb, ((tb s0).map fun t => if t.2.2.1 = s.2 then t.2.2.2 * t2 t.1 t.2.1 (s.1, s0) else 0).sum

/-- `qedfci.py` L235-252: `absorb_h1e`.  The divisor `nelec + 1e-100` is `nelec` in double precision
except for no electrons. -/
noncomputable def absorbH1e (h1e : n → n → ℝ) (eri : n → n → n → n → ℝ) (nelec : ℕ) (fac : ℝ)
    (p q r s : n) : ℝ :=
  let f1e : n → n → ℝ := fun j k =>
    (h1e j k - (∑ i, eri j i i k) * (1 / 2)) * (1 / (if nelec = 0 then 1e-100 else (nelec : ℝ)))
  (eri p q r s + (if p = q then f1e r s else 0) + (if r = s then f1e p q else 0)) * fac

/-- `qedfci.py` L478-515: `contract_eb`. -/
noncomputable def contractEB (N : Fin m → ℕ) (ta : Table n Sa) (tb : Table n Sb)
    (Heb : Fin m → n → n → ℝ) (c : Sa × Sb → (Fin m → ℕ) → ℝ) (s : Sa × Sb) (σ : Fin m → ℕ) : ℝ :=
  ∑ x, ∑ ip ∈ Finset.range (N x),
    ((∑ s0 : Sa, ((ta s0).map fun t =>
        (if σ x = ip + 1 ∧ t.2.2.1 = s.1 then
          (Heb x t.1 t.2.1 * Real.sqrt ((ip : ℝ) + 1) * t.2.2.2) * c (s0, s.2) (Function.update σ x ip) else 0) +
        (if σ x = ip ∧ t.2.2.1 = s.1 then
          (Heb x t.1 t.2.1 * Real.sqrt ((ip : ℝ) + 1) * t.2.2.2) * c (s0, s.2) (Function.update σ x (ip + 1))
          else 0)).sum) +
     ∑ s0 : Sb, ((tb s0).map fun t =>
        (if σ x = ip + 1 ∧ t.2.2.1 = s.2 then
          (Heb x t.1 t.2.1 * Real.sqrt ((ip : ℝ) + 1) * t.2.2.2) * c (s.1, s0) (Function.update σ x ip) else 0) +
        (if σ x = ip ∧ t.2.2.1 = s.2 then
          (Heb x t.1 t.2.1 * Real.sqrt ((ip : ℝ) + 1) * t.2.2.2) * c (s.1, s0) (Function.update σ x (ip + 1))
          else 0)).sum)

/-- `qedfci.py` L737-755: `make_rdm1e`. -/
def makeRdm1e (N : Fin m → ℕ) (ta : Table n Sa) (tb : Table n Sb) (c : Sa × Sb → (Fin m → ℕ) → ℝ)
    (a i : n) : ℝ :=
  (∑ s0 : Sa, ((ta s0).map fun t => if t.1 = a ∧ t.2.1 = i then
    t.2.2.2 * ∑ sb, ∑ σ ∈ box N, c (t.2.2.1, sb) σ * c (s0, sb) σ else 0).sum) +
  ∑ s0 : Sb, ((tb s0).map fun t => if t.1 = a ∧ t.2.1 = i then
    t.2.2.2 * ∑ sa, ∑ σ ∈ box N, c (sa, t.2.2.1) σ * c (sa, s0) σ else 0).sum

/-- `qedfci.py` L254-288 and L649-716, L734 for one mode: what `kernel` diagonalises, plus the constant
energy.  With `coherent_state` (`z` given) the one-electron integrals become `H1 + 2 z Heb` and the
core energy gains `Hbb z²`; `contract_all` calls `contract_bb` without `zalpha`. -/
noncomputable def hop (N : Fin 1 → ℕ) (ta : Table n Sa) (tb : Table n Sb) (H1 : n → n → ℝ)
    (H2 : n → n → n → n → ℝ) (Heb : Fin 1 → n → n → ℝ) (omega : ℝ) (nelec : ℕ) (ecore : ℝ)
    (z : Option ℝ) (c : Sa × Sb → (Fin 1 → ℕ) → ℝ) (s : Sa × Sb) (σ : Fin 1 → ℕ) : ℝ :=
  let H1' : n → n → ℝ := z.elim H1 fun z => fun p q => H1 p q + Heb 0 p q * (z * 2)
  let ecore' : ℝ := z.elim ecore fun z => ecore + omega * z * z
  contract2e ta tb (absorbH1e H1' H2 nelec (1 / 2)) c s σ + contractEB N ta tb Heb c s σ +
    (contractBB2 N (fun _ _ => omega) c).elim 0 (fun f => f s σ) + ecore' * c s σ

end OpenMS.QedFci
