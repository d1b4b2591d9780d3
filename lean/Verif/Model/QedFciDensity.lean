import Verif.Model.QedFci

/-!
# Model of the link tables, two-electron density matrix and diagonal of the full CI with bosons

* `openms/mqed/qedfci.py` L517-549 (`make_hdiag`), L757-787 (`make_rdm12e`).

The link tables come from `pyscf.fci.cistring.gen_linkstr_index`; they are modelled here by what that
function documents: a string is a set of occupied orbitals, and the table of a string has one entry
`(a, i, str1, sign)` for every occupied `i` and every `a` that is `i` itself or empty, with
`a^+ i |str0> = sign |str1>` and the sign counting the electrons strictly between `a` and `i`.  The
order of the entries is left open (all uses are sums over the entries).
-/

namespace OpenMS.QedFci

variable {m : ℕ} {n Sa Sb : Type*} [Fintype n] [Fintype Sa] [Fintype Sb] [DecidableEq n]
  [DecidableEq Sa] [DecidableEq Sb]

/-- Strings with `N` electrons (`cistring.gen_occslst`, used at `qedfci.py` L523-528). -/
abbrev Str (n : Type*) [DecidableEq n] (N : ℕ) := {s : Finset n // s.card = N}

/-- Sign of `a^+ i` on the string `s`: `-1` for every electron strictly between the two orbitals. -/
def linkSign [LinearOrder n] (a i : n) (s : Finset n) : ℝ :=
  (-1) ^ (s.filter fun j => (a < j ∧ j < i) ∨ (i < j ∧ j < a)).card

/-- The table of `cistring.gen_linkstr_index(range(norb), N)` (called at `qedfci.py` L763-764). -/
noncomputable def linkTable [LinearOrder n] (N : ℕ) : Table n (Str n N) := fun s0 =>
  ((Finset.univ : Finset (n × n)).filter fun p => p.2 ∈ s0.1 ∧ (p.1 = p.2 ∨ p.1 ∉ s0.1)).toList.map
    fun p => (p.1, p.2,
      if h : (insert p.1 (s0.1.erase p.2)).card = N then ⟨insert p.1 (s0.1.erase p.2), h⟩ else s0,
      linkSign p.1 p.2 s0.1)

/-- `qedfci.py` L772-778: the array `t1` of `make_rdm12e` for one string pair.  The entry
`(a, i, str1, sign)` of the string itself reads the vector at `str1` and is stored at `[i, a]`. -/
def t1e (ta : Table n Sa) (tb : Table n Sb) (c : Sa × Sb → (Fin m → ℕ) → ℝ) (i a : n) (s : Sa × Sb)
    (σ : Fin m → ℕ) : ℝ :=
  ((ta s.1).map fun t => if t.1 = a ∧ t.2.1 = i then t.2.2.2 * c (t.2.2.1, s.2) σ else 0).sum +
  ((tb s.2).map fun t => if t.1 = a ∧ t.2.1 = i then t.2.2.2 * c (s.1, t.2.2.1) σ else 0).sum

/-- `qedfci.py` L780: `rdm1` of `make_rdm12e`. -/
def rdm1e (N : Fin m → ℕ) (ta : Table n Sa) (tb : Table n Sb) (c : Sa × Sb → (Fin m → ℕ) → ℝ)
    (i j : n) : ℝ :=
  ∑ s : Sa × Sb, ∑ σ ∈ box N, c s σ * t1e ta tb c i j s σ

/-- `qedfci.py` L783-784: `rdm2` before the reordering, `transpose(1, 0, 2, 3)` of the products. -/
def rdm2raw (N : Fin m → ℕ) (ta : Table n Sa) (tb : Table n Sb) (c : Sa × Sb → (Fin m → ℕ) → ℝ)
    (p q r t : n) : ℝ :=
  ∑ s : Sa × Sb, ∑ σ ∈ box N, t1e ta tb c q p s σ * t1e ta tb c r t s σ

/-- `pyscf.fci.rdm.reorder_rdm` (called at `qedfci.py` L785): subtract the transposed one-electron
matrix on the two inner indices, then average with the exchange of the two index pairs. -/
noncomputable def reorder (d1 : n → n → ℝ) (d2 : n → n → n → n → ℝ) (p q r t : n) : ℝ :=
  let d : n → n → n → n → ℝ := fun p q r t => d2 p q r t - if q = r then d1 t p else 0
  (d p q r t + d r t p q) * (1 / 2)

/-- `qedfci.py` L757-786: `rdm2` of `make_rdm12e`. -/
noncomputable def rdm2e (N : Fin m → ℕ) (ta : Table n Sa) (tb : Table n Sb)
    (c : Sa × Sb → (Fin m → ℕ) → ℝ) : n → n → n → n → ℝ :=
  reorder (rdm1e N ta tb c) (rdm2raw N ta tb c)

/-- `qedfci.py` L529-540: electronic part of `make_hdiag` for one pair of strings. -/
noncomputable def hdiagElec (h : n → n → ℝ) (eri : n → n → n → n → ℝ) (A B : Finset n) : ℝ :=
  let diagj : n → n → ℝ := fun i j => eri i i j j
  let diagk : n → n → ℝ := fun i j => eri i j j i
  let e1 := ∑ i ∈ A, h i i + ∑ i ∈ B, h i i
  let e2 := ∑ i ∈ A, ∑ j ∈ A, diagj i j + ∑ i ∈ A, ∑ j ∈ B, diagj i j
    + ∑ i ∈ B, ∑ j ∈ A, diagj i j + ∑ i ∈ B, ∑ j ∈ B, diagj i j
    - ∑ i ∈ A, ∑ j ∈ A, diagk i j - ∑ i ∈ B, ∑ j ∈ B, diagk i j
  e1 + e2 * (1 / 2)

/-- `qedfci.py` L517-549: `make_hdiag` for one-dimensional `Hbb`.  The loops over the mode and its
occupation add `max(i * Hbb[imode], 0.5)` where the occupation of the mode is `i`. -/
noncomputable def makeHdiag {Na Nb : ℕ} (N : Fin m → ℕ) (h : n → n → ℝ) (eri : n → n → n → n → ℝ)
    (Hbb : Fin m → ℝ) (s : Str n Na × Str n Nb) (σ : Fin m → ℕ) : ℝ :=
  hdiagElec h eri s.1.1 s.2.1 +
    ∑ x, ∑ i ∈ Finset.range (N x + 1), if σ x = i then max ((i : ℝ) * Hbb x) (1 / 2) else 0

end OpenMS.QedFci
