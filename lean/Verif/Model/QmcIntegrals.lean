import Mathlib.Data.Matrix.Mul
import Mathlib.LinearAlgebra.Matrix.Trace
import Mathlib.Analysis.Real.Sqrt
import Mathlib.Data.Finset.Sort

/-!
# Integrals of the Monte Carlo class

`openms/qmc/qmc.py` L551-657 (`get_integrals`), L747-767 (`local_energy_spin`), L769-825 (`local_energy`) and
`openms/qmc/tools.py` L328-381 (`get_h1e_chols`), L384-425 (`chols_full`).  Everything is real.  The integrals of the
molecule, the orthogonalisation `Xmat` and the coupling matrices are arguments; the singular value decomposition
is given by what it promises; the electronic part of the decomposed bilinear term is an argument (modelled in
`Bilinear.lean`).
-/

namespace OpenMS.QmcIntegrals

open Matrix
open scoped BigOperators

variable {n : Type*} [Fintype n] [DecidableEq n]

/-- tools.py L377 and qmc.py L585-587: `X.T @ A @ X` for real `X`. -/
def toOrth (X A : Matrix n n ℝ) : Matrix n n ℝ := Xᵀ * A * X

/-- tools.py L412: what `scipy.linalg.svd` promises: `M = u diag(s) v` with orthogonal `u`, `v` and `s ≥ 0`. -/
structure IsSvd {k : Type*} [Fintype k] [DecidableEq k] (M U V : Matrix k k ℝ) (s : k → ℝ) : Prop where
  eq : M = U * Matrix.diagonal s * V
  left : Uᵀ * U = 1
  right : V * Vᵀ = 1
  nonneg : ∀ i, 0 ≤ s i

/-- tools.py L405-411: the integrals, with the products of the couplings added when `g` is given, as a matrix over
pairs of orbitals. -/
def eriMat (eri : n → n → n → n → ℝ) (g : Option (List (Matrix n n ℝ))) : Matrix (n × n) (n × n) ℝ :=
  Matrix.of fun a b => eri a.1 a.2 b.1 b.2 +
    match g with
    | none => 0
    | some gs => (gs.map fun G => G a.1 a.2 * G b.1 b.2).sum

/-- tools.py L419-421: the columns of `u` with singular value above the threshold, scaled and reshaped. -/
noncomputable def cholFull (U : Matrix (n × n) (n × n) ℝ) (s : n × n → ℝ) (thresh : ℝ) : List (Matrix n n ℝ) :=
  ((Finset.univ.filter fun γ => thresh < s γ).toList).map fun γ => Matrix.of fun p q => U (p, q) γ * √(s γ)

/-- What the method returns or stores. -/
structure Out (n : Type*) where
  /-- L613-614: `h1e` of every spin component. -/
  h1e : Matrix n n ℝ
  /-- L657: `ltensor`. -/
  ltensor : List (Matrix n n ℝ)
  /-- L606, L619: `nbarefields`. -/
  nbare : ℕ
  /-- L656: `nfields`. -/
  nfields : ℕ
  /-- L622-623: `geb` (none for a bare electronic system). -/
  geb : Option (List (Matrix n n ℝ))

/-- qmc.py L551-657.  `chols` is the routine of tools.py (full or in blocks) as a function of the couplings given to it,
`bil` the electronic part of the decomposed bilinear term. -/
noncomputable def getIntegrals (fb merge decouple turnoff : Bool) (hcore X : Matrix n n ℝ) (g : List (Matrix n n ℝ))
    (freq : List ℝ) (chols : Option (List (Matrix n n ℝ)) → List (Matrix n n ℝ)) (bil : List (Matrix n n ℝ)) : Out n :=
  let gOR := g.map (toOrth X)
  let lt := (chols (if fb && merge then some g else none)).map (toOrth X)
  let h := toOrth X hcore
  if fb then
    let h' := h + (1 / 2 : ℝ) • (gOR.map fun G => G * G).sum
    let lt1 := if merge then lt else lt ++ gOR
    let nbare := if merge then lt.length else lt.length + gOR.length
    let geb := List.zipWith (fun (G : Matrix n n ℝ) w => √(w * (1 / 2)) • G) gOR freq
    let lt2 := if decouple && !turnoff then lt1 ++ bil else lt1
    ⟨h', lt2, nbare, lt2.length, some geb⟩
  else ⟨h, lt, lt.length, lt.length, none⟩

/-- The two body tensor that a list of fields stands for: `Σ L_pq L_rs`. -/
def tensor (ls : List (Matrix n n ℝ)) (p q r s : n) : ℝ := (ls.map fun L => L p q * L r s).sum

/-- qmc.py L747-767: `local_energy_spin` for one walker with `S` spin components; `fac` is `spin_fac`. -/
noncomputable def localEnergySpin {S : Type*} [Fintype S] (h : n → n → ℝ) (eri : n → n → n → n → ℝ) (enuc : ℝ)
    (G : S → n → n → ℝ) : ℝ :=
  let fac : ℝ := 1 / Fintype.card S
  let ecoul := ∑ a, ∑ q, ∑ s, (2 * (∑ b, ∑ p, ∑ r, eri p r q s * G b p r) * fac) * G a q s
  let exx := ∑ a, ∑ q, ∑ s, (∑ p, ∑ r, eri p s q r * G a p r) * G a q s
  let e2 := (ecoul - exx) * fac
  let e1 := 2 * (∑ a, ∑ p, ∑ q, G a p q * h p q) * fac
  e1 + e2 + enuc

/-- qmc.py L808-825: `local_energy` for one walker from the fields: `vbias` is the trace of `TL_theta`. -/
def localEnergy (theta : List (Matrix n n ℝ)) (h gf : Matrix n n ℝ) (enuc : ℝ) : ℝ :=
  let ej := 2 * (theta.map fun T => Matrix.trace T * Matrix.trace T).sum
  let ek := (theta.map fun T : Matrix n n ℝ => Matrix.trace (T * T)).sum
  2 * (∑ p, ∑ q, gf p q * h p q) + (ej - ek) + enuc

end OpenMS.QmcIntegrals
