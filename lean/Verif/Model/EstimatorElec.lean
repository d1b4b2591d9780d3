import Verif.Model.Energy
import Mathlib.Data.Complex.BigOperators

/-!
# Further electronic estimators

`openms/qmc/estimators.py` L199-218 (`GF_so`), L557-590 (`exx_rltensor_Ghalf_chunked`), L780-793 (`local_eng_elec`) and
`openms/qmc/trial.py` L1006-1030 (`TrialUHF.build`).
-/

namespace OpenMS.Energy

open Matrix OpenMS.Green
open scoped BigOperators

/-- `estimators.py` L780-793: `local_eng_elec` for one walker with `S` components. -/
noncomputable def localEngElec {S n : Type*} [Fintype S] [Fintype n] (h : S → n → n → ℂ) (eri : n → n → n → n → ℂ)
    (G : S → n → n → ℂ) (fac : ℂ) : ℂ :=
  let kin := (∑ a, ∑ p, ∑ q, G a p q * h a p q) * fac
  let ecoul := ∑ a, ∑ q, ∑ s, (2 * (∑ b, ∑ p, ∑ r, eri p r q s * G b p r) * fac) * G a q s
  let ex := ∑ a, ∑ q, ∑ s, (∑ p, ∑ r, eri p s q r * G a p r) * G a q s
  kin + (ecoul - ex) * fac

/-- `estimators.py` L199-218: `GF_so` for matrices with the alpha and then the beta orbitals as columns; `none` is an error of
the inversion. -/
noncomputable def gfSo {p : Type*} [Fintype p] {na nb : ℕ} (T W : Matrix p (Fin na ⊕ Fin nb) ℂ) :
    Option ((Matrix p p ℂ × Matrix p p ℂ) × (Matrix (Fin na) p ℂ × Matrix (Fin nb) p ℂ)) := do
  let a ← GF (T.submatrix id Sum.inl) (W.submatrix id Sum.inl)
  let b ← if 0 < nb then GF (T.submatrix id Sum.inr) (W.submatrix id Sum.inr) else some (0, 0)
  return ((a.1, b.1), (a.2, b.2))

/-- Shapes of arrays. -/
abbrev Shape := List ℕ

/-- `x[:, :k]` for an array with at least two axes: the second axis is cut. -/
def cutSecond (k : ℕ) : Shape → Shape
  | a :: b :: r => a :: min k b :: r
  | s => s

/-- `numpy.dot` for arrays with at least two axes: the last axis of the first against the last but one of the second;
`ValueError` if they differ. -/
def dotShape (x y : Shape) : Except String Shape :=
  match x.reverse, y.reverse with
  | k :: xr, l :: k' :: yr => if k = k' then .ok (xr.reverse ++ yr.reverse ++ [l]) else .error "ValueError"
  | _, _ => .error "ValueError"

/-- `scipy.linalg.inv`: only square matrices, `ValueError` otherwise. -/
def invShape : Shape → Except String Shape
  | [a, b] => if a = b then .ok [a, b] else .error "ValueError"
  | _ => .error "ValueError"

/-- `estimators.py` L191-192 on shapes: `TW = dot(W.T, T.conj())`, `dot(inv(TW), W.T)`; `.T` reverses the axes. -/
def gfShape (T W : Shape) : Except String Shape := do
  let TW ← dotShape W.reverse T
  let m ← invShape TW
  dotShape m W.reverse

/-- `trial.py` L1013-1030 with `estimators.py` L209 on shapes: `psi` stacks the two spin components, `array([alpha, beta])` of
shape `(2, nao, nocc)` (equal numbers of electrons; a ragged array does not get this far), and is passed to `GF_so`, whose first
step cuts `T[:, :na]`. -/
def uhfBuild (nao nocc : ℕ) : Except String Shape :=
  let psi : Shape := [2, nao, nocc]
  gfShape (cutSecond nocc psi) (cutSecond nocc psi)

/-- `estimators.py` L568-577: the loop of one process over its walkers. -/
noncomputable def localExx {p i g : Type*} [Fintype p] [Fintype i] [Fintype g] (rl : g → Matrix p i ℂ)
    (Gs : List (Matrix p i ℂ)) : List ℂ := Gs.map (exx rl)

/-- `estimators.py` L581-588: `Gatherv` into a zero array of the first process: `displs` gives where the part of each process
goes. -/
def gatherv (parts : List (ℕ × List ℂ)) : ℕ → ℂ :=
  parts.foldl (fun A x k => if h : x.1 ≤ k ∧ k - x.1 < x.2.length then x.2[k - x.1]'h.2 else A k) (fun _ => 0)

/-- `estimators.py` L557-590 for all processes: the result of process `rank`. -/
noncomputable def exxChunked {p i g : Type*} [Fintype p] [Fintype i] [Fintype g] (rl : g → Matrix p i ℂ)
    (chunks : List (List (Matrix p i ℂ))) (displs : List ℕ) (rank : ℕ) : Option (ℕ → ℂ) :=
  if rank = 0 then some (gatherv (displs.zip (chunks.map (localExx rl)))) else none

end OpenMS.Energy
