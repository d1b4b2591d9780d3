import Mathlib.Data.Complex.Basic
import Mathlib.Data.Matrix.Basic
import Mathlib.Algebra.BigOperators.Fin

/-!
# Discrete auxiliary field of a site

`openms/qmc/propagators.py` L1252-1302 (`propagate_walkers_twobody_1st`) for one walker and one site.  The rows of the arrays are
basis functions, the columns orbitals; both spins are given separately.
-/

namespace OpenMS.DiscreteField

variable {p i j : Type*} [DecidableEq p]

/-- `propagators.py` L1279: `phaseless_ratio`. -/
def phaseless (probs : Fin 2 → ℂ) (s : Fin 2) : ℝ := max (probs s).re 0

/-- `propagators.py` L1287-1290: the choice of the field by the random number `r`. -/
noncomputable def choose (probs : Fin 2 → ℂ) (r : ℝ) : Fin 2 :=
  if r < phaseless probs 0 / (phaseless probs 0 + phaseless probs 1) then 0 else 1

/-- `propagators.py` L1291-1296: the row of one spin is multiplied in place. -/
def scaleRow (x : p) (δ : ℂ) (W : Matrix p i ℂ) : Matrix p i ℂ :=
  Matrix.of fun a b => if a = x then W a b + W a b * δ else W a b

/-- Weight and orbitals of a walker. -/
structure Walker (p i j : Type*) where
  /-- weight -/
  weight : ℝ
  /-- orbitals of the first spin -/
  up : Matrix p i ℂ
  /-- orbitals of the second spin -/
  down : Matrix p j ℂ

/-- `propagators.py` L1278-1302: the step of site `x` after the probabilities are known. -/
noncomputable def siteStep (δ : Fin 2 → Fin 2 → ℂ) (x : p) (probs : Fin 2 → ℂ) (r : ℝ) (w : Walker p i j) : Walker p i j :=
  let norm := phaseless probs 0 + phaseless probs 1
  if norm > 0 then
    { weight := w.weight * norm
      up := scaleRow x (δ (choose probs r) 0) w.up
      down := scaleRow x (δ (choose probs r) 1) w.down }
  else { w with weight := 0 }

/-- `propagators.py` L1252-1302: the whole function; `system` (L1256), `walker` and `probs` are not defined; `names` is the list of
sites with the probabilities and random numbers if they were. -/
noncomputable def twobodyFirst (δ : Fin 2 → Fin 2 → ℂ) (names : Option (List (p × (Walker p i j → Fin 2 → ℂ) × ℝ))) (w : Walker p i j) :
    Except String (Walker p i j) :=
  match names with
  | none => .error "NameError"
  | some l => .ok (l.foldl (fun w s => siteStep δ s.1 (s.2.1 w) s.2.2 w) w)

end OpenMS.DiscreteField
