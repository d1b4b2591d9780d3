import Mathlib.Analysis.SpecialFunctions.Complex.Log
import Mathlib.Analysis.SpecialFunctions.Complex.Arg
import Mathlib.Analysis.SpecialFunctions.Pow.Real
import Mathlib.LinearAlgebra.Matrix.Determinant.Basic
import Mathlib.Tactic

/-!
Model of the deprecated propagation of `/repo/openms/qmc/afqmc.py`: `update_weight` of `AFQMC` and `propagation` of `QEDAFQMC`, as if
the names missing in the file (`overlap_with_walkers` of the trial, `get_quadrupole_ao`, `walker_tensors`) were there.  Numbers are
exact; one walker at a time; the indices of walker, spin and orbital of `walker_tensors`, which no step touches, are left out.
`scipy.linalg.expm` is an argument.  The logarithm of an overlap ratio zero (`-inf` in `numpy`) is not modelled.
-/

namespace OpenMS.QedAfqmc

open Matrix

/-- `afqmc.py` L297-299: `overlap_ratio`. -/
noncomputable def ratio {N : ℕ} (new old : Matrix (Fin N) (Fin N) ℂ) : ℂ := (new.det / old.det) ^ 2

/-- `afqmc.py` L303: `ebound`. -/
noncomputable def ebound (dt : ℝ) : ℝ := (2 / dt) ^ (0.5 : ℝ)

/-- `afqmc.py` L304-310: `hybrid_energy`; `clip` returns the array given as `out`, here the real part. -/
noncomputable def hybridEnergy (dt : ℝ) (R cfb cmf : ℂ) : ℝ :=
  min (max (-(Complex.log R + cfb + cmf) / dt).re (-ebound dt)) (ebound dt)

/-- `afqmc.py` L311-323: the factor of the weight in the hybrid scheme; `prev` is `self.hybrid_energy` before the call. -/
noncomputable def hybridFactor (dt : ℝ) (prev : Option ℝ) (R cfb cmf : ℂ) : ℝ :=
  |Real.exp (-dt * 0.5 * (hybridEnergy dt R cfb cmf + prev.getD (hybridEnergy dt R cfb cmf)))| *
    max 0 (Real.cos (-dt * (hybridEnergy dt R cfb cmf : ℂ) - cfb).im)

/-- `afqmc.py` L326-333: the factor of the weight in the local scheme. -/
noncomputable def localFactor (dt : ℝ) (eloc R cmf : ℂ) : ℝ :=
  Real.exp (-dt * eloc.re) * max 0 (Real.cos (Complex.arg (R * Complex.exp cmf)))

/-- `afqmc.py` L338: calls of `update_weight` in the hybrid scheme, one after the other: `self.hybrid_energy` and the weight.  A call
has the overlap ratio, `cfb` and `cmf`. -/
noncomputable def run (dt : ℝ) : List (ℂ × ℂ × ℂ) → Option ℝ → ℝ → Option ℝ × ℝ
  | [], prev, w => (prev, w)
  | (R, cfb, cmf) :: l, prev, w =>
    run dt l (some (hybridEnergy dt R cfb cmf)) (w * hybridFactor dt prev R cfb cmf)

variable {n : ℕ} {A M G : Type*} [Fintype A] [Fintype M] [Fintype G]

/-- `afqmc.py` L401-404: `aTa`, the sum of the annihilation operator and its transpose. -/
noncomputable def aTa (F F' : Fin n) : ℝ :=
  (if F.1 + 1 = F'.1 then Real.sqrt F'.1 else 0) + (if F'.1 + 1 = F.1 then Real.sqrt F.1 else 0)

/-- `afqmc.py` L405-407: `bilinear_factor`. -/
noncomputable def bilinearFactor (freq coupling : M → ℝ) (m : M) : ℝ := Real.sqrt (freq m / 2) * coupling m

/-- `afqmc.py` L409-414: `MuQc`. -/
noncomputable def muQc (freq coupling : M → ℝ) (dip : M → A → A → ℝ) (F F' : Fin n) (a b : A) : ℝ :=
  ∑ m, bilinearFactor freq coupling m * aTa F F' * dip m a b

/-- `afqmc.py` L508-511, L558-563: the loops of the Taylor series: `temp` and the sum. -/
noncomputable def taylor {V : Type*} [AddCommGroup V] [Module ℂ V] (op : V → V) (w : V) : ℕ → V × V
  | 0 => (w, w)
  | i + 1 =>
    let temp := ((i : ℂ) + 1)⁻¹ • op (taylor op w i).1
    (temp, (taylor op w i).2 + temp)

/-- `afqmc.py` L510: the operator of the bilinear coupling. -/
noncomputable def bilinearOp (dt : ℝ) (mu : Fin n → Fin n → A → A → ℝ) (w : Fin n → A → ℂ) (F : Fin n) (a : A) : ℂ :=
  ∑ F', ∑ b, ((-0.5 * dt * mu F F' a b : ℝ) : ℂ) * w F' b

/-- `afqmc.py` L519-527: `propagate_photon_hamiltonian`. -/
noncomputable def photon (dt : ℝ) (freq : M → ℝ) (w : Fin n → A → ℂ) (F : Fin n) (a : A) : ℂ :=
  (Real.exp (-0.5 * dt * ∑ m, freq m * F.1) : ℂ) * w F a

/-- `afqmc.py` L542-543, L573: a half step of the one-body part; `E` is `one_body_op_power`. -/
noncomputable def oneBody (E : Matrix A A ℂ) (w : Fin n → A → ℂ) (F : Fin n) (a : A) : ℂ := ∑ b, E a b * w F b

/-- `afqmc.py` L555-560: the operator of the two-body part for the shifted fields `x`. -/
noncomputable def twoBodyOp (dt : ℝ) (L : G → A → A → ℝ) (x : G → ℂ) (w : Fin n → A → ℂ) (F : Fin n) (a : A) : ℂ :=
  ∑ b, (Complex.I * Real.sqrt dt * ∑ g, x g * L g a b) * w F b

/-- `afqmc.py` L530-574: `walker_tensors` after `propagation`, for the random numbers `xi`; `order` is `taylor_order`. -/
noncomputable def propagation (dt : ℝ) (order : ℕ) (freq coupling : M → ℝ) (dip : M → A → A → ℝ) (E : Matrix A A ℂ)
    (L : G → A → A → ℝ) (xi : G → ℝ) (f : G → ℂ) (w : Fin n → A → ℂ) : Fin n → A → ℂ :=
  let bil := fun w => (taylor (bilinearOp dt (muQc freq coupling dip)) w order).2
  let two := fun w => (taylor (twoBodyOp dt L fun g => xi g - f g) w order).2
  oneBody E (photon dt freq (bil (two (bil (photon dt freq (oneBody E w))))))

/-- `afqmc.py` L579-581: `N_I`. -/
noncomputable def nI (xi : G → ℝ) (f : G → ℂ) : ℂ := ∑ g, xi g * f g - 0.5 * ∑ g, f g * f g

/-- `afqmc.py` L582: `cmf`. -/
noncomputable def cmf (dt : ℝ) (mf : G → ℂ) (xi : G → ℝ) (f : G → ℂ) : ℂ := -(Real.sqrt dt : ℂ) * ∑ g, (xi g - f g) * mf g

end OpenMS.QedAfqmc
