import Mathlib.Data.Matrix.Mul
import Mathlib.Data.Matrix.Basic

/-!
# Propagation with the bilinear term by orders

`openms/qmc/propagators.py` L1419-1482, `propagate_walkers_bilinear` (called nowhere, L1819 is a comment).  One walker; `A` is
`oei = -dt ∑ Q geb` (L1459) and `B` is `evol_Hep = -dt Hb` (L1460), both given.
-/

namespace OpenMS.BilinearStep

variable {𝕜 : Type*} [Field 𝕜] {n r b : Type*} [Fintype n] [Fintype b]

/-- Variables of the loop: `temp`, `phiwa`, `temp2`, `boson_phiw`. -/
structure St (𝕜 n r b : Type*) where
  temp : Matrix n r 𝕜
  phi : Matrix n r 𝕜
  temp2 : b → 𝕜
  psi : b → 𝕜

/-- L1467-1472: one order; only the electronic `temp` is divided by `i + 1`. -/
def order (A : Matrix n n 𝕜) (B : Matrix b b 𝕜) (i : ℕ) (s : St 𝕜 n r b) : St 𝕜 n r b :=
  let temp := (((i : 𝕜) + 1)⁻¹) • (A * s.temp)
  let temp2 := B.mulVec s.temp2
  ⟨temp, s.phi + temp, temp2, s.psi + temp2⟩

/-- L1464-1472: the loop over the orders, with the copies made before it. -/
def orders (A : Matrix n n 𝕜) (B : Matrix b b 𝕜) (phi : Matrix n r 𝕜) (psi : b → 𝕜) : ℕ → St 𝕜 n r b
  | 0 => ⟨phi, phi, psi, psi⟩
  | k + 1 => order A B k (orders A B phi psi k)

/-- L1474-1478: the loop over the orders for the second spin component. -/
def ordersB (A : Matrix n n 𝕜) (phi : Matrix n r 𝕜) : ℕ → Matrix n r 𝕜 × Matrix n r 𝕜
  | 0 => (phi, phi)
  | k + 1 =>
    let temp := (((k : 𝕜) + 1)⁻¹) • (A * (ordersB A phi k).1)
    (temp, (ordersB A phi k).2 + temp)

end OpenMS.BilinearStep
