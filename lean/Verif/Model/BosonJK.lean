import Verif.Model.Photon

/-!
# Self energy matrices and mode densities of the boson class

`openms/lib/boson.py`: `get_dse_jk` L1754-1825, `get_boson_dm` L1024-1049, `get_bdag_minus_b_expval` L2016-2023.
-/

namespace OpenMS.Photon

open Finset

variable {X n : Type*} [Fintype X] [Fintype n]

/-- boson.py L1805-1806: the factor of every mode; `couplings_res = 1 - couplings_var`. -/
noncomputable def gDse (residue : Bool) (f : ℝ) : ℝ := if residue then (1 - f) * (1 - f) else 1

/-- boson.py L1815-1816: `j_dse` of one density matrix. -/
noncomputable def jDse (g : X → Matrix n n ℝ) (gd : X → ℝ) (D : Matrix n n ℝ) : Matrix n n ℝ :=
  Matrix.of fun p q => ∑ x, gd x * (∑ a, ∑ b, g x a b * D b a) * g x p q

/-- boson.py L1820-1821: `k_dse` of one density matrix, `einsum("Xpr, Xsq, sr-> Xpq")`. -/
noncomputable def kDse (g : X → Matrix n n ℝ) (gd : X → ℝ) (D : Matrix n n ℝ) : Matrix n n ℝ :=
  Matrix.of fun p q => ∑ x, gd x * ∑ r, ∑ s, g x p r * g x s q * D s r

/-- boson.py L1811-1822: one pair of matrices for every density matrix. -/
noncomputable def jkDse (g : X → Matrix n n ℝ) (residue : Bool) (f : X → ℝ) (dms : List (Matrix n n ℝ)) :
    List (Matrix n n ℝ × Matrix n n ℝ) :=
  dms.map fun D => (jDse g (fun x => gDse residue (f x)) D, kDse g (fun x => gDse residue (f x)) D)

/-- boson.py L1043-1049: the density matrix of one mode from column 0 (real coefficients); `idx` is its first row. -/
def modeDm (idx : ℕ) (c : ℕ → ℝ) (a b : ℕ) : ℝ := c (idx + a) * c (idx + b)

/-- boson.py L2020-2021: the matrix with the roots next to the diagonal. -/
noncomputable def ladder (a b : ℕ) : ℝ :=
  (if b = a + 1 then Real.sqrt b else 0) + (if a = b + 1 then Real.sqrt a else 0)

/-- boson.py L2016-2023: `get_bdag_minus_b_expval`. -/
noncomputable def bdagMinusB (mdim idx : ℕ) (c : ℕ → ℝ) : ℝ :=
  ∑ a ∈ range mdim, ∑ b ∈ range mdim, ladder a b * modeDm idx c a b

end OpenMS.Photon
