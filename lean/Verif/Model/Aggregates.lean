import Verif.Model.Lattice
import Mathlib.Algebra.Order.BigOperators.Group.List

/-!
# Selection of states and two-dimensional spectra of an aggregate

`openms/models/aggregates.py` L42-80 (`tdes`), L178-205 (`sortdipole`), L208-271 (`spdfselection`), L275-296 (`linearabs`).  States and sites
are `Fin N`; `phi j u` is `evecs[j, u]`.  The order of `dipsortidx` is given.
-/

namespace OpenMS.Aggregates

open OpenMS.Lattice

section
variable {N : ℕ}

/-- L226-228, L255-257: `∑ phi_ju |phi_jv|`. -/
def signOverlap (phi : Fin N → Fin N → ℝ) (u v : Fin N) : ℝ := ∑ j, phi j u * |phi j v|

/-- L225-232: one turn of the loop over the sorted states; the state is `local_gs` and `selected_dip`. -/
noncomputable def gsTurn (phi : Fin N → Fin N → ℝ) (dip : Fin N → ℝ) (c0 : ℝ) (st : List (Fin N) × ℝ) (u : Fin N) :
    List (Fin N) × ℝ :=
  if c0 ≤ |signOverlap phi u u| then (st.1 ++ [u], st.2 + dip u ^ 2) else st

/-- L218-232: the local ground states and the dipole strength they have. -/
noncomputable def localGs (phi : Fin N → Fin N → ℝ) (dip : Fin N → ℝ) (c0 : ℝ) (order : List (Fin N)) : List (Fin N) × ℝ :=
  order.foldl (gsTurn phi dip c0) ([], 0)

/-- L246-261: one turn of the inner loop, for the ground state `u`; the state is `local_ex` and `selected_dip`. -/
noncomputable def exTurn (phi : Fin N → Fin N → ℝ) (dip : Fin N → ℝ) (cutoff c1 : ℝ) (gs : List (Fin N)) (u : Fin N)
    (st : List (Fin N) × ℝ) (v : Fin N) : List (Fin N) × ℝ :=
  if v = u then st
  else if v ∈ st.1 ∨ v ∈ gs then st
  else if |dip v| < cutoff then st
  else if c1 ≤ |signOverlap phi u v| then (st.1 ++ [v], st.2 + dip v ^ 2) else st

/-- L243-261: the local excited states and the dipole strength with them. -/
noncomputable def localEx (phi : Fin N → Fin N → ℝ) (dip : Fin N → ℝ) (cutoff c1 : ℝ) (gs : List (Fin N) × ℝ) :
    List (Fin N) × ℝ :=
  gs.1.foldl (fun st u => (List.finRange N).foldl (exTurn phi dip cutoff c1 gs.1 u) st) ([], gs.2)

/-- L208-266: `spdfselection`: the two lists and the dipole strength; `order` is `dipsortidx` and `maxdip` the largest dipole (L195,
`dip_cutoff = 0.1 * maxdip`). -/
noncomputable def spdf (phi : Fin N → Fin N → ℝ) (dip : Fin N → ℝ) (c0 c1 maxdip : ℝ) (order : List (Fin N)) :
    List (Fin N) × List (Fin N) × ℝ :=
  let gs := localGs phi dip c0 order
  let ex := localEx phi dip (0.1 * maxdip) c1 gs
  (gs.1, ex.1, ex.2)

/-- L275-296: `linearabs` without a list of states: the lowest `Nexc` (L126: at most `Nsite`) states. -/
noncomputable def linearAbs (Nexc : ℕ) (evals dip : Fin N → ℝ) (gamma e : ℝ) : ℝ :=
  linearSpec ((List.finRange N).take (min Nexc N)) evals dip gamma e

end

/-- L67-76: absorption line of height `d² / gamma`. -/
noncomputable def line (d x gamma : ℝ) : ℝ := d * d * gamma / (x ^ 2 + gamma ^ 2)

/-- L51-75: one point of `tdes` at detection energy `Ed` and excitation energy `Ex`; `state` are the indices of the states, `eng2 v1 uv`
and `dip2 v1 uv` belong to the position in that list. -/
noncomputable def tdes {S : Type*} (state : List S) (evals dip1 : S → ℝ) (nuv : ℕ) (eng2 dip2 : ℕ → ℕ → ℝ) (gamma Ed Ex : ℝ) : ℝ :=
  (state.zipIdx.map fun jv =>
    let tmp := 0 - ((List.range nuv).map fun uv => line (dip2 jv.2 uv) (Ed - eng2 jv.2 uv) gamma).sum
    let tmp := tmp + 2 * (dip1 jv.1 * dip1 jv.1 * gamma) / ((Ed - evals jv.1) ^ 2 + gamma ^ 2)
    tmp * (dip1 jv.1 * dip1 jv.1 * gamma) / ((Ex - evals jv.1) ^ 2 + gamma ^ 2)).sum

end OpenMS.Aggregates
