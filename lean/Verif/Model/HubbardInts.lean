import Verif.Model.Lattice
import Mathlib.Data.Matrix.Basic

/-!
# Integrals of the Hubbard chain in a basis of orbitals

`openms/models/hubbard.py` L112-338 and the blocks of `openms/lib/ov_blocks.py`.  Sites and orbitals are `Fin L`; spin-up orbitals are
`inl`, spin-down orbitals `inr` (the code has them one after the other).
-/

namespace OpenMS.Lattice

/-- The einsum `"pqrs,pw,qx,ry,sz->wxyz"` of `hubbard.py` L186-188, L295, L303, L314. -/
def trans4 {n m : Type*} [Fintype n] (V : n → n → n → n → ℝ) (c1 c2 c3 c4 : n → m → ℝ) (w x y z : m) : ℝ :=
  ∑ p, ∑ q, ∑ r, ∑ s, V p q r s * c1 p w * c2 q x * c3 r y * c4 s z

section
variable {n : Type*} [Fintype n] [DecidableEq n]

/-- `hubbard.py` L83-89: `umatS`. -/
def umatS (U : ℝ) (i j k l : n) : ℝ := if i = j ∧ i = k ∧ i = l then U else 0

/-- `hubbard.py` L181-189: the same-spin integrals of `u_aint_tot`. -/
def uaintSame (U : ℝ) (c : n → n → ℝ) : n → n → n → n → ℝ :=
  trans4 (fun p q r s => umatS U p q r s - umatS U p q s r) c c c c

/-- `hubbard.py` L181-189: the integrals of different spin of `u_aint_tot`. -/
def uaintMixed (U : ℝ) (ca cb : n → n → ℝ) : n → n → n → n → ℝ := trans4 (umatS U) ca cb ca cb

/-- `hubbard.py` L294-298: `g_aint_tot`. -/
def gaintTot (U : ℝ) (ca cb : n → n → ℝ) (w x y z : n ⊕ n) : ℝ :=
  let C := blockDiag ca cb
  trans4 (umat U) C C C C w x y z - trans4 (umat U) C C C C w x z y

/-- `hubbard.py` L308-314: the transformed integrals of `g_aint`. -/
def gaintMo (U : ℝ) (ca cb : n → n → ℝ) : n ⊕ n → n ⊕ n → n ⊕ n → n ⊕ n → ℝ :=
  let C := blockDiag ca cb
  trans4 (fun p q r s => umat U p q r s - umat U p q s r) C C C C

end

section
variable {L : ℕ}

/-- `hubbard.py` L33-37: density of one spin, from the first `k` columns. -/
def density (k : ℕ) (c : Fin L → Fin L → ℝ) (a b : Fin L) : ℝ :=
  ∑ i : Fin L, if i.val < k then c a i * c b i else 0

/-- `hubbard.py` L153-158: the occupations. -/
def occ (k : ℕ) (i : Fin L) : ℝ := if i.val < k then 1 else 0

/-- `hubbard.py` L160-164: the spin-up Fock matrix of `u_fock`. -/
def ufockA (t : Fin L → Fin L → ℝ) (U : ℝ) (na nb : ℕ) (ca cb : Fin L → Fin L → ℝ) (p r : Fin L) : ℝ :=
  (∑ i, ∑ j, t i j * ca i p * ca j r) + (∑ q, uaintSame U ca p q r q * occ na q) + ∑ q, uaintMixed U ca cb p q r q * occ nb q

/-- `hubbard.py` L160-166: the spin-down Fock matrix of `u_fock`. -/
def ufockB (t : Fin L → Fin L → ℝ) (U : ℝ) (na nb : ℕ) (ca cb : Fin L → Fin L → ℝ) (q s : Fin L) : ℝ :=
  (∑ i, ∑ j, t i j * cb i q * cb j s) + (∑ r, uaintSame U cb q r s r * occ nb r) + ∑ p, uaintMixed U ca cb p q p s * occ na p

/-- `hubbard.py` L126-139: the Fock matrix of `g_fock` between two orbitals; its four blocks select occupied and virtual columns. -/
def gfock (t : Fin L → Fin L → ℝ) (U : ℝ) (na nb : ℕ) (ca cb : Fin L → Fin L → ℝ) (i j : Fin L ⊕ Fin L) : ℝ :=
  ∑ p, ∑ q, blockDiag ca cb p i * fock t U (density na ca) (density nb cb) p q * blockDiag ca cb q j

end

/-- The nine blocks of `two_e_blocks` (`ov_blocks.py` L30-42; selected in `hubbard.py` L215-223, L319-327 and `ov_blocks.py`
L51-59): occupied or not, for each of the four indices. -/
def nineBlocks : List (Bool × Bool × Bool × Bool) :=
  let v := false
  let o := true
  [(v, v, v, v), (v, v, v, o), (v, o, v, v), (v, v, o, o), (v, o, v, o), (o, o, v, v), (v, o, o, o), (o, o, o, v), (o, o, o, o)]

/-- The sixteen blocks of `two_e_blocks_full` (`ov_blocks.py` L65-86; selected in L95-110 and `hubbard.py` L252-267). -/
def allBlocks : List (Bool × Bool × Bool × Bool) :=
  let v := false
  let o := true
  [(v, v, v, v), (v, v, v, o), (v, v, o, v), (v, o, v, v), (o, v, v, v), (v, v, o, o), (v, o, v, o), (o, v, v, o),
    (v, o, o, v), (o, v, o, v), (o, o, v, v), (v, o, o, o), (o, v, o, o), (o, o, v, o), (o, o, o, v), (o, o, o, o)]

/-- `numpy.ix_` with four lists of indices (`ov_blocks.py` L51-59 with slices): the entry is in the block. -/
def inBlock {m : Type*} (o1 o2 o3 o4 : m → Bool) (b : Bool × Bool × Bool × Bool) (w x y z : m) : Prop :=
  o1 w = b.1 ∧ o2 x = b.2.1 ∧ o3 y = b.2.2.1 ∧ o4 z = b.2.2.2

end OpenMS.Lattice
