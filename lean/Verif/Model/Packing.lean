import Mathlib.Algebra.Field.Basic
import Mathlib.Data.List.GetD

/-!
# Packed symmetric matrices

Model of `packed_index`, `unpack_symmetric`, `pack_symmetric` in `/repo/openms/lib/boson.py`
L30-76.  A matrix is a function of two indices together with its dimension `mdim`.
-/

namespace OpenMS.Boson

/-- `boson.py` L30-33: `packed_index`. -/
def packedIndex (i j : ℕ) : ℕ :=
  let p := if i < j then (j, i) else (i, j)
  p.1 * (p.1 + 1) / 2 + p.2

/-- `M[i, j] = v`. -/
def setEntry {K : Type*} (M : ℕ → ℕ → K) (i j : ℕ) (v : K) : ℕ → ℕ → K :=
  fun a b => if a = i ∧ b = j then v else M a b

/-- `boson.py` L49-52: the inner loop of `unpack_symmetric` for row `i`, over `j < i`. -/
def unpackRow {K : Type*} [Field K] (A : List K) (fac : K) (i : ℕ) (s : (ℕ → ℕ → K) × ℕ) :
    (ℕ → ℕ → K) × ℕ :=
  (List.range i).foldl (fun s j =>
    (setEntry (setEntry s.1 i j (A.getD s.2 0 / fac)) j i (A.getD s.2 0 / fac), s.2 + 1)) s

/-- `boson.py` L36-56: `unpack_symmetric`.  Entries of `A` beyond its length are not accessed
for the documented length. -/
def unpackSymmetric {K : Type*} [Field K] (A : List K) (mdim : ℕ) (fac : K) : ℕ → ℕ → K :=
  ((List.range mdim).foldl (fun s i =>
    let s := unpackRow A fac i s
    (setEntry s.1 i i (A.getD s.2 0), s.2 + 1)) (fun _ _ => 0, 0)).1

/-- `boson.py` L58-76: `pack_symmetric`. -/
def packSymmetric {K : Type*} (M : ℕ → ℕ → K) (mdim : ℕ) : List K :=
  (List.range mdim).foldl (fun packed i =>
    (List.range (i + 1)).foldl (fun packed j => packed ++ [M i j]) packed) []

end OpenMS.Boson
