import Mathlib.Analysis.SpecialFunctions.Pow.Real
import Mathlib.LinearAlgebra.Matrix.Notation

/-!
# Integral handling

Model of `read_fcidump`, `chols_blocked`, `_find_shell` and `_compute_eri_chunk` in
`/repo/openms/qmc/tools.py`.
-/

namespace OpenMS.Integrals

/-! ## FCIDUMP -/

/-- One line of the file after the four header lines: the value and four indices
(`tools.py` L309-311). -/
structure Line (K : Type*) where
  val : K
  p : ℤ
  q : ℤ
  r : ℤ
  s : ℤ

/-- Python index into an axis of length `n`: negative indices count from the end, anything else
out of range raises `IndexError` (`none`). -/
def pyIndex (n : ℕ) (k : ℤ) : Option ℕ :=
  if 0 ≤ k ∧ k < n then some k.toNat
  else if -(n : ℤ) ≤ k ∧ k < 0 then some (n + k).toNat
  else none

/-- What has been read so far. -/
structure Dump (K : Type*) where
  h1e : ℕ → ℕ → K
  eri : ℕ → ℕ → ℕ → ℕ → K
  nuc : Option K

/-- `h[a, b] = x`. -/
def set2 {K : Type*} (f : ℕ → ℕ → K) (a b : ℕ) (x : K) : ℕ → ℕ → K :=
  fun c d => if c = a ∧ d = b then x else f c d

/-- `eri[a, b, c, d] = x`. -/
def set4 {K : Type*} (f : ℕ → ℕ → ℕ → ℕ → K) (a b c d : ℕ) (x : K) : ℕ → ℕ → ℕ → ℕ → K :=
  fun a' b' c' d' => if a' = a ∧ b' = b ∧ c' = c ∧ d' = d then x else f a' b' c' d'

/-- `tools.py` L312-323: one line. -/
def readLine {K : Type*} (norb : ℕ) (D : Dump K) (l : Line K) : Option (Dump K) :=
  if l.r ≠ 0 then
    (pyIndex norb (l.p - 1)).bind fun p => (pyIndex norb (l.q - 1)).bind fun q =>
    (pyIndex norb (l.r - 1)).bind fun r => (pyIndex norb (l.s - 1)).bind fun s =>
    let e1 := set4 D.eri p q r s l.val
    let e2 := set4 e1 q p r s l.val
    let e3 := set4 e2 p q s r l.val
    let e4 := set4 e3 q p s r l.val
    some { D with eri := e4 }
  else if l.p ≠ 0 then
    (pyIndex norb (l.p - 1)).bind fun p => (pyIndex norb (l.q - 1)).bind fun q =>
    some { D with h1e := set2 (set2 D.h1e p q l.val) q p l.val }
  else some { D with nuc := some l.val }

/-- `tools.py` L301-323: the arrays start at zero and all lines are read in order. -/
def readLines {K : Type*} [Zero K] (norb : ℕ) (lines : List (Line K)) : Option (Dump K) :=
  lines.foldlM (readLine norb) ⟨fun _ _ => 0, fun _ _ _ _ => 0, none⟩

/-- `tools.py` L294-324: `return h1e, eri, nuc`; an unassigned `nuc` raises
`UnboundLocalError`. -/
def readFcidump {K : Type*} [Zero K] (norb : ℕ) (lines : List (Line K)) :
    Option ((ℕ → ℕ → K) × (ℕ → ℕ → ℕ → ℕ → K) × K) :=
  (readLines norb lines).bind fun D => D.nuc.map fun e => (D.h1e, D.eri, e)

/-! ## Pivoted Cholesky decomposition -/

section Cholesky

variable {n : Type*} [Fintype n]

/-- `ltensor[nchol + 1] = (Munu0 - R) / sqrt(delta_max)` with
`R = dot(ltensor[:nchol+1, nu], ltensor[:nchol+1, :])` (`tools.py` L528-532). -/
noncomputable def nextVec (M : Matrix n n ℝ) (vecs : List (n → ℝ)) (nu : n) (dm : ℝ) : n → ℝ :=
  fun i => (M i nu - (vecs.map fun L => L nu * L i).sum) / Real.sqrt dm

/-- `tools.py` L505-546: the loop.  `vecs` is `ltensor[:nchol+1]`, `approx` is `Mapprox`.  The
integral matrix `M` has one index per orbital pair; `argmax` returns a position of the largest
entry.  `none` is the `IndexError` of writing row `nchol + 1` of an array of `maxc` rows.  Time
measurement and printing are left out.  The loop is bounded by the number of free
rows, because every pass writes a new row. -/
noncomputable def cholLoop (M : Matrix n n ℝ) (thr : ℝ) (maxc : ℕ) (argmax : (n → ℝ) → n) :
    ℕ → List (n → ℝ) → (n → ℝ) → ℝ → Option (List (n → ℝ))
  | fuel, vecs, approx, dmax =>
    if |dmax| > thr then
      let approx' : n → ℝ := fun i => approx i + (vecs.getLastD 0) i * (vecs.getLastD 0) i
      let delta : n → ℝ := fun i => M i i - approx' i
      let nu := argmax fun i => |delta i|
      let dm := |delta nu|
      match fuel with
      | 0 => none
      | fuel + 1 =>
        let vecs' := vecs ++ [nextVec M vecs nu dm]
        -- `if nchol >= max_chols: break`
        if vecs'.length - 1 ≥ maxc then some vecs'.dropLast
        else cholLoop M thr maxc argmax fuel vecs' approx' dm
    else some vecs.dropLast

/-- `tools.py` L495-548: start of the decomposition and truncation.  The first vector is the
pivot column divided by the square root of the largest diagonal entry. -/
noncomputable def cholsBlocked (M : Matrix n n ℝ) (thr : ℝ) (maxc : ℕ) (argmax : (n → ℝ) → n) :
    Option (List (n → ℝ)) :=
  let nu := argmax fun i => M i i
  if maxc = 0 then none
  else cholLoop M thr maxc argmax (maxc - 1) [fun i => M i nu / Real.sqrt (M nu nu)]
    (fun _ => 0) (M nu nu)

end Cholesky

/-! ## Shell lookup and coupling term -/

/-- `tools.py` L471-479: cumulative offsets of the shells, given the number of functions
`(2 l + 1) nc` of each. -/
def shellOffsets (sizes : List ℕ) : List ℕ :=
  sizes.foldl (fun acc d => acc ++ [acc.getLastD 0 + d]) [0]

/-- `numpy.searchsorted(a, x, side="right")` on a sorted list: the number of entries
`≤ x`. -/
def searchsortedRight (a : List ℕ) (x : ℕ) : ℕ := (a.filter (· ≤ x)).length

/-- `tools.py` L552-558: `_find_shell` for one index. -/
def findShell (offsets : List ℕ) (j : ℕ) : ℤ := (searchsortedRight offsets j : ℤ) - 1

/-- `tools.py` L575-578: the coupling contribution to a column: `einsum("n,njk->njk", g[:, j, l], g)`
keeps the mode axis, and `reshape(nao * nao)` fails unless the sizes agree.  `g` is the list
of coupling matrices in packed form (one entry per orbital pair). -/
def couplingChunk {K : Type*} [Mul K] (npair : ℕ) (g : List (List K)) (jl : ℕ) :
    Option (List K) :=
  let flat := (g.map fun gm => (gm[jl]?).elim [] fun x => gm.map (x * ·)).flatten
  if flat.length = npair then some flat else none

end OpenMS.Integrals
