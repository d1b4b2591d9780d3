import Mathlib.Tactic

/-!
# Tiled matrices in Python

Model of `/repo/utilities/pytiles.py`.  Sizes and tile numbers are natural numbers, numbers are exact, types of numbers are left out.  A
dictionary is the list of its items in the order of insertion.  A block is a function of the two indices inside of its tile; its
shape is that of the tile (checked by `add_block` and `set_block`).  Not modelled: `memory_stats`, the results `out='tiled'`
of `matmul_slice`.
-/

namespace OpenMS.PyTiles

/-- Names of the exceptions. -/
inductive Err
  | value
  | index
  deriving DecidableEq

/-- `pytiles.py` L19: `edges`. -/
abbrev Part := List ℕ

/-- `pytiles.py` L22-28: the condition of `__post_init__`, negated. -/
def Valid (e : Part) : Prop := ¬(e.length < 2 ∨ e.getD 0 0 ≠ 0 ∨ ∃ i < e.length - 1, e.getD (i + 1) 0 ≤ e.getD i 0)

instance (e : Part) : Decidable (Valid e) := by unfold Valid; infer_instance

/-- `pytiles.py` L21-29: `__post_init__`. -/
def make (e : Part) : Except Err Part := if Valid e then .ok e else .error .value

/-- `pytiles.py` L32-33: `N`. -/
def total (e : Part) : ℕ := e.getD (e.length - 1) 0

/-- `pytiles.py` L36-37. -/
def ntile (e : Part) : ℕ := e.length - 1

/-- `pytiles.py` L39-40: begin of `tile_slice`. -/
def start (e : Part) (t : ℕ) : ℕ := e.getD t 0

/-- `pytiles.py` L39-40: end of `tile_slice`. -/
def stop (e : Part) (t : ℕ) : ℕ := e.getD (t + 1) 0

/-- `pytiles.py` L42-43: `tile_size`. -/
def size (e : Part) (t : ℕ) : ℕ := stop e t - start e t

/-- `pytiles.py` L55-57: the edges added by the loop. -/
def edgesFrom : ℕ → List ℕ → List ℕ
  | _, [] => []
  | acc, s :: l => (acc + s) :: edgesFrom (acc + s) l

/-- `pytiles.py` L50-58: `from_sizes`. -/
def fromSizes (sizes : List ℕ) : Except Err Part :=
  if sizes.any (· ≤ 0) then .error .value else make (0 :: edgesFrom 0 sizes)

/-- `pytiles.py` L61-66: `uniform`. -/
def uniform (N tileSize : ℕ) : Except Err Part :=
  if tileSize ≤ 0 then .error .value
  else
    let sizes := List.replicate (N / tileSize) tileSize ++ (if N % tileSize ≠ 0 then [N % tileSize] else [])
    fromSizes (if sizes ≠ [] then sizes else [N])

variable {R : Type*} [Field R] [LinearOrder R] [IsStrictOrderedRing R]

/-- Contents of a block. -/
abbrev Block (R : Type*) := ℕ → ℕ → R

/-- `pytiles.py` L74-76: `_is_zero_block` for a block of `h` times `w`. -/
def IsZero (h w : ℕ) (b : Block R) (tol : R) : Prop := ∀ x < h, ∀ y < w, |b x y| ≤ tol

instance (h w : ℕ) (b : Block R) (tol : R) : Decidable (IsZero h w b tol) := by unfold IsZero; infer_instance

/-- Is index `p` in the slice of tile `t`? -/
def inTile (e : Part) (t p : ℕ) : Prop := start e t ≤ p ∧ p < stop e t

instance (e : Part) (t p : ℕ) : Decidable (inTile e t p) := by unfold inTile; infer_instance

/-- `pytiles.py` L80-89: `TiledDenseMatrix`. -/
structure Tiled (R : Type*) where
  rows : Part
  cols : Part
  blocks : List ((ℕ × ℕ) × Block R)

/-- `pytiles.py` L107-114: `get_block` of `TiledDenseMatrix`. -/
def Tiled.getBlock (T : Tiled R) (br bc : ℕ) : Block R := ((T.blocks.find? (·.1 = (br, bc))).map (·.2)).getD fun _ _ => 0

/-- `pytiles.py` L122-128: `to_dense` of `TiledDenseMatrix`. -/
def Tiled.toDense (T : Tiled R) (p q : ℕ) : R :=
  T.blocks.foldl (fun out it => if inTile T.rows it.1.1 p ∧ inTile T.cols it.1.2 q
    then it.2 (p - start T.rows it.1.1) (q - start T.cols it.1.2) else out) 0

/-- `pytiles.py` L131-150: `from_dense` of `TiledDenseMatrix`, for an array of the right shape. -/
def Tiled.fromDense (M : ℕ → ℕ → R) (rows cols : Part) : Tiled R :=
  ⟨rows, cols, (List.range (ntile rows)).flatMap fun br => (List.range (ntile cols)).map fun bc =>
    ((br, bc), fun x y => M (start rows br + x) (start cols bc + y))⟩

/-- `pytiles.py` L157-178: `BlockSparseLtensor`. -/
structure Sparse (R : Type*) where
  Nr : ℕ
  rows : Part
  cols : Part
  tol : R
  blocks : List ((ℕ × ℕ × ℕ) × Block R)

/-- An item of a dictionary is set: an old item keeps its place. -/
def put {K V : Type*} [DecidableEq K] (l : List (K × V)) (k : K) (v : V) : List (K × V) :=
  if l.any (·.1 = k) then l.map fun it => if it.1 = k then (k, v) else it else l ++ [(k, v)]

/-- `pytiles.py` L197-214: `add_block`, for a block of the expected shape. -/
def Sparse.addBlock (L : Sparse R) (i br bc : ℕ) (b : Block R) (assume : Bool) : Except Err (Sparse R) :=
  if ¬ i < L.Nr then .error .index
  else if ¬(br < ntile L.rows ∧ bc < ntile L.cols) then .error .index
  else if assume ∨ ¬ IsZero (size L.rows br) (size L.cols bc) b L.tol then .ok { L with blocks := put L.blocks (i, br, bc) b }
  else .ok L

/-- `pytiles.py` L219-227: `get_block`. -/
def Sparse.getBlock (L : Sparse R) (i br bc : ℕ) : Block R :=
  ((L.blocks.find? (·.1 = (i, br, bc))).map (·.2)).getD fun _ _ => 0

/-- `pytiles.py` L243-250: `to_dense`; L230-241: `dense_slice`. -/
def Sparse.toDense (L : Sparse R) (i p q : ℕ) : R :=
  L.blocks.foldl (fun out it => if it.1.1 = i ∧ inTile L.rows it.1.2.1 p ∧ inTile L.cols it.1.2.2 q
    then it.2 (p - start L.rows it.1.2.1) (q - start L.cols it.1.2.2) else out) 0

/-- `pytiles.py` L274-280: `prune`. -/
def Sparse.prune (L : Sparse R) : Sparse R :=
  { L with blocks := L.blocks.filter fun it => ¬ IsZero (size L.rows it.1.2.1) (size L.cols it.1.2.2) it.2 L.tol }

/-- `pytiles.py` L284-313: `from_dense`, for an array of the right shape; L181-182 is the check of `__post_init__`. -/
def Sparse.fromDense (Nr : ℕ) (a : ℕ → ℕ → ℕ → R) (rows cols : Part) (tol : R) : Except Err (Sparse R) :=
  if total rows ≠ total cols then .error .value
  else .ok ⟨Nr, rows, cols, tol, (List.range Nr).flatMap fun i => (List.range (ntile rows)).flatMap fun br =>
    (List.range (ntile cols)).flatMap fun bc =>
      if ¬ IsZero (size rows br) (size cols bc) (fun x y => a i (start rows br + x) (start cols bc + y)) tol
      then [((i, br, bc), fun x y => a i (start rows br + x) (start cols bc + y))] else []⟩

/-- `pytiles.py` L404-411: `matmul_slice` with `side='right'`, `out='dense'` and a dense `B`, element `(p, m)`. -/
def Sparse.rightDense (L : Sparse R) (i : ℕ) (B : ℕ → ℕ → R) (p m : ℕ) : R :=
  L.blocks.foldl (fun Y it => if it.1.1 ≠ i then Y
    else if inTile L.rows it.1.2.1 p
      then Y + ∑ k ∈ Finset.range (size L.cols it.1.2.2), it.2 (p - start L.rows it.1.2.1) k * B (start L.cols it.1.2.2 + k) m
    else Y) 0

/-- Can `Ablk @ Bblk` of L403 be formed for tile `bc`?  Otherwise `get_block` raises an `IndexError` or `@` a `ValueError`. -/
def fits (L : Sparse R) (B : Tiled R) (bc : ℕ) : Prop := bc < ntile B.rows ∧ size L.cols bc = size B.rows bc

instance (L : Sparse R) (B : Tiled R) (bc : ℕ) : Decidable (fits L B bc) := by unfold fits; infer_instance

/-- `pytiles.py` L384-387, L393-403: the same with a tiled `B`; the exceptions of L400 and L403 are not told apart. -/
def Sparse.rightTiled (L : Sparse R) (i : ℕ) (B : Tiled R) : Except Err (ℕ → ℕ → R) :=
  if total B.rows ≠ total L.rows then .error .value
  else if ∃ it ∈ L.blocks, it.1.1 = i ∧ ¬ fits L B it.1.2.2 then .error .value
  else .ok fun p m => L.blocks.foldl (fun Y it => if it.1.1 ≠ i then Y
    else (List.range (ntile B.cols)).foldl (fun Y c2 => if inTile L.rows it.1.2.1 p ∧ inTile B.cols c2 m
      then Y + ∑ k ∈ Finset.range (size L.cols it.1.2.2),
        it.2 (p - start L.rows it.1.2.1) k * B.getBlock it.1.2.2 c2 k (m - start B.cols c2)
      else Y) Y) 0

/-- `pytiles.py` L485-491: `side='left'`, `out='dense'` and a dense `B`, element `(m, q)`. -/
def Sparse.leftDense (L : Sparse R) (i : ℕ) (B : ℕ → ℕ → R) (m q : ℕ) : R :=
  L.blocks.foldl (fun Y it => if it.1.1 ≠ i then Y
    else if inTile L.cols it.1.2.2 q
      then Y + ∑ k ∈ Finset.range (size L.rows it.1.2.1), B m (start L.rows it.1.2.1 + k) * it.2 k (q - start L.cols it.1.2.2)
    else Y) 0

/-- `pytiles.py` L461-464, L470-484: the same with a tiled `B`. -/
def Sparse.leftTiled (L : Sparse R) (i : ℕ) (B : Tiled R) : Except Err (ℕ → ℕ → R) :=
  if total B.cols ≠ total L.rows then .error .value
  else if total B.cols ≠ total L.rows ∨ B.cols ≠ L.rows then .error .value
  else .ok fun m q => L.blocks.foldl (fun Y it => if it.1.1 ≠ i then Y
    else (List.range (ntile B.rows)).foldl (fun Y r2 => if inTile B.rows r2 m ∧ inTile L.cols it.1.2.2 q
      then Y + ∑ k ∈ Finset.range (size L.rows it.1.2.1),
        B.getBlock r2 it.1.2.1 (m - start B.rows r2) k * it.2 k (q - start L.cols it.1.2.2)
      else Y) Y) 0

end OpenMS.PyTiles
