import Mathlib.Tactic

/-!
# Tiled tensors

Model of `/repo/openms/lib/tensor++/include/Tile.hpp`, `TiledTensor.hpp` and of `data` in `python/bindings.cpp`.  An index
is a function of the dimension, `0` from the rank on; sizes are natural numbers.  The endless loop has a number of passes as fuel.
The memory of a tensor is a function of the index (`shuffle` of the library Eigen by its documentation).  Not modelled: `int` and
its bounds, tile sizes of zero (division by zero), the empty `contract` of `TileOps_Eigen.cpp`.
-/

namespace OpenMS.TiledTensor

/-- `std::array<int, Rank>`. -/
abbrev Index := ℕ → ℕ

/-- `TiledTensor.hpp` L18-21: `tile_counts`. -/
def tileCounts (shape tileShape : Index) : Index := fun i => (shape i + tileShape i - 1) / tileShape i

/-- `TiledTensor.hpp` L30-36: the loop over `d`, with `d + 1` as argument; `none`: the loop ends with `d < 0`. -/
def carry (counts : Index) : ℕ → Index → Option Index
  | 0, _ => none
  | d + 1, index =>
    let index := Function.update index d (index d + 1)
    if index d < counts d then some index else carry counts d (Function.update index d 0)

/-- `TiledTensor.hpp` L26-39: `while (true)`, at most `fuel` passes; `none`: not finished. -/
def loop (counts : Index) (rank : ℕ) : ℕ → Index → List Index → Option (List Index)
  | 0, _, _ => none
  | fuel + 1, index, indices =>
    let indices := indices ++ [index]
    match carry counts rank index with
    | some index => loop counts rank fuel index indices
    | none => some indices

/-- `TiledTensor.hpp` L14-42: `generate_all_tile_indices`. -/
def generate (rank fuel : ℕ) (shape tileShape : Index) : Option (List Index) :=
  loop (tileCounts shape tileShape) rank fuel (fun _ => 0) []

/-- `Tile.hpp` L10-62: a tile. -/
structure Tile (T : Type*) where
  shape : Index
  data : Index → T

/-- `Tile.hpp` L52-59: `make_tensor`. -/
def Tile.make {T : Type*} [Zero T] (shape : Index) : Tile T := ⟨shape, fun _ => 0⟩

/-- `Tile.hpp` L36-43: `transpose`. -/
def Tile.transpose {T : Type*} (a : Tile T) (perm : Equiv.Perm ℕ) : Tile T :=
  ⟨fun i => a.shape (perm i), fun x => a.data fun j => x (perm.symm j)⟩

/-- `Tile.hpp` L27-34: `+` and `*`; `none`: the assertion. -/
def Tile.add {T : Type*} [Add T] (rank : ℕ) (a b : Tile T) : Option (Tile T) :=
  if ∀ i < rank, a.shape i = b.shape i then some ⟨a.shape, fun x => a.data x + b.data x⟩ else none

/-- `TiledTensor.hpp` L113-117: `actual_tile_shape`. -/
def actualShape (rank : ℕ) (shape tileShape index : Index) : Index :=
  fun d => if d < rank then min (tileShape d) (shape d - index d * tileShape d) else tileShape d

/-- The functions given to the constructor; `none` is an empty `std::function`. -/
structure Options (T : Type*) where
  initializer : Option (Index → Tile T → Tile T)
  tile_filter : Option (Index → Bool)

open Classical in
/-- `TiledTensor.hpp` L106-125: one pass of the loop of `initialize_tile_indices`.  `none`: `std::bad_function_call`.  The pointer
`initializer` is that of the argument of the constructor (L71-77), never zero. -/
noncomputable def place {T : Type*} [Zero T] (rank : ℕ) (shape tileShape : Index) (o : Options T) (tiles : Option (Index → Option (Tile T)))
    (index : Index) : Option (Index → Option (Tile T)) :=
  tiles.bind fun tiles =>
    if o.tile_filter.any (fun f => f index) then some tiles
    else
      o.initializer.map fun f =>
        fun i => if i = index then some (f index (Tile.make (actualShape rank shape tileShape index))) else tiles i

/-- `TiledTensor.hpp` L71-77, L101-126: the constructor, with the tiles of the map. -/
noncomputable def construct {T : Type*} [Zero T] (rank fuel : ℕ) (shape tileShape : Index) (o : Options T) : Option (Index → Option (Tile T)) :=
  (generate rank fuel shape tileShape).bind fun l => l.foldl (place rank shape tileShape o) (some fun _ => none)

/-- `bindings.cpp` L24-27: `strides`, for the dimension `rank - 1 - k`. -/
def strideBack (rank size : ℕ) (shape : Index) : ℕ → ℕ
  | 0 => size
  | k + 1 => strideBack rank size shape k * shape (rank - 1 - k)

/-- `bindings.cpp` L24-27: `strides`. -/
def stride (rank size : ℕ) (shape : Index) (i : ℕ) : ℕ := strideBack rank size shape (rank - 1 - i)

end OpenMS.TiledTensor
