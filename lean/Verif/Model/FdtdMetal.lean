import Verif.Model.FdtdObjects
import Verif.Model.Fdtd

/-!
# Metals and molecules in the grid

Model of `/repo/openms/lib/fdtd/metalobj.c`.  The tests of `in_mobject` L360-526 are those of `in_object` (`input.c` L443-600,
C162) without the rotated shapes and with the shape `point`.  Entries of an object that are not assigned (memory from `realloc`) are
`0` here.  Numbers are exact.  Not modelled: printing, memory.
-/

namespace OpenMS.FdtdMetal

open OpenMS.FdtdObjects

/-- `struct mobj` of `pFDTD.h`: an object of C162 with `epsilon_b` as its `epsilon`; `point` for the shape of this name. -/
structure MObj (K : Type*) where
  obj : Obj K
  point : Bool
  omega_p : K
  gamma_0 : K

section

variable {K : Type*} [Field K] [LinearOrder K] [FloorRing K]

/-- `metalobj.c` L9-34: `input_molecular`. -/
def inputMolecular (e : Env K) (isPoint : Bool) (x y z : K) : MObj K :=
  if isPoint then
    ⟨plain .other ((x + e.xcenter) * e.lattice_x) ((y + e.ycenter) * e.lattice_y) ((z + e.zcenter) * e.lattice_z) 0 0 0 100,
      true, 0, 0⟩
  else ⟨plain .other 0 0 0 0 0 0 100, false, 0, 0⟩

/-- `metalobj.c` L63: `omega_pn`, and with `gamma_0` L64. -/
def reduced (e : Env K) (ds_x lattice_n w : K) : K := w * lattice_n / (ds_x * e.lattice_x)

/-- `metalobj.c` L83-166: centers and sizes in `input_Drude_medium`. -/
def inputShape (e : Env K) (shape : Shape) (x y z size1 size2 size3 eps : K) : Obj K :=
  let ci := (x + e.xcenter) * e.lattice_x
  let cj := (y + e.ycenter) * e.lattice_y
  let ck := (z + e.zcenter) * e.lattice_z
  match shape with
  | .rod => plain .rod ci cj z (size1 * e.lattice_x) size2 0 eps
  | .rodX => plain .rodX ci cj ck (size1 * e.lattice_x) (size2 * e.lattice_z) 0 eps
  | .rodY => plain .rodY ci cj ck (size1 * e.lattice_x) (size2 * e.lattice_z) 0 eps
  | .donut => plain .donut ci cj z (size1 * e.lattice_x) (size2 * e.lattice_x) size3 eps
  | .sphere => plain .sphere ci cj ck (size1 * e.lattice_x) 0 0 eps
  | .shell => plain .shell ci cj ck (size1 * e.lattice_x) (size2 * e.lattice_x) 0 eps
  | .ellipse => plain .ellipse ci cj z (size1 * e.lattice_x) size2 size3 eps
  | .ellipsoidal => plain .ellipsoidal ci cj ck (size1 * e.lattice_x) (size2 * e.lattice_y) (size3 * e.lattice_z) eps
  | .cone => plain .cone ci cj z (size1 * e.lattice_x) (size2 * e.lattice_x) size3 eps
  | .block => plain .block ci cj z (size1 * e.lattice_x) (size2 * e.lattice_y) size3 eps
  | s => plain s 0 0 0 0 0 0 eps

/-- `metalobj.c` L36-167: `input_Drude_medium`. -/
def inputDrude (e : Env K) (ds_x : K) (shape : Shape) (x y z size1 size2 size3 eps omega_p gamma_0 lattice_n : K) : MObj K :=
  ⟨inputShape e shape x y z size1 size2 size3 eps, false, reduced e ds_x lattice_n omega_p, reduced e ds_x lattice_n gamma_0⟩

/-- `metalobj.c` L355-530: `in_mobject`.  `none`: no value is returned, or the matrix is read outside of its bounds. -/
def inMobject (e : Env K) (o : MObj K) (i j k : K) : Option Bool :=
  if o.point then
    let x := i - o.obj.centeri
    let y := j - o.obj.centerj
    let z := k - o.obj.centerk
    some (decide (x * x + y * y + z * z < 1 / 1000000))
  else
    match o.obj.shape with
    | .Rrod | .Rellipse | .Rellipsoidal | .Rblock => none
    | _ => inObject e o.obj i j k

/-- `metalobj.c` L337-346: `mepsilon`, `momega` and `mgamma` at a node. -/
def makeMetal (e : Env K) (objs : List (MObj K)) (i j k : ℤ) : Option (K × K × K) :=
  objs.foldl (fun s o => s.bind fun s => (inMobject e o i j k).map fun b =>
    if b then (o.obj.epsilon, o.omega_p, o.gamma_0) else s) (some (0, 0, 0))

end

/-! ### Matrices -/

/-- `metalobj.c` L541-554: `col` and `row` of the text of a file; `none`: division by zero.  The same in `transmap.c` L76-89, where
only `row` is used. -/
def countRowCol (text : List Char) : Option (ℕ × ℕ) :=
  let s := text.foldl (fun (s : ℕ × ℕ) ch =>
    let s := if ch = '\t' then (s.1 + 1, s.2) else s
    if ch = '\n' then (s.1 + 1, s.2 + 1) else s) (0, 0)
  if s.2 = 0 then none else some (s.1 / s.2, s.2)

/-- `metalobj.c` L571-576: the places of the matrix in the order of the numbers of the file. -/
def places (col row : ℕ) : List (ℕ × ℕ) := (List.range row).reverse.flatMap fun j => (List.range col).map fun i => (i, j)

end OpenMS.FdtdMetal
