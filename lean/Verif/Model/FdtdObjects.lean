import Mathlib.Tactic
import Mathlib.Algebra.Order.Round

/-!
# Objects of the Maxwell solver

Model of `in_object`, `average_epsilon`, `make_epsilon`, the spheres and ellipsoids of `input_object` and the random
spheres of `/repo/openms/lib/fdtd/input.c`.  Numbers are exact, from any ordered field with integer parts.  The cosines and sines of
the Euler angles are given numbers.  Not modelled: reading of the matrix from a file; the stream of
`rand` is an argument.
-/

namespace OpenMS.FdtdObjects

/-- The names of the shapes. -/
inductive Shape
  | rod | rodX | rodY | donut | sphere | shell | ellipse | ellipsoidal | cone | block | contour
  | Rrod | Rellipse | Rellipsoidal | Rblock | other
  deriving DecidableEq

/-- `struct obj` of `pFDTD.h` with the entries of `cos_a`, …, `sin_c` (`input.c` L22-23). -/
structure Obj (K : Type*) where
  shape : Shape
  centeri : K
  centerj : K
  centerk : K
  size1 : K
  size2 : K
  size3 : K
  epsilon : K
  col : ℤ
  row : ℤ
  matrix : ℤ → ℤ → K
  ca : K
  cb : K
  cc : K
  sa : K
  sb : K
  sc : K

/-- The grid: `non_uniform_z_to_i` and `non_uniform_i_to_z` (C154), centers and resolutions. -/
structure Env (K : Type*) where
  zToI : K → ℤ
  iToZ : ℤ → K
  xcenter : K
  ycenter : K
  zcenter : K
  lattice_x : ℤ
  lattice_y : ℤ
  lattice_z : ℤ

section

variable {K : Type*} [Field K] [LinearOrder K] [FloorRing K]

/-- Conversion of a number to `int`. -/
def toInt (x : K) : ℤ := if 0 ≤ x then ⌊x⌋ else ⌈x⌉

/-- `input.c` L612-616: `X`. -/
def rotX (o : Obj K) (i j k : K) : K :=
  (o.ca * o.cc - o.sa * o.cb * o.sc) * (i - o.centeri) + (o.sa * o.cc + o.ca * o.cb * o.sc) * (j - o.centerj) +
    o.sb * o.sc * (k - o.centerk) + o.centeri

/-- `input.c` L617-621: `Y`. -/
def rotY (o : Obj K) (i j k : K) : K :=
  -(o.ca * o.sc + o.sa * o.cb * o.cc) * (i - o.centeri) - (o.sa * o.sc - o.ca * o.cb * o.cc) * (j - o.centerj) +
    o.sb * o.cc * (k - o.centerk) + o.centerj

/-- `input.c` L622-624: `Z`. -/
def rotZ (o : Obj K) (i j k : K) : K :=
  o.sa * o.sb * (i - o.centeri) - o.ca * o.sb * (j - o.centerj) + o.cb * (k - o.centerk) + o.centerk

/-- `input.c` L553-556: `temp` of the cone, an `int`. -/
def coneRadius (e : Env K) (o : Obj K) (k : K) : ℤ :=
  toInt ((o.size1 - o.size2) * (e.iToZ (toInt k) - o.centerk) / o.size3 + 1 / 2 * (o.size1 + o.size2))

/-- `input.c` L443-675: `in_object`.  `none`: no value is returned, or the matrix is read outside of its bounds. -/
def inObject (e : Env K) (o : Obj K) (i j k : K) : Option Bool :=
  let x := i - o.centeri
  let y := j - o.centerj
  let z := k - o.centerk
  let between (h : K) : Prop := (e.zToI (o.centerk - 1 / 2 * h) : K) ≤ k ∧ k ≤ (e.zToI (o.centerk + 1 / 2 * h) : K)
  match o.shape with
  | .rod => some (decide (x * x + y * y ≤ o.size1 * o.size1 ∧ between o.size2))
  | .rodX => some (decide (y * y + z * z ≤ o.size1 * o.size1 ∧
      o.centeri - o.size2 / 2 ≤ i ∧ i ≤ o.centeri + o.size2 / 2))
  | .rodY => some (decide (z * z + x * x ≤ o.size1 * o.size1 ∧
      o.centerj - o.size2 / 2 ≤ j ∧ j ≤ o.centerj + o.size2 / 2))
  | .donut => some (decide (o.size1 * o.size1 ≤ x * x + y * y ∧ x * x + y * y ≤ o.size2 * o.size2 ∧ between o.size3))
  | .sphere => some (decide (x * x + y * y + z * z ≤ o.size1 * o.size1))
  | .shell => some (decide (o.size1 * o.size1 ≤ x * x + y * y + z * z ∧ x * x + y * y + z * z ≤ o.size2 * o.size2))
  | .ellipse => some (decide (x * x + y * y / (o.size3 * o.size3) ≤ o.size1 * o.size1 ∧ between o.size2))
  | .ellipsoidal => some (decide (x * x / (o.size1 * o.size1) + y * y / (o.size2 * o.size2) + z * z / (o.size3 * o.size3) ≤ 1))
  | .cone => some (decide (x * x + y * y ≤ (coneRadius e o k * coneRadius e o k : ℤ) ∧ between o.size3))
  | .block => some (decide (o.centeri - o.size1 / 2 ≤ i ∧ i ≤ o.centeri + o.size1 / 2 ∧
      o.centerj - o.size2 / 2 ≤ j ∧ j ≤ o.centerj + o.size2 / 2 ∧ between o.size3))
  | .contour =>
    let u := (i - e.xcenter * e.lattice_x) / o.size3
    let v := (j - e.ycenter * e.lattice_y) / o.size3
    if -o.centeri ≤ u ∧ u ≤ o.col - o.centeri ∧ -o.centerj ≤ v ∧ v ≤ o.row - o.centerj ∧ between o.size2 then
      let I := ⌊o.centeri + u⌋
      let J := ⌊o.centerj + v⌋
      if 0 ≤ I ∧ I < o.col ∧ 0 ≤ J ∧ J < o.row then
        (if o.matrix I J ≤ o.size1 then some true else none)
      else none
    else some false
  | .Rrod =>
    let x := rotX o i j k - o.centeri
    let y := rotY o i j k - o.centerj
    some (decide (x * x + y * y ≤ o.size1 * o.size1 ∧
      o.centerk - o.size2 / 2 ≤ rotZ o i j k ∧ rotZ o i j k ≤ o.centerk + o.size2 / 2))
  | .Rellipse =>
    let x := rotX o i j k - o.centeri
    let y := rotY o i j k - o.centerj
    some (decide (x * x + y * y / (o.size3 * o.size3) ≤ o.size1 * o.size1 ∧
      o.centerk - o.size2 / 2 ≤ rotZ o i j k ∧ rotZ o i j k ≤ o.centerk + o.size2 / 2))
  | .Rellipsoidal =>
    let x := rotX o i j k - o.centeri
    let y := rotY o i j k - o.centerj
    let z := rotZ o i j k - o.centerk
    some (decide (x * x / (o.size1 * o.size1) + y * y / (o.size2 * o.size2) + z * z / (o.size3 * o.size3) ≤ 1))
  | .Rblock => some (decide (o.centeri - o.size1 / 2 ≤ rotX o i j k ∧ rotX o i j k ≤ o.centeri + o.size1 / 2 ∧
      o.centerj - o.size2 / 2 ≤ rotY o i j k ∧ rotY o i j k ≤ o.centerj + o.size2 / 2 ∧
      o.centerk - o.size3 / 2 ≤ rotZ o i j k ∧ rotZ o i j k ≤ o.centerk + o.size3 / 2))
  | .other => none

/-- An object without matrix and rotation: `input.c` L55-64. -/
def plain (shape : Shape) (ci cj ck s1 s2 s3 epsilon : K) : Obj K :=
  ⟨shape, ci, cj, ck, s1, s2, s3, epsilon, 0, 0, fun _ _ => 0, 1, 1, 1, 0, 0, 0⟩

/-- `input.c` L111-117: `input_object` for a sphere.  `size2` and `size3` are not assigned; they are `0` here. -/
def inputSphere (e : Env K) (x y z size1 epsilon : K) : Obj K :=
  plain .sphere ((x + e.xcenter) * e.lattice_x) ((y + e.ycenter) * e.lattice_y) ((z + e.zcenter) * e.lattice_z)
    (size1 * e.lattice_x) 0 0 epsilon

/-- `input.c` L135-143: `input_object` for an ellipsoid. -/
def inputEllipsoidal (e : Env K) (x y z size1 size2 size3 epsilon : K) : Obj K :=
  plain .ellipsoidal ((x + e.xcenter) * e.lattice_x) ((y + e.ycenter) * e.lattice_y) ((z + e.zcenter) * e.lattice_z)
    (size1 * e.lattice_x) (size2 * e.lattice_y) (size3 * e.lattice_z) epsilon

/-! ### Averages -/

/-- A body: the points for which `in_object` returns `1`, and its `epsilon`. -/
structure Body (K : Type*) where
  inside : K → K → K → Bool
  epsilon : K

/-- The body of an object. -/
def Obj.body (e : Env K) (o : Obj K) : Body K := ⟨fun i j k => inObject e o i j k == some true, o.epsilon⟩

/-- `input.c` L402-409: the corners of the cell. -/
def corners (i j k : K) : List (K × K × K) :=
  [(i - 1 / 2, j - 1 / 2, k - 1 / 2), (i - 1 / 2, j - 1 / 2, k + 1 / 2), (i - 1 / 2, j + 1 / 2, k - 1 / 2),
    (i - 1 / 2, j + 1 / 2, k + 1 / 2), (i + 1 / 2, j - 1 / 2, k - 1 / 2), (i + 1 / 2, j - 1 / 2, k + 1 / 2),
    (i + 1 / 2, j + 1 / 2, k - 1 / 2), (i + 1 / 2, j + 1 / 2, k + 1 / 2)]

/-- `input.c` L427: `for (ii = i - 0.45; ii < i + 0.5; ii = ii + 0.1)`. -/
def steps (i : K) : List K := (List.range 10).map fun a : ℕ => i - 9 / 20 + a / 10

/-- `input.c` L427-429: the points of the cell, in the order of `m`. -/
def points (i j k : K) : List (K × K × K) :=
  (steps i).flatMap fun ii => (steps j).flatMap fun jj => (steps k).map fun kk => (ii, jj, kk)

/-- The variables `epsilon`, `partial_epsilon` (beside the points of `m`) and `partial`. -/
structure Mean (K : Type*) where
  epsilon : K
  cells : List ((K × K × K) × K)
  part : Bool

/-- `input.c` L400-434: one pass of the loop over the objects. -/
def meanStep (i j k : K) (s : Mean K) (b : Body K) : Mean K :=
  if (corners i j k).all fun p => !b.inside p.1 p.2.1 p.2.2 then s
  else if (corners i j k).all fun p => b.inside p.1 p.2.1 p.2.2 then
    ⟨b.epsilon, s.cells.map fun c => (c.1, b.epsilon), false⟩
  else ⟨s.epsilon, s.cells.map fun c => (c.1, if b.inside c.1.1 c.1.2.1 c.1.2.2 then b.epsilon else c.2), true⟩

/-- `input.c` L392-441: `average_epsilon`. -/
def averageEpsilon (back : K) (bodies : List (Body K)) (i j k : K) : K :=
  let s := bodies.foldl (meanStep i j k) ⟨back, (points i j k).map fun p => (p, back), false⟩
  if s.part then (s.cells.map fun c => c.2 / 1000).sum else s.epsilon

/-- `input.c` L381-383: `epsilonx`, `epsilony`, `epsilonz` in `make_epsilon`. -/
def makeEpsilon (back : K) (bodies : List (Body K)) (i j k : ℤ) : K × K × K :=
  (averageEpsilon back bodies (i + 1 / 2) j k, averageEpsilon back bodies i (j + 1 / 2) k,
    averageEpsilon back bodies i j (k + 1 / 2))

/-! ### Random objects -/

/-- `input.c` L312-369: `generate_random_3D`; the stream holds the values of `rand() / (RAND_MAX + 1)`.  The distance
is compared through its square.  `none`: the stream ends before a place is found. -/
def generate (lo hi : K × K × K) (radius : K) (old : List (K × K × K)) :
    List (K × K × K) → Option ((K × K × K) × List (K × K × K))
  | [] => none
  | u :: us =>
    let p := (u.1 * (hi.1 - lo.1) + lo.1, u.2.1 * (hi.2.1 - lo.2.1) + lo.2.1, u.2.2 * (hi.2.2 - lo.2.2) + lo.2.2)
    if old.all fun q => !decide ((q.1 - p.1) * (q.1 - p.1) + (q.2.1 - p.2.1) * (q.2.1 - p.2.1) +
        (q.2.2 - p.2.2) * (q.2.2 - p.2.2) < 2 * radius * (2 * radius)) then some (p, us)
    else generate lo hi radius old us

/-- `input.c` L252-261: the places of `n` random spheres. -/
def randomObject (lo hi : K × K × K) (radius : K) : ℕ → List (K × K × K) → Option (List (K × K × K) × List (K × K × K))
  | 0, us => some ([], us)
  | n + 1, us => (randomObject lo hi radius n us).bind fun s =>
      (generate lo hi radius s.1 s.2).map fun r => (s.1 ++ [r.1], r.2)

end

end OpenMS.FdtdObjects
