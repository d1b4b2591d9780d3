import Mathlib.Algebra.Field.Basic
import Mathlib.Algebra.Order.Field.Basic
import Mathlib.Order.Interval.Finset.Basic
import Mathlib.Data.Int.Interval
import Mathlib.Tactic

/-!
# Time step of the Maxwell solver

Model of `propagate` and the updates of single cells in
`/repo/openms/lib/fdtd/timeupdate.c` (real fields).

The nine electric numbers of a cell (`Ex`, `Ey`, `Ez`, the currents `J` and the fields `D`) are one
record, the six magnetic numbers (`H` and `B`) another one; an array is a function of the three
indices.  The fields are in an ordered field, not in `float`.  A loop over the cells is a fold that
replaces one cell after the other.  Not modelled here: the imaginary fields, the parities, the
convolutional layer, printing.
-/

namespace OpenMS.Fdtd

/-- Indices `[i][j][k]`. -/
abbrev Ix := ℤ × ℤ × ℤ

/-- Numbers of a cell changed by the electric updates. -/
@[ext] structure EF (K : Type*) where
  x : K
  y : K
  z : K
  Jx : K
  Jy : K
  Jz : K
  Dx : K
  Dy : K
  Dz : K

/-- Numbers of a cell changed by the magnetic updates. -/
@[ext] structure HF (K : Type*) where
  x : K
  y : K
  z : K
  Bx : K
  By : K
  Bz : K

/-- Global variables read by the updates: `parameter.c` L5-30 and `memory.c` L8-42. -/
structure Par (K : Type*) where
  (dt eo uo ups ds_x ds_y : K)
  ds_nz : ℤ → K
  (pisize pjsize pksize isize jsize : ℤ)
  (epsilonx epsilony epsilonz : Ix → K)
  position : Ix → Bool
  (mepsilon momega mgamma : Ix → K)
  (dPx dPy dPz dPx_old dPy_old dPz_old : Ix → K)
  (aax aay aaz bbx bby bbz ccx ccy ccz : ℤ → K)
  (ddx ddy ddz : Ix → K)
  (eex eey eez ffx ffy ffz ggx ggy ggz hhx hhy hhz : ℤ → K)
  (iix iiy iiz jjx jjy jjz kkx kky kkz llx lly llz : ℤ → K)
  (use_periodic_x use_periodic_y : Bool)

variable {K : Type*} [Field K]

/-- The differences of the magnetic field in the electric updates, for example
`timeupdate.c` L512-515. -/
def curlHx (P : Par K) (h : Ix → HF K) : Ix → K := fun (i, j, k) =>
  ((h (i, j, k)).z - (h (i, j - 1, k)).z) / P.ds_y -
    ((h (i, j, k)).y - (h (i, j, k - 1)).y) * (2 / (P.ds_nz (k - 1) + P.ds_nz k))

/-- `timeupdate.c` L516-519. -/
def curlHy (P : Par K) (h : Ix → HF K) : Ix → K := fun (i, j, k) =>
  ((h (i, j, k)).x - (h (i, j, k - 1)).x) * (2 / (P.ds_nz (k - 1) + P.ds_nz k)) -
    ((h (i, j, k)).z - (h (i - 1, j, k)).z) / P.ds_x

/-- `timeupdate.c` L520-522. -/
def curlHz (P : Par K) (h : Ix → HF K) : Ix → K := fun (i, j, k) =>
  ((h (i, j, k)).y - (h (i - 1, j, k)).y) / P.ds_x -
    ((h (i, j, k)).x - (h (i, j - 1, k)).x) / P.ds_y

/-- `timeupdate.c` L511-523: `normal_E_field_update`. -/
def normalE (P : Par K) (h : Ix → HF K) (c : Ix) (v : EF K) : EF K :=
  { v with
    x := v.x + P.dt / P.eo / P.epsilonx c * curlHx P h c
    y := v.y + P.dt / P.eo / P.epsilony c * curlHy P h c
    z := v.z + P.dt / P.eo / P.epsilonz c * curlHz P h c }

/-- `timeupdate.c` L525-544: `molecular_E_field_update`. -/
def molecularE (P : Par K) (h : Ix → HF K) (c : Ix) (v : EF K) : EF K :=
  let Px := (P.dPx c + P.dPx_old c) / 2
  let Py := (P.dPy c + P.dPy_old c) / 2
  let Pz := (P.dPz c + P.dPz_old c) / 2
  { v with
    x := v.x + P.dt / P.eo / P.epsilonx c * (curlHx P h c - Px)
    y := v.y + P.dt / P.eo / P.epsilony c * (curlHy P h c - Py)
    z := v.z + P.dt / P.eo / P.epsilonz c * (curlHz P h c - Pz) }

/-- `timeupdate.c` L546-584: `metal_E_field_update`. -/
def metalE (P : Par K) (h : Ix → HF K) (c : Ix) (v : EF K) : EF K :=
  let km := (2 - P.mgamma c * P.dt) / (2 + P.mgamma c * P.dt)
  let bm := P.momega c * P.momega c * P.eo * P.dt / (2 + P.mgamma c * P.dt)
  let a := (2 * P.eo * P.mepsilon c - P.dt * bm) / (2 * P.eo * P.mepsilon c + P.dt * bm)
  let b := 2 * P.dt / (2 * P.eo * P.mepsilon c + P.dt * bm)
  let x := a * v.x + b * (curlHx P h c - 1 / 2 * (1 + km) * v.Jx)
  let y := a * v.y + b * (curlHy P h c - 1 / 2 * (1 + km) * v.Jy)
  let z := a * v.z + b * (curlHz P h c - 1 / 2 * (1 + km) * v.Jz)
  { v with
    x := x, y := y, z := z
    Jx := km * v.Jx + bm * (x + v.x)
    Jy := km * v.Jy + bm * (y + v.y)
    Jz := km * v.Jz + bm * (z + v.z) }

/-- `timeupdate.c` L626-649: `pml_E_field_update`. -/
def pmlE (P : Par K) (h : Ix → HF K) (c : Ix) (v : EF K) : EF K :=
  let (i, j, k) := c
  let Dx := P.aay j * v.Dx + P.bby j * curlHx P h c
  let Dy := P.aaz k * v.Dy + P.bbz k * curlHy P h c
  let Dz := P.aax i * v.Dz + P.bbx i * curlHz P h c
  { v with
    Dx := Dx, Dy := Dy, Dz := Dz
    x := P.ccz k * v.x + P.ddx c * (P.eex i * Dx - P.ffx i * v.Dx)
    y := P.ccx i * v.y + P.ddy c * (P.eey j * Dy - P.ffy j * v.Dy)
    z := P.ccy j * v.z + P.ddz c * (P.eez k * Dz - P.ffz k * v.Dz) }

/-- `timeupdate.c` L651-655: `pcm_E_field_update`. -/
def pcmE (v : EF K) : EF K := { v with x := 0, y := 0, z := 0 }

/-- `timeupdate.c` L238-258: the update chosen for a cell. -/
def stepE [DecidableEq K] (P : Par K) (h : Ix → HF K) (c : Ix) (v : EF K) : EF K :=
  let pos := P.position c
  let me := P.mepsilon c
  if pos = true ∧ me = 0 then normalE P h c v
  else if pos = true ∧ me = 100 then molecularE P h c v
  else if pos = true ∧ (me ≠ 0 ∧ me ≠ 1000) then metalE P h c v
  else if pos = false ∧ (me ≠ 0 ∧ me ≠ 1000) then metalE P h c v
  else if pos = true ∧ me = 1000 then pcmE v
  else if pos = false ∧ me = 0 then pmlE P h c v
  else v

/-- The differences of the electric field in the magnetic updates: `timeupdate.c` L658-660. -/
def curlEx (P : Par K) (e : Ix → EF K) : Ix → K := fun (i, j, k) =>
  ((e (i, j + 1, k)).z - (e (i, j, k)).z) / P.ds_y - ((e (i, j, k + 1)).y - (e (i, j, k)).y) / P.ds_nz k

/-- `timeupdate.c` L661-663. -/
def curlEy (P : Par K) (e : Ix → EF K) : Ix → K := fun (i, j, k) =>
  ((e (i, j, k + 1)).x - (e (i, j, k)).x) / P.ds_nz k - ((e (i + 1, j, k)).z - (e (i, j, k)).z) / P.ds_x

/-- `timeupdate.c` L664-665. -/
def curlEz (P : Par K) (e : Ix → EF K) : Ix → K := fun (i, j, k) =>
  ((e (i + 1, j, k)).y - (e (i, j, k)).y) / P.ds_x - ((e (i, j + 1, k)).x - (e (i, j, k)).x) / P.ds_y

/-- `timeupdate.c` L120 and L226: the static variable `tus`. -/
def tus (P : Par K) : K := P.dt / P.uo / P.ups

/-- `timeupdate.c` L657-666: `normal_H_field_update`. -/
def normalH (P : Par K) (e : Ix → EF K) (c : Ix) (v : HF K) : HF K :=
  { v with
    x := v.x - tus P * curlEx P e c
    y := v.y - tus P * curlEy P e c
    z := v.z - tus P * curlEz P e c }

/-- `timeupdate.c` L699-720: `pml_H_field_update`. -/
def pmlH (P : Par K) (e : Ix → EF K) (c : Ix) (v : HF K) : HF K :=
  let (i, j, k) := c
  let Bx := P.ggy j * v.Bx - P.hhy j * curlEx P e c
  let By := P.ggz k * v.By - P.hhz k * curlEy P e c
  let Bz := P.ggx i * v.Bz - P.hhx i * curlEz P e c
  { v with
    Bx := Bx, By := By, Bz := Bz
    x := P.iiz k * v.x + P.jjz k * (P.kkx i * Bx - P.llx i * v.Bx)
    y := P.iix i * v.y + P.jjx i * (P.kky j * By - P.lly j * v.By)
    z := P.iiy j * v.z + P.jjy j * (P.kkz k * Bz - P.llz k * v.Bz) }

/-- `timeupdate.c` L722-726: `pcm_H_field_update`. -/
def pcmH (v : HF K) : HF K := { v with x := 0, y := 0, z := 0 }

/-- `timeupdate.c` L310-326: the update chosen for a cell. -/
def stepH [DecidableEq K] (P : Par K) (e : Ix → EF K) (c : Ix) (v : HF K) : HF K :=
  let pos := P.position c
  let me := P.mepsilon c
  if pos = true ∧ me ≠ 1000 then normalH P e c v
  else if pos = false ∧ (me ≠ 0 ∧ me ≠ 1000) then normalH P e c v
  else if pos = true ∧ me = 1000 then pcmH v
  else if pos = false ∧ me = 0 then pmlH P e c v
  else v

/-- Values `a, …, b - 1` of a loop variable. -/
def irange (a b : ℤ) : List ℤ := (List.range (b - a).toNat).map fun n : ℕ => a + (n : ℤ)

/-- Cells of the loops `timeupdate.c` L235-237 and L307-309, in their order. -/
def cells (P : Par K) : List Ix :=
  (irange 1 P.pisize).flatMap fun i => (irange 1 P.pjsize).flatMap fun j =>
    (irange 1 P.pksize).map fun k => (i, j, k)

/-- A loop replacing one cell after the other. -/
def sweep {V : Type*} (f : Ix → V → V) (l : List Ix) (a : Ix → V) : Ix → V :=
  l.foldl (fun a c => Function.update a c (f c (a c))) a

/-- A loop of assignments: destination, source, and which numbers of the source are copied. -/
def copies {V : Type*} (l : List (Ix × Ix × (V → V → V))) (a : Ix → V) : Ix → V :=
  l.foldl (fun a w => Function.update a w.1 (w.2.2 (a w.1) (a w.2.1))) a

/-- Pairs of loop variables of two nested loops. -/
def pairs (p q : ℤ) : List (ℤ × ℤ) := (irange 1 p).flatMap fun a => (irange 1 q).map fun b => (a, b)

/-- `timeupdate.c` L1296-1306: `E_field_Gamma_boundary_update_x`; the two assignments to the same
cell are one. -/
def gammaEx (P : Par K) : (Ix → EF K) → Ix → EF K :=
  copies ((pairs P.pjsize P.pksize).flatMap fun jk =>
    [((0, jk), (P.isize, jk), fun d s => { d with x := s.x }),
     ((P.isize + 1, jk), (1, jk), fun d s => { d with y := s.y, z := s.z })])

/-- `timeupdate.c` L1319-1329: `E_field_Gamma_boundary_update_y`. -/
def gammaEy (P : Par K) : (Ix → EF K) → Ix → EF K :=
  copies ((pairs P.pisize P.pksize).flatMap fun ik =>
    [((ik.1, 0, ik.2), (ik.1, P.jsize, ik.2), fun d s => { d with y := s.y }),
     ((ik.1, P.jsize + 1, ik.2), (ik.1, 1, ik.2), fun d s => { d with x := s.x, z := s.z })])

/-- `timeupdate.c` L1353-1363: `H_field_Gamma_boundary_update_x`. -/
def gammaHx (P : Par K) : (Ix → HF K) → Ix → HF K :=
  copies ((pairs P.pjsize P.pksize).flatMap fun jk =>
    [((P.isize + 1, jk), (1, jk), fun d s => { d with x := s.x }),
     ((0, jk), (P.isize, jk), fun d s => { d with y := s.y, z := s.z })])

/-- `timeupdate.c` L1376-1386: `H_field_Gamma_boundary_update_y`. -/
def gammaHy (P : Par K) : (Ix → HF K) → Ix → HF K :=
  copies ((pairs P.pisize P.pksize).flatMap fun ik =>
    [((ik.1, P.jsize + 1, ik.2), (ik.1, 1, ik.2), fun d s => { d with y := s.y }),
     ((ik.1, 0, ik.2), (ik.1, P.jsize, ik.2), fun d s => { d with x := s.x, z := s.z })])

/-- Arrays of the electric and of the magnetic numbers. -/
abbrev St (K : Type*) := (Ix → EF K) × (Ix → HF K)

/-- `timeupdate.c` L231-368: `propagate` without parities and at the Γ point. -/
def propagate [DecidableEq K] (P : Par K) (s : St K) : St K :=
  let e := sweep (stepE P s.2) (cells P) s.1
  let e := if P.use_periodic_x then gammaEx P e else e
  let e := if P.use_periodic_y then gammaEy P e else e
  let h := sweep (stepH P e) (cells P) s.2
  let h := if P.use_periodic_x then gammaHx P h else h
  let h := if P.use_periodic_y then gammaHy P h else h
  (e, h)

end OpenMS.Fdtd
