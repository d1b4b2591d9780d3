import Mathlib.Analysis.SpecialFunctions.Pow.Real
import Mathlib.Analysis.Real.Pi.Bounds
import Verif.Model.Fdtd

/-!
# Absorbing layers of the Maxwell solver

Model of `coefficient` in `/repo/openms/lib/fdtd/timeupdate.c`, of the conductivities in
`/repo/openms/lib/fdtd/sigma.c` and of the map of the layers in `/repo/openms/lib/fdtd/memory.c`.
-/

namespace OpenMS.Fdtd

/-- `sigma.c` L3-20: `sigmax`; the functions `sigmay` (L22-39) and `sigmaz` (L41-53) are the same
for the other directions, the last one without the periodic case.  `sig * (order + 1) / (150 π √ε)`
is the conductivity at the end of the layer. -/
noncomputable def sigma (periodic : Bool) (back_epsilon sigl sigr orderl orderr : ℝ) (pmll pmlr size : ℤ) (a : ℝ) : ℝ :=
  if periodic = false then
    let maxl := sigl * (orderl + 1) / (150 * Real.pi * Real.sqrt back_epsilon)
    let maxr := sigr * (orderr + 1) / (150 * Real.pi * Real.sqrt back_epsilon)
    if a < pmll + 1 / 2 then maxl * (-(a - (pmll + 1 / 2)) / pmll) ^ orderl
    else if a < size - pmlr - 1 then 0
    else maxr * ((a - (size - pmlr - 1)) / pmlr) ^ orderr
  else 0

/-- `memory.c` L147-151: cells outside the layers. -/
def inside (pmlil pmlir pmljl pmljr pmlkl pmlkr isize jsize ksize : ℤ) (c : Ix) : Bool :=
  decide (pmlil + 1 ≤ c.1 ∧ c.1 ≤ isize - pmlir - 2 ∧ pmljl + 1 ≤ c.2.1 ∧ c.2.1 ≤ jsize - pmljr - 2 ∧
    pmlkl + 1 ≤ c.2.2 ∧ c.2.2 ≤ ksize - pmlkr - 2)

variable {K : Type*} [Field K]

/-- Whether the loops of `coefficient` meet a cell of a layer with first index `i`. -/
def hitX (P : Par K) (mi mj mk : ℤ) (i : ℤ) : Bool :=
  decide (0 ≤ i ∧ i < mi) && (irange 0 mj).any fun j => (irange 0 mk).any fun k => !P.position (i, j, k)

/-- The same for the second index. -/
def hitY (P : Par K) (mi mj mk : ℤ) (j : ℤ) : Bool :=
  decide (0 ≤ j ∧ j < mj) && (irange 0 mi).any fun i => (irange 0 mk).any fun k => !P.position (i, j, k)

/-- The same for the third index. -/
def hitZ (P : Par K) (mi mj mk : ℤ) (k : ℤ) : Bool :=
  decide (0 ≤ k ∧ k < mk) && (irange 0 mi).any fun i => (irange 0 mj).any fun j => !P.position (i, j, k)

/-- `timeupdate.c` L49-123: `coefficient`.  The value written into an entry does not depend on the
other two loop variables, so the loops of assignments are: the value, if the loops meet a cell of a
layer with that index, and the old entry otherwise. -/
def coefficient (kx ky kz : K) (sx sy sz : K → K) (mi mj mk : ℤ) (P : Par K) : Par K :=
  let X := hitX P mi mj mk
  let Y := hitY P mi mj mk
  let Z := hitZ P mi mj mk
  let C : Ix → Bool := fun c => decide ((0 ≤ c.1 ∧ c.1 < mi) ∧ (0 ≤ c.2.1 ∧ c.2.1 < mj) ∧ 0 ≤ c.2.2 ∧ c.2.2 < mk) &&
    !P.position c
  { P with
    aax := fun i => if X i then (2 * P.eo * kx - P.dt * sx i) / (2 * P.eo * kx + P.dt * sx i) else P.aax i
    aay := fun j => if Y j then (2 * P.eo * ky - P.dt * sy j) / (2 * P.eo * ky + P.dt * sy j) else P.aay j
    aaz := fun k => if Z k then (2 * P.eo * kz - P.dt * sz k) / (2 * P.eo * kz + P.dt * sz k) else P.aaz k
    bbx := fun i => if X i then (2 * P.eo * P.dt) / (2 * P.eo * kx + P.dt * sx i) else P.bbx i
    bby := fun j => if Y j then (2 * P.eo * P.dt) / (2 * P.eo * ky + P.dt * sy j) else P.bby j
    bbz := fun k => if Z k then (2 * P.eo * P.dt) / (2 * P.eo * kz + P.dt * sz k) else P.bbz k
    ccx := fun i => if X i then (2 * P.eo * kx - P.dt * sx i) / (2 * P.eo * kx + P.dt * sx i) else P.ccx i
    ccy := fun j => if Y j then (2 * P.eo * ky - P.dt * sy j) / (2 * P.eo * ky + P.dt * sy j) else P.ccy j
    ccz := fun k => if Z k then (2 * P.eo * kz - P.dt * sz k) / (2 * P.eo * kz + P.dt * sz k) else P.ccz k
    ddx := fun c => if C c then 2 / (2 * P.eo * kz + P.dt * sz c.2.2) / P.epsilonx c else P.ddx c
    ddy := fun c => if C c then 2 / (2 * P.eo * kx + P.dt * sx c.1) / P.epsilony c else P.ddy c
    ddz := fun c => if C c then 2 / (2 * P.eo * ky + P.dt * sy c.2.1) / P.epsilonz c else P.ddz c
    eex := fun i => if X i then kx + P.dt * sx (i + 1 / 2) / 2 / P.eo else P.eex i
    eey := fun j => if Y j then ky + P.dt * sy (j + 1 / 2) / 2 / P.eo else P.eey j
    eez := fun k => if Z k then kz + P.dt * sz (k + 1 / 2) / 2 / P.eo else P.eez k
    ffx := fun i => if X i then kx - P.dt * sx (i + 1 / 2) / 2 / P.eo else P.ffx i
    ffy := fun j => if Y j then ky - P.dt * sy (j + 1 / 2) / 2 / P.eo else P.ffy j
    ffz := fun k => if Z k then kz - P.dt * sz (k + 1 / 2) / 2 / P.eo else P.ffz k
    ggx := fun i => if X i then (2 * P.eo * kx - P.dt * sx (i + 1 / 2)) / (2 * P.eo * kx + P.dt * sx (i + 1 / 2)) else P.ggx i
    ggy := fun j => if Y j then (2 * P.eo * ky - P.dt * sy (j + 1 / 2)) / (2 * P.eo * ky + P.dt * sy (j + 1 / 2)) else P.ggy j
    ggz := fun k => if Z k then (2 * P.eo * kz - P.dt * sz (k + 1 / 2)) / (2 * P.eo * kz + P.dt * sz (k + 1 / 2)) else P.ggz k
    hhx := fun i => if X i then (2 * P.eo * P.dt) / (2 * P.eo * kx + P.dt * sx (i + 1 / 2)) else P.hhx i
    hhy := fun j => if Y j then (2 * P.eo * P.dt) / (2 * P.eo * ky + P.dt * sy (j + 1 / 2)) else P.hhy j
    hhz := fun k => if Z k then (2 * P.eo * P.dt) / (2 * P.eo * kz + P.dt * sz (k + 1 / 2)) else P.hhz k
    iix := fun i => if X i then (2 * P.eo * kx - P.dt * sx (i + 1 / 2)) / (2 * P.eo * kx + P.dt * sx (i + 1 / 2)) else P.iix i
    iiy := fun j => if Y j then (2 * P.eo * ky - P.dt * sy (j + 1 / 2)) / (2 * P.eo * ky + P.dt * sy (j + 1 / 2)) else P.iiy j
    iiz := fun k => if Z k then (2 * P.eo * kz - P.dt * sz (k + 1 / 2)) / (2 * P.eo * kz + P.dt * sz (k + 1 / 2)) else P.iiz k
    jjx := fun i => if X i then (2 * P.eo) / (2 * P.eo * kx + P.dt * sx (i + 1 / 2)) / P.uo / P.ups else P.jjx i
    jjy := fun j => if Y j then (2 * P.eo) / (2 * P.eo * ky + P.dt * sy (j + 1 / 2)) / P.uo / P.ups else P.jjy j
    jjz := fun k => if Z k then (2 * P.eo) / (2 * P.eo * kz + P.dt * sz (k + 1 / 2)) / P.uo / P.ups else P.jjz k
    kkx := fun i => if X i then kx + P.dt * sx i / 2 / P.eo else P.kkx i
    kky := fun j => if Y j then ky + P.dt * sy j / 2 / P.eo else P.kky j
    kkz := fun k => if Z k then kz + P.dt * sz k / 2 / P.eo else P.kkz k
    llx := fun i => if X i then kx - P.dt * sx i / 2 / P.eo else P.llx i
    lly := fun j => if Y j then ky - P.dt * sy j / 2 / P.eo else P.lly j
    llz := fun k => if Z k then kz - P.dt * sz k / 2 / P.eo else P.llz k }

end OpenMS.Fdtd
