import Mathlib.Algebra.Module.Basic
import Mathlib.Data.Complex.Basic
import Mathlib.Data.Complex.BigOperators
import Mathlib.Data.Matrix.Mul

/-!
# Molecular dynamics

Model of `/repo/openms/qmd/propagator.py`, `/repo/openms/qmd/sh.py`, and of the integrator and
the attribute look-ups in `/repo/openms/qmd/bomd.py` and `/repo/openms/qmd/mqc.py`.  Molecules are
independent of each other in all loops below, so one molecule is modelled.
-/

namespace OpenMS.Qmd

/-! ### Runge-Kutta -/

/-- `propagator.py` L6-26: `rk4`. -/
def rk4 {K V : Type*} [Field K] [AddCommGroup V] [Module K V] (f : K → V → V) (t0 : K) (y0 : V)
    (dt : K) : V :=
  let k1 := f t0 y0
  let k2 := f (t0 + dt / 2) (y0 + (dt / 2) • k1)
  let k3 := f (t0 + dt / 2) (y0 + (dt / 2) • k2)
  let k4 := f (t0 + dt) (y0 + dt • k3)
  y0 + (dt / 6) • (k1 + (2 : K) • k2 + (2 : K) • k3 + k4)

/-! ### Hamiltonian of the electronic coefficients -/

/-- `ham[a, b] = v`. -/
def setH (M : ℕ → ℕ → ℝ) (i j : ℕ) (v : ℝ) : ℕ → ℕ → ℝ :=
  fun a b => if a = i ∧ b = j then v else M a b

/-- `sh.py` L136-138: one turn of the innermost loop; `none` is an `IndexError` of `nact`. -/
def getHInner (nact : List ℝ) (j : ℕ) (s : (ℕ → ℕ → ℝ) × ℕ) (k : ℕ) :
    Option ((ℕ → ℕ → ℝ) × ℕ) :=
  (nact[s.2]?).map fun x => (setH (setH s.1 j k x) k j (-x), s.2 + 1)

/-- `sh.py` L134-138: one row; `range(j, nstates)`. -/
def getHRow (n : ℕ) (e : ℕ → ℝ) (nact : List ℝ) (s : (ℕ → ℕ → ℝ) × ℕ) (j : ℕ) :
    Option ((ℕ → ℕ → ℝ) × ℕ) :=
  ((List.range (n - j)).map (j + ·)).foldlM (getHInner nact j) (setH s.1 j j (e j), s.2)

/-- `sh.py` L119-139: `get_H` for one molecule; `garbage` is the content of `np.empty`. -/
def getH (n : ℕ) (e : ℕ → ℝ) (nact : List ℝ) (garbage : ℕ → ℕ → ℝ) : Option (ℕ → ℕ → ℝ) :=
  ((List.range n).foldlM (getHRow n e nact) (garbage, 0)).map Prod.fst

/-- `sh.py` L109: `-1j * einsum("jk, k -> j", ham, coef)`. -/
noncomputable def coefDot {n : Type*} [Fintype n] (ham : n → n → ℝ) (c : n → ℂ) (j : n) : ℂ :=
  -Complex.I * ∑ k, (ham j k : ℂ) * c k

/-! ### Electronic steps -/

/-- Attributes used by `get_coef_dot`: geometry, time and Hamiltonian of the last evaluation. -/
structure ElecState (X M : Type*) where
  coords : X
  time : ℝ
  ham : M

/-- `sh.py` L91-108: the part of `get_coef_dot` that updates the object; `H` is
`get_H(qm.get_energies(x), qm.get_nact(x))`. -/
noncomputable def refresh {X M : Type*} [AddCommGroup X] [Module ℝ X] (H : X → M) (v : X) (edt : ℝ)
    (t : ℝ) (s : ElecState X M) : ElecState X M :=
  if t ≠ s.time then
    let x := s.coords + (edt / 2) • v
    ⟨x, t, H x⟩
  else s

/-- `sh.py` L79-89 with `propagator.py` L22-25: the states after the four evaluations of one
Runge-Kutta step that starts at `self.current_time` (L73). -/
noncomputable def stages {X M : Type*} [AddCommGroup X] [Module ℝ X] (H : X → M) (v : X) (edt : ℝ)
    (s : ElecState X M) : List (ElecState X M) :=
  let t0 := s.time
  let s1 := refresh H v edt t0 s
  let s2 := refresh H v edt (t0 + edt / 2) s1
  let s3 := refresh H v edt (t0 + edt / 2) s2
  let s4 := refresh H v edt (t0 + edt) s3
  [s1, s2, s3, s4]

/-- State at the end of one electronic step. -/
noncomputable def elecStep {X M : Type*} [AddCommGroup X] [Module ℝ X] (H : X → M) (v : X) (edt : ℝ)
    (s : ElecState X M) : ElecState X M :=
  (stages H v edt s).getLastD s

/-! ### Hops -/

/-- `sh.py` L185-199: `velocity_rescaling`; velocities as lists of components. -/
noncomputable def velocityRescaling (dt : ℝ) (energies : ℕ → ℝ) (nacr : ℕ → ℕ → List ℝ)
    (si sf : ℕ) (veloc : List ℝ) : ℕ × List ℝ × ℕ :=
  let force := (nacr si sf).map fun d => (energies si - energies sf) * d
  let tmp := List.zipWith (fun v f => v - f * dt) veloc force
  if (List.zipWith (· * ·) tmp veloc).any fun x => decide (x < 0) then (si, veloc, 2) else (sf, tmp, 1)

/-- `sh.py` L172-183: the loop of `check_hops` for one trajectory.  `cands` lists the target states
in the order of the loop over `j`, keeping those with `possible_hops[i, j]`.  The `continue` at
L183 is the last statement of the loop body.  Returns all intermediate results. -/
noncomputable def checkHops (dt : ℝ) (energies : ℕ → ℝ) (nacr : ℕ → ℕ → List ℝ) :
    (cands : List ℕ) → (state : ℕ) → (veloc : List ℝ) → List (ℕ × List ℝ × ℕ)
  | [], _, _ => []
  | f :: cs, st, ve =>
    let r := velocityRescaling dt energies nacr st f ve
    r :: checkHops dt energies nacr cs r.1 r.2.1

/-- `sh.py` L168-171, L173-175: candidates of one trajectory: `order` is the `argsort` of the row,
`rnd` the random row. -/
noncomputable def candidates (p : ℕ → ℝ) (order : List ℕ) (rnd : ℕ → ℝ) : List ℕ :=
  (order.zipIdx.filter fun x => decide (rnd x.2 < p x.1)).map Prod.fst

/-! ### Velocity Verlet -/

/-- `bomd.py` L165-179: `next_velocity_many_molecule` for one molecule: half a kick. -/
noncomputable def nextVelocity {ι : Type*} (dt : ℝ) (mass force v : ι → ℝ) : ι → ℝ :=
  fun i => v i + 0.5 * dt * force i / mass i

/-- `bomd.py` L156-163: `next_position`. -/
noncomputable def nextPosition {ι : Type*} (dt : ℝ) (x v : ι → ℝ) : ι → ℝ := fun i => x i + dt * v i

/-- `bomd.py` L384-409: kick, drift, new forces, kick. -/
noncomputable def verlet {ι : Type*} (dt : ℝ) (mass : ι → ℝ) (F : (ι → ℝ) → ι → ℝ)
    (s : (ι → ℝ) × (ι → ℝ)) : (ι → ℝ) × (ι → ℝ) :=
  let v1 := nextVelocity dt mass (F s.1) s.2
  let x1 := nextPosition dt s.1 v1
  (x1, nextVelocity dt mass (F x1) v1)

/-! ### Attribute look-ups -/

/-- Instance attributes as an association list, class attributes by name. -/
abbrev Attrs := List String

/-- Methods found on `BOMD` and its bases (`bomd.py` L53-319, L339). -/
def bomdMethods : List String :=
  ["__init__", "initialize", "next_position", "next_velocity_many_molecule", "update_potential",
   "update_energy", "temperature_many_molecule", "print_init", "write_md_output", "print_step",
   "write_final_xyz", "kernel"]

/-- Methods found on `MQC` and its bases (`mqc.py` L91-115). -/
def mqcMethods : List String := ["electronic_propagator", "dump_step"] ++ bomdMethods

/-- `self.name` with the given class and instance attributes; `false` is an `AttributeError`. -/
def hasAttr (cls inst : Attrs) (name : String) : Bool := inst.contains name || cls.contains name

/-- `bomd.py` L30-51, L334-337: instance attributes after `BOMD.__init__(..., **kwargs)`. -/
def bomdInit (before kwargs : Attrs) : Attrs :=
  before ++ ["dt", "nsteps", "out_freq", "verbosity", "init_state"] ++ kwargs ++
    ["mol", "thermo", "cstep", "qstep", "accel", "prng", "md_type"]

/-- `mqc.py` L50-62: `MQC.__init__`; `self.dt` is read at L54, before the base class sets it. -/
def mqcInit (kwargs : Attrs) : Except String Attrs :=
  let a := ["states", "coef", "nesteps"]
  if hasAttr mqcMethods a "dt" then
    .ok (bomdInit (a ++ ["edt", "qm", "nstates", "current_time", "propagator", "elec_object",
      "l_print_dm"]) kwargs)
  else .error "AttributeError"

/-- `bomd.py` L382-384: the first statement of the main loop that uses the integrator. -/
def bomdFirstStep (kwargs : Attrs) : Except String Unit :=
  if hasAttr bomdMethods (bomdInit [] kwargs) "next_velocity" then .ok () else .error "AttributeError"

end OpenMS.Qmd
