import Verif.Model.Incoherent
import Mathlib.Analysis.SpecialFunctions.Trigonometric.Arctan
import Mathlib.Analysis.SpecialFunctions.Trigonometric.Inverse

/-!
# Sources of the Maxwell solver

Model of `/repo/openms/lib/fdtd/source.c`: the twelve components of the six functions `Gaussian_dipole_source`,
`Gaussian_dipole_source_beam`, `Gaussian_dipole_source_line` and the Lorentzian ones, the plane waves, the Gaussian beam,
`external_planewave` and `Gaussian_phase`.  The amplitudes are those of `incoherent.c` (C163).  The index `k` along `z`
is an argument (C154).  Numbers are exact, with `pi` the number π (`parameter.c` L269 has seven digits).
-/

namespace OpenMS.FdtdSource

open OpenMS.Incoherent (Node add gaussAmp iGaussAmp lorentzAmp iLorentzAmp)

/-- The component of a source; the sign is a further argument. -/
inductive Comp
  | Ex | Ey | Ez | Hx | Hy | Hz
  deriving DecidableEq

/-- Whether the component is one of the magnetic field. -/
def Comp.magnetic : Comp → Bool
  | .Hx | .Hy | .Hz => true
  | _ => false

/-- `…_dipole_source`, `…_dipole_source_beam` and `…_dipole_source_line`. -/
inductive Kind
  | dipole | beam | line
  deriving DecidableEq

/-- `Gaussian_…` and `Lorentzian_…`. -/
inductive Pulse
  | gauss | lorentz
  deriving DecidableEq

/-- `source.c` L241-440 and the other five functions: the values subtracted from the indices in the statements for
a component, in this order. -/
def shifts : Comp → List Node
  | .Ex => [(0, 0, 0), (1, 0, 0)]
  | .Ey => [(0, 0, 0), (0, 1, 0)]
  | .Ez => [(0, 0, 0), (0, 0, 1)]
  | .Hx => [(0, 0, 0), (0, 1, 0), (0, 0, 1), (0, 1, 1)]
  | .Hy => [(0, 0, 0), (0, 0, 1), (1, 0, 0), (1, 0, 1)]
  | .Hz => [(0, 0, 0), (1, 0, 0), (0, 1, 0), (1, 1, 0)]

/-- `source.c` L442-752 and others: the tests `i >= 1`, `j >= 1`, `k >= 1`; the functions for single dipoles
have none. -/
def Allowed (kind : Kind) (p d : Node) : Prop :=
  kind = .dipole ∨ ((d.1 = 1 → 1 ≤ p.1) ∧ (d.2.1 = 1 → 1 ≤ p.2.1) ∧ (d.2.2 = 1 → 1 ≤ p.2.2))

instance (kind : Kind) (p d : Node) : Decidable (Allowed kind p d) := by unfold Allowed; infer_instance

/-- The factor of the amplitude in one statement, with `Z = sqrt(eo / uo)` and `im` for the imaginary fields.  `source.c` L241-440
and L1062-1263: no `Z` for dipoles; L1690-1852: none in `Lorentzian_dipole_source_line`; L629-631 and L932-934: its square for
`iHy[i][j][k]` in the two Gaussian functions. -/
noncomputable def factor (kind : Kind) (pulse : Pulse) (c : Comp) (neg im : Bool) (Z : ℝ) (d : Node) : ℝ :=
  if c.magnetic = false then 1 / 2
  else if kind = .dipole then 1 / 4
  else if kind = .line ∧ pulse = .lorentz then 1 / 4
  else if pulse = .gauss ∧ c = .Hy ∧ neg = false ∧ im = true ∧ d = (0, 0, 0) then Z * Z / 4
  else Z / 4

/-- All statements for one component and one of the two fields, with the amplitude `v`. -/
noncomputable def put (kind : Kind) (pulse : Pulse) (c : Comp) (neg im : Bool) (Z : ℝ) (p : Node) (v : ℝ) (X : Node → ℝ) : Node → ℝ :=
  (shifts c).foldl (fun X d =>
    if Allowed kind p d then add (p.1 - d.1, p.2.1 - d.2.1, p.2.2 - d.2.2) (v * factor kind pulse c neg im Z d) X else X) X

/-- The four functions of `incoherent.c`. -/
noncomputable def amplitude (pulse : Pulse) (im : Bool) (w phase : ℝ) (t0 tdecay t : ℤ) : ℝ :=
  match pulse, im with
  | .gauss, false => gaussAmp w phase t0 tdecay t
  | .gauss, true => iGaussAmp w phase t0 tdecay t
  | .lorentz, false => lorentzAmp w phase t0 tdecay t
  | .lorentz, true => iLorentzAmp w phase t0 tdecay t

/-- Real and imaginary fields. -/
abbrev Fields := (Comp → Node → ℝ) × (Comp → Node → ℝ)

/-- What stays the same for all statements of a source: the pulse, `sqrt(eo / uo)`, the phase per unit of time, the peak, the
decay, the time, and whether the imaginary fields are used. -/
structure Setup where
  pulse : Pulse
  Z : ℝ
  w : ℝ
  t0 : ℤ
  tdecay : ℤ
  t : ℤ
  complex : Bool

/-- `source.c` L232-1852: one call for the component `c` at the node `p`; a minus sign adds `pi` to the phase. -/
noncomputable def source (S : Setup) (kind : Kind) (c : Comp) (neg : Bool) (amp phase : ℝ) (p : Node) (F : Fields) : Fields :=
  let ph := if neg then phase + Real.pi else phase
  (Function.update F.1 c
    (put kind S.pulse c neg false S.Z p (amp * amplitude S.pulse false S.w ph S.t0 S.tdecay S.t) (F.1 c)),
   if S.complex then Function.update F.2 c
    (put kind S.pulse c neg true S.Z p (amp * amplitude S.pulse true S.w ph S.t0 S.tdecay S.t) (F.2 c)) else F.2)

/-- `source.c` L45-46: the nodes of the plane. -/
def cells (pisize pjsize : ℕ) : List (ℕ × ℕ) :=
  (List.range (pisize + 1)).flatMap fun i => (List.range (pjsize + 1)).map fun j => (i, j)

/-- `source.c` L40-55, L96-107 and L119-134: a source for each node of the plane `k`, first the electric and then the
magnetic component, with amplitude and phase of the node. -/
noncomputable def plane (S : Setup) (e h : Comp × Bool) (amp phase : ℕ × ℕ → ℝ) (pisize pjsize k : ℕ) (F : Fields) : Fields :=
  (cells pisize pjsize).foldl (fun F c =>
    source S .beam h.1 h.2 (amp c) (phase c) (c.1, c.2, k)
      (source S .beam e.1 e.2 (amp c) (phase c) (c.1, c.2, k) F)) F

/-- `source.c` L47-49: the phase of a plane wave. -/
noncomputable def blochPhase (kx ky : ℝ) (lx ly : ℤ) (c : ℕ × ℕ) : ℝ := 2 * Real.pi * (kx * c.1 / lx + ky * c.2 / ly)

/-- `source.c` L110-117: `Gaussian_line_source` and L189-197: `Lorentzian_line_source`, with the index `i` of the
line. -/
noncomputable def lineSource (S : Setup) (c : Comp) (neg : Bool) (phase : ℝ) (pjsize : ℕ) (i k : ℤ) (F : Fields) : Fields :=
  (List.range (pjsize + 1)).foldl (fun F (j : ℕ) => source S .line c neg 1 phase (i, j, k) F) F

/-- `source.c` L199-216: `external_planewave`; both tests are made on `Ecomp`. -/
noncomputable def externalPlane (Ecomp _Hcomp : Comp) (Z Ext : ℝ) (pisize pjsize k : ℕ) (F : Comp → Node → ℝ) : Comp → Node → ℝ :=
  (cells pisize pjsize).foldl (fun F c =>
    let F1 := if Ecomp = .Ex then
      let X := add (c.1, c.2, k) (Ext / 2) (F .Ex)
      Function.update F .Ex (if 0 < c.1 then add ((c.1 : ℤ) - 1, c.2, k) (Ext / 2) X else X)
    else F
    if Ecomp = .Hy then
      let X := add (c.1, c.2, k) (Ext / 2 * Z / 4) (F1 .Hy)
      Function.update F1 .Hy (if 0 < c.1 then add ((c.1 : ℤ) - 1, c.2, k) (Ext / 2 * Z / 4) X else X)
    else F1) F

/-! ### Gaussian beam -/

/-- `source.c` L81: `zo`. -/
noncomputable def rayleigh (wo f n : ℝ) : ℝ := Real.pi * wo * wo * f * n

/-- `source.c` L87, L100: the amplitude, with `D = z_c - z` and `r2` the square of the distance from the axis. -/
noncomputable def beamAmp (wo f n D r2 : ℝ) : ℝ :=
  let zo := rayleigh wo f n
  let w := wo * Real.sqrt (1 + D / zo * (D / zo))
  wo / w * Real.exp (-r2 / (w * w))

/-- `source.c` L86-88, L101-102: the phase.  `none`: division by zero. -/
noncomputable def beamPhase (wo f n D r2 : ℝ) : Option ℝ :=
  let zo := rayleigh wo f n
  let R := D * (1 + zo / D * (zo / D))
  if D = 0 then none
  else some (-(2 * Real.pi * D * f * n - Real.arctan (D / zo) + r2 * 2 * Real.pi * f * n / (2 * R)))

/-- `source.c` L1868-1878: `Gaussian_phase`, with `w` the phase per unit of time. -/
noncomputable def gaussianPhase (w : ℝ) (tPeak : ℤ) : ℝ := -w * tPeak

/-- `source.c` L1854-1866: `Lorentzian_phase`. -/
noncomputable def lorentzianPhase (w : ℝ) (tdecay : ℤ) : ℝ :=
  let gamma := 1 / (tdecay : ℝ)
  Real.arcsin (gamma / Real.sqrt (w * w + gamma * gamma))

end OpenMS.FdtdSource
